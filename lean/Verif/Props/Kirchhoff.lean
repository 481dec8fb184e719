import Verif.Lemmas.RowsBelow
import Verif.Lemmas.KirchhoffNetwork
import Verif.Props.Assembly

/-!
# C02, C67: the assembled system is Kirchhoff's laws

`Kirchhoff` (`Verif/Spec/Kirchhoff.lean`) is stated in complex arithmetic per kind of element, without segments or indices.
-/

namespace Verif

open Ex Devices ComplexConjugate

variable {L : Library}

/-- **C67.** For every network without an infeasibility analysis: the assembled equations all vanish at `v` exactly when
the voltages and own values read from `v` satisfy Kirchhoff's current law at every bus and the law of every element. -/
theorem C67_equations_are_kirchhoff (hL : L.Loaded) (N : Network) (ho : N.optimization = none) (t : ℝ) (v : ℕ → ℝ) :
    let a := N.assign L
    (∀ i, networkEq a.all t v i = 0) ↔ Kirchhoff N.buses t (a.voltages v) (a.owned L N v) := by
  intro a
  have h := fun i => network_total hL N ho t v i
  set D := (a.owned L N v).flatMap fun x => x.1.draws t (a.voltages v) x.2 with hD
  set W := (a.owned L N v).flatMap fun x => x.1.laws t (a.voltages v) x.2 with hW
  have h' : ∀ i, networkEq a.all t v i = drawRow ((List.range' 0 N.buses).map plainNode) D i + lawRow (2 * N.buses) W i := h
  have hlaw : (∀ x ∈ a.owned L N v, ∀ z ∈ x.1.laws t (a.voltages v) x.2, z = 0) ↔ ∀ z ∈ W, z = 0 := by
    rw [hW]; simp only [List.mem_flatMap]
    exact ⟨fun hh z ⟨x, hx, hz⟩ => hh x hx z hz, fun hh x hx z hz => hh z ⟨x, hx, hz⟩⟩
  unfold Kirchhoff
  rw [hlaw]
  show _ ↔ (∀ k < N.buses, busSum k D = 0) ∧ _
  constructor
  · intro hz
    constructor
    · intro k hk
      obtain ⟨b1, b2⟩ := drawRow_bus N.buses k hk D
      have z1 := hz (2 * k)
      have z2 := hz (2 * k + 1)
      rw [h', b1] at z1
      rw [h', b2] at z2
      unfold lawRow at z1 z2
      rw [if_neg (by omega), add_zero] at z1
      rw [if_neg (by omega), add_zero] at z2
      exact Complex.ext z1 z2
    · intro z hz'
      obtain ⟨k, hk, rfl⟩ := List.getElem_of_mem hz'
      have z1 := hz (2 * N.buses + k)
      rw [h', drawRow_high _ _ (by omega), zero_add] at z1
      unfold lawRow at z1
      rw [if_pos (by omega), Nat.add_sub_cancel_left, List.getD_eq_getElem?_getD, List.getElem?_eq_getElem hk] at z1
      exact z1
  · rintro ⟨hb, hl⟩ i
    rw [h']
    have e2 : lawRow (2 * N.buses) W i = 0 := by
      unfold lawRow
      split_ifs
      · rw [List.getD_eq_getElem?_getD]
        cases hg : W[i - 2 * N.buses]? with
        | none => rfl
        | some z => exact hl z (List.mem_of_getElem? hg)
      · rfl
    rw [e2, add_zero]
    by_cases hi : i < 2 * N.buses
    · obtain ⟨k, rfl | rfl⟩ := Nat.even_or_odd' i
      · rw [(drawRow_bus N.buses k (by omega) D).1, hb k (by omega)]; rfl
      · rw [(drawRow_bus N.buses k (by omega) D).2, hb k (by omega)]; rfl
    · exact drawRow_high _ _ (by omega) D

/-- **C02 for networks.** For every valid network without infeasibility analysis, every update history and every vector
at which the devices are defined: the stamper can be built, and the linear system assembled at the current vector has
that vector as a solution exactly when the vector satisfies Kirchhoff's laws. So a Newton iteration stands still at
physical solutions and nowhere else. -/
theorem C02_network_fixed_points (hL : L.Loaded) (N : Network) (hv : N.Valid) (ho : N.optimization = none) (t : ℝ)
    (us : List Upd)
    (hr : ∀ e ∈ N.elements, e.RegularAt (Clock.run t us).t ((N.assign L).voltages (Clock.run t us).v)) :
    let a := N.assign L
    ∃ m, Stamper.build false a.all = .ok m ∧
      let m' := us.foldl Stamper.update (m.updateTx t)
      let l := m'.emit true ++ m'.emit false
      let c := Clock.run t us
      ((∀ i, ∑ j ∈ Finset.range a.size, Builder.matOf (tripsOf l) i j * c.v j = jOf l i) ↔
        Kirchhoff N.buses c.t (a.voltages c.v) (a.owned L N c.v)) := by
  intro a
  have hopt : N.opt = false := by simp [Network.opt, ho]
  obtain ⟨m, hm, h⟩ := C02_fixed_point_iff_solution false a.all
    (fun p hp => hopt ▸ network_wellPlaced hL N hv p hp) t us (network_regular hL N hv _ _ hr) a.size
    (fun p hp x hx c hc => network_below hL N p hp x hx c hc)
  refine ⟨m, hm, ?_⟩
  intro m' l c
  exact h.trans (C67_equations_are_kirchhoff hL N ho c.t c.v)

/-- **C02 for any network, optimization included.** The system assembled at `v` is solved by `v` exactly when every
assembled equation vanishes at `v`. -/
theorem C02_network_solutions (hL : L.Loaded) (N : Network) (hv : N.Valid) (t : ℝ) (us : List Upd)
    (hr : ∀ e ∈ N.elements, e.RegularAt (Clock.run t us).t ((N.assign L).voltages (Clock.run t us).v)) :
    let a := N.assign L
    ∃ m, Stamper.build N.opt a.all = .ok m ∧
      let m' := us.foldl Stamper.update (m.updateTx t)
      let l := m'.emit true ++ m'.emit false
      let c := Clock.run t us
      ((∀ i, ∑ j ∈ Finset.range a.size, Builder.matOf (tripsOf l) i j * c.v j = jOf l i) ↔
        ∀ i, networkEq a.all c.t c.v i = 0) :=
  C02_fixed_point_iff_solution N.opt (N.assign L).all (network_wellPlaced hL N hv) t us (network_regular hL N hv _ _ hr)
    (N.assign L).size (fun p hp x hx c hc => network_below hL N p hp x hx c hc)

/-- **C58 for networks.** For every valid network and every history, what is stamped is each part's own stamps. -/
theorem C58_network (hL : L.Loaded) (N : Network) (hv : N.Valid) (t : ℝ) (us : List Upd) :
    let a := N.assign L
    ∃ m, Stamper.build N.opt a.all = .ok m ∧
      let m' := us.foldl Stamper.update (m.updateTx t)
      let c := Clock.run t us
      (∀ lin, (m'.emit lin).Perm (a.all.flatMap fun p => p.emitted c.t c.v lin)) ∧
      m'.contributions.Perm (a.all.flatMap fun p => p.equations c.t c.v) :=
  C58_sharing_does_not_mix N.opt (N.assign L).all (network_wellPlaced hL N hv) t us

/-- **C08 for networks.** Every stamp and residual of every part of a network lies inside the `size_Y` matrix: rows and columns. -/
theorem C08_network_in_range (hL : L.Loaded) (N : Network) (p : Placed) (hp : p ∈ (N.assign L).all) :
    (∀ s ∈ p.stamps, s.row < (N.assign L).size ∧ ∀ c, s.col = some c → c < (N.assign L).size) ∧
    ∀ r ∈ p.residuals, r.row < (N.assign L).size := by
  obtain ⟨h1, h2⟩ := C08_no_ground_row p
  refine ⟨fun s hs => ⟨?_, fun c hc => ?_⟩, fun r hr => ?_⟩
  · obtain ⟨⟨x, hx, hr⟩, _⟩ := h1 s hs
    exact network_rows_below hL N p hp x hx _ hr
  · obtain ⟨_, h⟩ := h1 s hs
    obtain ⟨y, hy, hyc⟩ := h c hc
    exact network_below hL N p hp y hy c hyc
  · obtain ⟨x, hx, h⟩ := h2 r hr
    exact network_rows_below hL N p hp x hx _ h

/-! ### A network that meets the hypotheses and a vector that satisfies both sides

Bus 0 held at one volt, a line of one siemens to bus 1, a shunt of one siemens there: bus 1 sits at half a volt. -/

/-- The example network. -/
noncomputable def exNet : Network := ⟨2, [.line (some 0) (some 1) 1 0 0, .slack 0 1 0, .shunt 1 1 0], none⟩

/-- Its solution: bus voltages 1 and 1/2, slack current -1/2. -/
noncomputable def exVec : ℕ → ℝ := fun i => if i = 0 then 1 else if i = 2 then 1 / 2 else if i = 4 then -1 / 2 else 0

theorem exNet_kirchhoff (hL : L.Loaded) :
    Kirchhoff exNet.buses 0 ((exNet.assign L).voltages exVec) ((exNet.assign L).owned L exNet exVec) := by
  obtain ⟨m, s1, s2, s3⟩ := slack_shape hL
  have hopt : exNet.opt = false := rfl
  have hb := assignBuses_plain 2 0
  have hnodes : (exNet.assign L).nodes = [plainNode 0, plainNode 1] := by
    show (assignBuses exNet.opt exNet.buses 0).1 = _
    rw [hopt]; rfl
  have hV0 : (exNet.assign L).voltages exVec (some 0) = ⟨1, 0⟩ := by
    unfold Assignment.voltages; rw [hnodes]; simp [nodeAt, plainNode, Node.volt, readIdx, exVec]
  have hV1 : (exNet.assign L).voltages exVec (some 1) = ⟨1 / 2, 0⟩ := by
    unfold Assignment.voltages; rw [hnodes]; simp [nodeAt, plainNode, Node.volt, readIdx, exVec]
  have hsp := twoTerminalDetails_spec (plainNode 0) Node.ground 4 false s1 s2 (by simp) (by simp [terminalDict])
  have hown : (exNet.assign L).owned L exNet exVec =
      [(.line (some 0) (some 1) 1 0 0, []), (.slack 0 1 0, [-1 / 2, 0]), (.shunt 1 1 0, [])] := by
    have h1 := hsp.2.2.2.2.1 .ISr (by simp)
    have h2 := hsp.2.2.2.2.1 .ISi (by simp)
    have e : (exNet.assign L).owned L exNet exVec =
      [(.line (some 0) (some 1) 1 0 0, []),
       (.slack 0 1 0, [readIdx exVec ((twoTerminalDetails L.slack (plainNode 0) Node.ground 4 false).1.varMap .ISr),
         readIdx exVec ((twoTerminalDetails L.slack (plainNode 0) Node.ground 4 false).1.varMap .ISi)]), (.shunt 1 1 0, [])] := rfl
    rw [e, h1, h2]
    simp [readIdx, exVec]
  rw [hown]
  constructor
  · intro k hk
    have : k = 0 ∨ k = 1 := by simp [exNet] at hk; omega
    rcases this with rfl | rfl
    · simp [Element.draws, branch, hV0, hV1, stiff, faded, pairAt]
      apply Complex.ext <;> simp <;> norm_num
    · simp [Element.draws, branch, hV0, hV1, stiff, faded, pairAt]
      apply Complex.ext <;> simp <;> norm_num
  · intro x hx z hz
    simp at hx
    rcases hx with rfl | rfl | rfl
    · simp [Element.laws] at hz
    · simp [Element.laws, both, hV0] at hz; exact hz
    · simp [Element.laws] at hz

example (hL : L.Loaded) (i : ℕ) : networkEq (exNet.assign L).all 0 exVec i = 0 :=
  (C67_equations_are_kirchhoff hL exNet rfl 0 exVec).2 (exNet_kirchhoff hL) i

theorem exNet_valid : exNet.Valid := by
  intro e he
  simp [exNet] at he
  rcases he with rfl | rfl | rfl <;> simp [Element.Valid, Ref.Valid, exNet]

theorem exNet_regular (t : ℝ) (V : Ref → ℂ) : ∀ e ∈ exNet.elements, e.RegularAt t V := by
  intro e he
  simp [exNet] at he
  rcases he with rfl | rfl | rfl <;> simp [Element.RegularAt]

/-- A Newton iteration at the solution of the example stands still. -/
example (hL : L.Loaded) :
    ∃ m, Stamper.build false (exNet.assign L).all = .ok m ∧
      let m' := [Upd.v exVec 0].foldl Stamper.update (m.updateTx 0)
      let l := m'.emit true ++ m'.emit false
      ∀ i, ∑ j ∈ Finset.range (exNet.assign L).size, Builder.matOf (tripsOf l) i j * exVec j = jOf l i := by
  obtain ⟨m, hm, h⟩ := C02_network_fixed_points hL exNet exNet_valid rfl 0 [.v exVec 0] (exNet_regular _ _)
  have hv : (Clock.run 0 [.v exVec 0]).v = exVec := by simp [Clock.run, Clock.step]
  have ht : (Clock.run 0 [.v exVec 0]).t = 0 := by simp [Clock.run, Clock.step]
  simp only [hv, ht] at h
  exact ⟨m, hm, h.2 (exNet_kirchhoff hL)⟩

example (hL : L.Loaded) :
    ∃ m, Stamper.build exNet.opt (exNet.assign L).all = .ok m ∧
      let m' := [Upd.v exVec 0].foldl Stamper.update (m.updateTx 0)
      let l := m'.emit true ++ m'.emit false
      ∀ i, ∑ j ∈ Finset.range (exNet.assign L).size, Builder.matOf (tripsOf l) i j * exVec j = jOf l i := by
  obtain ⟨m, hm, h⟩ := C02_network_solutions hL exNet exNet_valid 0 [.v exVec 0] (exNet_regular _ _)
  have hv : (Clock.run 0 [.v exVec 0]).v = exVec := by simp [Clock.run, Clock.step]
  have ht : (Clock.run 0 [.v exVec 0]).t = 0 := by simp [Clock.run, Clock.step]
  simp only [hv, ht] at h
  exact ⟨m, hm, h.2 fun i => (C67_equations_are_kirchhoff hL exNet rfl 0 exVec).2 (exNet_kirchhoff hL) i⟩

example (hL : L.Loaded) (us : List Upd) : ∃ m, Stamper.build exNet.opt (exNet.assign L).all = .ok m :=
  (C58_network hL exNet exNet_valid 0 us).imp fun _ h => h.1

/-- Two buses and a slack current have six unknowns; no stamp of the example leaves rows and columns 0 to 5. -/
example (hL : L.Loaded) (p : Placed) (hp : p ∈ (exNet.assign L).all) (s : Stamp) (hs : s ∈ p.stamps) (c : ℕ) (hc : s.col = some c) :
    s.row < 6 ∧ c < 6 := by
  have hsz : (exNet.assign L).size = 6 := by
    obtain ⟨m, s1, s2, s3⟩ := slack_shape hL
    exact (twoTerminalDetails_spec (plainNode 0) Node.ground 4 false s1 s2 (by simp) (by simp [terminalDict])).2.2.2.2.2.2
  have := (C08_network_in_range hL exNet p hp).1 s hs
  rw [hsz] at this
  exact ⟨this.1, this.2 c hc⟩

end Verif
