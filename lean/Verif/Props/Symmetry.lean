import Verif.Lemmas.Symmetry
import Verif.Props.Unique
import Verif.Props.Results

/-!
# C126: the order of equipment and the numbers of buses do not matter. C127: the angle of the slack is only a reference
-/

namespace Verif

open Ex Devices

variable {L : Library}

/-! ### C126 -/

/-- **C126.** The solutions of a network whose equipment is listed in another order and whose buses have other numbers are the solutions of
the network, bus by bus and device by device, at every step of the homotopy. -/
theorem C126_solutions (hL : L.Loaded) {σ : Equiv.Perm ℕ} {N N' : Network} (h : Relisted σ N N') (t : ℝ) (v : ℕ → ℝ)
    (hz : ∀ i, networkEq (N.assign L).all t v i = 0) :
    ∃ v', (∀ i, networkEq (N'.assign L).all t v' i = 0) ∧
      (∀ k, (N'.assign L).voltages v' (some (σ k)) = (N.assign L).voltages v (some k)) ∧
      (((N.assign L).owned L N v).map fun x => (x.1.move σ, x.2)).Perm ((N'.assign L).owned L N' v') := by
  have hk := (C67_equations_are_kirchhoff hL N h.plain t v).1 hz
  set es := (N.assign L).owned L N v with hes
  obtain ⟨es', hp, hm⟩ := perm_lift (fun x : Element × List ℝ => x.1.move σ) (l := es) (m := N'.elements) (by
    have : es.map (fun x : Element × List ℝ => x.1.move σ) = N.elements.map (Element.move σ) := by
      rw [← owned_fst (L := L) N v, List.map_map]; rfl
    rw [this]; exact h.elements)
  obtain ⟨v', h1, h2⟩ := exists_values hL N' h.plain' (fun k => (N.assign L).voltages v (some (σ.symm k)))
    (es'.map fun x => (x.1.move σ, x.2)) (by rw [List.map_map]; exact hm) (by
      intro x hx
      obtain ⟨y, hy, rfl⟩ := List.mem_map.1 hx
      rw [laws_move_length]
      exact owned_widths N h.plain v y (hp.mem_iff.2 hy))
  have hV : ∀ k, (N'.assign L).voltages v' (some (σ k)) = (N.assign L).voltages v (some k) := fun k => by
    by_cases hlt : k < N.buses
    · rw [h1 (σ k) (by rw [h.buses]; exact (h.inside k).2 hlt), Equiv.symm_apply_apply]
    · rw [voltages_out N v (not_lt.1 hlt), voltages_out N' v' (by rw [h.buses]; exact not_lt.1 fun h' => hlt ((h.inside k).1 h'))]
  have hperm : (es.map fun x => (x.1.move σ, x.2)).Perm ((N'.assign L).owned L N' v') := by rw [h2]; exact hp.map _
  refine ⟨v', (C67_equations_are_kirchhoff hL N' h.plain' t v').2 ?_, hV, hperm⟩
  show Kirchhoff N'.buses t _ _
  rw [h.buses]
  exact kirchhoff_move σ N.buses h.inside t _ _ (fun r => by cases r with
    | none => rfl
    | some k => exact hV k) hperm hk

/-- A bus of the results under its new number. -/
def BusResult.move (σ : Equiv.Perm ℕ) (b : BusResult) : BusResult := { b with bus := σ b.bus }

/-- A generator of the results under its new number. -/
def GenResult.move (σ : Equiv.Perm ℕ) (g : GenResult) : GenResult := { g with bus := σ g.bus }

/-- A load of the results under its new number. -/
def LoadResult.move (σ : Equiv.Perm ℕ) (l : LoadResult) : LoadResult := { l with bus := Ref.move σ l.bus }

theorem mem_busResults_at (infos : List BusInfo) (opt : Bool) (nodes : List Node) (v : ℕ → ℝ) (b : BusResult) :
    b ∈ busResults infos opt nodes v ↔ ∃ i n, infos[b.bus]? = some i ∧ nodes[b.bus]? = some n ∧ i.virtual = false ∧
      b = BusResult.make b.bus (readIdx v n.vr) (readIdx v n.vi) (if opt then some (readIdx v n.lr, readIdx v n.li) else none) := by
  rw [mem_busResults]
  constructor
  · rintro ⟨k, i, n, h1, h2, h3, h4⟩
    have hk : b.bus = k := by rw [h4]; rfl
    exact ⟨i, n, by rw [hk]; exact h1, by rw [hk]; exact h2, h3, by rw [hk]; exact h4⟩
  · rintro ⟨i, n, h⟩
    exact ⟨b.bus, i, n, h⟩

theorem loadResults_moved (σ : Equiv.Perm ℕ) {N N' : Network} (h : Relisted σ N N') : ((loadResults N).map (LoadResult.move σ)).Perm (loadResults N') := by
  unfold loadResults
  refine List.Perm.trans (List.Perm.of_eq ?_) (h.elements.filterMap _)
  rw [List.filterMap_map, List.map_filterMap]
  congr 1
  funext e
  cases e <;> rfl

/-- The results of two solutions that agree bus by bus and device by device list the same buses, generators and loads. -/
theorem relisted_results {σ : Equiv.Perm ℕ} {N N' : Network} (h : Relisted σ N N') (infos infos' : List BusInfo)
    (hi : ∀ k, infos'[σ k]? = infos[k]?) (success : Bool) (v v' : ℕ → ℝ)
    (hV : ∀ k, (N'.assign L).voltages v' (some (σ k)) = (N.assign L).voltages v (some k))
    (ho : (((N.assign L).owned L N v).map fun x => (x.1.move σ, x.2)).Perm ((N'.assign L).owned L N' v')) :
    let R := Results.make N infos (N.assign L) success v
    let R' := Results.make N' infos' (N'.assign L) success v'
    (∀ b, b ∈ R.buses ↔ b.move σ ∈ R'.buses) ∧ (R.generators.map (GenResult.move σ)).Perm R'.generators ∧
      (R.loads.map (LoadResult.move σ)).Perm R'.loads := by
  intro R R'
  have hopt : N.opt = false := by simp [Network.opt, h.plain]
  have hopt' : N'.opt = false := by simp [Network.opt, h.plain']
  refine ⟨fun b => ?_, ?_, loadResults_moved σ h⟩
  · show b ∈ busResults infos N.opt _ v ↔ _ ∈ busResults infos' N'.opt _ v'
    rw [mem_busResults_at, mem_busResults_at, hopt, hopt']
    show _ ↔ ∃ i n, infos'[σ b.bus]? = some i ∧ (N'.assign L).nodes[σ b.bus]? = some n ∧ _
    rw [hi]
    have hl : (N.assign L).nodes.length = N.buses := assignBuses_length _ _ _
    have hl' : (N'.assign L).nodes.length = N.buses := (assignBuses_length _ _ _).trans h.buses
    have hread : ∀ (M : Network) (x : ℕ → ℝ) (k : ℕ) (n : Node), (M.assign L).nodes[k]? = some n →
        (M.assign L).voltages x (some k) = ⟨readIdx x n.vr, readIdx x n.vi⟩ := fun M x k n hn => by
      show ((M.assign L).nodes.getD k Node.ground).volt x = _
      rw [List.getD_eq_getElem?_getD, hn]; rfl
    have hmake : ∀ k a b c d, (⟨a, b⟩ : ℂ) = ⟨c, d⟩ → BusResult.make k a b none = BusResult.make k c d none := fun k a b c d e => by
      rw [Complex.mk.injEq] at e; rw [e.1, e.2]
    constructor
    · rintro ⟨i, n, h1, h2, h3, h4⟩
      have hlt : b.bus < N.buses := by rw [← hl]; exact (List.getElem?_eq_some_iff.1 h2).1
      have hlt' : σ b.bus < (N'.assign L).nodes.length := by rw [hl']; exact (h.inside _).2 hlt
      refine ⟨i, _, h1, List.getElem?_eq_getElem hlt', h3, ?_⟩
      have e := hV b.bus
      rw [hread N v _ n h2, hread N' v' _ _ (List.getElem?_eq_getElem hlt')] at e
      show BusResult.move σ b = BusResult.make (σ b.bus) _ _ none
      rw [hmake _ _ _ _ _ e]
      conv_lhs => rw [h4]
      rfl
    · rintro ⟨i, n, h1, h2, h3, h4⟩
      have hlt : b.bus < N.buses := (h.inside _).1 (by rw [← hl']; exact (List.getElem?_eq_some_iff.1 h2).1)
      have hlt' : b.bus < (N.assign L).nodes.length := by rw [hl]; exact hlt
      refine ⟨i, _, h1, List.getElem?_eq_getElem hlt', h3, ?_⟩
      have e := hV b.bus
      rw [hread N' v' _ n h2, hread N v _ _ (List.getElem?_eq_getElem hlt')] at e
      have h4 : BusResult.move σ b = BusResult.make (σ b.bus) _ _ none := h4
      rw [hmake _ _ _ _ _ e] at h4
      obtain ⟨k, V, lam, mag, deg⟩ := b
      simp only [BusResult.move, BusResult.make, BusResult.mk.injEq, true_and] at h4 ⊢
      exact h4
  · have e : ∀ M : Network, M.optimization = none → ∀ is x, (Results.make M is (M.assign L) success x).generators =
        pvResults M (M.assign L) x ++ slackResults M (M.assign L) x := fun M hM is x => by
      show _ ++ _ ++ (match M.optimization with
        | none => []
        | some k => infResults k (M.assign L) x) = _
      rw [hM, List.append_nil]
    show ((Results.make N infos (N.assign L) success v).generators.map _).Perm _
    rw [e N h.plain, e N' h.plain', List.map_append, pvResults_eq L, pvResults_eq L, slackResults_eq L, slackResults_eq L]
    refine List.Perm.append ?_ ?_
    · refine List.Perm.trans (List.Perm.of_eq ?_) (ho.filterMap _)
      rw [List.filterMap_map, List.map_filterMap]
      congr 1
      funext x
      obtain ⟨x, w⟩ := x
      cases x <;> rfl
    · refine List.Perm.trans (List.Perm.of_eq ?_) (ho.filterMap _)
      rw [List.filterMap_map, List.map_filterMap]
      congr 1
      funext x
      obtain ⟨x, w⟩ := x
      cases x with
      | slack b vr vi => simp [Element.move, GenResult.move, hV]
      | _ => rfl

/-- **C126, the results.** Every solution of a network has a counterpart in the network written down differently, and the results list the same
buses with the same voltages, the same generators and the same loads. -/
theorem C126_results (hL : L.Loaded) {σ : Equiv.Perm ℕ} {N N' : Network} (h : Relisted σ N N') (infos infos' : List BusInfo)
    (hi : ∀ k, infos'[σ k]? = infos[k]?) (success : Bool) (v : ℕ → ℝ) (hz : ∀ i, networkEq (N.assign L).all 0 v i = 0) :
    ∃ v', (∀ i, networkEq (N'.assign L).all 0 v' i = 0) ∧
      let R := Results.make N infos (N.assign L) success v
      let R' := Results.make N' infos' (N'.assign L) success v'
      (∀ b, b ∈ R.buses ↔ b.move σ ∈ R'.buses) ∧ (R.generators.map (GenResult.move σ)).Perm R'.generators ∧
        (R.loads.map (LoadResult.move σ)).Perm R'.loads := by
  obtain ⟨v', h1, h2, h3⟩ := C126_solutions hL h 0 v hz
  exact ⟨v', h1, relisted_results h infos infos' hi success v v' h2 h3⟩

theorem reads_agree (hL : L.Loaded) (N : Network) {v w : ℕ → ℝ} (h : ∀ i < (N.assign L).size, v i = w i) :
    (N.assign L).voltages v = (N.assign L).voltages w ∧ (N.assign L).owned L N v = (N.assign L).owned L N w := by
  refine ⟨funext fun r => ?_, owned_agree hL N h⟩
  cases r with
  | none => rfl
  | some k =>
    by_cases hk : k < N.buses
    · have hl : (N.assign L).nodes.length = N.buses := assignBuses_length _ _ _
      have hn : nodeAt (N.assign L).nodes (some k) = (N.assign L).nodes[k]'(by omega) := by
        show (N.assign L).nodes.getD k Node.ground = _
        rw [List.getD_eq_getElem?_getD, List.getElem?_eq_getElem (by omega)]; rfl
      have hmem : ∀ i ∈ Node.unknowns N.opt (nodeAt (N.assign L).nodes (some k)), readIdx v i = readIdx w i := by
        intro i hi
        cases i with
        | none => rfl
        | some i =>
          refine h i (((C07_distinct_and_dense hL N).2 i).2 ?_)
          unfold Assignment.unknowns
          refine List.mem_append_left _ (List.mem_append_left _ (List.mem_flatMap.2 ⟨_, ?_, hi⟩))
          rw [hn]; exact List.getElem_mem _
      show (nodeAt (N.assign L).nodes (some k)).volt v = (nodeAt (N.assign L).nodes (some k)).volt w
      unfold Node.volt
      rw [hmem _ (by simp [Node.unknowns]), hmem _ (by simp [Node.unknowns])]
    · rw [voltages_out N v (not_lt.1 hk), voltages_out N w (not_lt.1 hk)]

/-- **C126, the solver.** On the networks of C125 the solves of both descriptions, from any start vectors and with any stampers, return and
report the same buses, generators and loads. -/
theorem C126_solved (hL : L.Loaded) {σ : Equiv.Perm ℕ} {N N' : Network} (h : Relisted σ N N') (hv : N.Valid) (hN : N.Sturdy)
    (hne : (N.assign L).size ≠ 0) (hne' : (N'.assign L).size ≠ 0) (infos infos' : List BusInfo) (hi : ∀ k, infos'[σ k]? = infos[k]?)
    (m m' : Stamper) (v0 v0' : ℕ → ℝ) (it0 it0' : ℤ) (hr : Ready N.opt (N.assign L).all m v0 it0) (hr' : Ready N'.opt (N'.assign L).all m' v0' it0')
    (txStepping : Bool) (vInit vInit' : ℕ → ℝ) :
    ∃ r r', homotopyRun (solverRun (plainCtx (N.assign L).size)) txStepping m vInit = .ok r ∧
      homotopyRun (solverRun (plainCtx (N'.assign L).size)) txStepping m' vInit' = .ok r' ∧
      let R := Results.make N infos (N.assign L) r.success r.v
      let R' := Results.make N' infos' (N'.assign L) r'.success r'.v
      R.success = true ∧ R'.success = true ∧
      (∀ b, b ∈ R.buses ↔ b.move σ ∈ R'.buses) ∧ (R.generators.map (GenResult.move σ)).Perm R'.generators ∧
        (R.loads.map (LoadResult.move σ)).Perm R'.loads := by
  obtain ⟨r, a1, a2, _, _, _, a3, _⟩ := C125_solved_partial hL N hv hN hne m v0 it0 hr (plainCtx _) rfl rfl rfl rfl
    (by norm_num [plainCtx]) (by norm_num [plainCtx]) txStepping vInit
  obtain ⟨r', b1, b2, _, _, _, _, b4⟩ := C125_solved_partial hL N' (h.valid hv) (h.sturdy hN) hne' m' v0' it0' hr' (plainCtx _) rfl rfl rfl rfl
    (by norm_num [plainCtx]) (by norm_num [plainCtx]) txStepping vInit'
  obtain ⟨y, c1, c2, c3⟩ := C126_solutions hL h 0 r.v ((C67_equations_are_kirchhoff hL N h.plain 0 r.v).2 a3)
  have hag := b4 y ((C67_equations_are_kirchhoff hL N' h.plain' 0 y).1 c1)
  obtain ⟨d1, d2⟩ := reads_agree hL N' hag
  rw [d1] at c2
  rw [d2] at c3
  have := relisted_results h infos infos' hi true r.v r'.v c2 c3
  refine ⟨r, r', a1, b1, ?_⟩
  rw [a2, b2]
  exact ⟨rfl, rfl, this⟩

/-- The network of C125 with two buses exchanged and the equipment listed backwards. -/
noncomputable def plantNet' : Network := ⟨4, (plantNet.elements.map (Element.move (Equiv.swap 1 2))).reverse, none⟩

theorem plant_relisted : Relisted (Equiv.swap 1 2) plantNet plantNet' where
  plain := rfl
  plain' := rfl
  buses := rfl
  inside := fun k => by
    show _ < 4 ↔ _ < 4
    by_cases h1 : k = 1
    · subst h1; simp
    · by_cases h2 : k = 2
      · subst h2; simp
      · rw [Equiv.swap_apply_of_ne_of_ne h1 h2]
  elements := (List.reverse_perm _).symm

example (hL : L.Loaded) : ∃ v, ∀ i, networkEq (plantNet'.assign L).all 0 v i = 0 := by
  obtain ⟨x, hx⟩ := (C125_unique_partial hL plantNet plant_valid plant_sturdy).1
  obtain ⟨v', h, _⟩ := C126_solutions hL plant_relisted 0 x ((C67_equations_are_kirchhoff hL plantNet rfl 0 x).2 hx)
  exact ⟨v', h⟩

/-- Four buses, the second one virtual in the first description and the third one in the second. -/
example (hL : L.Loaded) (v : ℕ → ℝ) (hz : ∀ i, networkEq (plantNet.assign L).all 0 v i = 0) :=
  C126_results hL plant_relisted [⟨false, 1⟩, ⟨true, 1⟩, ⟨false, 1⟩, ⟨false, 1⟩] [⟨false, 1⟩, ⟨false, 1⟩, ⟨true, 1⟩, ⟨false, 1⟩] (fun k => by
    by_cases h1 : k = 1
    · subst h1; simp
    · by_cases h2 : k = 2
      · subst h2; simp
      · rw [Equiv.swap_apply_of_ne_of_ne h1 h2]
        match k with
        | 0 => rfl
        | 3 => rfl
        | k + 4 => rfl) true v hz

theorem plant_size' (hL : L.Loaded) : (plantNet'.assign L).size ≠ 0 := by
  have h : some 0 ∈ (plantNet'.assign L).unknowns L plantNet' := by
    unfold Assignment.unknowns
    refine List.mem_append_left _ (List.mem_append_left _ (List.mem_flatMap.2 ⟨plainNode 0, ?_, by simp [Node.unknowns, plainNode]⟩))
    show plainNode 0 ∈ [plainNode 0, plainNode 1, plainNode 2, plainNode 3]
    simp
  have := ((C07_distinct_and_dense hL plantNet').2 0).2 h
  omega

example (hL : L.Loaded) (vInit vInit' : ℕ → ℝ) : ∃ m m', ∃ r r', homotopyRun (solverRun (plainCtx (plantNet.assign L).size)) false m vInit = .ok r ∧
    homotopyRun (solverRun (plainCtx (plantNet'.assign L).size)) false m' vInit' = .ok r' := by
  obtain ⟨m, _, hr⟩ := build_ready plantNet.opt (plantNet.assign L).all (network_wellPlaced hL plantNet plant_valid)
  obtain ⟨m', _, hr'⟩ := build_ready plantNet'.opt (plantNet'.assign L).all (network_wellPlaced hL plantNet' (plant_relisted.valid plant_valid))
  obtain ⟨r, r', h1, h2, _⟩ := C126_solved hL plant_relisted plant_valid plant_sturdy (plant_size hL) (plant_size' hL) [] [] (fun _ => rfl) m m' _ _ _ _
    hr hr' false vInit vInit'
  exact ⟨m, m', r, r', h1, h2⟩

/-! ### C127 -/

/-- **C127, what holds.** Turning all source voltages by one angle turns the voltages, currents and inner voltages of every solution by that
angle and leaves the reactive power of every generator. Missing: loads with a constant current, whose phasor is fixed. -/
theorem C127_solutions_partial (hL : L.Loaded) (N : Network) (hp : N.optimization = none) (hN : ∀ e ∈ N.elements, e.Turnable) {c : ℂ} (hc : ‖c‖ = 1)
    (t : ℝ) (v : ℕ → ℝ) (hz : ∀ i, networkEq (N.assign L).all t v i = 0) :
    ∃ v', (∀ i, networkEq ((N.turn c).assign L).all t v' i = 0) ∧
      (∀ k, ((N.turn c).assign L).voltages v' (some k) = c * (N.assign L).voltages v (some k)) ∧
      ((N.turn c).assign L).owned L (N.turn c) v' = ((N.assign L).owned L N v).map fun x => (x.1.turn c, x.1.turnOwn c x.2) := by
  have hk := (C67_equations_are_kirchhoff hL N hp t v).1 hz
  have hw := owned_widths (L := L) N hp v
  have hmem : ∀ x ∈ (N.assign L).owned L N v, x.1 ∈ N.elements := fun x hx => by
    rw [← owned_fst (L := L) N v]; exact List.mem_map_of_mem hx
  obtain ⟨v', h1, h2⟩ := exists_values hL (N.turn c) hp (fun k => c * (N.assign L).voltages v (some k))
    (((N.assign L).owned L N v).map fun x => (x.1.turn c, x.1.turnOwn c x.2)) (by
      show _ = N.elements.map (Element.turn c)
      rw [← owned_fst (L := L) N v, List.map_map, List.map_map]; rfl) (by
      intro x hx
      obtain ⟨y, hy, rfl⟩ := List.mem_map.1 hx
      rw [turnOwn_length, turn_laws_length]
      exact hw y hy)
  have hV : ∀ k, ((N.turn c).assign L).voltages v' (some k) = c * (N.assign L).voltages v (some k) := fun k => by
    by_cases hlt : k < N.buses
    · exact h1 k hlt
    · rw [voltages_out N v (not_lt.1 hlt), voltages_out (N.turn c) v' (not_lt.1 hlt), mul_zero]
  refine ⟨v', (C67_equations_are_kirchhoff hL (N.turn c) hp t v').2 ?_, hV, h2⟩
  rw [h2]
  exact kirchhoff_turn hc N.buses t _ _ (fun r => by cases r with
    | none => exact (mul_zero c).symm
    | some k => exact hV k) _ (fun x hx => hN x.1 (hmem x hx)) hw hk

/-- **C127, the results.** The results list the same voltage magnitudes and the same powers of generators and loads, and every voltage is turned.
Missing: constant currents, and the powers of slacks, which are reported wrongly at angles other than zero. -/
theorem C127_results_partial (hL : L.Loaded) (N : Network) (hp : N.optimization = none) (hN : ∀ e ∈ N.elements, e.Turnable) {c : ℂ} (hc : ‖c‖ = 1)
    (infos : List BusInfo) (success : Bool) (v : ℕ → ℝ) (hz : ∀ i, networkEq (N.assign L).all 0 v i = 0) :
    ∃ v', (∀ i, networkEq ((N.turn c).assign L).all 0 v' i = 0) ∧
      let R := Results.make N infos (N.assign L) success v
      let R' := Results.make (N.turn c) infos ((N.turn c).assign L) success v'
      (R'.buses.map fun b => (b.bus, b.mag, b.V)) = (R.buses.map fun b => (b.bus, b.mag, c * b.V)) ∧
      (R'.generators.filter fun g => g.kind = .PV) = (R.generators.filter fun g => g.kind = .PV) ∧ R'.loads = R.loads := by
  obtain ⟨v', h1, h2, h3⟩ := C127_solutions_partial hL N hp hN hc 0 v hz
  have hopt : N.opt = false := by simp [Network.opt, hp]
  have hopt' : (N.turn c).opt = false := hopt
  refine ⟨v', h1, ?_, ?_, ?_⟩
  · show ((busResults infos (N.turn c).opt _ v').map _) = (busResults infos N.opt _ v).map _
    have hnodes : ((N.turn c).assign L).nodes = (N.assign L).nodes := rfl
    rw [hnodes, hopt, hopt']
    unfold busResults
    rw [List.map_filterMap, List.map_filterMap]
    refine List.filterMap_congr fun x hx => ?_
    obtain ⟨⟨i, n⟩, k⟩ := x
    rw [List.mem_zipIdx_iff_getElem?, List.getElem?_zip_eq_some] at hx
    have hn : ∀ (M : Network) (x : ℕ → ℝ), (M.assign L).nodes[k]? = some n →
        (M.assign L).voltages x (some k) = ⟨readIdx x n.vr, readIdx x n.vi⟩ := fun M x hn => by
      show ((M.assign L).nodes.getD k Node.ground).volt x = _
      rw [List.getD_eq_getElem?_getD, hn]; rfl
    have e := h2 k
    rw [hn N v hx.2, hn (N.turn c) v' hx.2] at e
    dsimp only
    cases i.virtual with
    | true => rfl
    | false =>
      simp only [Bool.false_eq_true, if_false, Option.map_some, BusResult.make, Option.some.injEq, Prod.mk.injEq, true_and]
      refine ⟨?_, e⟩
      rw [e, norm_mul, hc, one_mul]
  · have e : ∀ M : Network, M.optimization = none → ∀ x, (Results.make M infos (M.assign L) success x).generators.filter (fun g => g.kind = .PV) =
        pvResults M (M.assign L) x := fun M hM x => by
      show (_ ++ _ ++ (match M.optimization with
        | none => []
        | some k => infResults k (M.assign L) x)).filter _ = _
      rw [hM, List.append_nil, List.filter_append]
      have h1 : (slackResults M (M.assign L) x).filter (fun g => g.kind = .PV) = [] := by
        rw [List.filter_eq_nil_iff]
        intro g hg
        rw [slackResults_eq L, List.mem_filterMap] at hg
        obtain ⟨y, _, hy⟩ := hg
        obtain ⟨y, w⟩ := y
        cases y <;> simp at hy
        rw [← hy]; simp
      have h2 : (pvResults M (M.assign L) x).filter (fun g => g.kind = .PV) = pvResults M (M.assign L) x := by
        rw [List.filter_eq_self]
        intro g hg
        rw [pvResults_eq L, List.mem_filterMap] at hg
        obtain ⟨y, _, hy⟩ := hg
        obtain ⟨y, w⟩ := y
        cases y <;> simp at hy
        rw [← hy]; simp
      rw [h1, h2, List.append_nil]
    rw [e N hp, e (N.turn c) hp, pvResults_eq L, pvResults_eq L, h3, List.filterMap_map]
    congr 1
    funext x
    obtain ⟨x, w⟩ := x
    cases x <;> rfl
  · show loadResults (N.turn c) = loadResults N
    unfold loadResults Network.turn
    rw [List.filterMap_map]
    congr 1
    funext e
    cases e <;> rfl

theorem ex_turnable : ∀ e ∈ exNet.elements, e.Turnable := by
  intro e he; simp [exNet] at he; rcases he with rfl | rfl | rfl <;> trivial

/-- A line, a slack and a shunt: the solution of the network of C67, turned by a quarter. -/
example (hL : L.Loaded) := C127_solutions_partial hL exNet rfl ex_turnable (c := Complex.I) Complex.norm_I 0 exVec
  ((C67_equations_are_kirchhoff hL exNet rfl 0 exVec).2 (exNet_kirchhoff hL))

example (hL : L.Loaded) := C127_results_partial hL exNet rfl ex_turnable (c := Complex.I) Complex.norm_I [⟨false, 1⟩, ⟨false, 1⟩] true exVec
  ((C67_equations_are_kirchhoff hL exNet rfl 0 exVec).2 (exNet_kirchhoff hL))

/-- A network with a load of constant current behind a line. -/
noncomputable def ampNet (vr vi : ℝ) : Network := ⟨2, [.slack 0 vr vi, .line (some 0) (some 1) 2 0 0, .load (some 1) none ⟨0, 0, 0, 1, 0⟩], none⟩

theorem amp_turn (vr vi : ℝ) : (ampNet vr vi).turn Complex.I = ampNet (-vi) vr := by
  simp [ampNet, Network.turn, Element.turn]

theorem amp_kirchhoff (vr vi : ℝ) (V : Ref → ℂ) (h0 : V none = 0) (w : List ℝ) :
    Kirchhoff 2 0 V [(.slack 0 vr vi, w), (.line (some 0) (some 1) 2 0 0, []), (.load (some 1) none ⟨0, 0, 0, 1, 0⟩, [])] ↔
      V (some 0) = ⟨vr, vi⟩ ∧ V (some 1) = ⟨vr, vi⟩ - 1 / 2 ∧ pairAt w 0 = -1 := by
  have e2 : (⟨2, 0⟩ : ℂ) = 2 := by apply Complex.ext <;> simp
  have e1 : (⟨1, 0⟩ : ℂ) = 1 := by apply Complex.ext <;> simp
  have e0 : (⟨0, 0⟩ : ℂ) = 0 := rfl
  constructor
  · rintro ⟨h1, h2⟩
    have hb := h2 _ (List.mem_cons_self ..)
    have hV : V (some 0) = ⟨vr, vi⟩ := by
      have a := hb _ (List.mem_cons_self ..)
      have b := hb _ (List.mem_cons_of_mem _ (List.mem_cons_self ..))
      have : V (some 0) - ⟨vr, vi⟩ = 0 := Complex.ext a b
      exact sub_eq_zero.1 this
    have k0 := h1 0 (by norm_num)
    have k1 := h1 1 (by norm_num)
    simp [Element.draws, branch, stiff, faded, h0, e0, e1, e2] at k0 k1
    rw [hV] at k0 k1
    have : V (some 1) = ⟨vr, vi⟩ - 1 / 2 := by linear_combination (1 / 2 : ℂ) * k1
    refine ⟨hV, this, ?_⟩
    rw [this] at k0
    linear_combination k0
  · rintro ⟨h1, h2, h3⟩
    constructor
    · intro k hk
      interval_cases k
      · simp [Element.draws, branch, stiff, faded, h0, e0, e1, e2, h1, h2, h3]
      · simp [Element.draws, branch, stiff, faded, h0, e0, e1, e2, h1, h2]
    · intro x hx z hz
      simp only [List.mem_cons, List.not_mem_nil, or_false] at hx
      rcases hx with rfl | rfl | rfl
      · simp only [Element.laws, both, h1, sub_self, List.mem_cons, List.not_mem_nil, or_false] at hz
        rcases hz with rfl | rfl <;> rfl
      · simp [Element.laws] at hz
      · simp [Element.laws] at hz

theorem amp_owned (vr vi : ℝ) (v : ℕ → ℝ) : ∃ w, (( ampNet vr vi).assign L).owned L (ampNet vr vi) v =
    [(.slack 0 vr vi, w), (.line (some 0) (some 1) 2 0 0, []), (.load (some 1) none ⟨0, 0, 0, 1, 0⟩, [])] := ⟨_, rfl⟩

theorem amp_solutions (hL : L.Loaded) (vr vi : ℝ) :
    (∃ v, ∀ i, networkEq ((ampNet vr vi).assign L).all 0 v i = 0) ∧
    ∀ v, (∀ i, networkEq ((ampNet vr vi).assign L).all 0 v i = 0) → ((ampNet vr vi).assign L).voltages v (some 1) = ⟨vr, vi⟩ - 1 / 2 := by
  constructor
  · obtain ⟨v, h1, h2⟩ := exists_values hL (ampNet vr vi) rfl (fun k => if k = 0 then ⟨vr, vi⟩ else ⟨vr, vi⟩ - 1 / 2)
      [(.slack 0 vr vi, [-1, 0]), (.line (some 0) (some 1) 2 0 0, []), (.load (some 1) none ⟨0, 0, 0, 1, 0⟩, [])] rfl (by
        intro x hx
        simp only [List.mem_cons, List.not_mem_nil, or_false] at hx
        rcases hx with rfl | rfl | rfl <;> rfl)
    refine ⟨v, (C67_equations_are_kirchhoff hL (ampNet vr vi) rfl 0 v).2 ?_⟩
    rw [h2]
    refine (amp_kirchhoff vr vi _ rfl _).2 ⟨?_, ?_, ?_⟩
    · rw [h1 0 (by simp [ampNet])]; rfl
    · rw [h1 1 (by simp [ampNet])]; rfl
    · apply Complex.ext <;> simp [pairAt]
  · intro v hv
    have hk := (C67_equations_are_kirchhoff hL (ampNet vr vi) rfl 0 v).1 hv
    obtain ⟨w, hw⟩ := amp_owned (L := L) vr vi v
    rw [hw] at hk
    exact ((amp_kirchhoff vr vi _ rfl w).1 hk).2.1

/-- **C127 fails for loads of constant current.** The current of such a load is a fixed phasor, so its power factor depends on the angle of the slack.
With the slack at one volt and angle zero the load has half a volt; with the slack at 90 degrees, more than one volt. -/
theorem C127_current_fails (hL : L.Loaded) :
    (∃ v, ∀ i, networkEq ((ampNet 1 0).assign L).all 0 v i = 0) ∧ (∃ v, ∀ i, networkEq (((ampNet 1 0).turn Complex.I).assign L).all 0 v i = 0) ∧
    (∀ v, (∀ i, networkEq ((ampNet 1 0).assign L).all 0 v i = 0) → ‖((ampNet 1 0).assign L).voltages v (some 1)‖ = 1 / 2) ∧
    ∀ v, (∀ i, networkEq (((ampNet 1 0).turn Complex.I).assign L).all 0 v i = 0) →
      1 < ‖(((ampNet 1 0).turn Complex.I).assign L).voltages v (some 1)‖ := by
  have e := amp_turn 1 0
  rw [neg_zero] at e
  rw [e]
  refine ⟨(amp_solutions hL 1 0).1, (amp_solutions hL 0 1).1, fun v hv => ?_, fun v hv => ?_⟩
  · rw [(amp_solutions hL 1 0).2 v hv]
    have : (⟨1, 0⟩ : ℂ) - 1 / 2 = ((1 / 2 : ℝ) : ℂ) := by apply Complex.ext <;> simp; norm_num
    rw [this, Complex.norm_real]; norm_num
  · rw [(amp_solutions hL 0 1).2 v hv]
    have h : Complex.normSq ((⟨0, 1⟩ : ℂ) - 1 / 2) = 5 / 4 := by
      rw [Complex.normSq_apply]; simp; norm_num
    have h2 := Complex.normSq_eq_norm_sq ((⟨0, 1⟩ : ℂ) - 1 / 2)
    rw [h] at h2
    nlinarith [norm_nonneg ((⟨0, 1⟩ : ℂ) - 1 / 2)]

/-- **C127 fails for the reported slack power.** A slack that feeds one siemens reports the active power -1 at angle zero and 0 at 90 degrees. -/
theorem C127_slack_fails (hL : L.Loaded) (infos : List BusInfo) :
    let N : Network := ⟨1, [.slack 0 1 0, .shunt 0 1 0], none⟩
    (∃ v, ∀ i, networkEq (N.assign L).all 0 v i = 0) ∧ (∃ v, ∀ i, networkEq ((N.turn Complex.I).assign L).all 0 v i = 0) ∧
    (∀ v, (∀ i, networkEq (N.assign L).all 0 v i = 0) → (Results.make N infos (N.assign L) true v).generators.map GenResult.P = [-1]) ∧
    ∀ v, (∀ i, networkEq ((N.turn Complex.I).assign L).all 0 v i = 0) →
      (Results.make (N.turn Complex.I) infos ((N.turn Complex.I).assign L) true v).generators.map GenResult.P = [0] := by
  intro N
  have key : ∀ vr vi : ℝ, let M : Network := ⟨1, [.slack 0 vr vi, .shunt 0 1 0], none⟩
      (∃ v, ∀ i, networkEq (M.assign L).all 0 v i = 0) ∧
      ∀ v, (∀ i, networkEq (M.assign L).all 0 v i = 0) → (Results.make M infos (M.assign L) true v).generators.map GenResult.P = [-(vr * vr)] := by
    intro vr vi M
    have e1 : (⟨1, 0⟩ : ℂ) = 1 := by apply Complex.ext <;> simp
    constructor
    · obtain ⟨v, h1, h2⟩ := exists_values hL M rfl (fun _ => ⟨vr, vi⟩) [(.slack 0 vr vi, [-vr, -vi]), (.shunt 0 1 0, [])] rfl (by
        intro x hx
        simp only [List.mem_cons, List.not_mem_nil, or_false] at hx
        rcases hx with rfl | rfl <;> rfl)
      have v0 := h1 0 (by simp [M])
      refine ⟨v, (C67_equations_are_kirchhoff hL M rfl 0 v).2 ?_⟩
      rw [h2]
      constructor
      · intro k hk
        have hk : k < 1 := hk
        interval_cases k
        apply Complex.ext <;> simp [Element.draws, faded, v0, pairAt]
      · intro x hx z hz
        simp only [List.mem_cons, List.not_mem_nil, or_false] at hx
        rcases hx with rfl | rfl
        · simp only [Element.laws, both, v0, sub_self, List.mem_cons, List.not_mem_nil, or_false] at hz
          rcases hz with rfl | rfl <;> rfl
        · simp [Element.laws] at hz
    · intro v hv
      have hk := (C67_equations_are_kirchhoff hL M rfl 0 v).1 hv
      obtain ⟨w, hw⟩ : ∃ w, (M.assign L).owned L M v = [(.slack 0 vr vi, w), (.shunt 0 1 0, [])] := ⟨_, rfl⟩
      rw [hw] at hk
      obtain ⟨h1, h2⟩ := hk
      have hb := h2 _ (List.mem_cons_self ..)
      have hV : (M.assign L).voltages v (some 0) = ⟨vr, vi⟩ := by
        have a := hb _ (List.mem_cons_self ..)
        have b := hb _ (List.mem_cons_of_mem _ (List.mem_cons_self ..))
        exact sub_eq_zero.1 (Complex.ext a b)
      have k0 := h1 0 (by norm_num)
      simp only [Element.draws, faded, e1, hV, List.flatMap_cons, List.flatMap_nil, List.append_nil, List.cons_append, List.nil_append,
        List.filter_cons, decide_true, if_true, List.filter_nil, List.map_cons, List.map_nil, List.sum_cons, List.sum_nil] at k0
      have hre := congrArg Complex.re k0
      simp at hre
      show (pvResults M (M.assign L) v ++ slackResults M (M.assign L) v ++ []).map GenResult.P = _
      rw [pvResults_eq L, slackResults_eq L, hw]
      simp only [List.filterMap_cons, List.filterMap_nil, List.nil_append, List.append_nil, List.map_cons, List.map_nil, hV]
      congr 1
      have : (pairAt w 0).re = -vr := by linarith
      rw [this]; ring
  have ht : N.turn Complex.I = ⟨1, [.slack 0 0 1, .shunt 0 1 0], none⟩ := by
    simp [N, Network.turn, Element.turn]
  rw [ht]
  refine ⟨(key 1 0).1, (key 0 1).1, fun v hv => ?_, fun v hv => ?_⟩
  · rw [(key 1 0).2 v hv]; norm_num
  · rw [(key 0 1).2 v hv]; norm_num

end Verif
