import Verif.Model.Results
import Verif.Spec.Results
import Verif.Lemmas.FuseNet
import Verif.Props.Kirchhoff

/-!
# Results: C34, C36, C37, C38, C62, C63
-/

namespace Verif

open Ex Devices ComplexConjugate

variable {L : Library}

/-! ### C36: bus voltages -/

/-- The reported polar form as a complex number. -/
noncomputable def BusResult.polar (b : BusResult) : ℂ := b.mag * Complex.exp (Complex.I * ((b.deg * Real.pi / 180 : ℝ) : ℂ))

theorem make_exact (k : ℕ) (vr vi : ℝ) (lam : Option (ℝ × ℝ)) (h : ¬ ‖(⟨vr, vi⟩ : ℂ)‖ < 1 / 100000000) :
    (BusResult.make k vr vi lam).polar = ⟨vr, vi⟩ := by
  unfold BusResult.polar BusResult.make
  simp only [if_neg h]
  rw [show (⟨vr, vi⟩ : ℂ).arg * 180 / Real.pi * Real.pi / 180 = (⟨vr, vi⟩ : ℂ).arg by
    field_simp [Real.pi_ne_zero]]
  rw [mul_comm Complex.I]
  exact Complex.norm_mul_exp_arg_mul_I _

theorem mem_busResults (infos : List BusInfo) (opt : Bool) (nodes : List Node) (v : ℕ → ℝ) (b : BusResult) :
    b ∈ busResults infos opt nodes v ↔ ∃ k i n, infos[k]? = some i ∧ nodes[k]? = some n ∧ i.virtual = false ∧
      b = BusResult.make k (readIdx v n.vr) (readIdx v n.vi) (if opt then some (readIdx v n.lr, readIdx v n.li) else none) := by
  unfold busResults
  rw [List.mem_filterMap]
  constructor
  · rintro ⟨⟨⟨i, n⟩, k⟩, hm, hx⟩
    have hm := List.mem_zipIdx_iff_getElem?.1 hm
    simp only at hm hx
    rw [List.getElem?_zip_eq_some] at hm
    by_cases h : i.virtual = true
    · rw [if_pos h] at hx; exact absurd hx (by simp)
    · rw [if_neg h] at hx
      injection hx with hx
      exact ⟨k, i, n, hm.1, hm.2, by simpa using h, hx.symm⟩
  · rintro ⟨k, i, n, h1, h2, h3, rfl⟩
    refine ⟨((i, n), k), List.mem_zipIdx_iff_getElem?.2 (List.getElem?_zip_eq_some.2 ⟨h1, h2⟩), ?_⟩
    simp [h3]

/-- Positions of the buses that are reported. -/
def realBuses (infos : List BusInfo) : List ℕ :=
  (List.range infos.length).filter fun k => ((infos[k]?).map fun i => !i.virtual).getD false

theorem busResults_positions (infos : List BusInfo) (opt : Bool) (nodes : List Node) (v : ℕ → ℝ) (h : infos.length = nodes.length) :
    (busResults infos opt nodes v).map BusResult.bus = realBuses infos := by
  have key : ∀ (is : List BusInfo) (ns : List Node) (s : ℕ), is.length = ns.length →
      (((is.zip ns).zipIdx s).filterMap fun x : (BusInfo × Node) × ℕ => if x.1.1.virtual then none
        else some (BusResult.make x.2 (readIdx v x.1.2.vr) (readIdx v x.1.2.vi)
          (if opt then some (readIdx v x.1.2.lr, readIdx v x.1.2.li) else none))).map BusResult.bus =
      (List.range' s is.length).filter fun k => ((is[k - s]?).map fun i => !i.virtual).getD false := by
    intro is
    induction is with
    | nil => intro ns s _; simp
    | cons i is ih =>
      intro ns s hl
      cases ns with
      | nil => simp at hl
      | cons n ns =>
        simp only [List.length_cons, Nat.add_right_cancel_iff] at hl
        have hr := ih ns (s + 1) hl
        have hf : (List.range' (s + 1) is.length).filter (fun k => (((i :: is)[k - s]?).map fun i => !i.virtual).getD false) =
            (List.range' (s + 1) is.length).filter (fun k => ((is[k - (s + 1)]?).map fun i => !i.virtual).getD false) := by
          apply List.filter_congr
          intro k hk
          rw [List.mem_range'_1] at hk
          rw [show k - s = (k - (s + 1)) + 1 by omega, List.getElem?_cons_succ]
        rw [List.zip_cons_cons, List.zipIdx_cons, List.filterMap_cons, List.length_cons, List.range'_succ, List.filter_cons, hf, ← hr]
        cases hvv : i.virtual
        · simp [hvv, BusResult.make]
        · simp [hvv]
  have := key infos nodes 0 h
  unfold busResults realBuses
  rw [List.range_eq_range']
  simpa using this

/-- **C36, disagreement.** A non-zero voltage below `1e-8` is reported with angle 0. -/
theorem C36_tiny_fails : ∃ vr vi : ℝ, (BusResult.make 0 vr vi none).polar ≠ ⟨vr, vi⟩ := by
  refine ⟨0, 1 / 1000000000, ?_⟩
  have hn : ‖(⟨0, 1 / 1000000000⟩ : ℂ)‖ = 1 / 1000000000 := by
    rw [show (⟨0, 1 / 1000000000⟩ : ℂ) = ((1 / 1000000000 : ℝ) : ℂ) * Complex.I by apply Complex.ext <;> simp]
    rw [norm_mul, Complex.norm_I, Complex.norm_real]; norm_num
  unfold BusResult.polar BusResult.make
  simp only [hn]
  rw [if_pos (by norm_num)]
  intro h
  have := congrArg Complex.im h
  simp at this

/-- **C36, what holds.** One result per non-virtual bus, in bus order, with the solved voltage and the multipliers of that
bus; the magnitude is not negative, the angle lies in `(-180, 180]`, and the polar form is the voltage, exactly if the voltage
is zero or at least `1e-8`, and always up to `2e-8`. Missing: the angle of smaller non-zero voltages. -/
theorem C36_polar_partial (N : Network) (infos : List BusInfo) (a : Assignment) (success : Bool) (v : ℕ → ℝ)
    (h : infos.length = a.nodes.length) :
    let R := Results.make N infos a success v
    R.buses.map BusResult.bus = realBuses infos ∧
    ∀ b ∈ R.buses, b.V = a.voltages v (some b.bus) ∧ 0 ≤ b.mag ∧ -180 < b.deg ∧ b.deg ≤ 180 ∧
      (b.V = 0 ∨ 1 / 100000000 ≤ ‖b.V‖ → b.polar = b.V) ∧ ‖b.polar - b.V‖ < 2 / 100000000 ∧
      (b.lam.isSome = N.opt) := by
  intro R
  refine ⟨busResults_positions infos N.opt a.nodes v h, ?_⟩
  intro b hb
  obtain ⟨k, i, n, h1, h2, h3, rfl⟩ := (mem_busResults infos N.opt a.nodes v b).1 hb
  have hV : (BusResult.make k (readIdx v n.vr) (readIdx v n.vi) (if N.opt then some (readIdx v n.lr, readIdx v n.li) else none)).V =
      ⟨readIdx v n.vr, readIdx v n.vi⟩ := rfl
  have hnode : nodeAt a.nodes (some k) = n := by simp [nodeAt, List.getD_eq_getElem?_getD, h2]
  refine ⟨?_, norm_nonneg _, ?_, ?_, ?_, ?_, ?_⟩
  · show (⟨readIdx v n.vr, readIdx v n.vi⟩ : ℂ) = (nodeAt a.nodes (some k)).volt v
    rw [hnode]; rfl
  · simp only [BusResult.make]
    split_ifs
    · norm_num
    · rw [lt_div_iff₀ Real.pi_pos]; nlinarith [Complex.neg_pi_lt_arg ⟨readIdx v n.vr, readIdx v n.vi⟩]
  · simp only [BusResult.make]
    split_ifs
    · norm_num
    · rw [div_le_iff₀ Real.pi_pos]; nlinarith [Complex.arg_le_pi ⟨readIdx v n.vr, readIdx v n.vi⟩]
  · intro hc
    rw [hV] at hc ⊢
    rcases hc with hc | hc
    · simp [BusResult.polar, BusResult.make, hc]
    · exact make_exact _ _ _ _ (not_lt.2 hc)
  · rw [hV]
    by_cases hc : ‖(⟨readIdx v n.vr, readIdx v n.vi⟩ : ℂ)‖ < 1 / 100000000
    · have hp : (BusResult.make k (readIdx v n.vr) (readIdx v n.vi) (if N.opt then some (readIdx v n.lr, readIdx v n.li) else none)).polar =
          ((‖(⟨readIdx v n.vr, readIdx v n.vi⟩ : ℂ)‖ : ℝ) : ℂ) := by
        unfold BusResult.polar BusResult.make
        simp only [if_pos hc]; simp
      rw [hp]
      refine lt_of_le_of_lt (norm_sub_le _ _) ?_
      rw [Complex.norm_real, norm_norm]
      linarith
    · rw [make_exact _ _ _ _ hc]; simp
  · simp only [BusResult.make]
    cases N.opt <;> simp

/-- A voltage of two volts at minus ninety degrees, beside a virtual bus. -/
example : (busResults [⟨true, 1⟩, ⟨false, 1⟩] false [plainNode 0, plainNode 1] (fun i => if i = 3 then -2 else 0)).map BusResult.bus = [1] := by
  rw [busResults_positions _ _ _ _ rfl]; decide

/-! ### C34: slack power -/

theorem owned_filterMap {α : Type} (L : Library) (N : Network) (a : Assignment) (v : ℕ → ℝ) (f : Element × List ℝ → Option α) :
    (a.owned L N v).filterMap f = (N.elements.zip a.parts).filterMap fun x =>
      f (x.1, ((Element.unknowns L N.opt x.1).map (unknownIdx x.2)).map (readIdx v)) := by
  unfold Assignment.owned
  rw [← List.map_uncurry_zip_eq_zipWith, List.filterMap_map]
  rfl

/-- What is reported for the slacks, in physical terms: the products of the real parts and of the imaginary parts. -/
theorem slackResults_eq (L : Library) (N : Network) (a : Assignment) (v : ℕ → ℝ) :
    slackResults N a v = (a.owned L N v).filterMap fun x => match x.1 with
      | .slack b _ _ => some ⟨b, (a.voltages v (some b)).re * (pairAt x.2 0).re, (a.voltages v (some b)).im * (pairAt x.2 0).im, .Slack⟩
      | _ => none := by
  rw [owned_filterMap]
  unfold slackResults
  congr 1
  funext x
  obtain ⟨e, ps⟩ := x
  cases e <;> simp [Element.unknowns, twoTerminalUnknowns, pairAt, Assignment.voltages, Node.volt]

/-- **C34, disagreement.** A solved network, all of whose equations hold, with a slack whose reported reactive power is not
that of its voltage and current. -/
theorem C34_slack_power_fails (hL : L.Loaded) :
    let a := fuseNet.assign L
    (∀ i, networkEq a.all 0 fuseNetSol i = 0) ∧
    ∃ b vr vi w, (.slack b vr vi, w) ∈ a.owned L fuseNet fuseNetSol ∧
      ∀ g ∈ (Results.make fuseNet [] a true fuseNetSol).generators, g.kind = .Slack ∧ g.bus = b ∧
        g.Q ≠ (power (a.voltages fuseNetSol (some b)) (pairAt w 0)).im := by
  intro a
  refine ⟨fun i => by rw [fuseNet_rows hL, fuseNet_sol], 0, 1 + 1 / 20000, -1 / 20000, [fuseNetSol 6, fuseNetSol 7], ?_, ?_⟩
  · rw [fuseNet_owned hL]; simp
  · intro g hg
    have hgen : (Results.make fuseNet [] a true fuseNetSol).generators = slackResults fuseNet a fuseNetSol := by
      have e1 : pvResults fuseNet a fuseNetSol = [] := rfl
      show pvResults fuseNet a fuseNetSol ++ slackResults fuseNet a fuseNetSol ++ [] = _
      rw [e1]; simp
    rw [hgen, slackResults_eq L, fuseNet_owned hL] at hg
    have hv := (fuseNet_volt (L := L) fuseNetSol).1
    have hv' : a.voltages fuseNetSol (some 0) = ⟨fuseNetSol 0, fuseNetSol 1⟩ := hv
    simp only [List.filterMap_cons, List.filterMap_nil, List.mem_singleton] at hg
    subst hg
    refine ⟨rfl, rfl, ?_⟩
    rw [hv']
    simp [power, pairAt, fuseNetSol]

/-- **C34, what holds.** Every slack has one result. Its `P` misses the product of the imaginary parts, so it is the real
power when the slack voltage is real, where the reported `Q` is always zero. Missing: everything else. -/
theorem C34_slack_power_partial (N : Network) (infos : List BusInfo) (success : Bool) (v : ℕ → ℝ) :
    let a := N.assign L
    ∀ b vr vi w, (.slack b vr vi, w) ∈ a.owned L N v →
      ∃ g ∈ (Results.make N infos a success v).generators, g.kind = .Slack ∧ g.bus = b ∧
        let S := power (a.voltages v (some b)) (pairAt w 0)
        g.P = S.re - (a.voltages v (some b)).im * (pairAt w 0).im ∧
        g.Q = (a.voltages v (some b)).im * (pairAt w 0).im ∧
        ((a.voltages v (some b)).im = 0 → g.P = S.re ∧ g.Q = 0) := by
  intro a b vr vi w h
  refine ⟨⟨b, (a.voltages v (some b)).re * (pairAt w 0).re, (a.voltages v (some b)).im * (pairAt w 0).im, .Slack⟩, ?_, rfl, rfl, ?_⟩
  · show _ ∈ pvResults N a v ++ slackResults N a v ++ _
    rw [List.mem_append, List.mem_append]
    refine Or.inl (Or.inr ?_)
    rw [slackResults_eq L, List.mem_filterMap]
    exact ⟨_, h, rfl⟩
  · refine ⟨?_, rfl, fun hz => ⟨?_, ?_⟩⟩
    · simp [power]
    · simp [power, hz]
    · simp [hz]

/-- A slack at one volt feeding one siemens: the hypothesis and the conclusion on a solved network. -/
example (hL : L.Loaded) : ∃ w, ((.slack 0 1 0, w) : Element × List ℝ) ∈ (exNet.assign L).owned L exNet exVec :=
  ⟨_, List.mem_of_getElem? (i := 1) rfl⟩

/-! ### C37: generator power -/

/-- What is reported for the generators: the stored active power and the own unknown. -/
theorem pvResults_eq (L : Library) (N : Network) (a : Assignment) (v : ℕ → ℝ) :
    pvResults N a v = (a.owned L N v).filterMap fun x => match x.1 with
      | .generator b P _ => some ⟨b, P, x.2.getD 0 0, .PV⟩
      | _ => none := by
  rw [owned_filterMap]
  unfold pvResults
  congr 1
  funext x
  obtain ⟨e, ps⟩ := x
  cases e <;> simp [Element.unknowns, twoTerminalUnknowns]

/-- **C37, disagreement.** For every scheduled power but zero, the reported power has the opposite sign. -/
theorem C37_generator_sign_fails (P Vset Qmax Qmin Qinit : ℝ) (hP : P ≠ 0) (infos : List BusInfo) (success : Bool) (v : ℕ → ℝ) :
    let G := Generator.make P Vset Qmax Qmin Qinit
    let N : Network := ⟨1, [.generator 0 G.P G.Vset], none⟩
    ∀ g ∈ (Results.make N infos (N.assign L) success v).generators, g.P = -P ∧ g.P ≠ P := by
  intro G N g hg
  have e1 : slackResults N (N.assign L) v = [] := rfl
  have hgen : (Results.make N infos (N.assign L) success v).generators = pvResults N (N.assign L) v := by
    show pvResults N _ v ++ slackResults N _ v ++ [] = _
    rw [e1]; simp
  have e2 : pvResults N (N.assign L) v = [⟨0, -P, readIdx v (unknownIdx (((Element.generator 0 G.P G.Vset).place L false
    [plainNode 0] 2).1) (0, .Q)), .PV⟩] := rfl
  rw [hgen, e2, List.mem_singleton] at hg
  subst hg
  refine ⟨rfl, ?_⟩
  show -P ≠ P
  intro h; apply hP; linarith

/-- **C37, what holds.** Every generator has one result, and at a regular operating point the complex power the generator
injects into its bus is the negative of the reported `P + jQ`; so for a generator object, the scheduled power is `-P`. -/
theorem C37_generator_power_partial (N : Network) (infos : List BusInfo) (success : Bool) (t : ℝ) (v : ℕ → ℝ) :
    let a := N.assign L
    ∀ b P Vset w, (.generator b P Vset, w) ∈ a.owned L N v → a.voltages v (some b) ≠ 0 →
      ∃ g ∈ (Results.make N infos a success v).generators, g.kind = .PV ∧ g.bus = b ∧
        ∃ I, (Element.generator b P Vset).draws t (a.voltages v) w = [(some b, I)] ∧
          power (a.voltages v (some b)) (-I) = -(⟨g.P, g.Q⟩ : ℂ) := by
  intro a b P Vset w h hV
  refine ⟨⟨b, P, w.getD 0 0, .PV⟩, ?_, rfl, rfl, conj ((⟨P, w.getD 0 0⟩ : ℂ) / a.voltages v (some b)), rfl, ?_⟩
  · show _ ∈ pvResults N a v ++ slackResults N a v ++ _
    rw [List.mem_append, List.mem_append]
    refine Or.inl (Or.inl ?_)
    rw [pvResults_eq L, List.mem_filterMap]
    exact ⟨_, h, rfl⟩
  · unfold power
    rw [map_neg, Complex.conj_conj, mul_neg]
    congr 1
    field_simp

/-- A generator scheduled at two watts, at one volt. -/
example : ∃ v : ℕ → ℝ, ∃ w, let N : Network := ⟨1, [.generator 0 (Generator.make 2 1 0 0 0).P 1], none⟩
    ((.generator 0 (Generator.make 2 1 0 0 0).P 1, w) : Element × List ℝ) ∈ (N.assign L).owned L N v ∧
      (N.assign L).voltages v (some 0) ≠ 0 := by
  refine ⟨fun _ => 1, _, List.mem_of_getElem? (i := 0) rfl, ?_⟩
  show (⟨1, 1⟩ : ℂ) ≠ 0
  intro h; have := congrArg Complex.re h; simp at this

/-! ### C62: output files -/

/-- Generators and slacks. -/
def Element.isSource : Element → Bool
  | .generator .. | .slack .. => true
  | _ => false

/-- Loads. -/
def Element.isLoad : Element → Bool
  | .load .. => true
  | _ => false

/-- **C62.** For every result and every rating check that returns: after a failed solve both files hold the failure line
and nothing else; after a success both start with the header, the voltage file then has one row per non-virtual bus in bus
order, the power file one row per generator, slack and infeasibility result and one per load, and either ends with the
violation line exactly when the rating check answered yes. -/
theorem C62_files (N : Network) (infos : List BusInfo) (ratings : List Rating) (a : Assignment) (success : Bool) (v : ℕ → ℝ)
    (h : infos.length = a.nodes.length) (r : Results)
    (hr : markViolations N infos ratings a v (Results.make N infos a success v) = .ok r) :
    (success = false → r.voltageFile = [.failure] ∧ r.powerFile = [.failure]) ∧
    (success = true → ∃ (rows : List BusResult) (grows : List GenResult) (lrows : List LoadResult) (tail : List FileLine),
      r.voltageFile = .header :: rows.map .bus ++ tail ∧ rows.map BusResult.bus = realBuses infos ∧
      r.powerFile = .header :: grows.map .gen ++ lrows.map .load ++ tail ∧
      grows.length = ((N.elements.zip a.parts).filter fun x => x.1.isSource).length
        + (if N.opt then (a.nodes.zip a.infeasibility).length else 0) ∧
      lrows.length = (N.elements.filter Element.isLoad).length ∧
      (tail = [.violated] ∨ tail = []) ∧
      (tail = [.violated] ↔ violatesRatings N infos ratings a v (Results.make N infos a success v) = .ok true)) := by
  unfold markViolations at hr
  constructor
  · rintro rfl
    rw [if_neg (by simp [Results.make])] at hr
    injection hr with hr
    subst hr
    exact ⟨rfl, rfl⟩
  · rintro rfl
    rw [if_pos (by rfl)] at hr
    cases hx : violatesRatings N infos ratings a v (Results.make N infos a true v) with
    | error e => rw [hx] at hr; exact absurd hr (by simp [bind, Except.bind])
    | ok b =>
      rw [hx] at hr
      simp only [bind, Except.bind, Except.ok.injEq] at hr
      have hb : r.buses = busResults infos N.opt a.nodes v ∧ r.generators = (Results.make N infos a true v).generators ∧
          r.loads = loadResults N ∧ r.success = true ∧ r.violates = b := by
        subst hr; cases b <;> exact ⟨rfl, rfl, rfl, rfl, rfl⟩
      obtain ⟨b1, b2, b3, b4, b5⟩ := hb
      refine ⟨r.buses, r.generators, r.loads, if b = true then [.violated] else [], ?_, ?_, ?_, ?_, ?_, ?_, ?_⟩
      · simp [Results.voltageFile, b4, b5]
      · rw [b1]; exact busResults_positions infos N.opt a.nodes v h
      · simp [Results.powerFile, b4, b5]
      · rw [b2]
        have c1 : (pvResults N a v ++ slackResults N a v).length = ((N.elements.zip a.parts).filter fun x => x.1.isSource).length := by
          unfold pvResults slackResults
          generalize N.elements.zip a.parts = l
          induction l with
          | nil => rfl
          | cons x l ih =>
            obtain ⟨e, ps⟩ := x
            rw [List.length_append] at ih ⊢
            cases e <;> simp [Element.isSource] at ih ⊢ <;> omega
        show (pvResults N a v ++ slackResults N a v ++ _).length = _
        rw [List.length_append, c1]
        unfold Network.opt
        cases N.optimization with
        | none => rfl
        | some k => simp [infResults]
      · rw [b3]
        unfold loadResults
        generalize N.elements = l
        induction l with
        | nil => rfl
        | cons e l ih => cases e <;> simp only [List.filterMap_cons, List.filter_cons, Element.isLoad, List.length_cons, if_true, Bool.false_eq_true, if_false] <;> first | exact ih | rw [ih]
      · cases b <;> simp
      · cases b <;> simp

example (v : ℕ → ℝ) : ∃ r, markViolations exNet [⟨false, 1⟩, ⟨true, 1⟩] [] (exNet.assign L) v
    (Results.make exNet [⟨false, 1⟩, ⟨true, 1⟩] (exNet.assign L) false v) = .ok r :=
  ⟨_, if_neg (by simp [Results.make])⟩

/-! ### C38: transformer power -/

theorem placeElements_get (L : Library) (opt : Bool) (nodes : List Node) (es : List Element) (n k : ℕ) (e : Element) (ps : List Placed)
    (he : es[k]? = some e) (hp : (placeElements L opt nodes n es).1[k]? = some ps) : ∃ m, ps = (e.place L opt nodes m).1 := by
  induction es generalizing n k with
  | nil => simp at he
  | cons x es ih =>
    cases k with
    | zero =>
      simp [placeElements] at he hp
      exact ⟨n, by rw [← hp, he]⟩
    | succ k =>
      simp only [List.getElem?_cons_succ] at he
      simp only [placeElements, List.getElem?_cons_succ] at hp
      exact ih _ k he hp

theorem mem_placed (N : Network) (x : Element × List Placed) (h : x ∈ N.elements.zip (N.assign L).parts) :
    ∃ m, x.2 = (x.1.place L N.opt (N.assign L).nodes m).1 := by
  obtain ⟨k, hk⟩ := List.mem_iff_getElem?.1 h
  rw [List.getElem?_zip_eq_some] at hk
  exact placeElements_get L N.opt _ N.elements _ k x.1 x.2 hk.1 hk.2

/-- Each element with its parts and its own values. -/
theorem mem_owned_iff (N : Network) (v : ℕ → ℝ) (e : Element) (w : List ℝ) :
    (e, w) ∈ (N.assign L).owned L N v ↔ ∃ ps, (e, ps) ∈ N.elements.zip (N.assign L).parts ∧
      w = ((Element.unknowns L N.opt e).map (unknownIdx ps)).map (readIdx v) := by
  unfold Assignment.owned
  rw [← List.map_uncurry_zip_eq_zipWith, List.mem_map]
  constructor
  · rintro ⟨⟨e', ps⟩, hm, hx⟩
    simp only [Function.uncurry, Prod.mk.injEq] at hx
    obtain ⟨rfl, rfl⟩ := hx
    exact ⟨ps, hm, rfl⟩
  · rintro ⟨ps, hm, rfl⟩
    exact ⟨(e, ps), hm, rfl⟩

/-- The ideal part of a transformer of a network and what `TransformerResult` reads from it. -/
theorem xfmr_report (N : Network) (v : ℕ → ℝ) (fp fn tp tn : Ref) (tr ang g b : ℝ) (ps : List Placed)
    (h : (.transformer fp fn tp tn tr ang g b, ps) ∈ N.elements.zip (N.assign L).parts) :
    let a := N.assign L
    let w := ((Element.unknowns L N.opt (.transformer fp fn tp tn tr ang g b)).map (unknownIdx ps)).map (readIdx v)
    ∃ p, ps[0]? = some p ∧ xfmrPower p v = ((a.voltages v fp - a.voltages v fn).re * (pairAt w 0).re,
      (a.voltages v fp - a.voltages v fn).im * (pairAt w 0).im) := by
  obtain ⟨m, hm⟩ := mem_placed N _ h
  simp only at hm
  subst hm
  exact ⟨_, rfl, rfl⟩

/-- The ideal part of a center-tap transformer of a network and what `CenterTapTransformerResult` reads from it. -/
theorem ct_report (N : Network) (v : ℕ → ℝ) (f p s1 t1 s2 t2 : ℕ) (ratio g0 b0 g1 b1 g2 b2 : ℝ) (ps : List Placed)
    (h : (.centerTap f p s1 t1 s2 t2 ratio g0 b0 g1 b1 g2 b2, ps) ∈ N.elements.zip (N.assign L).parts) :
    let a := N.assign L
    let w := ((Element.unknowns L N.opt (.centerTap f p s1 t1 s2 t2 ratio g0 b0 g1 b1 g2 b2)).map (unknownIdx ps)).map (readIdx v)
    ∃ q, ps[0]? = some q ∧ (⟨(ctPower q v).1, (ctPower q v).2⟩ : ℂ) =
      power (a.voltages v (some s1)) (pairAt w 0) + power (a.voltages v (some s2)) (pairAt w 2) := by
  obtain ⟨m, hm⟩ := mem_placed N _ h
  simp only at hm
  subst hm
  refine ⟨_, rfl, ?_⟩
  have e : ∀ V1r V1i V2r V2i I1r I1i I2r I2i : ℝ, (⟨V1r * I1r + V1i * I1i + V2r * I2r + V2i * I2i,
      -V1r * I1i + V1i * I1r - V2r * I2i + V2i * I2r⟩ : ℂ) = power ⟨V1r, V1i⟩ ⟨I1r, I1i⟩ + power ⟨V2r, V2i⟩ ⟨I2r, I2i⟩ := by
    intros
    apply Complex.ext <;> simp [power] <;> ring
  exact e _ _ _ _ _ _ _ _

/-- **C38, center tap.** For every network, mode and vector: what is reported for a center-tap transformer is the complex
power of its two secondary windings. Where its voltage laws hold this is, with the opposite sign, the power its ideal
primary winding draws from the primary node: the ideal winding neither stores nor loses power. -/
theorem C38_center_tap (N : Network) (v : ℕ → ℝ) (f p s1 t1 s2 t2 : ℕ) (ratio g0 b0 g1 b1 g2 b2 : ℝ) (ps : List Placed)
    (h : (.centerTap f p s1 t1 s2 t2 ratio g0 b0 g1 b1 g2 b2, ps) ∈ N.elements.zip (N.assign L).parts) :
    let a := N.assign L
    let e := Element.centerTap f p s1 t1 s2 t2 ratio g0 b0 g1 b1 g2 b2
    let V := a.voltages v
    ∃ q w, ps[0]? = some q ∧ (e, w) ∈ a.owned L N v ∧ (⟨(ctPower q v).1, (ctPower q v).2⟩ : ℂ) = e.throughput V w ∧
      ∀ t, (∀ z ∈ e.laws t V w, z = 0) →
        e.throughput V w = -power (V (some p)) (((1 / ratioAt t ratio : ℝ) : ℂ) * (pairAt w 2 - pairAt w 0)) := by
  intro a e V
  obtain ⟨q, hq, hp⟩ := ct_report N v f p s1 t1 s2 t2 ratio g0 b0 g1 b1 g2 b2 ps h
  refine ⟨q, _, hq, (mem_owned_iff N v e _).2 ⟨ps, h, rfl⟩, hp, ?_⟩
  intro t hl
  set w := ((Element.unknowns L N.opt e).map (unknownIdx ps)).map (readIdx v)
  simp only [e, Element.laws, both, List.cons_append, List.nil_append, List.mem_cons, List.not_mem_nil, or_false] at hl
  have h1 : V (some s1) = ((1 / ratioAt t ratio : ℝ) : ℂ) * V (some p) := by
    rw [← sub_eq_zero]
    exact Complex.ext (hl _ (Or.inl rfl)) (hl _ (Or.inr (Or.inl rfl)))
  have h2 : V (some s2) = -(((1 / ratioAt t ratio : ℝ) : ℂ) * V (some p)) := by
    rw [eq_neg_iff_add_eq_zero]
    exact Complex.ext (hl _ (Or.inr (Or.inr (Or.inl rfl)))) (hl _ (Or.inr (Or.inr (Or.inr rfl))))
  show power (V (some s1)) _ + power (V (some s2)) _ = _
  unfold power
  rw [h1, h2, map_mul, map_sub, Complex.conj_ofReal]
  ring

/-- **C38, what holds for two-winding transformers.** What is reported is the product of the real parts and the product of
the imaginary parts; the real power when the primary winding voltage is real. Missing: everything else. -/
theorem C38_transformer_partial (N : Network) (v : ℕ → ℝ) (fp fn tp tn : Ref) (tr ang g b : ℝ) (ps : List Placed)
    (h : (.transformer fp fn tp tn tr ang g b, ps) ∈ N.elements.zip (N.assign L).parts) :
    let a := N.assign L
    let e := Element.transformer fp fn tp tn tr ang g b
    let U := a.voltages v fp - a.voltages v fn
    ∃ p w, ps[0]? = some p ∧ (e, w) ∈ a.owned L N v ∧
      (xfmrPower p v).1 = (e.throughput (a.voltages v) w).re - U.im * (pairAt w 0).im ∧
      (xfmrPower p v).2 = U.im * (pairAt w 0).im ∧
      (U.im = 0 → (xfmrPower p v).1 = (e.throughput (a.voltages v) w).re ∧ (xfmrPower p v).2 = 0) := by
  intro a e U
  obtain ⟨p, hp, hx⟩ := xfmr_report N v fp fn tp tn tr ang g b ps h
  refine ⟨p, _, hp, (mem_owned_iff N v e _).2 ⟨ps, h, rfl⟩, ?_⟩
  rw [hx]
  refine ⟨?_, rfl, fun hz => ⟨?_, ?_⟩⟩
  · simp [e, Element.throughput, power, U, a]
  · simp only [e, Element.throughput, power, U, a] at hz ⊢
    simp only [Complex.mul_re, Complex.conj_re, Complex.conj_im, hz]; ring
  · show U.im * _ = 0
    rw [hz, zero_mul]

/-- Two slacks joined by a transformer of ratio one. -/
noncomputable def xfmrNet : Network :=
  ⟨2, [.slack 0 1 1, .slack 1 0 1, .transformer (some 0) none (some 1) none 1 0 1 0], none⟩

/-- Its solution: one ampere of primary current at `1 + j`. -/
noncomputable def xfmrNetSol : ℕ → ℝ
  | 0 => 1 | 1 => 1 | 3 => 1 | 4 => -1 | 6 => 1 | 8 => 1 | 10 => 1 | 11 => 1 | _ => 0

theorem xfmrNet_kirchhoff (hL : L.Loaded) :
    Kirchhoff xfmrNet.buses 0 ((xfmrNet.assign L).voltages xfmrNetSol) ((xfmrNet.assign L).owned L xfmrNet xfmrNetSol) := by
  obtain ⟨m, s1, s2, s3⟩ := slack_shape hL
  have ha := twoTerminalDetails_spec (plainNode 0) Node.ground 4 false s1 s2 (by simp) (by simp [terminalDict])
  have hb := twoTerminalDetails_spec (plainNode 1) Node.ground 6 false s1 s2 (by simp) (by simp [terminalDict])
  have a1 : (twoTerminalDetails L.slack (plainNode 0) Node.ground 4 false).2 = 6 := ha.2.2.2.2.2.2
  have a2 : (twoTerminalDetails L.slack (plainNode 0) Node.ground 4 false).1.varMap .ISr = some 4 := by
    rw [ha.2.2.2.2.1 .ISr (by simp)]; simp
  have a3 : (twoTerminalDetails L.slack (plainNode 0) Node.ground 4 false).1.varMap .ISi = some 5 := by
    rw [ha.2.2.2.2.1 .ISi (by simp)]; simp
  have b1 : (twoTerminalDetails L.slack (plainNode 1) Node.ground 6 false).2 = 8 := hb.2.2.2.2.2.2
  have b2 : (twoTerminalDetails L.slack (plainNode 1) Node.ground 6 false).1.varMap .ISr = some 6 := by
    rw [hb.2.2.2.2.1 .ISr (by simp)]; simp
  have b3 : (twoTerminalDetails L.slack (plainNode 1) Node.ground 6 false).1.varMap .ISi = some 7 := by
    rw [hb.2.2.2.2.1 .ISi (by simp)]; simp
  have hnodes : (xfmrNet.assign L).nodes = [plainNode 0, plainNode 1] := rfl
  have hV0 : (xfmrNet.assign L).voltages xfmrNetSol (some 0) = ⟨1, 1⟩ := by
    unfold Assignment.voltages; rw [hnodes]; rfl
  have hV1 : (xfmrNet.assign L).voltages xfmrNetSol (some 1) = ⟨0, 1⟩ := by
    unfold Assignment.voltages; rw [hnodes]; rfl
  have hVn : (xfmrNet.assign L).voltages xfmrNetSol none = 0 := rfl
  have hown : (xfmrNet.assign L).owned L xfmrNet xfmrNetSol =
      [(.slack 0 1 1, [-1, 0]), (.slack 1 0 1, [1, 0]), (.transformer (some 0) none (some 1) none 1 0 1 0, [1, 0, 1, 1])] := by
    have e : (xfmrNet.assign L).owned L xfmrNet xfmrNetSol =
      let n1 := (twoTerminalDetails L.slack (plainNode 0) Node.ground 4 false).2
      let n2 := (twoTerminalDetails L.slack (plainNode 1) Node.ground n1 false).2
      [(.slack 0 1 1, [readIdx xfmrNetSol ((twoTerminalDetails L.slack (plainNode 0) Node.ground 4 false).1.varMap .ISr),
         readIdx xfmrNetSol ((twoTerminalDetails L.slack (plainNode 0) Node.ground 4 false).1.varMap .ISi)]),
       (.slack 1 0 1, [readIdx xfmrNetSol ((twoTerminalDetails L.slack (plainNode 1) Node.ground n1 false).1.varMap .ISr),
         readIdx xfmrNetSol ((twoTerminalDetails L.slack (plainNode 1) Node.ground n1 false).1.varMap .ISi)]),
       (.transformer (some 0) none (some 1) none 1 0 1 0,
         [xfmrNetSol n2, xfmrNetSol (n2 + 1), xfmrNetSol (n2 + 2), xfmrNetSol (n2 + 3)])] := rfl
    rw [e]
    simp only [a1, a2, a3, b1, b2, b3]
    simp [readIdx, xfmrNetSol]
  rw [hown]
  constructor
  · intro k hk
    have : k = 0 ∨ k = 1 := by simp [xfmrNet] at hk; omega
    rcases this with rfl | rfl
    · simp [Element.draws, xfmrDraws, branch, hV0, hV1, stiff, pairAt]
      apply Complex.ext <;> simp
    · simp [Element.draws, xfmrDraws, branch, hV0, hV1, stiff, pairAt]
      apply Complex.ext <;> simp
  · intro x hx z hz
    simp at hx
    rcases hx with rfl | rfl | rfl
    · simp [Element.laws, both, hV0] at hz; exact hz
    · simp [Element.laws, both, hV1] at hz; exact hz
    · simp [Element.laws, xfmrLaws, both, hV0, hV1, hVn, turns, ratioAt, stiff, pairAt] at hz; exact hz

/-- **C38, disagreement.** A solved network with a transformer whose reported reactive power is zero while its winding
draws one var. -/
theorem C38_transformer_fails (hL : L.Loaded) :
    let a := xfmrNet.assign L
    let e := Element.transformer (some 0) none (some 1) none 1 0 1 0
    (∀ i, networkEq a.all 0 xfmrNetSol i = 0) ∧
    ∃ ps p w, (e, ps) ∈ xfmrNet.elements.zip a.parts ∧ ps[0]? = some p ∧ (e, w) ∈ a.owned L xfmrNet xfmrNetSol ∧
      (xfmrPower p xfmrNetSol).2 = 0 ∧ (e.throughput (a.voltages xfmrNetSol) w).im = 1 := by
  intro a e
  obtain ⟨m, s1, s2, s3⟩ := slack_shape hL
  have a1 : (twoTerminalDetails L.slack (plainNode 0) Node.ground 4 false).2 = 6 :=
    (twoTerminalDetails_spec (plainNode 0) Node.ground 4 false s1 s2 (by simp) (by simp [terminalDict])).2.2.2.2.2.2
  have b1 : (twoTerminalDetails L.slack (plainNode 1) Node.ground 6 false).2 = 8 :=
    (twoTerminalDetails_spec (plainNode 1) Node.ground 6 false s1 s2 (by simp) (by simp [terminalDict])).2.2.2.2.2.2
  refine ⟨(C67_equations_are_kirchhoff hL xfmrNet rfl 0 xfmrNetSol).2 (xfmrNet_kirchhoff hL), ?_⟩
  have hparts : (xfmrNet.elements.zip a.parts)[2]? = some (e, (e.place L false [plainNode 0, plainNode 1] 8).1) := by
    have h : (xfmrNet.elements.zip a.parts)[2]? = some (e, (e.place L false [plainNode 0, plainNode 1]
      (twoTerminalDetails L.slack (plainNode 1) Node.ground (twoTerminalDetails L.slack (plainNode 0) Node.ground 4 false).2 false).2).1) := rfl
    rw [h, a1, b1]
  have hm := List.mem_of_getElem? hparts
  refine ⟨_, _, _, hm, rfl, (mem_owned_iff xfmrNet xfmrNetSol e _).2 ⟨_, hm, rfl⟩, ?_, ?_⟩
  · show ((xfmrNetSol 1 - 0) * xfmrNetSol 9 : ℝ) = 0
    simp [xfmrNetSol]
  · show (power ((⟨xfmrNetSol 0, xfmrNetSol 1⟩ : ℂ) - ⟨0, 0⟩) ⟨xfmrNetSol 8, xfmrNetSol 9⟩).im = 1
    simp [power, xfmrNetSol]

/-- A center-tap transformer of ratio ten at ten volts, meeting its laws. -/
example : ∃ V : Ref → ℂ, ∃ w : List ℝ, V (some 1) ≠ 0 ∧ pairAt w 0 ≠ 0 ∧
    ∀ z ∈ (Element.centerTap 0 1 2 3 4 5 10 1 0 1 0 1 0).laws 0 V w, z = 0 := by
  refine ⟨fun r => if r = some 1 then 10 else if r = some 2 then 1 else if r = some 4 then -1 else 0, [1], by norm_num, ?_, ?_⟩
  · intro h; have := congrArg Complex.re h; simp [pairAt] at this
  · intro z hz
    simp [Element.laws, both, ratioAt] at hz
    exact hz

/-! ### C63: rating violations -/

theorem anyTest_ok (l : List (Except String Bool)) (b : Bool) (h : anyTest l = .ok b) :
    (b = true ↔ .ok true ∈ l) ∧ ∀ t ∈ l, ∃ c, t = .ok c := by
  induction l generalizing b with
  | nil => simp [anyTest] at h; subst h; simp
  | cons t l ih =>
    cases t with
    | error e => simp [anyTest, bind, Except.bind] at h
    | ok c =>
      cases hr : anyTest l with
      | error e => simp [anyTest, bind, Except.bind, hr] at h
      | ok r =>
        simp [anyTest, bind, Except.bind, hr] at h
        obtain ⟨h1, h2⟩ := ih r hr
        subst h
        refine ⟨?_, ?_⟩
        · rw [Bool.or_eq_true, h1, List.mem_cons]
          constructor
          · rintro (rfl | h); exacts [Or.inl rfl, Or.inr h]
          · rintro (h | h); exacts [Or.inl (by injection h with h; exact h.symm), Or.inr h]
        · intro t ht
          rcases List.mem_cons.1 ht with rfl | ht
          exacts [⟨c, rfl⟩, h2 t ht]

theorem assignBuses_length (opt : Bool) (k n : ℕ) : (assignBuses opt k n).1.length = k := by
  induction k generalizing n with
  | zero => rfl
  | succ k ih => simp [assignBuses, ih]

theorem lineResult_eq (f t : Node) (g b : ℝ) (v : ℕ → ℝ) : lineResult f t g b v = ⟨g, b⟩ * (f.volt v - t.volt v) := by
  apply Complex.ext <;> simp [lineResult, Node.volt] <;> ring

theorem seriesCurrent_uncoupled (ph : List (ℕ × ℕ)) (y : ℕ → ℕ → ℂ) (V : Ref → ℂ) (i : ℕ) (hi : i < ph.length)
    (h : ∀ i j, i ≠ j → y i j = 0) :
    seriesCurrent ph y V i = y i i * (V (some (ph.getD i (0, 0)).1) - V (some (ph.getD i (0, 0)).2)) := by
  unfold seriesCurrent
  have e : ∀ (f : ℕ → ℂ) (n : ℕ), (∀ j, j ≠ i → f j = 0) → ((List.range n).map f).sum = if i < n then f i else 0 := by
    intro f n hf
    induction n with
    | zero => simp
    | succ n ih =>
      rw [List.range_succ, List.map_append, List.sum_append, ih]
      by_cases hn : i = n
      · subst hn; simp
      · simp only [List.map_cons, List.map_nil, List.sum_cons, List.sum_nil, add_zero]
        rw [hf n (Ne.symm hn), add_zero]
        by_cases hlt : i < n
        · rw [if_pos hlt, if_pos (by omega)]
        · rw [if_neg hlt, if_neg (by omega)]
  rw [e _ _ (fun j hj => by rw [h i j (Ne.symm hj), zero_mul]), if_pos hi]

theorem mem_zip_owned (N : Network) (v : ℕ → ℝ) (ratings : List Rating) (e : Element) (w : List ℝ) (r : Rating) :
    ((e, w), r) ∈ ((N.assign L).owned L N v).zip ratings ↔ ∃ ps, ((e, ps), r) ∈ (N.elements.zip (N.assign L).parts).zip ratings ∧
      w = ((Element.unknowns L N.opt e).map (unknownIdx ps)).map (readIdx v) := by
  unfold Assignment.owned
  rw [← List.map_uncurry_zip_eq_zipWith, List.zip_map_left, List.mem_map]
  constructor
  · rintro ⟨⟨⟨e', ps⟩, r'⟩, hm, hx⟩
    simp only [Function.uncurry, Prod.map, Prod.mk.injEq, id_eq] at hx
    obtain ⟨⟨rfl, rfl⟩, rfl⟩ := hx
    exact ⟨ps, hm, rfl⟩
  · rintro ⟨ps, hm, rfl⟩
    exact ⟨((e, ps), r), hm, rfl⟩

theorem powerTest_iff (S : ℝ × ℝ) (rating : Option ℝ) :
    powerTest S rating = true ↔ ∃ R, rating = some R ∧ R < ‖(⟨S.1, S.2⟩ : ℂ)‖ := by
  unfold powerTest
  cases rating <;> simp

/-- **C63, what holds.** Whenever the check returns an answer, on a network whose lines have no coupling between phases,
whose two-winding transformers carry no power rating and whose nominal voltages are positive, the answer is yes exactly when
a line current, a center-tap power or a bus voltage is out of bounds. Missing: coupled lines and rated two-winding
transformers, where the quantities compared are not the physical ones. -/
theorem C63_ratings_partial (N : Network) (infos : List BusInfo) (ratings : List Rating) (success : Bool) (v : ℕ → ℝ) (b : Bool)
    (hu : ∀ e ∈ N.elements, e.Uncoupled)
    (hx : ∀ x ∈ N.elements.zip ratings, ∀ fp fn tp tn tr ang g s, x.1 = .transformer fp fn tp tn tr ang g s → x.2.power = none)
    (hn : ∀ i ∈ infos, 0 < i.vnom) (hi : infos.length = N.buses)
    (h : violatesRatings N infos ratings (N.assign L) v (Results.make N infos (N.assign L) success v) = .ok b) :
    b = true ↔ Overload infos ratings ((N.assign L).voltages v) ((N.assign L).owned L N v) := by
  set a := N.assign L with ha
  obtain ⟨h1, h2⟩ := anyTest_ok _ _ h
  rw [h1, List.mem_append, List.mem_flatMap, List.mem_map]
  have hin : ∀ e ps r, ((e, ps), r) ∈ (N.elements.zip a.parts).zip ratings → e ∈ N.elements ∧ (e, ps) ∈ N.elements.zip a.parts ∧
      (e, r) ∈ N.elements.zip ratings := by
    intro e ps r hm
    have hm' := List.of_mem_zip hm
    refine ⟨(List.of_mem_zip hm'.1).1, hm'.1, ?_⟩
    obtain ⟨k, hk⟩ := List.mem_iff_getElem?.1 hm
    rw [List.getElem?_zip_eq_some] at hk
    obtain ⟨hk1, hk2⟩ := hk
    rw [List.getElem?_zip_eq_some] at hk1
    exact List.mem_iff_getElem?.2 ⟨k, List.getElem?_zip_eq_some.2 ⟨hk1.1, hk2⟩⟩
  have hcur : ∀ ph y sh, Element.unbalanced ph y sh ∈ N.elements → ∀ i < ph.length,
      lineResult (nodeAt a.nodes (some (ph.getD i (0, 0)).1)) (nodeAt a.nodes (some (ph.getD i (0, 0)).2)) (y i i).re (y i i).im v =
        seriesCurrent ph y (a.voltages v) i := by
    intro ph y sh hm i hi
    rw [lineResult_eq, seriesCurrent_uncoupled ph y _ i hi (hu _ hm)]
    rfl
  constructor
  · rintro (⟨⟨⟨e, ps⟩, r⟩, hm, ht⟩ | ⟨br, hbr, ht⟩)
    · obtain ⟨he, hep, her⟩ := hin e ps r hm
      have hz : ((e, _), r) ∈ (a.owned L N v).zip ratings := (mem_zip_owned N v ratings e _ r).2 ⟨ps, hm, rfl⟩
      cases e with
      | unbalanced ph y sh =>
        obtain ⟨i, hi, hpt⟩ := List.mem_map.1 ht
        rw [List.mem_range] at hi
        unfold phaseTest at hpt
        simp only at hpt
        refine Or.inl ⟨_, hz, ph, y, sh, i, ?_⟩
        rcases hA : r.amps[i]? with _ | _ | A
        · rw [hA] at hpt; simp at hpt
        · rw [hA] at hpt; simp at hpt
        · rw [hA, hcur ph y sh he i hi] at hpt
          simp at hpt
          exact ⟨A, rfl, hi, rfl, hpt⟩
      | transformer fp fn tp tn tr ang g s =>
        have hnone := hx _ her fp fn tp tn tr ang g s rfl
        simp only at hnone
        unfold elementTests at ht
        simp only [hnone] at ht
        split at ht <;> simp [powerTest] at ht
      | centerTap f p s1 t1 s2 t2 ratio g0 b0 g1 b1 g2 b2 =>
        obtain ⟨q, hq, hp⟩ := ct_report N v f p s1 t1 s2 t2 ratio g0 b0 g1 b1 g2 b2 ps hep
        unfold elementTests at ht
        simp only [hq, List.mem_singleton, Except.ok.injEq] at ht
        obtain ⟨R, hR, hlt⟩ := (powerTest_iff _ _).1 ht.symm
        rw [hp] at hlt
        exact Or.inr (Or.inl ⟨_, hz, rfl, R, hR, hlt⟩)
      | line => simp [elementTests] at ht
      | _ => simp [elementTests] at ht
    · obtain ⟨k, i, n, hk1, hk2, hk3, rfl⟩ := (mem_busResults infos N.opt a.nodes v br).1 hbr
      refine Or.inr (Or.inr ⟨k, i, hk1, hk3, ?_⟩)
      have hnode : nodeAt a.nodes (some k) = n := by simp [nodeAt, List.getD_eq_getElem?_getD, hk2]
      have hpos := hn i (List.mem_of_getElem? hk1)
      simp only [busTest, BusResult.make, hk1] at ht
      rw [if_neg hpos.ne'] at ht
      simp only [Except.ok.injEq, decide_eq_true_eq, ge_iff_le] at ht
      rw [div_le_div_iff₀ (by norm_num) hpos] at ht
      show i.vnom / 20 ≤ |‖(nodeAt a.nodes (some k)).volt v‖ - i.vnom|
      rw [hnode]
      rw [div_le_iff₀ (by norm_num)]
      unfold Node.volt
      linarith
  · rintro (⟨⟨⟨e, w⟩, r⟩, hm, ph, y, sh, i, A, hey, hi, hA, hlt⟩ | ⟨⟨⟨e, w⟩, r⟩, hm, htr, R, hR, hlt⟩ | ⟨k, i, hk, hv, hle⟩)
    · obtain ⟨ps, hm', rfl⟩ := (mem_zip_owned N v ratings e w r).1 hm
      simp only at hey
      subst hey
      obtain ⟨he, _, _⟩ := hin _ ps r hm'
      refine Or.inl ⟨_, hm', List.mem_map.2 ⟨i, List.mem_range.2 hi, ?_⟩⟩
      unfold phaseTest
      simp only [hA]
      rw [hcur ph y sh he i hi]
      simp [hlt]
    · obtain ⟨ps, hm', rfl⟩ := (mem_zip_owned N v ratings e w r).1 hm
      obtain ⟨he, hep, her⟩ := hin _ ps r hm'
      refine Or.inl ⟨_, hm', ?_⟩
      cases e with
      | transformer fp fn tp tn tr ang g s =>
        have hnone := hx _ her fp fn tp tn tr ang g s rfl
        simp only at hnone hR
        rw [hnone] at hR; exact absurd hR (by simp)
      | centerTap f p s1 t1 s2 t2 ratio g0 b0 g1 b1 g2 b2 =>
        obtain ⟨q, hq, hp⟩ := ct_report N v f p s1 t1 s2 t2 ratio g0 b0 g1 b1 g2 b2 ps hep
        unfold elementTests
        simp only [hq, List.mem_singleton, Except.ok.injEq]
        refine ((powerTest_iff _ _).2 ⟨R, hR, ?_⟩).symm
        rw [hp]; exact hlt
      | _ => simp [Element.isTransformer] at htr
    · have hpos := hn i (List.mem_of_getElem? hk)
      have hlen : a.nodes.length = N.buses := by
        rw [ha]; exact assignBuses_length N.opt N.buses 0
      have hkl : k < a.nodes.length := by
        rw [hlen, ← hi]; exact (List.getElem?_eq_some_iff.1 hk).1
      have hnk : a.nodes[k]? = some (nodeAt a.nodes (some k)) := by
        simp [nodeAt, List.getD_eq_getElem?_getD, List.getElem?_eq_getElem hkl]
      refine Or.inr ⟨_, (mem_busResults infos N.opt a.nodes v _).2 ⟨k, i, _, hk, hnk, hv, rfl⟩, ?_⟩
      simp only [busTest, BusResult.make, hk]
      rw [if_neg hpos.ne']
      simp only [Except.ok.injEq, decide_eq_true_eq, ge_iff_le]
      rw [div_le_div_iff₀ (by norm_num) hpos]
      have hle' : i.vnom / 20 ≤ |‖(nodeAt a.nodes (some k)).volt v‖ - i.vnom| := hle
      rw [div_le_iff₀ (by norm_num)] at hle'
      unfold Node.volt at hle'
      linarith

/-- A line with mutual coupling. -/
noncomputable def coupledNet : Network :=
  ⟨4, [.unbalanced [(0, 2), (1, 3)] (fun i j => if i = j then 2 else 1) (fun _ _ => 0)], none⟩

/-- **C63, disagreement.** On a line with coupled phases the check can answer no although both phases are overloaded: here
each carries three amperes, rated two and a half. -/
theorem C63_ratings_fails : ∃ (infos : List BusInfo) (ratings : List Rating) (v : ℕ → ℝ),
    violatesRatings coupledNet infos ratings (coupledNet.assign L) v
      (Results.make coupledNet infos (coupledNet.assign L) true v) = .ok false ∧
    Overload infos ratings ((coupledNet.assign L).voltages v) ((coupledNet.assign L).owned L coupledNet v) := by
  refine ⟨[], [⟨[some (5 / 2), some (5 / 2)], none⟩], fun i => if i = 0 ∨ i = 2 then 1 else 0, ?_, ?_⟩
  · have e : violatesRatings coupledNet [] [⟨[some (5 / 2), some (5 / 2)], none⟩] (coupledNet.assign L)
        (fun i => if i = 0 ∨ i = 2 then 1 else 0)
        (Results.make coupledNet [] (coupledNet.assign L) true (fun i => if i = 0 ∨ i = 2 then 1 else 0)) =
      anyTest [phaseTest [plainNode 0, plainNode 1, plainNode 2, plainNode 3] [(0, 2), (1, 3)] (fun i j => if i = j then 2 else 1)
        [some (5 / 2), some (5 / 2)] (fun i => if i = 0 ∨ i = 2 then 1 else 0) 0,
        phaseTest [plainNode 0, plainNode 1, plainNode 2, plainNode 3] [(0, 2), (1, 3)] (fun i j => if i = j then 2 else 1)
        [some (5 / 2), some (5 / 2)] (fun i => if i = 0 ∨ i = 2 then 1 else 0) 1] := rfl
    rw [e]
    have n2 : ‖(⟨2, 0⟩ : ℂ)‖ = 2 := by
      rw [show (⟨2, 0⟩ : ℂ) = ((2 : ℝ) : ℂ) from rfl, Complex.norm_real]; norm_num
    have t0 : phaseTest [plainNode 0, plainNode 1, plainNode 2, plainNode 3] [(0, 2), (1, 3)] (fun i j => if i = j then 2 else 1)
        [some (5 / 2), some (5 / 2)] (fun i => if i = 0 ∨ i = 2 then 1 else 0) 0 = .ok false := by
      simp [phaseTest, lineResult, nodeAt, plainNode, readIdx, n2]; norm_num
    have t1 : phaseTest [plainNode 0, plainNode 1, plainNode 2, plainNode 3] [(0, 2), (1, 3)] (fun i j => if i = j then 2 else 1)
        [some (5 / 2), some (5 / 2)] (fun i => if i = 0 ∨ i = 2 then 1 else 0) 1 = .ok false := by
      simp [phaseTest, lineResult, nodeAt, plainNode, readIdx, n2]; norm_num
    rw [t0, t1]; rfl
  · refine Or.inl ⟨((.unbalanced [(0, 2), (1, 3)] (fun i j => if i = j then 2 else 1) (fun _ _ => 0), []),
      ⟨[some (5 / 2), some (5 / 2)], none⟩), List.mem_of_getElem? (i := 0) rfl, _, _, _, 0, 5 / 2, rfl, by simp, rfl, ?_⟩
    have e : seriesCurrent [(0, 2), (1, 3)] (fun i j => if i = j then 2 else 1)
        ((coupledNet.assign L).voltages (fun i => if i = 0 ∨ i = 2 then 1 else 0)) 0 = 3 := by
      have hnodes : (coupledNet.assign L).nodes = [plainNode 0, plainNode 1, plainNode 2, plainNode 3] := rfl
      have c0 : (coupledNet.assign L).voltages (fun i => if i = 0 ∨ i = 2 then 1 else 0) (some 0) = 1 := by
        unfold Assignment.voltages; rw [hnodes]; apply Complex.ext <;> simp [nodeAt, plainNode, Node.volt, readIdx]
      have c1 : (coupledNet.assign L).voltages (fun i => if i = 0 ∨ i = 2 then 1 else 0) (some 1) = 1 := by
        unfold Assignment.voltages; rw [hnodes]; apply Complex.ext <;> simp [nodeAt, plainNode, Node.volt, readIdx]
      have c2 : (coupledNet.assign L).voltages (fun i => if i = 0 ∨ i = 2 then 1 else 0) (some 2) = 0 := by
        unfold Assignment.voltages; rw [hnodes]; apply Complex.ext <;> simp [nodeAt, plainNode, Node.volt, readIdx]
      have c3 : (coupledNet.assign L).voltages (fun i => if i = 0 ∨ i = 2 then 1 else 0) (some 3) = 0 := by
        unfold Assignment.voltages; rw [hnodes]; apply Complex.ext <;> simp [nodeAt, plainNode, Node.volt, readIdx]
      unfold seriesCurrent
      rw [show [(0, 2), (1, 3)].length = 2 from rfl, show List.range 2 = [0, 1] from rfl]
      simp only [List.map_cons, List.map_nil, List.sum_cons, List.sum_nil]
      simp only [show ([(0, 2), (1, 3)] : List (ℕ × ℕ)).getD 0 (0, 0) = (0, 2) from rfl,
        show ([(0, 2), (1, 3)] : List (ℕ × ℕ)).getD 1 (0, 0) = (1, 3) from rfl, c0, c1, c2, c3]
      norm_num
    rw [e]
    norm_num

/-- A single-phase line that meets the hypotheses, with a check that answers. -/
example (v : ℕ → ℝ) : ∃ b, violatesRatings ⟨2, [.unbalanced [(0, 1)] (fun i j => if i = j then 2 else 0) (fun _ _ => 0)], none⟩
    [⟨false, 1⟩, ⟨false, 1⟩] [⟨[some 1], none⟩]
    (Network.assign L ⟨2, [.unbalanced [(0, 1)] (fun i j => if i = j then 2 else 0) (fun _ _ => 0)], none⟩) v
    (Results.make ⟨2, [.unbalanced [(0, 1)] (fun i j => if i = j then 2 else 0) (fun _ _ => 0)], none⟩ [⟨false, 1⟩, ⟨false, 1⟩]
    (Network.assign L ⟨2, [.unbalanced [(0, 1)] (fun i j => if i = j then 2 else 0) (fun _ _ => 0)], none⟩) true v) = .ok b := by
  have hb : ∀ r : BusResult, ∃ c, busTest [⟨false, 1⟩, ⟨false, 1⟩] r = .ok c := by
    intro r
    unfold busTest
    rcases hr : ([⟨false, 1⟩, ⟨false, 1⟩] : List BusInfo)[r.bus]? with _ | i
    · exact ⟨_, rfl⟩
    · have : i.vnom ≠ 0 := by
        have := List.mem_of_getElem? hr
        simp at this; rw [this]; norm_num
      exact ⟨_, if_neg this⟩
  obtain ⟨c, hc⟩ := hb (BusResult.make 0 (v 0) (v 1) none)
  obtain ⟨d, hd⟩ := hb (BusResult.make 1 (v 2) (v 3) none)
  have e : ∀ f : Bool, anyTest [.ok f, busTest [⟨false, 1⟩, ⟨false, 1⟩] (BusResult.make 0 (v 0) (v 1) none),
      busTest [⟨false, 1⟩, ⟨false, 1⟩] (BusResult.make 1 (v 2) (v 3) none)] = .ok (f || (c || (d || false))) := by
    intro f; rw [hc, hd]; rfl
  exact ⟨_, e _⟩

/-! ### Examples for C38 and C63 -/

/-- A center-tap transformer and its report, at any vector. -/
example (v : ℕ → ℝ) : ∃ (ps : List Placed) (q : Placed) (w : List ℝ), ps[0]? = some q ∧ (⟨(ctPower q v).1, (ctPower q v).2⟩ : ℂ) =
    (Element.centerTap 0 1 2 3 4 5 10 1 0 1 0 1 0).throughput ((Network.assign L ⟨6, [.centerTap 0 1 2 3 4 5 10 1 0 1 0 1 0], none⟩).voltages v) w := by
  obtain ⟨q, w, h1, -, h2, -⟩ := C38_center_tap (L := L) ⟨6, [.centerTap 0 1 2 3 4 5 10 1 0 1 0 1 0], none⟩ v 0 1 2 3 4 5 10 1 0 1 0 1 0 _
    (List.mem_of_getElem? (i := 0) rfl)
  exact ⟨_, q, w, h1, h2⟩

/-- A two-winding transformer between two grounded pairs, at a real voltage of the first bus: nothing is reported as reactive power. -/
example : ∃ (ps : List Placed) (p : Placed), ps[0]? = some p ∧ (xfmrPower p (fun i => if i = 0 then 10 else 0)).2 = 0 := by
  obtain ⟨p, w, h1, -, -, -, h2⟩ := C38_transformer_partial (L := L) ⟨2, [.transformer (some 0) none (some 1) none 2 0 1 0], none⟩
    (fun i => if i = 0 then 10 else 0) (some 0) none (some 1) none 2 0 1 0 _ (List.mem_of_getElem? (i := 0) rfl)
  refine ⟨_, p, h1, (h2 ?_).2⟩
  show ((⟨10, 0⟩ : ℂ) - 0).im = 0
  simp

/-- `C63_ratings_partial` on the single-phase line: any answer of the check is the right one. -/
example (v : ℕ → ℝ) (b : Bool) (h : violatesRatings ⟨2, [.unbalanced [(0, 1)] (fun i j => if i = j then 2 else 0) (fun _ _ => 0)], none⟩
    [⟨false, 1⟩, ⟨false, 1⟩] [⟨[some 1], none⟩]
    (Network.assign L ⟨2, [.unbalanced [(0, 1)] (fun i j => if i = j then 2 else 0) (fun _ _ => 0)], none⟩) v
    (Results.make ⟨2, [.unbalanced [(0, 1)] (fun i j => if i = j then 2 else 0) (fun _ _ => 0)], none⟩ [⟨false, 1⟩, ⟨false, 1⟩]
    (Network.assign L ⟨2, [.unbalanced [(0, 1)] (fun i j => if i = j then 2 else 0) (fun _ _ => 0)], none⟩) true v) = .ok b) :
    b = true ↔ Overload [⟨false, 1⟩, ⟨false, 1⟩] [⟨[some 1], none⟩]
      ((Network.assign L ⟨2, [.unbalanced [(0, 1)] (fun i j => if i = j then 2 else 0) (fun _ _ => 0)], none⟩).voltages v)
      ((Network.assign L ⟨2, [.unbalanced [(0, 1)] (fun i j => if i = j then 2 else 0) (fun _ _ => 0)], none⟩).owned L
        ⟨2, [.unbalanced [(0, 1)] (fun i j => if i = j then 2 else 0) (fun _ _ => 0)], none⟩ v) := by
  refine C63_ratings_partial (L := L) _ _ _ true v b ?_ ?_ ?_ rfl h
  · intro e he
    rw [List.mem_singleton] at he
    subst he
    intro i j hij
    simp [hij]
  · intro x hx fp fn tp tn tr ang g s he
    simp only [List.zip_cons_cons, List.zip_nil_right, List.mem_singleton] at hx
    subst hx
    cases he
  · intro i hi
    simp at hi
    rw [hi]; norm_num

end Verif
