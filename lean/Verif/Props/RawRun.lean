import Verif.Lemmas.RawRun
import Verif.Model.Execute
import Verif.Props.LightFar
import Verif.Props.Exchange
import Verif.Props.RawText
import Verif.Props.Start

/-!
# C143: a lightly loaded RAW case is solved

From the records of a case to the voltages the run returns: the conditions are on the records, the conclusion is about bus numbers and the power flow
equations of the records.
-/

namespace Verif.Raw

open Ex Devices ComplexConjugate

variable {L : Library}

/-- The network without load at the voltages of the case without load. -/
theorem idle_voltages (hL : L.Loaded) {c : Case} {o : Out} (hs : c.Supplied) (h : parseRaw c = .ok o) {Z : TwoRec → ℂ} {V0 : ℤ → ℂ}
    (hne : ∀ k, c.Energised k → V0 k ≠ 0) (h0 : (c.withLoads 0).PowerFlow Z V0) :
    ∃ x0, (o.toNetwork.factor 0 0).SolvedBy L x0 ∧ ∀ k, c.Energised k → (o.toNetwork.assign L).voltages x0 (some (o.pos k)) = V0 k := by
  obtain ⟨x0, h1, h2⟩ := (power_flow_any hL (withLoads_plain hs.plain 0) (parse_withLoads hs h 0) h0.impedance V0 hne).2 h0
  rw [withLoads_network] at h1 h2
  exact ⟨x0, (C67_equations_are_kirchhoff hL _ rfl 0 x0).1 h2, h1⟩

/-- The loads of the loaded case are at energised buses. -/
theorem load_places {c : Case} {o : Out} (hs : c.Supplied) (h : parseRaw c = .ok o) {f u : Ref} {l : Load} (he : Element.load f u l ∈ o.toNetwork.elements) :
    ∃ r ∈ c.loads, r.Served c ∧ f = some (o.pos r.i) ∧ u = none ∧ l.P = r.pl / 100 ∧ l.Q = r.ql / 100 := by
  classical
  obtain ⟨g, sw, fs, ls, bs, x2, top, x3, h1, -, -, h4, -, -, -, -, ho⟩ := parseRaw_ok.1 h
  have hlo : o.loads = ls := by rw [ho, supplied_genLoads hs h1, List.nil_append]
  have hf := loads_filter hs.plain.distinct h4
  rw [mapPy_ok, hf] at h4
  simp only [Out.toNetwork, List.mem_append, List.mem_map] at he
  rcases he with ⟨x, hx, e⟩ | ⟨x, hx, e⟩ | ⟨x, hx, e⟩ | ⟨x, hx, e⟩ | ⟨x, hx, e⟩ | ⟨x, hx, e⟩
  · cases e
  · cases e
  · cases e
  · cases e
  · rw [hlo] at hx
    obtain ⟨r, hr, hi⟩ := forall₂_mem_right h4 hx
    obtain ⟨hr', hser⟩ := List.mem_filter.1 hr
    obtain ⟨-, rfl⟩ := loadIntegrate_ok.1 hi
    cases e
    exact ⟨r, hr', by simpa using hser, rfl, rfl, rfl, rfl⟩
  · cases e

/-- Finitely many voltages that are not zero are away from zero. -/
theorem voltage_floor {c : Case} {V0 : ℤ → ℂ} (hne : ∀ k, c.Energised k → V0 k ≠ 0) : ∃ m > 0, ∀ k, c.Energised k → m ≤ ‖V0 k‖ := by
  obtain ⟨m, hm, h⟩ := positive_floor (fun i => ‖V0 (c.online.getD i 0)‖) c.online.length
  refine ⟨m, hm, fun k hk => ?_⟩
  have hk' : k ∈ c.online := mem_online.2 hk
  obtain ⟨i, hi, rfl⟩ := List.mem_iff_getElem.1 hk'
  have e : c.online.getD i 0 = c.online[i] := by rw [List.getD_eq_getElem?_getD, List.getElem?_eq_getElem hi]; rfl
  have := h i hi
  simp only [e] at this
  exact this (norm_pos_iff.2 (hne _ hk))

/-- **C143, the equations.** Take a case fed from its swing buses (`Supplied`) that loads, and its voltages without load, none of them zero. For every
distance there is a load factor up to which the power flow equations of the case with its loads multiplied by the factor have a solution within that distance,
and no other solution in which every bus has at least half of its voltage without load. -/
theorem C143_case_partial (hL : L.Loaded) {c : Case} {o : Out} (hs : c.Supplied) (h : parseRaw c = .ok o) {Z : TwoRec → ℂ} {V0 : ℤ → ℂ}
    (hne : ∀ k, c.Energised k → V0 k ≠ 0) (h0 : (c.withLoads 0).PowerFlow Z V0) (ε : ℝ) (hε : 0 < ε) :
    ∃ s0 > 0, ∀ s : ℝ, |s| ≤ s0 → ∃ V, (c.withLoads s).PowerFlow Z V ∧
      (∀ k, c.Energised k → ‖V k - V0 k‖ ≤ ε ∧ ‖V0 k‖ / 2 ≤ ‖V k‖) ∧
      ∀ V', (c.withLoads s).PowerFlow Z V' → (∀ k, c.Energised k → ‖V0 k‖ / 2 ≤ ‖V' k‖) → ∀ k, c.Energised k → V' k = V k := by
  obtain ⟨x0, hx0, hV0⟩ := idle_voltages hL hs h hne h0
  have hv := plain_valid hs.plain h
  have hN := supplied_sturdy hs h
  obtain ⟨m, hm, hfl⟩ := voltage_floor hne
  have hlos : ∀ {f u l}, Element.load f u l ∈ o.toNetwork.elements → ∃ k, c.Energised k ∧ f = some (o.pos k) ∧ u = none := fun he => by
    obtain ⟨r, -, hser, e1, e2, -⟩ := load_places hs h he
    exact ⟨r.i, hser.2, e1, e2⟩
  have hacr : ∀ k, o.toNetwork.power k ≠ 0 → ∃ i, c.Energised i ∧ ∀ W : Ref → ℂ, o.toNetwork.across W k = W (some (o.pos i)) - W none := by
    intro k hk
    unfold Network.power at hk
    unfold Network.across
    cases hel : o.toNetwork.elements[k]? with
    | none => rw [hel] at hk; exact absurd rfl hk
    | some e =>
      rw [hel] at hk
      cases e with
      | load f u l =>
        obtain ⟨i, hi, rfl, rfl⟩ := hlos (List.mem_of_getElem? hel)
        exact ⟨i, hi, fun W => rfl⟩
      | _ => exact absurd rfl hk
  have hreg : ∀ e ∈ o.toNetwork.elements, e.RegularAt 0 ((o.toNetwork.assign L).voltages x0) := by
    intro e he
    cases e with
    | load f u l =>
      obtain ⟨i, hi, rfl, rfl⟩ := hlos he
      refine Or.inr ?_
      rw [hV0 i hi]
      exact hne i hi
    | generator b P W =>
      exfalso
      simp only [Out.toNetwork, supplied_generators hs h, List.mem_append, List.mem_map, List.not_mem_nil, false_and, exists_false, false_or] at he
      rcases he with ⟨x, hx, e⟩ | ⟨x, hx, e⟩ | ⟨x, hx, e⟩ | ⟨x, hx, e⟩ | ⟨x, hx, e⟩ <;> cases e
    | centerTap =>
      exfalso
      simp only [Out.toNetwork, supplied_generators hs h, List.mem_append, List.mem_map, List.not_mem_nil, false_and, exists_false, false_or] at he
      rcases he with ⟨x, hx, e⟩ | ⟨x, hx, e⟩ | ⟨x, hx, e⟩ | ⟨x, hx, e⟩ | ⟨x, hx, e⟩ <;> cases e
    | _ => trivial
  obtain ⟨s1, hs1, hA⟩ := C130_healthy_partial hL o.toNetwork hv hN x0 hx0 (fun k hk => by
    obtain ⟨i, hi, e⟩ := hacr k hk
    rw [e, hV0 i hi, voltages_ground, sub_zero]
    exact hne i hi)
  obtain ⟨δ, hδ, hB⟩ := C130_solution_partial hL o.toNetwork hv hN x0 hx0 hreg
  obtain ⟨s2, hs2, hB⟩ := hB (min ε m / 4) (by positivity)
  refine ⟨min s1 s2, lt_min hs1 hs2, fun s hss => ?_⟩
  obtain ⟨x, hx1, hx2, hx3⟩ := hA s (hss.trans (min_le_left _ _))
  obtain ⟨w, hw1, hw2, -⟩ := hB s (hss.trans (min_le_right _ _))
  have hclose : ∀ k, c.Energised k → ‖(o.toNetwork.assign L).voltages w (some (o.pos k)) - V0 k‖ ≤ min ε m / 2 := fun k hk => by
    have := volt_close hL (N := o.toNetwork) rfl (by positivity) hw1 (some (o.pos k))
    rw [hV0 k hk] at this
    linarith
  have hhalf : ∀ k, c.Energised k → ‖V0 k‖ / 2 ≤ ‖(o.toNetwork.assign L).voltages w (some (o.pos k))‖ := fun k hk => by
    have h1 := hclose k hk
    have h2 := hfl k hk
    have h3 := norm_sub_norm_le (V0 k) (V0 k - (o.toNetwork.assign L).voltages w (some (o.pos k)))
    rw [sub_sub_cancel, norm_sub_rev] at h3
    linarith [min_le_right ε m]
  have hloads : ∀ y : ℕ → ℝ, (∀ k, c.Energised k → ‖V0 k‖ / 2 ≤ ‖(o.toNetwork.assign L).voltages y (some (o.pos k))‖) → ∀ k, o.toNetwork.power k ≠ 0 →
      ‖o.toNetwork.across ((o.toNetwork.assign L).voltages x0) k‖ / 2 ≤ ‖o.toNetwork.across ((o.toNetwork.assign L).voltages y) k‖ := fun y hy k hk => by
    obtain ⟨i, hi, e⟩ := hacr k hk
    rw [e, e, hV0 i hi, voltages_ground, voltages_ground, sub_zero, sub_zero]
    exact hy i hi
  have hwx := hx3 w hw2 (hloads w hhalf)
  have hp' := withLoads_plain hs.plain s
  have hpar := parse_withLoads hs h s
  have hiff := fun V hV => power_flow_any (L := L) hL hp' hpar (Z := Z) h0.impedance V hV
  rw [withLoads_network] at hiff
  refine ⟨fun k => (o.toNetwork.assign L).voltages w (some (o.pos k)), ?_, fun k hk => ⟨?_, hhalf k hk⟩, fun V' hV' hh k hk => ?_⟩
  · refine (hiff _ fun k hk e => ?_).1 ⟨w, fun k hk => rfl, (C67_equations_are_kirchhoff hL _ rfl 0 w).2 hw2⟩
    have := hhalf k hk
    rw [e, norm_zero] at this
    have := norm_pos_iff.2 (hne k hk)
    linarith
  · linarith [hclose k hk, min_le_left ε m]
  · obtain ⟨y, hy1, hy2⟩ := (hiff V' fun k hk e => by
      have h1 := hh k hk
      rw [e, norm_zero] at h1
      have := norm_pos_iff.2 (hne k hk)
      linarith).2 hV'
    have hyv : ∀ k, c.Energised k → (o.toNetwork.assign L).voltages y (some (o.pos k)) = V' k := hy1
    have hyx := hx3 y ((C67_equations_are_kirchhoff hL _ rfl 0 y).1 hy2) (hloads y fun k hk => by rw [hyv k hk]; exact hh k hk)
    rw [← hyv k hk, volt_agree hL (N := o.toNetwork) rfl fun i hi => (hyx i hi).trans (hwx i hi).symm]

/-- **C143, the run.** Take a case as before whose loads are not aligned with the voltages without load (`OffAxes`), and a start vector in which no bus is at zero.
For every distance and tolerance all small enough load factors but zero make the whole run - device control, homotopy and Newton's method - report success. The
voltages it returns are within that distance of a solution of the power flow equations of the records with their loads multiplied by the factor. -/
theorem C143_run_partial (hL : L.Loaded) {c : Case} {o : Out} (hs : c.Supplied) (h : parseRaw c = .ok o) {Z : TwoRec → ℂ} {V0 : ℤ → ℂ}
    (hne : ∀ k, c.Energised k → V0 k ≠ 0) (h0 : (c.withLoads 0).PowerFlow Z V0) (hoff : c.OffAxes V0) (vInit : ℕ → ℝ)
    (hvi : ∀ k, c.Energised k → (o.toNetwork.assign L).voltages vInit (some (o.pos k)) ≠ 0) (ε tol : ℝ) (hε : 0 < ε) (htol : 0 < tol) :
    ∃ s0 > 0, ∀ s : ℝ, s ≠ 0 → |s| ≤ s0 → ∀ (C : NRContext) (txStepping control : Bool), C.solve = idealSolve (o.toNetwork.assign L).size → C.limit = none →
      tol ≤ C.tolerance → 2 ≤ C.maxIters →
      ∃ r V, parseRaw (c.withLoads s) = .ok (o.withLoads s) ∧
        ((o.withLoads s).toDx.run L C txStepping control vInit).out = .ok (r, (o.withLoads s).toDx) ∧ r.success = true ∧ (c.withLoads s).PowerFlow Z V ∧
        ∀ k, c.Energised k → ‖((o.withLoads s).toNetwork.assign L).voltages r.v (some (o.pos k)) - V k‖ ≤ ε ∧ ‖V k - V0 k‖ ≤ ε := by
  obtain ⟨x0, hx0, hV0⟩ := idle_voltages hL hs h hne h0
  have hv := plain_valid hs.plain h
  have hN := supplied_sturdy hs h
  have hkinds : ∀ e ∈ o.toNetwork.elements, (∃ f u l, e = .load f u l) ∨ (∀ b P W, e ≠ .generator b P W) ∧ (∀ f u l, e ≠ .load f u l) ∧ (∀ a b d e' f g r x0 y0 x1 y1 x2 y2,
      e ≠ .centerTap a b d e' f g r x0 y0 x1 y1 x2 y2) := by
    intro e he
    simp only [Out.toNetwork, supplied_generators hs h, List.mem_append, List.mem_map, List.not_mem_nil, false_and, exists_false, false_or] at he
    rcases he with ⟨x, hx, rfl⟩ | ⟨x, hx, rfl⟩ | ⟨x, hx, rfl⟩ | ⟨x, hx, rfl⟩ | ⟨x, hx, rfl⟩
    · exact Or.inr ⟨fun _ _ _ => Element.noConfusion, fun _ _ _ => Element.noConfusion, fun _ _ _ _ _ _ _ _ _ _ _ _ _ => Element.noConfusion⟩
    · exact Or.inr ⟨fun _ _ _ => Element.noConfusion, fun _ _ _ => Element.noConfusion, fun _ _ _ _ _ _ _ _ _ _ _ _ _ => Element.noConfusion⟩
    · exact Or.inr ⟨fun _ _ _ => Element.noConfusion, fun _ _ _ => Element.noConfusion, fun _ _ _ _ _ _ _ _ _ _ _ _ _ => Element.noConfusion⟩
    · exact Or.inl ⟨_, _, _, rfl⟩
    · exact Or.inr ⟨fun _ _ _ => Element.noConfusion, fun _ _ _ => Element.noConfusion, fun _ _ _ _ _ _ _ _ _ _ _ _ _ => Element.noConfusion⟩
  have hst : ∀ e ∈ o.toNetwork.elements, e.SteadyAt ((o.toNetwork.assign L).voltages x0) [] := by
    intro e he
    rcases hkinds e he with ⟨f, u, l, rfl⟩ | ⟨h1, h3, h2⟩
    · obtain ⟨r, hr, hser, rfl, rfl, hP, hQ⟩ := load_places hs h he
      show _ ∨ _
      rw [hV0 r.i hser.2, voltages_ground, sub_zero, hP, hQ]
      have e : (⟨r.pl / 100, r.ql / 100⟩ : ℂ) = ((1 / 100 : ℝ) : ℂ) * ⟨r.pl, r.ql⟩ := by apply Complex.ext <;> simp <;> ring
      rcases hoff r hr hser with ⟨e1, e2⟩ | ⟨e1, e2⟩
      · exact Or.inl ⟨by rw [e1]; simp, by rw [e2]; simp⟩
      · refine Or.inr ?_
        rw [e, mul_assoc, Complex.re_ofReal_mul, Complex.im_ofReal_mul]
        exact ⟨mul_ne_zero (by norm_num) e1, mul_ne_zero (by norm_num) e2⟩
    · cases e with
      | load f u l => exact absurd rfl (h3 f u l)
      | generator b P W => exact absurd rfl (h1 b P W)
      | _ => trivial
  have hreg : ∀ e ∈ o.toNetwork.elements, e.RegularAt 0 ((o.toNetwork.assign L).voltages vInit) := by
    intro e he
    rcases hkinds e he with ⟨f, u, l, rfl⟩ | ⟨h1, h3, h2⟩
    · obtain ⟨r, hr, hser, rfl, rfl, -⟩ := load_places hs h he
      refine Or.inr ?_
      rw [voltages_ground]
      exact hvi r.i hser.2
    · cases e with
      | generator b P W => exact absurd rfl (h1 b P W)
      | centerTap => exact absurd rfl (h2 _ _ _ _ _ _ _ _ _ _ _ _ _)
      | load f u l => exact absurd rfl (h3 f u l)
      | _ => trivial
  have hb : 0 < o.toNetwork.buses := by
    obtain ⟨g, sw, fs, ls, bs, x2, top, x3, -, -, -, -, -, -, h7, -, -⟩ := parseRaw_ok.1 h
    show 0 < o.buses.length
    rw [plain_buses hs.plain h]
    cases hc : c.online with
    | nil => rw [hc] at h7; cases h7
    | cons a as => simp
  have hsz := size_of_bus hL (N := o.toNetwork) rfl hb
  obtain ⟨s1, hs1, hA⟩ := C130_light_partial hL o.toNetwork hv hN hsz x0 hx0 hst vInit hreg (ε / 4) tol (by positivity) htol
  obtain ⟨s2, hs2, hB⟩ := C143_case_partial hL hs h hne h0 (ε / 2) (by positivity)
  refine ⟨min s1 s2, lt_min hs1 hs2, fun s hs0 hss C tx control hsolve hlim htl hmax => ?_⟩
  obtain ⟨V, hV1, hV2, -⟩ := hB s (hss.trans (min_le_right _ _))
  obtain ⟨m, hm, -⟩ := build_ready (o.toNetwork.factor s s).opt ((o.toNetwork.factor s s).assign L).all (network_wellPlaced hL _ (factor_valid hv s))
  have hfs := factor_size (N := o.toNetwork) (L := L) rfl hL s
  obtain ⟨r, hr1, hr2, -, -, -, hr3⟩ := hA s hs0 (hss.trans (min_le_left _ _)) m { C with size := ((o.toNetwork.factor s s).assign L).size } tx hm rfl
    (by show C.solve = idealSolve _; rw [hfs]; exact hsolve) hlim htl hmax
  have hdx : (o.withLoads s).toDx = ⟨(o.toNetwork.factor s s).buses, (o.toNetwork.factor s s).elements.map .fixed, (o.toNetwork.factor s s).optimization, false⟩ := by
    rw [Out.toDx, withLoads_network]
    rfl
  refine ⟨r, V, parse_withLoads hs h s, ?_, hr2, hV1, fun k hk => ⟨?_, by linarith [(hV2 k hk).1]⟩⟩
  · rw [hdx]
    exact fixed_run hm hr1
  · rw [withLoads_network, factor_voltages]
    have hw : Within (o.toNetwork.assign L).size (ε / 4) r.v x0 := fun i hi => hr3 i (by show i < ((o.toNetwork.factor s s).assign L).size; rw [hfs]; exact hi)
    have h1 := volt_close hL (N := o.toNetwork) rfl (by positivity) hw (some (o.pos k))
    rw [hV0 k hk] at h1
    have h2 := (hV2 k hk).1
    rw [norm_sub_rev] at h2
    calc _ = ‖((o.toNetwork.assign L).voltages r.v (some (o.pos k)) - V0 k) + (V0 k - V k)‖ := by rw [sub_add_sub_cancel]
      _ ≤ _ := norm_add_le _ _
      _ ≤ ε := by linarith

/-- From a flat start every bus of the case begins at one. -/
theorem C143_flat (hL : L.Loaded) {c : Case} {o : Out} (hp : c.Plain) (h : parseRaw c = .ok o) {buses : List (ℝ × ℝ)} (hb : buses.length = o.toNetwork.buses)
    (gens : List Generator) (slacks : List (ℝ × ℝ)) {k : ℤ} (hk : c.Energised k) :
    (o.toNetwork.assign L).voltages (txInit L o.toNetwork true buses gens slacks) (some (o.pos k)) = 1 := by
  have hk' : k ∈ o.buses := by rw [plain_buses hp h]; exact mem_online.2 hk
  obtain ⟨a, b, h1, h2, h3, h4, -⟩ := C57_bus_entries_partial hL o.toNetwork true hb gens slacks (k := o.pos k) (List.idxOf_lt_length_iff.2 hk')
  have e : (o.toNetwork.assign L).voltages (txInit L o.toNetwork true buses gens slacks) (some (o.pos k)) =
      ⟨readIdx (txInit L o.toNetwork true buses gens slacks) (nodeAt (o.toNetwork.assign L).nodes (some (o.pos k))).vr,
        readIdx (txInit L o.toNetwork true buses gens slacks) (nodeAt (o.toNetwork.assign L).nodes (some (o.pos k))).vi⟩ := rfl
  rw [e, h1, h2]
  show (⟨txInit L o.toNetwork true buses gens slacks a, txInit L o.toNetwork true buses gens slacks b⟩ : ℂ) = 1
  rw [h3, h4]
  rfl

/-- A swing bus at unit voltage feeds a load of 80 MW and 60 Mvar over a line of impedance `1/2 + j/2`. -/
noncomputable def lightCase : Case where
  sbase := 100
  buses := [⟨1, 3, 1, 0, 138⟩, ⟨2, 1, 1, 0, 138⟩]
  generators := [⟨1, 0, 0, 50, -50, 1, 1, 0, 1⟩]
  switched := []
  fixed := []
  loads := [⟨2, 1, 80, 60, 0, 0, 0, 0⟩]
  branches := [⟨1, 2, 1 / 2, 1 / 2, 0, 0, 0, 0, 0, 1⟩]
  two := []
  three := []

theorem lightCase_supported : lightCase.Supported := by
  classical
  have hk : ∀ i : ℤ, i = 1 ∨ i = 2 → lightCase.Known i := by
    rintro i (rfl | rfl) <;> simp [lightCase, Case.Known]
  have hr1 : ¬ GenRec.Regulates lightCase ⟨1, 0, 0, 50, -50, 1, 1, 0, 1⟩ := by
    rintro ⟨⟨b, hb, hi, ht⟩, -⟩
    simp only [lightCase, List.mem_cons, List.not_mem_nil, or_false] at hb
    rcases hb with rfl | rfl <;> simp_all
  constructor
  · simp [Case.DistinctBuses, lightCase]
  · exact ⟨1, by simp [Case.Energised, lightCase]⟩
  · norm_num [lightCase]
  · intro g hg
    simp only [lightCase, List.mem_cons, List.not_mem_nil, or_false] at hg
    subst hg
    norm_num
  · have : lightCase.switched = [] := rfl
    have hg : lightCase.generators = [⟨1, 0, 0, 50, -50, 1, 1, 0, 1⟩] := rfl
    rw [this, hg]
    simp [List.filter_cons, hr1]
  · simp [lightCase]
  · simp [lightCase]
  · intro r hr _
    simp only [lightCase, List.mem_cons, List.not_mem_nil, or_false] at hr
    subst hr
    exact hk _ (by norm_num)
  · intro r hr _
    simp only [lightCase, List.mem_cons, List.not_mem_nil, or_false] at hr
    subst hr
    exact ⟨hk _ (by norm_num), hk _ (by norm_num)⟩
  · intro r hr _
    simp only [lightCase, List.mem_cons, List.not_mem_nil, or_false] at hr
    subst hr
    norm_num
  · simp [lightCase]
  · simp [lightCase]
  · simp [lightCase]

theorem lightCase_energised {k : ℤ} (h : lightCase.Energised k) : k = 1 ∨ k = 2 := by
  obtain ⟨b, hb, rfl, -⟩ := h
  simp only [lightCase, List.mem_cons, List.not_mem_nil, or_false] at hb
  rcases hb with rfl | rfl <;> simp

theorem lightCase_swing : lightCase.Swing 1 := ⟨by simp [Case.HasType, lightCase], by simp [lightCase]⟩

theorem lightCase_line : BranchRec.Served lightCase ⟨1, 2, 1 / 2, 1 / 2, 0, 0, 0, 0, 0, 1⟩ :=
  ⟨rfl, by simp [Case.Energised, lightCase], by simp [Case.Energised, lightCase]⟩

theorem lightCase_supplied : lightCase.Supplied := by
  constructor
  · constructor
    · exact lightCase_supported.distinct
    · rfl
    · exact lightCase_supported.machines
    · intro r hr
      simp only [lightCase, List.mem_cons, List.not_mem_nil, or_false] at hr
      subst hr
      norm_num
    · simp [lightCase]
    · simp [lightCase]
  · intro r hr _
    simp only [lightCase, List.mem_cons, List.not_mem_nil, or_false] at hr
    subst hr
    norm_num
  · simp [lightCase]
  · simp [lightCase]
  · intro g hg _
    simp only [lightCase, List.mem_cons, List.not_mem_nil, or_false] at hg
    subst hg
    rintro ⟨b, hb, hi, ht⟩
    simp only [lightCase, List.mem_cons, List.not_mem_nil, or_false] at hb
    rcases hb with rfl | rfl <;> simp_all
  · simp [lightCase]
  · intro k hk
    rcases lightCase_energised hk with rfl | rfl
    · exact .swing lightCase_swing
    · exact .line (r := ⟨1, 2, 1 / 2, 1 / 2, 0, 0, 0, 0, 0, 1⟩) (List.mem_singleton.2 rfl) lightCase_line (.swing lightCase_swing)

/-- Without load both buses are at one. -/
theorem lightCase_idle (Z : TwoRec → ℂ) : (lightCase.withLoads 0).PowerFlow Z fun _ => 1 := by
  classical
  have hnet : (lightCase.withLoads 0).net Z (fun _ => 1) 2 = 0 := by
    have hb : (lightCase.withLoads 0).branches = [⟨1, 2, 1 / 2, 1 / 2, 0, 0, 0, 0, 0, 1⟩] := rfl
    have ht : (lightCase.withLoads 0).two = [] := rfl
    have hs : (lightCase.withLoads 0).shuntAt 2 = 0 := by
      apply Complex.ext <;> simp [Case.shuntAt, lightCase, Case.withLoads, total]
    have hl : BranchRec.Served (lightCase.withLoads 0) ⟨1, 2, 1 / 2, 1 / 2, 0, 0, 0, 0, 0, 1⟩ := lightCase_line
    rw [Case.net, hb, ht, hs]
    simp only [List.filter_cons, hl, decide_true, if_true, List.filter_nil, List.map_cons, List.map_nil, List.sum_cons,
      List.sum_nil, BranchRec.current]
    apply Complex.ext <;> norm_num
  have hg0 : ∀ f : GenRec → ℝ,
      total (lightCase.withLoads 0).generators (fun g => g.i = 2 ∧ g.stat = 1 ∧ (lightCase.withLoads 0).HasType 2 2) f = 0 := by
    intro f
    rw [total_eq]
    simp [lightCase, Case.withLoads]
  have hl0 : (lightCase.withLoads 0).loads = [⟨2, 1, 80 * 0, 60 * 0, 0, 0, 0, 0⟩] := rfl
  constructor
  · simp [lightCase, Case.withLoads]
  · intro k hk hns
    rcases lightCase_energised hk with rfl | rfl
    · exact absurd lightCase_swing hns
    · rw [hg0, hnet, total_eq, hl0]
      simp
  · intro k hk hns _
    rcases lightCase_energised hk with rfl | rfl
    · exact absurd lightCase_swing hns
    · rw [hg0, hnet, total_eq, hl0]
      simp
  · intro g hg hr
    obtain ⟨ht, -⟩ := hr
    refine absurd ht (lightCase_supplied.machines g hg ?_)
    simp only [lightCase, Case.withLoads, List.mem_cons, List.not_mem_nil, or_false] at hg
    rw [hg]
  · simp [lightCase, Case.withLoads]
  · intro k g ht hg b hb hbi
    have hgm := List.mem_of_find?_eq_some hg
    have hgi := List.find?_some hg
    simp only [lightCase, Case.withLoads, List.mem_cons, List.not_mem_nil, or_false] at hgm
    subst hgm
    have hk : k = 1 := by simpa [eq_comm] using hgi
    subst hk
    simp only [lightCase, Case.withLoads, List.mem_cons, List.not_mem_nil, or_false] at hb
    rcases hb with rfl | rfl
    · apply Complex.ext <;> simp
    · simp at hbi

/-- `lightCase` meets the hypotheses with a flat start: to within a thousandth it is solved by the program whenever its load is scaled down far enough. -/
example (hL : L.Loaded) (Z : TwoRec → ℂ) (buses : List (ℝ × ℝ)) (gens : List Generator) (slacks : List (ℝ × ℝ)) (hb : buses.length = 2) :
    ∃ o, parseRaw lightCase = .ok o ∧ ∃ s0 > 0, ∀ s : ℝ, s ≠ 0 → |s| ≤ s0 → ∀ (C : NRContext), C.solve = idealSolve (o.toNetwork.assign L).size → C.limit = none →
      1 / 1000000 ≤ C.tolerance → 2 ≤ C.maxIters →
      ∃ r V, parseRaw (lightCase.withLoads s) = .ok (o.withLoads s) ∧
        ((o.withLoads s).toDx.run L C true true (txInit L o.toNetwork true buses gens slacks)).out = .ok (r, (o.withLoads s).toDx) ∧ r.success = true ∧
        (lightCase.withLoads s).PowerFlow Z V ∧
        ∀ k, lightCase.Energised k → ‖((o.withLoads s).toNetwork.assign L).voltages r.v (some (o.pos k)) - V k‖ ≤ 1 / 1000 ∧ ‖V k - 1‖ ≤ 1 / 1000 := by
  obtain ⟨o, ho⟩ := C78_supported_loads_partial lightCase_supported
  have hlen : buses.length = o.toNetwork.buses := by
    rw [hb]
    show 2 = o.buses.length
    rw [plain_buses lightCase_supplied.plain ho]
    simp [Case.online, lightCase]
  obtain ⟨s0, h1, h2⟩ := C143_run_partial hL lightCase_supplied ho (fun _ _ => one_ne_zero) (lightCase_idle Z) (fun r hr _ => Or.inr (by
    simp only [lightCase, List.mem_cons, List.not_mem_nil, or_false] at hr
    subst hr
    norm_num)) (txInit L o.toNetwork true buses gens slacks)
    (fun k hk => by rw [C143_flat hL lightCase_supplied.plain ho hlen gens slacks hk]; exact one_ne_zero) (1 / 1000) (1 / 1000000) (by norm_num) (by norm_num)
  exact ⟨o, ho, s0, h1, fun s h3 h4 C h5 h6 h7 h8 => h2 s h3 h4 C true true h5 h6 h7 h8⟩

/-- The equations of `lightCase`: every small enough load has a solution near one. -/
example (hL : L.Loaded) (Z : TwoRec → ℂ) : ∃ s0 > 0, ∀ s : ℝ, |s| ≤ s0 → ∃ V, (lightCase.withLoads s).PowerFlow Z V ∧ ‖V 2 - 1‖ ≤ 1 / 1000 := by
  obtain ⟨o, ho⟩ := C78_supported_loads_partial lightCase_supported
  obtain ⟨s0, h1, h2⟩ := C143_case_partial hL lightCase_supplied ho (fun _ _ => one_ne_zero) (lightCase_idle Z) (1 / 1000) (by norm_num)
  refine ⟨s0, h1, fun s hs => ?_⟩
  obtain ⟨V, h3, h4, -⟩ := h2 s hs
  exact ⟨V, h3, (h4 2 (by simp [Case.Energised, lightCase])).1⟩

end Verif.Raw
