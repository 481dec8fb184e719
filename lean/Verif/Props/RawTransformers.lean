import Verif.Props.RawQuantities

/-!
# C48, C77: two-winding transformers of a RAW case

Every record in service is loaded once, and the loaded transformer is the circuit its record describes.
-/

namespace Verif.Raw

open ComplexConjugate

theorem forall₂_filterMap {α β : Type} {f : α → Py (Option β)} {S : α → Prop} [DecidablePred S] {R : α → β → Prop}
    {l : List α} {m : List (Option β)} (h : List.Forall₂ (fun a b => f a = .ok b) l m)
    (hn : ∀ a ∈ l, f a = .ok none → ¬ S a) (hs : ∀ a ∈ l, ∀ b, f a = .ok (some b) → S a ∧ R a b) :
    List.Forall₂ R (l.filter fun a => S a) (m.filterMap id) := by
  induction h with
  | nil => exact List.Forall₂.nil
  | @cons a b l m hab _ ih =>
    have ih := ih (fun x hx => hn x (List.mem_cons_of_mem _ hx)) fun x hx => hs x (List.mem_cons_of_mem _ hx)
    cases b with
    | none =>
      have := hn a (List.mem_cons_self ..) hab
      simpa [List.filter_cons, this] using ih
    | some b =>
      obtain ⟨h1, h2⟩ := hs a (List.mem_cons_self ..) b hab
      simpa [List.filter_cons, h1] using ⟨h2, ih⟩

open Classical in
/-- **C48, two-winding transformers exactly once.** The loaded transformers are the two-winding records in service between
energised buses, each once and in order, followed by windings of three-winding transformers. -/
theorem C48_two_winding_once {c : Case} {o : Out} (hd : c.DistinctBuses) (h : parseRaw c = .ok o) :
    ∃ xs ys, o.xfmrs = xs ++ ys ∧
      List.Forall₂ (fun (r : TwoRec) (x : XfmrAt) => twoIntegrate c r = .ok (some x) ∧ x.f = r.i ∧ x.t = r.j)
        (c.two.filter fun r => r.Served c) xs ∧
      ∀ y ∈ ys, ∃ r ∈ c.three, r.stat ≠ 0 ∧ (y.f = r.i ∨ y.f = r.j ∨ y.f = r.k) := by
  obtain ⟨g, sw, fs, ls, bs, x2, top, x3, -, -, -, -, -, h6, -, h8, rfl⟩ := parseRaw_ok.1 h
  refine ⟨x2.filterMap id, x3.flatten, rfl, ?_, ?_⟩
  · rw [mapPy_ok] at h6
    have key := forall₂_filterMap (S := fun r => r.Served c)
      (R := fun r x => twoIntegrate c r = .ok (some x) ∧ x.f = r.i ∧ x.t = r.j) h6
      (fun a _ hn hs => hs.1 (twoIntegrate_none hn)) (fun a _ b hb => by
        obtain ⟨d, -, hst, he, he', hx⟩ := twoIntegrate_some.1 hb
        obtain ⟨-, rfl⟩ := makeXfmr_ok.1 hx
        exact ⟨⟨hst, he, he'⟩, hb, rfl, rfl⟩)
    rw [List.filter_filter] at key
    convert key using 2
    funext r
    by_cases hr : r.Served c
    · have : twoIn c r = true := by
        simp only [twoIn, decide_eq_true_eq]
        exact ⟨hd.not_off hr.2.1, hd.not_off hr.2.2⟩
      simp [hr, this]
    · simp [hr]
  · intro y hy
    obtain ⟨z, hz, hyz⟩ := List.mem_flatten.1 hy
    rw [mapPy_ok] at h8
    obtain ⟨r, hr, hl⟩ := forall₂_mem_right h8 hz
    obtain ⟨hm, hin⟩ := List.mem_filter.1 hr
    simp only [threeIn, decide_eq_true_eq] at hin
    refine ⟨r, hm, hin, ?_⟩
    unfold threeIntegrate at hl
    split at hl
    · cases hl
    split at hl
    · cases hl
    rename_i a ha
    split at hl
    · cases hl
    rename_i b hb
    split at hl
    · cases hl
    rename_i e he
    cases hl
    simp only [List.append_assoc, List.mem_append] at hyz
    rcases hyz with hyz | hyz | hyz
    · exact Or.inl (starWinding_mem ha hyz).2.1
    · exact Or.inr (Or.inl (starWinding_mem hb hyz).2.1)
    · exact Or.inr (Or.inr (starWinding_mem he hyz).2.1)

/-! ### C77: ratio and impedance by the codes -/

theorem turnsOf_spec {cw : ℤ} {w n b V t : ℝ} (h : turnsOf cw w n b = .ok t) (hb : b ≠ 0) (hV : IsTurns cw w n b V) :
    t = V / b := by
  unfold turnsOf pyDiv at h
  rcases hV with ⟨rfl, rfl⟩ | ⟨rfl, rfl⟩ | ⟨rfl, rfl⟩
  · simp only [if_true, Except.ok.injEq] at h
    rw [← h]
    field_simp
  · simp [hb] at h
    exact h.symm
  · simp [hb] at h
    exact h.symm

theorem nominal_eq {n b : ℝ} (h : 0 ≤ n) : (if 0 < n then n else b) = nominalOr n b := by
  unfold nominalOr
  rcases h.eq_or_lt with h | h
  · rw [← h]; simp
  · rw [if_pos h, if_neg h.ne']

/-- **C77, ratio.** A two-winding transformer whose windings have `V1` and `V2` kilovolt, stated under whichever winding
code, is loaded with the ratio of these voltages in per unit of the base voltages of their buses. -/
theorem C77_ratio {c : Case} {r : TwoRec} {x : XfmrAt} (hd : c.DistinctBuses) (h : twoIntegrate c r = .ok (some x))
    {bi bj : BusRec} (hbi : bi ∈ c.buses) (hi : bi.i = r.i) (hbj : bj ∈ c.buses) (hj : bj.i = r.j)
    (hbi0 : bi.baskv ≠ 0) (hbj0 : bj.baskv ≠ 0) (hn1 : 0 ≤ r.w1.nomv) (hn2 : 0 ≤ r.nomv2) {V1 V2 : ℝ}
    (h1 : IsTurns r.cw r.w1.windv (nominalOr r.w1.nomv bi.baskv) bi.baskv V1)
    (h2 : IsTurns r.cw r.windv2 (nominalOr r.nomv2 bj.baskv) bj.baskv V2) :
    V2 ≠ 0 ∧ x.tr = (V1 / bi.baskv) / (V2 / bj.baskv) ∧ x.ang = r.w1.ang * Real.pi / 180 ∧
      ∃ Z, IsImpedance r.cz r.z12 c.sbase Z ∧ (⟨x.r, x.x⟩ : ℂ) = Z * ((V2 / bj.baskv) ^ 2 : ℝ) ∧
        (⟨x.r, x.x⟩ : ℂ) * ⟨x.G, x.B⟩ = 1 := by
  obtain ⟨d, hdat, -, -, -, hx⟩ := twoIntegrate_some.1 h
  obtain ⟨hz, rfl⟩ := makeXfmr_ok.1 hx
  obtain ⟨-, bi', bj', ti, tj, e1, e2, ht1, ht2, htj, hr, himp, -⟩ := twoData_ok hdat
  obtain ⟨m1, n1⟩ := busRec_ok e1
  obtain ⟨m2, n2⟩ := busRec_ok e2
  obtain rfl := hd.eq m1 hbi (n1.trans hi.symm)
  obtain rfl := hd.eq m2 hbj (n2.trans hj.symm)
  rw [nominal_eq hn1] at ht1
  rw [nominal_eq hn2] at ht2
  have t1 := turnsOf_spec ht1 hbi0 h1
  have t2 := turnsOf_spec ht2 hbj0 h2
  refine ⟨?_, by simp only; rw [hr, t1, t2], rfl, ?_⟩
  · rintro rfl
    simp [t2] at htj
  · obtain ⟨Z, hZ, he⟩ := impedanceOf_spec himp
    refine ⟨Z, hZ, ?_, ?_⟩
    · simp only
      rw [he, t2, pow_two]
    · refine Complex.ext ?_ ?_
      · simp only [Complex.mul_re, Complex.one_re]; field_simp; ring
      · simp only [Complex.mul_im, Complex.one_im]; field_simp; ring

theorem both_zero {z : ℂ} : (∀ a ∈ both z, a = 0) ↔ z = 0 := by
  simp [both, Complex.ext_iff]

/-- The unit phasor of an angle. -/
theorem turns_zero (tr ang : ℝ) : turns 0 tr ang = tr * (⟨Real.cos ang, Real.sin ang⟩ : ℂ) := by
  apply Complex.ext <;> simp [turns, ratioAt]

theorem phasor_unit (ang : ℝ) : (⟨Real.cos ang, Real.sin ang⟩ : ℂ) * conj (⟨Real.cos ang, Real.sin ang⟩ : ℂ) = 1 := by
  apply Complex.ext
  · simp
    nlinarith [Real.sin_sq_add_cos_sq ang]
  · simp
    ring

/-- **C77, circuit.** The loaded transformer is the circuit its record describes: an ideal winding `ti : 1` with phase
shift, the stated impedance on the system base, and an ideal winding `1 : tj`. Its laws hold exactly when the voltage behind
the first winding less the voltage behind the second is the drop over that impedance, and the current it delivers to the
second bus is the current through it over `tj`. -/
theorem C77_circuit {c : Case} {r : TwoRec} {x : XfmrAt} (hd : c.DistinctBuses) (h : twoIntegrate c r = .ok (some x))
    {bi bj : BusRec} (hbi : bi ∈ c.buses) (hi : bi.i = r.i) (hbj : bj ∈ c.buses) (hj : bj.i = r.j)
    (hbi0 : bi.baskv ≠ 0) (hbj0 : bj.baskv ≠ 0) (hn1 : 0 ≤ r.w1.nomv) (hn2 : 0 ≤ r.nomv2) {V1 V2 : ℝ} (hV1 : V1 ≠ 0)
    (h1 : IsTurns r.cw r.w1.windv (nominalOr r.w1.nomv bi.baskv) bi.baskv V1)
    (h2 : IsTurns r.cw r.windv2 (nominalOr r.nomv2 bj.baskv) bj.baskv V2) (f t : ℕ) :
    ∃ Z, IsImpedance r.cz r.z12 c.sbase Z ∧ ∀ (V : Ref → ℂ) (I S : ℂ), V none = 0 →
      let e : Element := .transformer (some f) none (some t) none x.tr x.ang x.G x.B
      let w := [I.re, I.im, S.re, S.im]
      let ti : ℂ := (V1 / bi.baskv : ℝ)
      let tj : ℂ := (V2 / bj.baskv : ℝ)
      let u : ℂ := ⟨Real.cos (r.w1.ang * Real.pi / 180), Real.sin (r.w1.ang * Real.pi / 180)⟩
      let J := ti * conj u * I
      ((∀ z ∈ e.laws 0 V w, z = 0) ↔
        S = V (some f) / (ti / tj * u) ∧ V (some f) / (ti * u) - V (some t) / tj = Z * J) ∧
      ((∀ z ∈ e.laws 0 V w, z = 0) → e.draws 0 V w = [(some f, I), (none, -I), (none, J / tj), (some t, -(J / tj))]) := by
  obtain ⟨hV2, htr, hang, Z, hZ, hz, hy⟩ := C77_ratio hd h hbi hi hbj hj hbi0 hbj0 hn1 hn2 h1 h2
  refine ⟨Z, hZ, ?_⟩
  intro V I S h0 e w ti tj u J
  have hti : ti ≠ 0 := by
    simp only [ti]; exact_mod_cast div_ne_zero hV1 hbi0
  have htj : tj ≠ 0 := by
    simp only [tj]; exact_mod_cast div_ne_zero hV2 hbj0
  have hu : u * conj u = 1 := phasor_unit _
  have hu0 : u ≠ 0 := fun h => by simp [h] at hu
  have hτ : turns 0 x.tr x.ang = ti / tj * u := by
    rw [turns_zero, htr, hang]
    simp only [ti, tj, u]
    push_cast
    rfl
  have hcτ : conj (ti / tj * u) = ti / tj * conj u := by
    simp [ti, tj]
  have hs : stiff 0 x.G x.B = ⟨x.G, x.B⟩ := by simp [stiff]
  have hz' : (⟨x.r, x.x⟩ : ℂ) = Z * tj ^ 2 := by rw [hz]; simp [tj]
  have hpair : pairAt w 0 = I ∧ pairAt w 2 = S := ⟨rfl, rfl⟩
  have hZ0 : Z ≠ 0 := by
    rintro rfl
    rw [hz'] at hy
    simp at hy
  set y : ℂ := ⟨x.G, x.B⟩ with hydef
  rw [hz'] at hy
  have hlaws : (∀ z ∈ e.laws 0 V w, z = 0) ↔
      V (some f) = ti / tj * u * S ∧ y * (S - V (some t)) = ti / tj * conj u * I := by
    simp only [e, Element.laws, xfmrLaws, hpair.1, hpair.2, hτ, hcτ, h0, sub_zero, hs, List.forall_mem_append, both_zero]
    constructor
    · rintro ⟨a, b⟩
      exact ⟨by linear_combination a, by linear_combination b⟩
    · rintro ⟨a, b⟩
      exact ⟨by linear_combination a, by linear_combination b⟩
  refine ⟨?_, ?_⟩
  · rw [hlaws]
    constructor
    · rintro ⟨a, b⟩
      refine ⟨by rw [a]; field_simp, ?_⟩
      have hb : S - V (some t) = Z * tj ^ 2 * (ti / tj * conj u * I) := by
        rw [← b]; linear_combination (-(S - V (some t))) * hy
      simp only [J]
      rw [a]
      field_simp at hb ⊢
      linear_combination hb
    · rintro ⟨a, b⟩
      have hVf : V (some f) = ti / tj * u * S := by rw [a]; field_simp
      refine ⟨hVf, ?_⟩
      simp only [J] at b
      rw [hVf] at b
      have hb : S - V (some t) = Z * tj ^ 2 * (ti / tj * conj u * I) := by
        field_simp at b ⊢
        linear_combination b
      rw [hb]
      linear_combination (ti / tj * conj u * I) * hy
  · intro hl
    obtain ⟨-, b⟩ := hlaws.1 hl
    simp only [e, Element.draws, xfmrDraws, branch, hpair.1, hpair.2, hτ, hcτ, hs, b, J, List.cons_append, List.nil_append,
      List.cons.injEq, Prod.mk.injEq, true_and, and_true]
    constructor
    · field_simp
    · field_simp

/-- A transformer from 138 to 69 kilovolt with a tap at 144.9 kilovolt, stated in kilovolt (code 2), per unit of nominal
(code 3) and per unit of base (code 1). -/
noncomputable def tapCase (cw : ℤ) (w1 w2 n1 n2 : ℝ) : Case × TwoRec :=
  let r : TwoRec := ⟨1, 2, 1, cw, 1, 1, 0, 0, ⟨0, 1 / 10, 100⟩, ⟨w1, n1, 0, 0, 0, 0, 0⟩, w2, n2⟩
  ({ sbase := 100, buses := [⟨1, 3, 1, 0, 138⟩, ⟨2, 1, 1, 0, 69⟩], generators := [], switched := [],
     fixed := [], loads := [], branches := [], two := [r], three := [] }, r)

example : ∃ x, twoIntegrate (tapCase 2 (1449 / 10) 69 0 0).1 (tapCase 2 (1449 / 10) 69 0 0).2 = .ok (some x) ∧
    x.tr = 21 / 20 := by
  have hx : ∃ x, twoIntegrate (tapCase 2 (1449 / 10) 69 0 0).1 (tapCase 2 (1449 / 10) 69 0 0).2 = .ok (some x) := by
    simp [twoIntegrate, twoData, tapCase, Case.busRec, turnsOf, pyDiv, tapChecks2, impedanceOf, magnetizing, Case.bus,
      Case.online, makeXfmr]
  obtain ⟨x, hx⟩ := hx
  refine ⟨x, hx, ?_⟩
  have := C77_ratio (bi := ⟨1, 3, 1, 0, 138⟩) (bj := ⟨2, 1, 1, 0, 69⟩) (V1 := 1449 / 10) (V2 := 69)
    (by simp [Case.DistinctBuses, tapCase]) hx (by simp [tapCase]) rfl (by simp [tapCase]) rfl (by norm_num) (by norm_num)
    (le_refl _) (le_refl _) (Or.inr (Or.inl ⟨rfl, rfl⟩)) (Or.inr (Or.inl ⟨rfl, rfl⟩))
  rw [this.2.1]
  norm_num

end Verif.Raw
