import Verif.Spec.LineSupply
import Verif.Props.GlmCarson
import Verif.Props.LineLaws

/-!
# Losses of lines by Carson's equations
-/

namespace Verif.Glm

open Matrix ComplexConjugate

/-- The power lost along conductors over earth. -/
theorem earthReturn_power {κ : Type} [DecidableEq κ] {R X : ℝ} {r g : κ → ℝ} {D : κ → κ → ℝ} (hR : 0 ≤ R) {S : Finset κ}
    (hD : ∀ x ∈ S, ∀ y ∈ S, x ≠ y → D x y = D y x) (hr : ∀ x ∈ S, 0 < r x) {J : κ → ℂ} {x0 : κ} (h0 : x0 ∈ S) (hJ : J x0 ≠ 0) :
    0 < (∑ x ∈ S, conj (J x) * ∑ y ∈ S, earthReturn R X r g D x y * J y).re := by
  set P := ∑ x ∈ S, conj (J x) * ∑ y ∈ S, earthReturn R X r g D x y * J y with hP
  have h1 : P = ∑ x ∈ S, ∑ y ∈ S, conj (J x) * earthReturn R X r g D x y * J y := by
    rw [hP]
    refine Finset.sum_congr rfl fun x _ => ?_
    rw [Finset.mul_sum]
    exact Finset.sum_congr rfl fun y _ => by ring
  have h2 : conj P = ∑ x ∈ S, ∑ y ∈ S, conj (J x) * conj (earthReturn R X r g D y x) * J y := by
    rw [h1, Finset.sum_comm, map_sum]
    refine Finset.sum_congr rfl fun x _ => ?_
    rw [map_sum]
    refine Finset.sum_congr rfl fun y _ => ?_
    rw [map_mul, map_mul, Complex.conj_conj]
    ring
  have h3 : ∀ x ∈ S, ∀ y ∈ S, earthReturn R X r g D x y + conj (earthReturn R X r g D y x) = ((2 * ((if x = y then r x else 0) + R) : ℝ) : ℂ) := by
    intro x hx y hy
    rw [earthReturn, earthReturn]
    by_cases e : x = y
    · subst e
      simp only [if_true]
      apply Complex.ext
      · rw [Complex.add_re, Complex.conj_re, Complex.ofReal_re]; ring
      · rw [Complex.add_im, Complex.conj_im, Complex.ofReal_im]; ring
    · rw [if_neg e, if_neg e, if_neg (Ne.symm e), hD x hx y hy e]
      apply Complex.ext
      · rw [Complex.add_re, Complex.conj_re, Complex.ofReal_re]; ring
      · rw [Complex.add_im, Complex.conj_im, Complex.ofReal_im]; ring
  have h4 : P + conj P = ((2 * (∑ x ∈ S, r x * Complex.normSq (J x) + R * Complex.normSq (∑ x ∈ S, J x)) : ℝ) : ℂ) := by
    rw [h2, h1, ← Finset.sum_add_distrib]
    have : ∀ x ∈ S, (∑ y ∈ S, conj (J x) * earthReturn R X r g D x y * J y) + ∑ y ∈ S, conj (J x) * conj (earthReturn R X r g D y x) * J y =
        2 * (r x * (conj (J x) * J x)) + 2 * (R * (conj (J x) * ∑ y ∈ S, J y)) := by
      intro x hx
      rw [← Finset.sum_add_distrib]
      have : ∀ y ∈ S, conj (J x) * earthReturn R X r g D x y * J y + conj (J x) * conj (earthReturn R X r g D y x) * J y =
          (if x = y then 2 * (r x * (conj (J x) * J y)) else 0) + 2 * (R * (conj (J x) * J y)) := by
        intro y hy
        have := h3 x hx y hy
        have e : conj (J x) * earthReturn R X r g D x y * J y + conj (J x) * conj (earthReturn R X r g D y x) * J y =
          conj (J x) * (earthReturn R X r g D x y + conj (earthReturn R X r g D y x)) * J y := by ring
        rw [e, this]
        split_ifs <;> push_cast <;> ring
      rw [Finset.sum_congr rfl this, Finset.sum_add_distrib, Finset.sum_ite_eq, if_pos hx, Finset.mul_sum, Finset.mul_sum, Finset.mul_sum]
    rw [Finset.sum_congr rfl this, Finset.sum_add_distrib, ← Finset.mul_sum, ← Finset.mul_sum, ← Finset.mul_sum, ← Finset.sum_mul, ← map_sum]
    rw [← Complex.normSq_eq_conj_mul_self]
    simp only [← Complex.normSq_eq_conj_mul_self]
    push_cast
    ring
  have h5 : 2 * P.re = 2 * (∑ x ∈ S, r x * Complex.normSq (J x) + R * Complex.normSq (∑ x ∈ S, J x)) := by
    have := congrArg Complex.re h4
    rw [Complex.ofReal_re, Complex.add_re, Complex.conj_re] at this
    linarith
  have h6 : 0 < ∑ x ∈ S, r x * Complex.normSq (J x) :=
    Finset.sum_pos' (fun x hx => mul_nonneg (hr x hx).le (Complex.normSq_nonneg _)) ⟨x0, h0, mul_pos (hr x0 h0) (Complex.normSq_pos.2 hJ)⟩
  have h7 := mul_nonneg hR (Complex.normSq_nonneg (∑ x ∈ S, J x))
  linarith

/-- A span whose conductors have resistance and the same distance both ways loses power. -/
theorem LineSpan.loss_pos {s : LineSpan} {R X : ℝ} {r g : Bool × Char → ℝ} {D : Bool × Char → Bool × Char → ℝ} (hz : s.z = earthReturn R X r g D) (hR : 0 ≤ R)
    (hn : s.phases.Nodup) (hn' : s.neutrals.Nodup)
    (hD : ∀ x y : Bool × Char, (x.2 ∈ if x.1 then s.neutrals else s.phases) → (y.2 ∈ if y.1 then s.neutrals else s.phases) → x ≠ y → D x y = D y x)
    (hr : ∀ x : Bool × Char, (x.2 ∈ if x.1 then s.neutrals else s.phases) → 0 < r x) (hm : 0 < s.miles) {U I : Char → ℂ} (h : s.Law U I)
    (hI : ∃ p ∈ s.phases, I p ≠ 0) : 0 < s.loss U I := by
  obtain ⟨J, h1, h2, h3⟩ := h
  obtain ⟨p0, hp0, hI⟩ := hI
  set ks := s.phases.map (fun p => (false, p)) ++ s.neutrals.map (fun p => (true, p)) with hks
  have hnd : ks.Nodup := by
    rw [hks, List.nodup_append]
    refine ⟨hn.map fun a b e => (Prod.mk.inj e).2, hn'.map fun a b e => (Prod.mk.inj e).2, ?_⟩
    intro a ha b hb e
    obtain ⟨p, -, rfl⟩ := List.mem_map.1 ha
    obtain ⟨q, -, rfl⟩ := List.mem_map.1 hb
    cases e
  have hmem : ∀ x : Bool × Char, x ∈ ks.toFinset ↔ (x.2 ∈ if x.1 then s.neutrals else s.phases) := by
    rintro ⟨b, p⟩
    rw [List.mem_toFinset, hks, List.mem_append, List.mem_map, List.mem_map]
    cases b <;> simp
  have hdrop : ∀ x, s.drop J x = ∑ y ∈ ks.toFinset, earthReturn R X r g D x y * J y := by
    intro x
    rw [List.sum_toFinset _ hnd, hks, List.map_append, List.sum_append, List.map_map, List.map_map, LineSpan.drop, hz]
    rfl
  have hpow := earthReturn_power (X := X) (g := g) hR (S := ks.toFinset) (fun x hx y hy => hD x y ((hmem x).1 hx) ((hmem y).1 hy)) (fun x hx => hr x ((hmem x).1 hx)) (J := J)
    (x0 := (false, p0)) ((hmem _).2 hp0) (by rw [h1 p0 hp0]; exact hI)
  have e : ((s.miles : ℚ) : ℂ) * ∑ x ∈ ks.toFinset, conj (J x) * ∑ y ∈ ks.toFinset, earthReturn R X r g D x y * J y = (s.phases.map fun p => conj (I p) * U p).sum := by
    simp only [← hdrop]
    rw [List.sum_toFinset _ hnd, hks, List.map_append, List.sum_append, List.map_map, List.map_map]
    have z : (s.neutrals.map ((fun x => conj (J x) * s.drop J x) ∘ fun p => (true, p))).sum = 0 := by
      apply List.sum_eq_zero
      intro x hx
      obtain ⟨n, hn, rfl⟩ := List.mem_map.1 hx
      simp only [Function.comp, h3 n hn, mul_zero]
    rw [z, add_zero, ← List.sum_map_mul_left]
    refine congrArg List.sum (List.map_congr_left fun p hp => ?_)
    simp only [Function.comp]
    rw [h1 p hp, h2 p hp]
    ring
  rw [LineSpan.loss, ← e, show ((s.miles : ℚ) : ℂ) = (((s.miles : ℚ) : ℝ) : ℂ) by push_cast; rfl, Complex.re_ofReal_mul]
  exact mul_pos (by exact_mod_cast hm) hpow

theorem spacedBy_symm {objs : List (Txt × Obj)} {c : Obj} {ps : List Char} (hps : ∀ p ∈ ps, p ∈ "ABCN".toList) {D : Char → Char → ℚ} (h : SpacedBy objs c ps D) :
    ∀ p ∈ ps, ∀ q ∈ ps, p ≠ q → D p q = D q p := by
  obtain ⟨s, -, hw, hD, -⟩ := h
  intro p hp q hq hpq
  obtain ⟨T, hT⟩ := spacing_total hw
  have hl : ∀ p ∈ "ABCN".toList, ∃ a < 5, spacingLetters.getD a ' ' = p := by decide
  obtain ⟨a, ha, e1⟩ := hl p (hps p hp)
  obtain ⟨b, hb, e2⟩ := hl q (hps q hq)
  obtain ⟨h1, h2⟩ := hD p hp q hq hpq
  obtain ⟨h3, h4⟩ := hD q hq p hp (Ne.symm hpq)
  have k1 := spaced_entry hT ha hb h1.ne' (by rw [e1, e2]; exact h2)
  have k2 := spaced_entry hT ha hb h3.ne' (by rw [e1, e2]; exact spaced_symm h4)
  exact k1.symm.trans k2

theorem letters_mem {c : Obj} {ps : List Char} {p : Char} : p ∈ conductorLetters c ps ↔ p ∈ ps ∧ (c.attr ("conductor_".toList ++ [p])).isSome := List.mem_filter

theorem letters_ABC {c : Obj} {p : Char} (h : p ∈ conductorLetters c "ABC".toList) : p ∈ conductorLetters c "ABCN".toList ∧ p ≠ 'N' := by
  rw [letters_mem] at h
  have : ∀ p ∈ "ABC".toList, p ∈ "ABCN".toList ∧ p ≠ 'N' := by decide
  exact ⟨letters_mem.2 ⟨(this p h.1).1, h.2⟩, (this p h.1).2⟩

theorem letters_N {c : Obj} {p : Char} (h : p ∈ conductorLetters c "N".toList) : p ∈ conductorLetters c "ABCN".toList := by
  rw [letters_mem] at h
  have : ∀ p ∈ "N".toList, p ∈ "ABCN".toList := by decide
  exact letters_mem.2 ⟨this p h.1, h.2⟩

theorem letters_nodup (c : Obj) {ps : List Char} (h : ps.Nodup) : (conductorLetters c ps).Nodup := h.filter _

/-- The conductors of a line lose power with every current in its phases. -/
theorem FileSpan.loss_pos {objs : List (Txt × Obj)} {o : Obj} {ph : Phases} {s : LineSpan} (hs : FileSpan objs o ph s) (hm : 0 < s.miles) {U I : Char → ℂ}
    (h : s.Law U I) (hI : ∃ p ∈ s.phases, I p ≠ 0) : 0 < s.loss U I := by
  have hnd := hs.nodup
  rw [FileSpan] at hs
  split_ifs at hs with c1 c2
  · obtain ⟨c, r, g, D, -, h2, h3, -, h5, h6, h7, -⟩ := hs
    have hin : ∀ x : Bool × Char, (x.2 ∈ if x.1 then s.neutrals else s.phases) → x.2 ∈ conductorLetters c "ABCN".toList := by
      rintro ⟨b, p⟩ hx
      cases b
      · rw [if_neg (by simp), h5] at hx
        exact (letters_ABC hx).1
      · rw [if_pos rfl, h6] at hx
        split_ifs at hx
        · exact letters_N hx
        · cases hx
    have hnn : s.neutrals.Nodup := by
      rw [h6]
      split_ifs
      · exact letters_nodup c (by decide)
      · exact List.nodup_nil
    refine LineSpan.loss_pos h7 (by norm_num) hnd hnn (fun x y hx hy _ => ?_) (fun x hx => ?_) hm h hI
    · by_cases e : x.2 = y.2
      · simp only [e]
      · exact congrArg _ (spacedBy_symm (fun p hp => (letters_mem.1 hp).1) h3 _ (hin x hx) _ (hin y hy) e)
    · obtain ⟨w, -, -, -, hr⟩ := h2 _ (hin x hx)
      exact_mod_cast hr
  · obtain ⟨c, r, g, d, t, -, h2, -, -, h5, h6, h7, -⟩ := hs
    refine LineSpan.loss_pos h7 (by norm_num) hnd (by rw [h6]; decide) (fun x y _ _ _ => ?_) (fun x hx => ?_) hm h hI
    · simp only [Bool.or_comm]
    · have hin : x.2 ∈ "12N".toList := by
        obtain ⟨b, p⟩ := x
        cases b
        · rw [if_neg (by simp), h5] at hx
          exact (by decide : ∀ p ∈ "12".toList, p ∈ "12N".toList) p hx
        · rw [if_pos rfl, h6] at hx
          exact (by decide : ∀ p ∈ "N".toList, p ∈ "12N".toList) p hx
      obtain ⟨w, -, -, -, hr⟩ := h2 _ hin
      exact_mod_cast hr
  · obtain ⟨c, k, x, r, g, D, -, hk, h2, h3, h5, -, h6, h7, -⟩ := hs
    have hin : ∀ y : Bool × Char, (y.2 ∈ if y.1 then s.neutrals else s.phases) → y.2 ∈ conductorLetters c "ABCN".toList ∧ (y.1 = false → y.2 ≠ 'N') := by
      rintro ⟨b, p⟩ hx
      cases b
      · rw [if_neg (by simp), h5] at hx
        exact ⟨(letters_ABC hx).1, fun _ => (letters_ABC hx).2⟩
      · rw [if_pos rfl, h6] at hx
        exact ⟨hx, fun e => by cases e⟩
    refine LineSpan.loss_pos h7 (by norm_num) hnd (by rw [h6]; exact letters_nodup c (by decide)) (fun y w hy hw _ => ?_) (fun y hy => ?_) hm h hI
    · by_cases e : y.2 = w.2
      · obtain ⟨b, p⟩ := y
        obtain ⟨b', q⟩ := w
        simp only at e
        subst e
        cases b <;> cases b' <;> simp
      · have hs := spacedBy_symm (fun p hp => (letters_mem.1 hp).1) h3 _ (hin y hy).1 _ (hin w hw).1 e
        obtain ⟨b, p⟩ := y
        obtain ⟨b', q⟩ := w
        simp only at hs e
        cases b <;> cases b' <;> simp [hs, e, Ne.symm e]
    · obtain ⟨w, -, -, hv⟩ := h2 _ (hin y hy).1
      obtain ⟨b, p⟩ := y
      cases b
      · have hp := (hin _ hy).2 rfl
        simp only at hp hv ⊢
        rw [if_neg hp] at hv
        obtain ⟨-, -, -, -, -, -, -, hr, -⟩ := hv
        rw [if_neg (by simp)]
        exact_mod_cast hr
      · simp only at hv ⊢
        rw [if_pos trivial]
        split_ifs at hv ⊢ with hp
        · exact_mod_cast hv.2.2
        · obtain ⟨-, -, -, -, -, -, -, -, hr⟩ := hv
          exact_mod_cast div_pos hr (by exact_mod_cast hk : (0 : ℚ) < k)

/-- The matrix of a line times its length loses power with every current. -/
theorem span_strict {d : List Char × LineData} {s : LineSpan} (h1 : d.1 = s.phases) (h2 : d.1.length = d.2.n)
    (h3 : ∀ U I : Char → ℂ, (∀ i : Fin d.2.n, U (d.1.getD i 'A') = ((((d.2.length : ℚ) : ℂ) • d.2.Z) *ᵥ fun j : Fin d.2.n => I (d.1.getD j 'A')) i) ↔ s.Law U I)
    (hn : s.phases.Nodup) (hl : ∀ U I, s.Law U I → (∃ p ∈ s.phases, I p ≠ 0) → 0 < s.loss U I) {I : Fin d.2.n → ℂ} (hI : I ≠ 0) :
    0 < (star I ⬝ᵥ (((d.2.length : ℚ) : ℂ) • d.2.Z) *ᵥ I).re := by
  set Z := ((d.2.length : ℚ) : ℂ) • d.2.Z
  have hidx : ∀ i : Fin d.2.n, d.1.idxOf (d.1.getD i 'A') = i := fun i => by
    have hi : (i : ℕ) < d.1.length := by rw [h2]; exact i.2
    have hg : d.1.getD i 'A' = d.1[(i : ℕ)] := by simp [List.getD_eq_getElem?_getD, hi]
    rw [hg, (show d.1.Nodup by rw [h1]; exact hn).idxOf_getElem]
  let ext : (Fin d.2.n → ℂ) → Char → ℂ := fun F p => if h : d.1.idxOf p < d.2.n then F ⟨d.1.idxOf p, h⟩ else 0
  have hext : ∀ F (i : Fin d.2.n), ext F (d.1.getD i 'A') = F i := fun F i => by
    show (if h : _ then _ else _) = _
    have : d.1.idxOf (d.1.getD i 'A') < d.2.n := by rw [hidx]; exact i.2
    rw [dif_pos this]
    exact congrArg F (Fin.ext (hidx i))
  have hlaw : s.Law (ext (Z *ᵥ I)) (ext I) := (h3 _ _).1 fun i => by
    rw [hext]
    simp only [hext]
  have hpos := hl _ _ hlaw (by
    obtain ⟨i, hi⟩ := Function.ne_iff.1 hI
    have hlt : (i : ℕ) < d.1.length := by rw [h2]; exact i.2
    refine ⟨d.1.getD i 'A', ?_, by rw [hext]; exact hi⟩
    rw [← h1, List.getD_eq_getElem?_getD, List.getElem?_eq_getElem hlt]
    exact List.getElem_mem hlt)
  rw [LineSpan.loss, ← h1] at hpos
  have e : (d.1.map fun p => conj (ext I p) * ext (Z *ᵥ I) p).sum = star I ⬝ᵥ Z *ᵥ I := by
    have : d.1 = (List.range d.1.length).map fun i => d.1.getD i 'A' := by
      refine List.ext_getElem (by simp) fun i h h' => ?_
      simp [List.getD_eq_getElem?_getD, h]
    rw [this, List.map_map, h2, list_sum_fin, dotProduct]
    refine Finset.sum_congr rfl fun i _ => ?_
    simp only [Function.comp, ← this]
    rw [hext, hext]
    rfl
  rwa [e] at hpos

/-- The series admittances of such a line have positive real part. -/
theorem lossy_of_strict {n m : ℕ} (hnm : n = m) {Z : Matrix (Fin m) (Fin m) ℂ} (hs : ∀ i j, Z i j = Z j i) (h : ∀ I : Fin m → ℂ, I ≠ 0 → 0 < (star I ⬝ᵥ Z *ᵥ I).re) :
    Lossy n (entryAt Z⁻¹, fun _ _ => 0) := by
  subst hnm
  have hu : IsUnit Z.det := isUnit_iff_ne_zero.2 (det_ne_of_strict h)
  have hsym : (Z⁻¹)ᵀ = Z⁻¹ := by
    rw [transpose_nonsing_inv]
    congr 1
    ext i j
    exact hs j i
  refine ⟨fun i j => ?_, fun _ _ => rfl, fun d hd => ?_⟩
  · simp only [entryAt]
    by_cases hi : i < n
    · by_cases hj : j < n
      · rw [dif_pos ⟨hi, hj⟩, dif_pos ⟨hj, hi⟩]
        exact congrFun (congrFun hsym ⟨j, hj⟩) ⟨i, hi⟩
      · rw [dif_neg (fun e => hj e.2), dif_neg (fun e => hj e.1)]
    · rw [dif_neg (fun e => hi e.1), dif_neg (fun e => hi e.2)]
  · let D : Fin n → ℂ := fun i => (d i : ℂ)
    have hZ : Z *ᵥ (Z⁻¹ *ᵥ D) = D := by rw [mulVec_mulVec, mul_nonsing_inv _ hu, one_mulVec]
    have hne : Z⁻¹ *ᵥ D ≠ 0 := by
      intro e
      rw [e, mulVec_zero] at hZ
      obtain ⟨i, hi, hdi⟩ := hd
      have hz : ((d i : ℝ) : ℂ) = 0 := (congrFun hZ ⟨i, hi⟩).symm
      exact hdi (by exact_mod_cast hz)
    have hp := h _ hne
    rw [hZ] at hp
    have e : (star (Z⁻¹ *ᵥ D) ⬝ᵥ D).re = ∑ i ∈ Finset.range n, ∑ j ∈ Finset.range n, d i * (entryAt Z⁻¹ i j).re * d j := by
      rw [Finset.sum_range, dotProduct, Complex.re_sum]
      refine Finset.sum_congr rfl fun i _ => ?_
      rw [Finset.sum_range]
      show (conj ((Z⁻¹ *ᵥ D) i) * ((d i : ℝ) : ℂ)).re = _
      rw [Complex.re_mul_ofReal, Complex.conj_re, mulVec, dotProduct, Complex.re_sum, Finset.sum_mul]
      refine Finset.sum_congr rfl fun j _ => ?_
      rw [show entryAt Z⁻¹ i j = Z⁻¹ i j from dif_pos ⟨i.2, j.2⟩]
      show (Z⁻¹ i j * ((d j : ℝ) : ℂ)).re * d i = _
      rw [Complex.re_mul_ofReal]
      ring
    rwa [e] at hp

/-! ### Lines of the same phases -/

theorem zip_same {α M N : Type} {ds : List (List Char × M)} {ds' : List (List Char × N)} (h : ds.map Prod.fst = ds'.map Prod.fst) {ls : List α} {x : α × List Char × M}
    (hx : x ∈ ls.zip ds) : ∃ x' ∈ ls.zip ds', x'.1 = x.1 ∧ x'.2.1 = x.2.1 := by
  obtain ⟨i, hi, rfl⟩ := List.mem_iff_getElem.1 hx
  have hlen := congrArg List.length h
  rw [List.length_map, List.length_map] at hlen
  rw [List.length_zip] at hi
  have hi' : i < ds'.length := by omega
  have hi'' : i < ds.length := by omega
  refine ⟨(ls.zip ds')[i]'(by rw [List.length_zip]; omega), List.getElem_mem _, ?_, ?_⟩
  · simp
  · simp only [List.getElem_zip]
    have := congrArg (fun l => l[i]?) h
    simp only [List.getElem?_map, List.getElem?_eq_getElem hi', List.getElem?_eq_getElem hi'', Option.map_some, Option.some.injEq] at this
    exact this.symm

variable {M N : Type} {objs : List (Txt × Obj)} {ds : List (List Char × M)} {ds' : List (List Char × N)}

theorem Fed.of_phases (h : ds.map Prod.fst = ds'.map Prod.fst) {n : Txt} {p : Char} (hf : Fed objs ds n p) : Fed objs ds' n p := by
  induction hf with
  | source hx => exact .source hx
  | same h1 h2 _ ih => exact .same h1 h2 ih
  | line hx h1 h2 h3 _ ih =>
    obtain ⟨x', hx', e1, e2⟩ := zip_same h hx
    exact .line hx' (by rw [e1]; exact h1) (by rw [e1]; exact h2) (by rw [e2]; exact h3) ih
  | lineBack hx h1 h2 h3 _ ih =>
    obtain ⟨x', hx', e1, e2⟩ := zip_same h hx
    exact .lineBack hx' (by rw [e1]; exact h1) (by rw [e1]; exact h2) (by rw [e2]; exact h3) ih
  | switch h1 h2 h3 h4 _ ih => exact .switch h1 h2 h3 h4 ih
  | switchBack h1 h2 h3 h4 _ ih => exact .switchBack h1 h2 h3 h4 ih
  | fuse h1 h2 h3 _ ih => exact .fuse h1 h2 h3 ih
  | fuseBack h1 h2 h3 _ ih => exact .fuseBack h1 h2 h3 ih
  | reg h1 h2 h3 _ ih => exact .reg h1 h2 h3 ih
  | regBack h1 h2 h3 _ ih => exact .regBack h1 h2 h3 ih
  | coil h1 h2 h3 h4 _ _ ih1 ih2 => exact .coil h1 h2 h3 h4 ih1 ih2
  | tap h1 h2 h3 h4 _ q hq ih => exact .tap h1 h2 h3 h4 ih q hq

theorem PlainStep.of_phases (h : ds.map Prod.fst = ds'.map Prod.fst) {a b : Txt} (hf : PlainStep objs ds a b) : PlainStep objs ds' a b := by
  cases hf with
  | line hx h0 h1 h2 =>
    obtain ⟨x', hx', e1, e2⟩ := zip_same h hx
    exact .line hx' (by rw [e2]; exact h0) (by rw [e1]; exact h1) (by rw [e1]; exact h2)
  | switch h1 h2 h3 h4 => exact .switch h1 h2 h3 h4
  | fuse h1 h2 h3 => exact .fuse h1 h2 h3

theorem PlainJoined.of_phases (h : ds.map Prod.fst = ds'.map Prod.fst) {a b : Txt} (hf : PlainJoined objs ds a b) : PlainJoined objs ds' a b :=
  Relation.ReflTransGen.mono (r := NextTo objs (PlainStep objs ds)) (p := NextTo objs (PlainStep objs ds'))
    (fun _ _ ⟨n, m, h1, h2⟩ => ⟨n, m, h1.imp (·.of_phases h) (·.of_phases h), h2⟩) _ _ hf

theorem FileJoined.of_phases (h : ds.map Prod.fst = ds'.map Prod.fst) {a b : Txt} (hf : FileJoined objs ds a b) : FileJoined objs ds' a b := by
  have : ∀ {a b}, FileStep objs ds a b → FileStep objs ds' a b := fun hs => by
    cases hs with
    | plain h1 => exact .plain (h1.of_phases h)
    | reg h1 h2 h3 => exact .reg h1 h2 h3
    | coil h1 h2 h3 => exact .coil h1 h2 h3
    | tap h1 h2 h3 => exact .tap h1 h2 h3
  exact Relation.ReflTransGen.mono (r := NextTo objs (FileStep objs ds)) (p := NextTo objs (FileStep objs ds'))
    (fun _ _ ⟨n, m, h1, h2⟩ => ⟨n, m, h1.imp this this, h2⟩) _ _ hf

theorem FileSpan.wired {o : Obj} {ph : Phases} {s : LineSpan} (hs : FileSpan objs o ph s) : s.phases = wiredPhases objs o := by
  have key : ∀ {c : Obj}, Refers objs o "configuration".toList c → (o.attr "configuration".toList).bind (lookup · objs) = some c := by
    rintro c ⟨n, h1, h2⟩
    rw [h1, Option.bind_some, h2]
  rw [FileSpan] at hs
  rw [wiredPhases]
  split_ifs at hs with c1 c2
  · obtain ⟨c, r, g, D, h1, -, -, -, h5, -⟩ := hs
    rw [if_neg (by rw [c1]; decide), key h1, h5]
  · obtain ⟨c, r, g, d, t, -, -, -, -, h5, -⟩ := hs
    rw [if_pos c2, h5]
  · obtain ⟨c, k, x, r, g, D, h1, -, -, -, h5, -⟩ := hs
    rw [if_neg c2, key h1, h5]

end Verif.Glm
