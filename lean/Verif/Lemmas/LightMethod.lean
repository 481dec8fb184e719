import Verif.Lemmas.NewtonMethod
import Mathlib.Analysis.Calculus.InverseFunctionTheorem.ApproximatesLinearOn
import Mathlib.Analysis.Calculus.ContDiff.Operations

/-! Newton's method for an affine equation with a small nonlinear addition, in any space of finite dimension. Nothing here refers to the
model. -/

namespace Verif

open Set Metric

variable {E : Type*} [NormedAddCommGroup E] [NormedSpace ℝ E] [FiniteDimensional ℝ E]

omit [FiniteDimensional ℝ E] in
/-- A Newton step for an affine map with a small addition ends near the zero of the affine map, wherever it starts. -/
theorem light_step {F0 F1 G : E → E} {A : E →L[ℝ] E} (hA : ∀ x y, F0 x = F0 y + A (x - y)) {c : ℝ} (hc : 0 < c)
    (hcA : ∀ u, c * ‖u‖ ≤ ‖A u‖) {x0 : E} (h0 : F0 x0 = 0) {w : E} (hw : DifferentiableAt ℝ F1 w) {K R : ℝ}
    (hg : ‖F1 w - F0 w‖ ≤ K) (hD : ‖fderiv ℝ F1 w - A‖ ≤ K) (hR : ‖w - x0‖ ≤ R) {s : ℝ} (hs : |s| * K ≤ c / 2)
    (hG : ∀ x, G x = F0 x + s • (F1 x - F0 x)) :
    DifferentiableAt ℝ G w ∧ Function.Injective (fderiv ℝ G w) ∧ ‖G w‖ ≤ ‖A‖ * R + |s| * K ∧
      ∀ x, G w + fderiv ℝ G w (x - w) = 0 → c * ‖x - x0‖ ≤ 2 * (|s| * K * (1 + R)) := by
  have hF0 : HasFDerivAt F0 A w := by
    have e : F0 = fun x => F0 w + (A x - A w) := by funext x; rw [hA x w, map_sub]
    rw [e]
    exact ((A.hasFDerivAt.sub_const (A w)).const_add (F0 w))
  have hder : HasFDerivAt G (A + s • (fderiv ℝ F1 w - A)) w := by
    have e : G = fun x => F0 x + s • (F1 x - F0 x) := funext hG
    rw [e]
    exact hF0.add ((hw.hasFDerivAt.sub hF0).const_smul s)
  have hK : 0 ≤ K := (norm_nonneg _).trans hg
  have below : ∀ u, c / 2 * ‖u‖ ≤ ‖fderiv ℝ G w u‖ := fun u => by
    rw [hder.fderiv]
    have e : A u = (A + s • (fderiv ℝ F1 w - A)) u - s • (fderiv ℝ F1 w - A) u := by simp
    have h1 := hcA u
    rw [e] at h1
    have h2 := norm_sub_le ((A + s • (fderiv ℝ F1 w - A)) u) (s • (fderiv ℝ F1 w - A) u)
    have h3 : ‖s • (fderiv ℝ F1 w - A) u‖ ≤ c / 2 * ‖u‖ := by
      rw [norm_smul, Real.norm_eq_abs]
      calc |s| * ‖(fderiv ℝ F1 w - A) u‖ ≤ |s| * (K * ‖u‖) := by
            gcongr
            exact ((fderiv ℝ F1 w - A).le_opNorm u).trans (mul_le_mul_of_nonneg_right hD (norm_nonneg _))
        _ = |s| * K * ‖u‖ := by ring
        _ ≤ c / 2 * ‖u‖ := mul_le_mul_of_nonneg_right hs (norm_nonneg _)
    linarith
  have hF0w : F0 w = A (w - x0) := by rw [hA w x0, h0, zero_add]
  refine ⟨hder.differentiableAt, ?_, ?_, fun x hx => ?_⟩
  · rw [injective_iff_map_eq_zero]
    intro u hu
    have := below u
    rw [hu, norm_zero] at this
    exact norm_le_zero_iff.1 (by nlinarith)
  · rw [hG, hF0w]
    refine (norm_add_le _ _).trans (add_le_add ((A.le_opNorm _).trans (mul_le_mul_of_nonneg_left hR (norm_nonneg _))) ?_)
    rw [norm_smul, Real.norm_eq_abs, ← hF0w]
    exact mul_le_mul_of_nonneg_left hg (abs_nonneg _)
  · have e : fderiv ℝ G w (x - x0) = s • (fderiv ℝ F1 w - A) (w - x0) - s • (F1 w - F0 w) := by
      have h1 : x - x0 = (x - w) + (w - x0) := by abel
      rw [h1, map_add, eq_neg_of_add_eq_zero_right hx, hG, hder.fderiv, hF0w]
      simp
      abel
    have h1 := below (x - x0)
    rw [e] at h1
    have h2 := norm_sub_le (s • (fderiv ℝ F1 w - A) (w - x0)) (s • (F1 w - F0 w))
    have h3 : ‖s • (fderiv ℝ F1 w - A) (w - x0)‖ ≤ |s| * K * R := by
      rw [norm_smul, Real.norm_eq_abs, mul_assoc]
      gcongr
      exact ((fderiv ℝ F1 w - A).le_opNorm _).trans (mul_le_mul hD hR (norm_nonneg _) hK)
    have h4 : ‖s • (F1 w - F0 w)‖ ≤ |s| * K := by
      rw [norm_smul, Real.norm_eq_abs]
      exact mul_le_mul_of_nonneg_left hg (abs_nonneg _)
    nlinarith

omit [FiniteDimensional ℝ E] in
/-- Near a point where it is smooth a map and its derivative are bounded. -/
theorem bounded_near {F1 F0 : E → E} {A : E →L[ℝ] E} {x0 : E} (hF : ContDiffAt ℝ 2 F1 x0) (hF0 : Continuous F0) :
    ∃ K > 0, ∃ r > 0, ∀ w, ‖w - x0‖ ≤ r → DifferentiableAt ℝ F1 w ∧ ‖F1 w - F0 w‖ ≤ K ∧ ‖fderiv ℝ F1 w - A‖ ≤ K := by
  have h1 : ContDiffAt ℝ 1 (fderiv ℝ F1) x0 := hF.fderiv_right (by norm_num)
  have c1 : ContinuousAt (fun w => ‖F1 w - F0 w‖) x0 := (hF.continuousAt.sub hF0.continuousAt).norm
  have c2 : ContinuousAt (fun w => ‖fderiv ℝ F1 w - A‖) x0 := (h1.continuousAt.sub continuousAt_const).norm
  have e1 := c1.eventually (gt_mem_nhds (lt_add_one _))
  have e2 := c2.eventually (gt_mem_nhds (lt_add_one _))
  have e3 : ∀ᶠ w in nhds x0, DifferentiableAt ℝ F1 w := by
    filter_upwards [hF.eventually (by simp)] with w hw
    exact hw.differentiableAt (by norm_num)
  obtain ⟨r, hr, hsub⟩ := Metric.nhds_basis_closedBall.eventually_iff.1 (e1.and (e2.and e3))
  refine ⟨max (‖F1 x0 - F0 x0‖ + 1) (‖fderiv ℝ F1 x0 - A‖ + 1), lt_of_lt_of_le (by positivity) (le_max_left _ _), r, hr, fun w hw => ?_⟩
  obtain ⟨a, b, d⟩ := hsub (show w ∈ closedBall x0 r by simpa [dist_eq_norm] using hw)
  exact ⟨d, a.le.trans (le_max_left _ _), b.le.trans (le_max_right _ _)⟩

/-- An affine equation with a small addition has exactly one solution near the zero of the affine map. -/
theorem light_zero {F0 F1 : E → E} {A : E →L[ℝ] E} (hA : ∀ x y, F0 x = F0 y + A (x - y)) (hinj : Function.Injective A)
    {x0 : E} (h0 : F0 x0 = 0) (hF : ContDiffAt ℝ 2 F1 x0) :
    ∃ ρ > 0, ∀ ε > 0, ε ≤ ρ → ∃ s0 > 0, ∀ s : ℝ, |s| ≤ s0 → ∀ G : E → E, (∀ x, G x = F0 x + s • (F1 x - F0 x)) →
      ∃ x, ‖x - x0‖ ≤ ε ∧ G x = 0 ∧ ∀ y, ‖y - x0‖ ≤ ρ → G y = 0 → y = x := by
  obtain ⟨c, hc, hcA⟩ := injective_below hinj
  have hcont : Continuous F0 := by
    have e : F0 = fun x => F0 x0 + A (x - x0) := funext fun x => hA x x0
    rw [e]; fun_prop
  have hF0 : ContDiffAt ℝ 2 F0 x0 := by
    have e : F0 = fun x => F0 x0 + A (x - x0) := funext fun x => hA x x0
    rw [e]; fun_prop
  obtain ⟨K, t, ht, hK⟩ := ((hF.sub hF0).of_le (by norm_num : (1 : WithTop ℕ∞) ≤ 2)).exists_lipschitzOnWith
  obtain ⟨ρ, hρ, hsub⟩ := Metric.nhds_basis_closedBall.mem_iff.1 ht
  let T : E ≃L[ℝ] E := (LinearEquiv.ofInjectiveEndo (A : E →ₗ[ℝ] E) hinj).toContinuousLinearEquiv
  have hT : ∀ u, T u = A u := fun u => rfl
  refine ⟨ρ, hρ, fun ε hε hle => ?_⟩
  set g := fun x => F1 x - F0 x with hg
  have hlip : ∀ x ∈ closedBall x0 ρ, ∀ y ∈ closedBall x0 ρ, ‖g x - g y‖ ≤ K * ‖x - y‖ := fun x hx y hy => by
    have := hK.dist_le_mul x (hsub hx) y (hsub hy)
    rw [dist_eq_norm, dist_eq_norm] at this
    exact this
  obtain ⟨s0, hs0, q1, q2⟩ : ∃ s0 > 0, s0 * K ≤ c / 2 ∧ s0 * ‖g x0‖ ≤ c / 2 * ε := by
    refine ⟨min (c / 2 / (K + 1)) (c / 2 * ε / (‖g x0‖ + 1)), by positivity, ?_, ?_⟩
    · calc min (c / 2 / (K + 1)) (c / 2 * ε / (‖g x0‖ + 1)) * (K : ℝ) ≤ c / 2 / (K + 1) * K := by gcongr; exact min_le_left _ _
        _ ≤ c / 2 := by rw [div_mul_eq_mul_div, div_le_iff₀ (by positivity)]; nlinarith [K.2]
    · calc min (c / 2 / (K + 1)) (c / 2 * ε / (‖g x0‖ + 1)) * ‖g x0‖ ≤ c / 2 * ε / (‖g x0‖ + 1) * ‖g x0‖ := by gcongr; exact min_le_right _ _
        _ ≤ c / 2 * ε := by
          rw [div_mul_eq_mul_div, div_le_iff₀ (by positivity)]
          have := norm_nonneg (g x0)
          have : 0 < c / 2 * ε := by positivity
          nlinarith
  refine ⟨s0, hs0, fun s hs G hG => ?_⟩
  have hsK : |s| * K ≤ c / 2 := (mul_le_mul_of_nonneg_right hs K.2).trans q1
  -- the map whose fixed points are the zeros
  have hφ : ∀ x ∈ closedBall x0 ρ, ∀ y ∈ closedBall x0 ρ, c * ‖x - y‖ ≤ ‖G x - G y‖ + |s| * K * ‖x - y‖ := fun x hx y hy => by
    have e : A (x - y) = (G x - G y) - s • (g x - g y) := by
      rw [show A (x - y) = F0 x - F0 y by rw [hA x y]; abel, hG, hG]
      simp only [hg]
      rw [smul_sub s (F1 x - F0 x) (F1 y - F0 y)]
      abel
    have h1 := hcA (x - y)
    rw [e] at h1
    have h2 := norm_sub_le (G x - G y) (s • (g x - g y))
    rw [norm_smul, Real.norm_eq_abs] at h2
    have h3 := mul_le_mul_of_nonneg_left (hlip x hx y hy) (abs_nonneg s)
    rw [← mul_assoc] at h3
    linarith
  have happ : ApproximatesLinearOn G (T : E →L[ℝ] E) (closedBall x0 ε) (⟨|s| * K, by positivity⟩ : NNReal) := by
    intro x hx y hy
    have e : G x - G y - (T : E →L[ℝ] E) (x - y) = s • (g x - g y) := by
      show G x - G y - A (x - y) = _
      rw [show A (x - y) = F0 x - F0 y by rw [hA x y]; abel, hG, hG]
      simp only [hg]
      rw [smul_sub s (F1 x - F0 x) (F1 y - F0 y)]
      abel
    rw [e, norm_smul, Real.norm_eq_abs]
    have h3 := mul_le_mul_of_nonneg_left (hlip x (closedBall_subset_closedBall hle hx) y (closedBall_subset_closedBall hle hy)) (abs_nonneg s)
    rw [← mul_assoc] at h3
    exact h3
  have hGx0 : ‖G x0‖ ≤ c / 2 * ε := by
    have e : G x0 = s • g x0 := by rw [hG, h0, zero_add, ← h0]
    rw [e, norm_smul, Real.norm_eq_abs]
    exact (mul_le_mul_of_nonneg_right hs (norm_nonneg _)).trans q2
  have hsurj := happ.surjOn_closedBall_of_nonlinearRightInverse
    (ContinuousLinearMap.NonlinearRightInverse.mk (fun y => T.symm y) ⟨1 / c, by positivity⟩ (fun y => by
      show ‖T.symm y‖ ≤ 1 / c * ‖y‖
      have := hcA (T.symm y)
      rw [← hT, T.apply_symm_apply] at this
      rw [one_div, ← div_eq_inv_mul, le_div_iff₀ hc]; linarith) (fun y => T.apply_symm_apply y)) hε.le (Subset.refl _)
  obtain ⟨x, hx, hx0⟩ := hsurj (show (0 : E) ∈ _ by
    rw [mem_closedBall, dist_eq_norm, zero_sub, norm_neg]
    refine hGx0.trans ?_
    show c / 2 * ε ≤ (((1 / c : ℝ))⁻¹ - |s| * K) * ε
    rw [one_div, inv_inv]
    gcongr
    linarith)
  refine ⟨x, by simpa [dist_eq_norm] using hx, hx0, fun y hy hy0 => ?_⟩
  have := hφ y (by simpa [dist_eq_norm] using hy) x (closedBall_subset_closedBall hle hx)
  rw [hy0, hx0, sub_self, norm_zero, zero_add] at this
  have h2 : ‖y - x‖ ≤ 0 := by
    have := mul_le_mul_of_nonneg_right hsK (norm_nonneg (y - x))
    nlinarith
  exact sub_eq_zero.1 (norm_le_zero_iff.1 h2)

end Verif
