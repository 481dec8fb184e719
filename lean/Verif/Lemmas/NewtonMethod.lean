import Mathlib.Analysis.Calculus.ContDiff.RCLike
import Mathlib.Analysis.Calculus.MeanValue
import Mathlib.Analysis.Calculus.ContDiff.Comp
import Mathlib.Analysis.Normed.Module.FiniteDimension

/-! Newton's method near a zero with an invertible derivative, in any space of finite dimension. Nothing here refers to the model. -/

namespace Verif

open Set Metric

variable {E : Type*} [NormedAddCommGroup E] [NormedSpace ℝ E] [FiniteDimensional ℝ E]

/-- An injective linear map does not shrink vectors by more than a factor. -/
theorem injective_below {A : E →L[ℝ] E} (h : Function.Injective A) : ∃ c > 0, ∀ u, c * ‖u‖ ≤ ‖A u‖ := by
  obtain ⟨K, hK, hA⟩ := (A : E →ₗ[ℝ] E).exists_antilipschitzWith (LinearMap.ker_eq_bot.2 h)
  have hK' : (0 : ℝ) < K := by exact_mod_cast hK
  refine ⟨1 / K, by positivity, fun u => ?_⟩
  have := hA.le_mul_dist u 0
  simp only [dist_zero_right, map_zero] at this
  rw [one_div, inv_mul_le_iff₀ hK']
  exact this

omit [FiniteDimensional ℝ E] in
/-- Near a point where it is twice differentiable, a map is its linear part up to a square. -/
theorem linear_part {F : E → E} {a : E} (hF : ContDiffAt ℝ 2 F a) :
    ∃ κ > 0, ∃ r > 0, ∀ w, ‖w - a‖ ≤ r → DifferentiableAt ℝ F w ∧ ‖fderiv ℝ F w - fderiv ℝ F a‖ ≤ κ * ‖w - a‖ ∧
      ‖F w - F a - fderiv ℝ F a (w - a)‖ ≤ κ * ‖w - a‖ * ‖w - a‖ := by
  have h1 : ContDiffAt ℝ 1 (fderiv ℝ F) a := hF.fderiv_right (by norm_num)
  obtain ⟨K, t, ht, hK⟩ := h1.exists_lipschitzOnWith
  have h2 : ∀ᶠ w in nhds a, DifferentiableAt ℝ F w := by
    filter_upwards [hF.eventually (by simp)] with w hw
    exact hw.differentiableAt (by norm_num)
  obtain ⟨r, hr, hsub⟩ := Metric.nhds_basis_closedBall.mem_iff.1 (Filter.inter_mem ht h2)
  have hcl : ∀ w, ‖w - a‖ ≤ r → ‖fderiv ℝ F w - fderiv ℝ F a‖ ≤ (K + 1) * ‖w - a‖ := fun w hw => by
    have hw' : w ∈ t := (hsub (by simpa [dist_eq_norm] using hw)).1
    have ha' : a ∈ t := (hsub (by simp [hr.le])).1
    have := hK.dist_le_mul w hw' a ha'
    rw [dist_eq_norm, dist_eq_norm] at this
    nlinarith [norm_nonneg (w - a)]
  refine ⟨K + 1, by positivity, r, hr, fun w hw => ⟨(hsub (by simpa [dist_eq_norm] using hw)).2, hcl w hw, ?_⟩⟩
  refine Convex.norm_image_sub_le_of_norm_hasFDerivWithin_le' (f' := fderiv ℝ F) (s := closedBall a ‖w - a‖) (fun y hy => ?_)
    (fun y hy => ?_) (convex_closedBall _ _) (by simp) (by simp [dist_eq_norm])
  · rw [mem_closedBall, dist_eq_norm] at hy
    have hd : DifferentiableAt ℝ F y := (hsub (by simpa [dist_eq_norm] using hy.trans hw)).2
    exact hd.hasFDerivAt.hasFDerivWithinAt
  · rw [mem_closedBall, dist_eq_norm] at hy
    exact (hcl y (hy.trans hw)).trans (by gcongr)

/-- Newton steps near a zero with an invertible derivative: they are defined, they square the distance to the zero, and they do not
increase the residual. Residual and distance bound each other. -/
theorem newton_quadratic {F : E → E} {a : E} (hF : ContDiffAt ℝ 2 F a) (h0 : F a = 0) (hinj : Function.Injective (fderiv ℝ F a))
    {ρ : ℝ} (hρ : 0 < ρ) :
    ∃ M > 0, ∃ B > 0, 1 / (2 * M) ≤ ρ ∧ ∀ w, ‖w - a‖ ≤ 1 / (2 * M) →
      DifferentiableAt ℝ F w ∧ Function.Injective (fderiv ℝ F w) ∧ ‖F w‖ ≤ B * ‖w - a‖ ∧ ‖w - a‖ ≤ B * ‖F w‖ ∧
      ∀ x, F w + fderiv ℝ F w (x - w) = 0 → ‖x - a‖ ≤ M * ‖w - a‖ ^ 2 ∧ ‖F x‖ ≤ ‖F w‖ := by
  obtain ⟨c, hc, hA⟩ := injective_below hinj
  obtain ⟨κ, hκ, r, hr, hlin⟩ := linear_part hF
  set A := fderiv ℝ F a with hAdef
  have hA0 : 0 ≤ ‖A‖ := norm_nonneg _
  obtain ⟨M, hM⟩ : ∃ M, M = max (max (1 / (2 * r)) (1 / (2 * ρ))) (max (4 * κ / c) (4 * κ * (‖A‖ + c) / c ^ 2)) := ⟨_, rfl⟩
  have m1 : 1 / (2 * r) ≤ M := hM ▸ (le_max_left _ _).trans (le_max_left _ _)
  have m2 : 1 / (2 * ρ) ≤ M := hM ▸ (le_max_right _ _).trans (le_max_left _ _)
  have m3 : 4 * κ / c ≤ M := hM ▸ (le_max_left _ _).trans (le_max_right _ _)
  have m4 : 4 * κ * (‖A‖ + c) / c ^ 2 ≤ M := hM ▸ (le_max_right _ _).trans (le_max_right _ _)
  have hM0 : 0 < M := lt_of_lt_of_le (by positivity) m1
  have inv : ∀ z, 0 < z → 1 / (2 * z) ≤ M → 1 / (2 * M) ≤ z := fun z hz h => by
    rw [div_le_iff₀ (by positivity)] at h ⊢; linarith
  rw [div_le_iff₀ hc] at m3
  rw [div_le_iff₀ (by positivity)] at m4
  refine ⟨M, hM0, max (‖A‖ + c) (2 / c), lt_of_lt_of_le (by positivity) (le_max_left _ _), inv ρ hρ m2, ?_⟩
  have key : ∀ w, ‖w - a‖ ≤ 1 / (2 * M) → DifferentiableAt ℝ F w ∧ κ * ‖w - a‖ ≤ c / 2 ∧
      ‖fderiv ℝ F w - A‖ ≤ κ * ‖w - a‖ ∧ ‖F w - A (w - a)‖ ≤ κ * ‖w - a‖ * ‖w - a‖ ∧ ‖F w‖ ≤ (‖A‖ + c) * ‖w - a‖ := fun w hw => by
    obtain ⟨d1, d2, d3⟩ := hlin w (hw.trans (inv r hr m1))
    rw [h0, sub_zero] at d3
    have hk : κ * ‖w - a‖ ≤ c / 2 := by
      rw [le_div_iff₀ (by positivity)] at hw
      nlinarith [norm_nonneg (w - a)]
    refine ⟨d1, hk, d2, d3, ?_⟩
    calc ‖F w‖ = ‖(F w - A (w - a)) + A (w - a)‖ := by rw [sub_add_cancel]
      _ ≤ ‖F w - A (w - a)‖ + ‖A (w - a)‖ := norm_add_le _ _
      _ ≤ κ * ‖w - a‖ * ‖w - a‖ + ‖A‖ * ‖w - a‖ := add_le_add d3 (A.le_opNorm _)
      _ ≤ _ := by nlinarith [norm_nonneg (w - a)]
  intro w hw
  obtain ⟨d1, hk, d2, d3, d4⟩ := key w hw
  have below : ∀ u, c / 2 * ‖u‖ ≤ ‖fderiv ℝ F w u‖ := fun u => by
    have e : A u = fderiv ℝ F w u - (fderiv ℝ F w - A) u := by simp
    have h1 := hA u
    rw [e] at h1
    have h2 := norm_sub_le (fderiv ℝ F w u) ((fderiv ℝ F w - A) u)
    have h3 := ((fderiv ℝ F w - A).le_opNorm u).trans (mul_le_mul_of_nonneg_right (d2.trans hk) (norm_nonneg u))
    linarith
  have h7 : c / 2 * ‖w - a‖ ≤ ‖F w‖ := by
    have g1 := hA (w - a)
    have e2 : A (w - a) = F w - (F w - A (w - a)) := by abel
    rw [e2] at g1
    have g2 := norm_sub_le (F w) (F w - A (w - a))
    nlinarith [norm_nonneg (w - a)]
  refine ⟨d1, ?_, d4.trans (mul_le_mul_of_nonneg_right (le_max_left _ _) (norm_nonneg _)), ?_, fun x hx => ?_⟩
  · rw [injective_iff_map_eq_zero]
    intro u hu
    have := below u
    rw [hu, norm_zero] at this
    exact norm_le_zero_iff.1 (by nlinarith)
  · refine le_trans ?_ (mul_le_mul_of_nonneg_right (le_max_right _ _) (norm_nonneg _))
    rw [div_mul_eq_mul_div, le_div_iff₀ hc]; linarith
  · have e : fderiv ℝ F w (x - a) = (fderiv ℝ F w - A) (w - a) - (F w - A (w - a)) := by
      have : x - a = (x - w) + (w - a) := by abel
      rw [this, map_add, eq_neg_of_add_eq_zero_right hx]
      simp only [sub_apply]
      abel
    have h1 := below (x - a)
    rw [e] at h1
    have h2 := norm_sub_le ((fderiv ℝ F w - A) (w - a)) (F w - A (w - a))
    have h3 := ((fderiv ℝ F w - A).le_opNorm (w - a)).trans (mul_le_mul_of_nonneg_right d2 (norm_nonneg _))
    have h4 : c * ‖x - a‖ ≤ 4 * κ * ‖w - a‖ ^ 2 := by nlinarith
    have h5 : ‖x - a‖ ≤ M * ‖w - a‖ ^ 2 := by
      have : c * ‖x - a‖ ≤ c * (M * ‖w - a‖ ^ 2) := by nlinarith [sq_nonneg ‖w - a‖]
      exact le_of_mul_le_mul_left this hc
    refine ⟨h5, ?_⟩
    have hw2 : 2 * M * ‖w - a‖ ≤ 1 := by
      rw [le_div_iff₀ (by positivity)] at hw; linarith
    have h6 : ‖x - a‖ ≤ 1 / (2 * M) := by
      refine h5.trans (le_trans ?_ hw)
      nlinarith [norm_nonneg (w - a)]
    obtain ⟨-, -, -, -, x4⟩ := key x h6
    refine x4.trans (le_trans ?_ h7)
    have g1 : c * ((‖A‖ + c) * ‖x - a‖) ≤ (‖A‖ + c) * (4 * κ * ‖w - a‖ ^ 2) := by nlinarith
    have g2 : 4 * κ * (‖A‖ + c) * ‖w - a‖ ≤ c ^ 2 / 2 := by
      have : 4 * κ * (‖A‖ + c) * ‖w - a‖ ≤ M * c ^ 2 * ‖w - a‖ := mul_le_mul_of_nonneg_right m4 (norm_nonneg _)
      nlinarith [sq_nonneg c]
    have g3 : c * ((‖A‖ + c) * ‖x - a‖) ≤ c * (c / 2 * ‖w - a‖) := by
      have := mul_le_mul_of_nonneg_right g2 (norm_nonneg (w - a))
      nlinarith
    exact le_of_mul_le_mul_left g3 hc

end Verif
