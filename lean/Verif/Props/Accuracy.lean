import Verif.Props.Converge
import Verif.Props.Newton

/-!
# C124: near a solution the tolerance bounds the error of the voltages

The residuals the solver compares with its tolerance are currents. This file says what they tell about the voltages.
-/

namespace Verif

open Ex Devices

variable {L : Library}

/-- **C124.** Let `xs` be a solution of a network at which every device is regular and the equations are not degenerate. There are a radius and a
factor so that for every vector `w` inside the radius whose residuals are at most `ε`: all unknowns of `w` are within `G * ε` of the
solution, those of a Newton step from `w` are within `G * ε ^ 2`, and that step leaves no residual above the largest of `w`. -/
theorem C124_accuracy (hL : L.Loaded) (N : Network) (hv : N.Valid) (tx : ℝ) (xs : ℕ → ℝ)
    (hz : ∀ i < (N.assign L).size, networkEq (N.assign L).all tx xs i = 0)
    (hr : ∀ e ∈ N.elements, e.RegularAt tx ((N.assign L).voltages xs))
    (hnd : Nondegenerate (N.assign L).size (networkEq (N.assign L).all tx) xs) :
    ∃ δ > 0, ∃ G > 0, ∀ w, Within (N.assign L).size δ w xs → ∀ ε ≥ 0,
      (∀ i < (N.assign L).size, |networkEq (N.assign L).all tx w i| ≤ ε) →
      Within (N.assign L).size (G * ε) w xs ∧
      ∀ x, NewtonStep (N.assign L).all tx (N.assign L).size w x →
        Within (N.assign L).size (G * ε ^ 2) x xs ∧ ∀ i < (N.assign L).size, |networkEq (N.assign L).all tx x i| ≤ ε := by
  have hn : Below (N.assign L).all (N.assign L).size := fun p hp x hx c hc => network_below hL N p hp x hx c hc
  obtain ⟨M, hM, B, hB, H⟩ := accuracy_exists hn (network_regular hL N hv tx xs hr) hz hnd
  refine ⟨1 / (2 * M), by positivity, max B (M * B ^ 2), lt_of_lt_of_le hB (le_max_left _ _), fun w hw ε hε hres => ?_⟩
  obtain ⟨hdiff, h1, h2⟩ := H w hw
  have hF : ‖equationsMap (N.assign L).all tx (N.assign L).size (cutTo _ w)‖ ≤ ε := by
    rw [pi_norm_le_iff_of_nonneg hε]
    intro j
    show |networkEq _ tx _ j| ≤ ε
    rw [← networkEq_agree hn tx (stretch_agree w)]; exact hres j j.2
  have hd : ‖cutTo (N.assign L).size w - cutTo _ xs‖ ≤ B * ε := h1.trans (by gcongr)
  refine ⟨?_, fun x hx => ?_⟩
  · have hG : B ≤ max B (M * B ^ 2) := le_max_left _ _
    rw [within_iff (by positivity)]
    refine hd.trans ?_
    gcongr
  · obtain ⟨s1, s2⟩ := h2 (cutTo _ x) (step_linear hn hdiff hx)
    constructor
    · have hG : M * B ^ 2 ≤ max B (M * B ^ 2) := le_max_right _ _
      rw [within_iff (by positivity)]
      calc _ ≤ M * ‖cutTo (N.assign L).size w - cutTo _ xs‖ ^ 2 := s1
        _ ≤ M * (B * ε) ^ 2 := by gcongr
        _ = (M * B ^ 2) * ε ^ 2 := by ring
        _ ≤ _ := by gcongr
    · intro i hi
      rw [networkEq_agree hn tx (stretch_agree x)]
      exact (norm_le_pi_norm (equationsMap (N.assign L).all tx (N.assign L).size (cutTo _ x)) ⟨i, hi⟩).trans (s2.trans hF)

/-- **C124 for runs.** A success of a run in debug mode, or at the first iteration, on a fresh stamper with an exact linear solver comes with a vector
whose residuals are below the tolerance. If this vector is inside the radius of a solution, the returned voltages are within `G` times the
square of the tolerance of this solution, and their residuals are below the tolerance too. Radius and factor do not depend on the run. -/
theorem C124_run (hL : L.Loaded) (N : Network) (hv : N.Valid) (tx : ℝ) (xs : ℕ → ℝ)
    (hz : ∀ i < (N.assign L).size, networkEq (N.assign L).all tx xs i = 0)
    (hr : ∀ e ∈ N.elements, e.RegularAt tx ((N.assign L).voltages xs))
    (hnd : Nondegenerate (N.assign L).size (networkEq (N.assign L).all tx) xs) :
    ∃ δ > 0, ∃ G > 0, ∀ m C vInit r st, Stamper.build N.opt (N.assign L).all = .ok m → C.size = (N.assign L).size →
      ExactSolver C.size C.solve → nrRun C Stamper.ops m vInit tx = .ok (r, st) → r.success = true → C.debug = true ∨ r.iter = 0 → 0 ≤ C.tolerance →
      ∃ w, (r.iter = 0 → w = vInit) ∧ (∀ i < C.size, |networkEq (N.assign L).all tx w i| < C.tolerance) ∧
        (Within C.size δ w xs → Within C.size (G * C.tolerance ^ 2) r.v xs ∧
          ∀ i < C.size, |networkEq (N.assign L).all tx r.v i| ≤ C.tolerance) := by
  have hn : Below (N.assign L).all (N.assign L).size := fun p hp x hx c hc => network_below hL N p hp x hx c hc
  obtain ⟨δ, hδ, G, hG, H⟩ := C124_accuracy hL N hv tx xs hz hr hnd
  obtain ⟨η, hη, hreg⟩ := regular_within hn (network_regular hL N hv tx xs hr)
  refine ⟨min δ η, lt_min hδ hη, G, hG, fun m C vInit r st hm hs hsolve hrun hsucc hd htol => ?_⟩
  obtain ⟨w, h1, h2, h3⟩ := C03_success_residual_partial N.opt (N.assign L).all (network_wellPlaced hL N hv) m hm C hsolve
    (by rw [hs]; exact hn) vInit tx r st hrun hsucc
  refine ⟨w, h1, h2, fun hw => ?_⟩
  rw [hs] at hw h2 h3 ⊢
  have hstep := h3 hd (hreg w fun i hi => (hw i hi).trans (min_le_right _ _))
  exact (H w (fun i hi => (hw i hi).trans (min_le_left _ _)) _ htol fun i hi => (h2 i hi).le).2 _ hstep

/-! ### The feeder of `Converge.lean` meets the hypotheses -/

example (hL : L.Loaded) := C124_accuracy hL reactiveNet reactive_valid 0 reactiveSol (fun i _ => reactive_solved hL i) reactive_regular
  (by rw [reactive_size hL]; exact reactive_nondegenerate hL)

/-- Near the solution of the feeder there are vectors that are not solutions: the theorem is not about the solution alone. -/
example (hL : L.Loaded) : ∃ δ > 0, ∃ G > 0, Within 6 δ (fun i => reactiveSol i + if i = 4 then δ else 0) reactiveSol ∧
    networkEq (reactiveNet.assign L).all 0 (fun i => reactiveSol i + if i = 4 then δ else 0) 0 = δ ∧ δ ≤ G * δ := by
  have hs := reactive_size (L := L) hL
  obtain ⟨δ, hδ, G, hG, H⟩ := C124_accuracy hL reactiveNet reactive_valid 0 reactiveSol (fun i _ => reactive_solved hL i) reactive_regular
    (by rw [hs]; exact reactive_nondegenerate hL)
  have hw : Within 6 δ (fun i => reactiveSol i + if i = 4 then δ else 0) reactiveSol := by
    intro i _
    simp only [add_sub_cancel_left]
    split_ifs
    · rw [abs_of_pos hδ]
    · simpa using hδ.le
  have hres : ∀ i, networkEq (reactiveNet.assign L).all 0 (fun i => reactiveSol i + if i = 4 then δ else 0) i = if i = 0 then δ else 0 := by
    intro i
    rw [reactive_rows hL]
    match i with
    | 0 | 1 | 2 | 3 | 4 | 5 => simp [reactiveEq, reactiveSol] <;> norm_num
    | k + 6 => simp [reactiveEq]
  refine ⟨δ, hδ, G, hG, hw, by rw [hres]; simp, ?_⟩
  have := (H _ (by rw [hs]; exact hw) δ hδ.le (fun i _ => by rw [hres]; split_ifs <;> simp [abs_of_pos hδ, hδ.le])).1 4 (by rw [hs]; omega)
  simpa [abs_of_pos hδ] using this

example (hL : L.Loaded) := C124_run hL reactiveNet reactive_valid 0 reactiveSol (fun i _ => reactive_solved hL i) reactive_regular
  (by rw [reactive_size hL]; exact reactive_nondegenerate hL)

end Verif
