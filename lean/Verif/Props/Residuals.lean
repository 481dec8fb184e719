import Verif.Model.Residuals
import Verif.Spec.Network

/-!
# C32, C33: voltage limiting and the residual report
-/

namespace Verif

theorem residualVector_fold (cs : List (ℕ × ℝ)) (r : ℕ → ℝ) (i : ℕ) :
    cs.foldl addAt r i = r i + rowTotal cs i := by
  induction cs generalizing r with
  | nil => simp [rowTotal]
  | cons c cs ih =>
    rw [List.foldl_cons, ih]
    unfold addAt rowTotal
    rw [List.filter_cons]
    by_cases h : i = c.1
    · simp [h]; ring
    · simp [h, Ne.symm h]

theorem residualVector_eq (cs : List (ℕ × ℝ)) (i : ℕ) : residualVector cs i = rowTotal cs i := by
  unfold residualVector; rw [residualVector_fold]; simp

theorem amax_argmax (f : ℕ → ℝ) (n : ℕ) :
    (∀ i ≤ n, f i ≤ amax f n) ∧ argmax f n ≤ n ∧ f (argmax f n) = amax f n ∧ ∀ j < argmax f n, f j < amax f n := by
  induction n with
  | zero => simp [amax, argmax]
  | succ n ih =>
    obtain ⟨h1, h2, h3, h4⟩ := ih
    unfold amax argmax
    by_cases h : amax f n < f (n + 1)
    · rw [if_pos h, max_eq_right h.le]
      refine ⟨fun i hi => ?_, le_refl _, rfl, fun j hj => lt_of_le_of_lt (h1 j (by omega)) h⟩
      rcases Nat.lt_or_ge i (n + 1) with hlt | hge
      · exact (h1 i (by omega)).trans h.le
      · have : i = n + 1 := by omega
        rw [this]
    · rw [if_neg h, max_eq_left (not_lt.1 h)]
      refine ⟨fun i hi => ?_, by omega, h3, h4⟩
      rcases Nat.lt_or_ge i (n + 1) with hlt | hge
      · exact h1 i (by omega)
      · have : i = n + 1 := by omega
        rw [this]; exact not_lt.1 h

/-- **C33.** For every list of contributions and every vector length: the report is the max-norm of the summed
contributions, attained at the reported index and at no earlier one. `rowTotal` is the plain sum per row. -/
theorem C33_residual_report (cs : List (ℕ × ℝ)) (n : ℕ) (rd : ResidualDetails) (h : ResidualDetails.make cs n = .ok rd) :
    (∀ i, rd.residuals i = rowTotal cs i) ∧
    (∀ i < n, |rowTotal cs i| ≤ rd.maxResidual) ∧
    rd.maxResidualIdx < n ∧ |rowTotal cs rd.maxResidualIdx| = rd.maxResidual ∧
    ∀ j < rd.maxResidualIdx, |rowTotal cs j| < rd.maxResidual := by
  cases n with
  | zero => simp [ResidualDetails.make] at h
  | succ n =>
    simp only [ResidualDetails.make, Except.ok.injEq] at h
    subst h
    obtain ⟨h1, h2, h3, h4⟩ := amax_argmax (fun i => |residualVector cs i|) n
    simp only [residualVector_eq] at *
    exact ⟨by simp, fun i hi => h1 i (by omega), by omega, h3, h4⟩

/-- **C33, order.** The order of the contributions does not matter; and the report exists for every non-empty vector. -/
theorem C33_order_irrelevant (cs cs' : List (ℕ × ℝ)) (hp : cs.Perm cs') (n : ℕ) :
    ∃ rd rd', ResidualDetails.make cs (n + 1) = .ok rd ∧ ResidualDetails.make cs' (n + 1) = .ok rd' ∧
      rd.residuals = rd'.residuals ∧ rd.maxResidual = rd'.maxResidual ∧ rd.maxResidualIdx = rd'.maxResidualIdx := by
  have h : residualVector cs = residualVector cs' := by
    funext i
    rw [residualVector_eq, residualVector_eq]
    exact ((hp.filter _).map _).sum_eq
  exact ⟨_, _, rfl, rfl, h, by simp only [h], by simp only [h]⟩

/-- Cancelling contributions to row 0, a single one to row 1: the report is row 1. -/
example : ∃ rd, ResidualDetails.make [(0, 2), (1, -1), (0, -2)] 2 = .ok rd ∧ rd.maxResidual = 1 ∧ rd.maxResidualIdx = 1 := by
  refine ⟨_, rfl, ?_, ?_⟩ <;> simp [residualVector, addAt, amax, argmax]

/-! ### C32 -/

theorem clip_mem {x lo hi : ℝ} (h : lo ≤ hi) : lo ≤ clip x lo hi ∧ clip x lo hi ≤ hi :=
  ⟨le_min (le_max_right _ _) h, min_le_right _ _⟩

theorem clip_of_mem {x lo hi : ℝ} (h1 : lo ≤ x) (h2 : x ≤ hi) : clip x lo hi = x := by
  unfold clip; rw [max_eq_left h1, min_eq_left h2]

/-- **C32.** For every list of bus columns and all vectors, component by component. -/
theorem C32_limiting (buses : List (ℕ × ℕ)) (vNext vPrev : ℕ → ℝ) (i : ℕ) :
    let w := applyLimiting buses vNext vPrev i
    -- other unknowns are untouched
    ((∀ b ∈ buses, i ≠ b.1 ∧ i ≠ b.2) → w = vNext i) ∧
    -- bus voltages
    ((∃ b ∈ buses, i = b.1 ∨ i = b.2) →
      -- lie in [-2, 2]
      |w| ≤ 2 ∧
      -- moved at most one, or were brought to the bound
      (|w - vPrev i| ≤ 1 ∨ |w| = 2) ∧
      -- are not altered when already inside
      (|vNext i - vPrev i| ≤ 1 → |vNext i| ≤ 2 → w = vNext i) ∧
      -- move in the direction of the update, not beyond it, when the previous value is inside
      (|vPrev i| ≤ 2 → (vPrev i ≤ vNext i → vPrev i ≤ w ∧ w ≤ vNext i) ∧ (vNext i ≤ vPrev i → vNext i ≤ w ∧ w ≤ vPrev i)) ∧
      -- and never stand still unless the update does or the bound is reached
      (|vPrev i| ≤ 2 → w = vPrev i → vNext i = vPrev i ∨ |vPrev i| = 2)) := by
  intro w
  constructor
  · intro h
    have : busMask buses i = false := by
      unfold busMask
      rw [List.any_eq_false]
      intro b hb
      obtain ⟨h1, h2⟩ := h b hb
      simp [Ne.symm h1, Ne.symm h2]
    simp [w, applyLimiting, this]
  · rintro ⟨b, hb, hi⟩
    have hm : busMask buses i = true := by
      unfold busMask
      rw [List.any_eq_true]
      exact ⟨b, hb, by rcases hi with rfl | rfl <;> simp⟩
    have hw : w = clip (vPrev i + clip (vNext i - vPrev i) (-1) 1) (-2) 2 := by simp [w, applyLimiting, hm]
    generalize vNext i = a at *
    generalize vPrev i = p at *
    have c1 := clip_mem (x := a - p) (lo := -1) (hi := 1) (by norm_num)
    have c2 := clip_mem (x := p + clip (a - p) (-1) 1) (lo := -2) (hi := 2) (by norm_num)
    rw [← hw] at c2
    -- the inner step
    have hd : (a - p ≤ -1 ∧ clip (a - p) (-1) 1 = -1) ∨ (-1 ≤ a - p ∧ a - p ≤ 1 ∧ clip (a - p) (-1) 1 = a - p) ∨
        (1 ≤ a - p ∧ clip (a - p) (-1) 1 = 1) := by
      unfold clip
      rcases le_total (a - p) (-1) with h | h
      · left; refine ⟨h, ?_⟩; rw [max_eq_right h]; norm_num
      · rcases le_total (a - p) 1 with h' | h'
        · right; left; exact ⟨h, h', by rw [max_eq_left h, min_eq_left h']⟩
        · right; right; refine ⟨h', ?_⟩; rw [max_eq_left h, min_eq_right h']
    generalize clip (a - p) (-1) 1 = d at *
    have ho : (p + d ≤ -2 ∧ w = -2) ∨ (-2 ≤ p + d ∧ p + d ≤ 2 ∧ w = p + d) ∨ (2 ≤ p + d ∧ w = 2) := by
      rw [hw]; unfold clip
      rcases le_total (p + d) (-2) with h | h
      · left; refine ⟨h, ?_⟩; rw [max_eq_right h]; norm_num
      · rcases le_total (p + d) 2 with h' | h'
        · right; left; exact ⟨h, h', by rw [max_eq_left h, min_eq_left h']⟩
        · right; right; refine ⟨h', ?_⟩; rw [max_eq_left h, min_eq_right h']
    refine ⟨abs_le.2 c2, ?_, ?_, ?_, ?_⟩
    · rcases ho with ⟨_, h⟩ | ⟨_, _, h⟩ | ⟨_, h⟩
      · right; rw [h]; norm_num
      · left; rw [h, abs_le]; constructor <;> linarith
      · right; rw [h]; norm_num
    · intro h1 h2
      rw [abs_le] at h1 h2
      rcases hd with ⟨_, e⟩ | ⟨_, _, e⟩ | ⟨_, e⟩ <;> rcases ho with ⟨_, h⟩ | ⟨_, _, h⟩ | ⟨_, h⟩ <;> linarith
    · intro h1
      rw [abs_le] at h1
      constructor
      · intro h2
        constructor <;>
        rcases hd with ⟨_, e⟩ | ⟨_, _, e⟩ | ⟨_, e⟩ <;> rcases ho with ⟨_, h⟩ | ⟨_, _, h⟩ | ⟨_, h⟩ <;> linarith
      · intro h2
        constructor <;>
        rcases hd with ⟨_, e⟩ | ⟨_, _, e⟩ | ⟨_, e⟩ <;> rcases ho with ⟨_, h⟩ | ⟨_, _, h⟩ | ⟨_, h⟩ <;> linarith
    · intro h1 h2
      rw [abs_le] at h1
      rcases ho with ⟨_, h⟩ | ⟨_, _, h⟩ | ⟨_, h⟩
      · right; rw [← h2, h]; norm_num
      · left
        rcases hd with ⟨_, e⟩ | ⟨_, _, e⟩ | ⟨_, e⟩ <;> linarith
      · right; rw [← h2, h]; norm_num

/-- One bus with columns 0 and 1: a jump of 3 is cut to 1, column 2 is left alone. -/
example : applyLimiting [(0, 1)] (fun _ => 3) (fun _ => 0) 0 = 1 ∧ applyLimiting [(0, 1)] (fun _ => 3) (fun _ => 0) 2 = 3 := by
  constructor
  · simp [applyLimiting, busMask, clip]; norm_num
  · simp [applyLimiting, busMask]

/-- Both theorems on the report apply to those contributions, in either order. -/
example : ∃ rd, ResidualDetails.make [(0, 2), (1, -1), (0, -2)] 2 = .ok rd ∧ |rowTotal [(0, 2), (1, -1), (0, -2)] 0| ≤ rd.maxResidual ∧
    ∃ rd', ResidualDetails.make [(1, -1), (0, 2), (0, -2)] 2 = .ok rd' ∧ rd.maxResidual = rd'.maxResidual := by
  obtain ⟨rd, rd', h1, h2, -, h3, -⟩ := C33_order_irrelevant [(0, 2), (1, -1), (0, -2)] [(1, -1), (0, 2), (0, -2)] (List.Perm.swap _ _ _) 1
  exact ⟨rd, h1, (C33_residual_report _ _ _ h1).2.1 0 (by omega), rd', h2, h3⟩

end Verif
