import Mathlib.Data.Real.Basic
import Mathlib.Algebra.BigOperators.Group.Finset.Basic

/-! # What a linear solver is supposed to do -/

namespace Verif

/-- `A x = b` on the first `n` rows and columns. -/
def Solves (n : ℕ) (A : ℕ → ℕ → ℝ) (b x : ℕ → ℝ) : Prop := ∀ i < n, ∑ j ∈ Finset.range n, A i j * x j = b i

/-- A solver that returns solutions or reports failure. -/
def ExactSolver (n : ℕ) (solve : (ℕ → ℕ → ℝ) → (ℕ → ℝ) → Option (ℕ → ℝ)) : Prop :=
  ∀ A b x, solve A b = some x → Solves n A b x

open Classical in
/-- The ideal solver: the solution if there is exactly one, failure otherwise. -/
noncomputable def idealSolve (n : ℕ) (A : ℕ → ℕ → ℝ) (b : ℕ → ℝ) : Option (ℕ → ℝ) :=
  if h : ∃ x, Solves n A b x ∧ ∀ y, Solves n A b y → ∀ i < n, y i = x i then some h.choose else none

theorem idealSolve_exact (n : ℕ) : ExactSolver n (idealSolve n) := by
  intro A b x h
  unfold idealSolve at h
  split_ifs at h with hx
  injection h with h
  rw [← h]; exact hx.choose_spec.1

theorem idealSolve_of {n : ℕ} {A : ℕ → ℕ → ℝ} {b x : ℕ → ℝ} (h : Solves n A b x)
    (hu : ∀ y, Solves n A b y → ∀ i < n, y i = x i) : ∃ y, idealSolve n A b = some y ∧ ∀ i < n, y i = x i := by
  have he : ∃ x, Solves n A b x ∧ ∀ y, Solves n A b y → ∀ i < n, y i = x i := ⟨x, h, hu⟩
  refine ⟨he.choose, by unfold idealSolve; rw [dif_pos he], hu _ he.choose_spec.1⟩

end Verif
