import Verif.Model.Placement
import Mathlib.LinearAlgebra.Matrix.NonsingularInverse
import Mathlib.Analysis.Complex.Norm

/-!
# The constructor of `UnbalancedLine` (`/repo/src/models/components/unbalanced_line.py` 54-91)

The matrix inversion (`calcInverse` 12-35 with the fallback `np.linalg.inv` 66-72) is a parameter `inv`, as a floating point
routine that may fail or be inexact; `exactInverse` is what the two routines compute together in exact arithmetic.
-/

namespace Verif

/-- `calcInverse` with its fallback in exact arithmetic (`unbalanced_line.py` 12-35, 66-72). One by one: `1 / Z`. Two by two
without zero rows: `index(True)` raises and the fallback inverts. Three by three without zero rows and columns: the reduced
matrix is the matrix. With zero rows or columns the result is an exception, or a matrix the check in line 73 rejects since
the product has a zero row (or `nan`). So: the inverse where there is one, otherwise no line. -/
noncomputable def exactInverse {n : ℕ} (Z : Matrix (Fin n) (Fin n) ℂ) : Except String (Matrix (Fin n) (Fin n) ℂ) :=
  open Classical in
  if Z.det = 0 then .error "Transmission line was provided with a noninvertible matrix" else .ok Z⁻¹

/-- `np.allclose(np.dot(Z, Y), np.identity(n))` (`unbalanced_line.py` 73): `|a - b| <= 1e-8 + 1e-5 * |b|`. -/
def closeToIdentity {n : ℕ} (M : Matrix (Fin n) (Fin n) ℂ) : Prop :=
  ∀ i j, ‖M i j - (1 : Matrix (Fin n) (Fin n) ℂ) i j‖ ≤ 1 / 100000000 + 1 / 100000 * ‖(1 : Matrix (Fin n) (Fin n) ℂ) i j‖

/-- Entry of a matrix as a function of natural numbers (`self.admittances[i][j]`, `unbalanced_line.py` 206-207). -/
def entryAt {n : ℕ} (M : Matrix (Fin n) (Fin n) ℂ) (i j : ℕ) : ℂ :=
  if h : i < n ∧ j < n then M ⟨i, h.1⟩ ⟨j, h.2⟩ else 0

/-- `UnbalancedLine.__init__` (`unbalanced_line.py` 56-91) for a square matrix `Z` and shunt matrix `S` per meter (`S i j` is
`none` beyond its size, `IndexError` in lines 211-214; a missing matrix is `none` everywhere). `phases` holds from and to
bus of each phase, at least one. A wrong number of phases fails in line 73 (shapes or values). -/
noncomputable def makeUnbalanced {n : ℕ} (inv : Matrix (Fin n) (Fin n) ℂ → Except String (Matrix (Fin n) (Fin n) ℂ))
    (Z : Matrix (Fin n) (Fin n) ℂ) (S : ℕ → ℕ → Option ℂ) (length : ℝ) (phases : List (ℕ × ℕ)) : Except String Element :=
  open Classical in
  if ¬ (n = 1 ∨ n = 2 ∨ n = 3) then .error "incorrect impedances matrix size, expected a square matrix at most size 3 by 3"
  else do
    let Z' := (length : ℂ) • Z
    let Y ← inv Z'
    if ¬ (phases.length = n ∧ closeToIdentity (Z' * Y)) then
      .error "np.linalg.inv was unable to find a good inverse to the impedance matrix"
    else .ok (.unbalanced phases (entryAt Y) fun i j => match S i j with
      | some s => ((length : ℂ) * s).im
      | none => 0)

end Verif
