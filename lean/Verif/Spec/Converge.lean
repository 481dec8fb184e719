import Verif.Spec.Network
import Verif.Spec.Kirchhoff
import Verif.Model.Newton
import Mathlib.Analysis.Calculus.Deriv.Basic

/-!
# Solutions a Newton method can find

Written for any equations `f`, given as the value of equation `i` at a vector.
-/

namespace Verif

/-- The two vectors differ by at most `δ` in the first `n` places. -/
def Within (n : ℕ) (δ : ℝ) (v w : ℕ → ℝ) : Prop := ∀ i < n, |v i - w i| ≤ δ

/-- No direction leaves all of the first `n` equations unchanged to first order at `x`. -/
def Nondegenerate (n : ℕ) (f : (ℕ → ℝ) → ℕ → ℝ) (x : ℕ → ℝ) : Prop :=
  ∀ u : ℕ → ℝ, (∀ i < n, HasDerivAt (fun s : ℝ => f (fun k => x k + s * u k) i) 0 0) → ∀ i < n, u i = 0

/-- The components listed as bus voltages lie inside the vector and strictly inside the limits of voltage limiting, which are two volts. -/
def OffLimits (n : ℕ) (bs : List (ℕ × ℕ)) (x : ℕ → ℝ) : Prop := ∀ b ∈ bs, b.1 < n ∧ b.2 < n ∧ |x b.1| < 2 ∧ |x b.2| < 2

/-- How many nonlinear matrix stamps are not zero at `w`. -/
noncomputable def filledStamps (ps : List Placed) (t : ℝ) (w : ℕ → ℝ) : ℕ :=
  ((ps.flatMap fun p => p.emitted t w false).filter fun e => e.2.1.isSome ∧ e.2.2 ≠ 0).length

/-- Near `x` the same number of nonlinear matrix stamps is not zero. -/
def SteadyFill (n : ℕ) (ps : List Placed) (t : ℝ) (x : ℕ → ℝ) : Prop :=
  ∃ η > 0, ∀ w, Within n η w x → filledStamps ps t w = filledStamps ps t x

/-- A condition on single elements, given the bus voltages and the own unknowns, that gives a steady fill. A constant power load of power `S` at
voltage `V` has `S * conj V ^ 2` off both axes. So has a generator, whose own unknown is its reactive power, and its voltage is off both axes too.
All other elements have constant matrix stamps. -/
def Element.SteadyAt (V : Ref → ℂ) (own : List ℝ) : Element → Prop
  | .generator b P _ => (V (some b)).re ≠ 0 ∧ (V (some b)).im ≠ 0 ∧
      ((⟨P, own.getD 0 0⟩ : ℂ) * (starRingEnd ℂ (V (some b))) ^ 2).re ≠ 0 ∧ ((⟨P, own.getD 0 0⟩ : ℂ) * (starRingEnd ℂ (V (some b))) ^ 2).im ≠ 0
  | .load f u l => l.P = 0 ∧ l.Q = 0 ∨
      ((⟨l.P, l.Q⟩ : ℂ) * (starRingEnd ℂ (V f - V u)) ^ 2).re ≠ 0 ∧ ((⟨l.P, l.Q⟩ : ℂ) * (starRingEnd ℂ (V f - V u)) ^ 2).im ≠ 0
  | _ => True

end Verif
