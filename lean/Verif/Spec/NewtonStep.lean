import Verif.Spec.Network
import Mathlib.Analysis.Calculus.Deriv.Basic

/-! # Newton's method, stated without matrices -/

namespace Verif

/-- `x` is a Newton step from `w` for the equations of `ps` on the rows below `n`: the equations at `w` plus their
derivative in the direction from `w` to `x` vanish. -/
def NewtonStep (ps : List Placed) (t : ℝ) (n : ℕ) (w x : ℕ → ℝ) : Prop :=
  ∃ d : ℕ → ℝ, (∀ i, HasDerivAt (fun s => networkEq ps t (fun k => w k + s * (x k - w k)) i) (d i) 0) ∧
    ∀ i < n, networkEq ps t w i + d i = 0

end Verif
