import Verif.Spec.Kirchhoff

/-! # Linear networks -/

namespace Verif

/-- Elements whose laws are affine in voltages and currents: no generator, no constant power load. -/
def Element.Linear : Element → Prop
  | .generator .. => False
  | .load _ _ l => l.P = 0 ∧ l.Q = 0
  | _ => True

/-- All elements are linear and no infeasibility analysis is attached. -/
def Network.Linear (N : Network) : Prop := N.optimization = none ∧ ∀ e ∈ N.elements, e.Linear

/-- A center-tap transformer's ratio, scaled for homotopy factor `t`, is not zero (its laws divide by it). -/
def Element.RatioNonzero (t : ℝ) : Element → Prop
  | .centerTap _ _ _ _ _ _ ratio .. => ratioAt t ratio ≠ 0
  | _ => True

/-- All scaled ratios are nonzero. -/
def Network.RatiosNonzero (N : Network) (t : ℝ) : Prop := ∀ e ∈ N.elements, e.RatioNonzero t

end Verif
