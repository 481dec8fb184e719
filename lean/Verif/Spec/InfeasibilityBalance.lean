import Verif.Spec.Balance
import Verif.Spec.Optimization

/-!
# Specification of the power the infeasibility currents bring in (C136)
-/

namespace Verif

open ComplexConjugate

/-- Complex power brought in at bus `k` by the infeasibility currents. `injection` is a current leaving the bus, so its negative enters. -/
noncomputable def Network.broughtIn (N : Network) (o : OptKind) (V : Ref → ℂ) (v : ℕ → ℝ) (k : ℕ) : ℂ :=
  V (some k) * conj (-⟨N.injection o v (2 * k), N.injection o v (2 * k + 1)⟩)

end Verif
