import Verif.Spec.GlmBuses
import Verif.Spec.Kirchhoff

/-!
# The currents of the devices of a GridLAB-D file

What the numbers of a file mean, in complex arithmetic.
-/

namespace Verif.Glm

open ComplexConjugate

/-- A complex number of a file. -/
noncomputable def toComplex (z : ℚ × ℚ) : ℂ := ⟨(z.1 : ℝ), (z.2 : ℝ)⟩

/-- The current of a declared load under the voltage `U`: constant power, constant impedance, or constant current. -/
noncomputable def DeclaredLoad.current (d : DeclaredLoad) (U : ℂ) : ℂ := match d.kind with
  | .power => conj (toComplex d.value / U)
  | .impedance => U / toComplex d.value
  | .current => toComplex d.value

/-- The rated voltage of a coil of a three-phase bank of rated voltage `v` between two lines: that between two lines in delta, that of one line
to neutral otherwise. -/
noncomputable def ratedCoil (delta : Bool) (v : ℚ) : ℝ := if delta then (v : ℝ) else (v : ℝ) / Real.sqrt 3

end Verif.Glm
