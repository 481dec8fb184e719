import Verif.Model.Components

/-! # Circuit theory vocabulary used by the specifications (independent of the code) -/

namespace Verif.Circuit

open ComplexConjugate

/-- Complex power absorbed at a terminal pair with voltage `V` carrying current `I`. -/
noncomputable def power (V I : ℂ) : ℂ := V * conj I

/-- Voltage across the two terminals. -/
noncomputable def across (v : Ex.Env) : ℂ := ⟨v .VrFrom - v .VrTo, v .ViFrom - v .ViTo⟩

/-- Current a part draws out of its from-bus (its entries in the two from-bus balance rows). -/
noncomputable def fromCurrent (p : Part) (t : ℝ) (v : Ex.Env) : ℂ := ⟨p.row t v .LrFrom, p.row t v .LiFrom⟩

/-- Current a part draws out of its to-bus. -/
noncomputable def toCurrent (p : Part) (t : ℝ) (v : Ex.Env) : ℂ := ⟨p.row t v .LrTo, p.row t v .LiTo⟩

/-- The part's own constraint equations (all rows other than the four bus balance rows) hold. -/
def OwnEquationsHold (p : Part) (t : ℝ) (v : Ex.Env) : Prop := ∀ d ∈ p.seg.duals.drop 4, p.row t v d = 0

end Verif.Circuit
