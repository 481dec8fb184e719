import Verif.Spec.GlmSupply
import Verif.Spec.GlmJoined
import Verif.Spec.LineFlow

/-!
# Feeders fed from their sources, with the lines by their conductors

Everything is said of the objects of the file: no matrices and nothing the reader found.
-/

namespace Verif.Glm

open ComplexConjugate

/-- The letters of the phase conductors of a line. -/
def wiredPhases (objs : List (Txt × Obj)) (o : Obj) : List Char :=
  if o.cls = "triplex_line".toList then "12".toList else match (o.attr "configuration".toList).bind (lookup · objs) with
    | some c => conductorLetters c "ABC".toList
    | none => []

/-- The lines of a file by the letters of their conductors. -/
def wiredLines (objs : List (Txt × Obj)) : List (List Char × Unit) := (declaredLines objs).map fun o => (wiredPhases objs o, ())

/-- `V` are voltages of the circuit the file describes, its lines without charging, with all constant power multiplied by `s`. -/
def FileFlowAt (objs : List (Txt × Obj)) (s : ℝ) (V : Txt → Char → ℂ) : Prop :=
  ∃ lines, List.Forall₂ (SpanFlow objs V) (declaredLines objs) lines ∧ CircuitFlowAt s objs V lines

/-- The power the phases of a line lose with the voltage drops `U` and the currents `I`. -/
noncomputable def LineSpan.loss (s : LineSpan) (U I : Char → ℂ) : ℝ := (s.phases.map fun p => conj (I p) * U p).sum.re

/-- A plain feeder fed from its sources: the conductors and the length of every line are known and the length is above zero, transformers have resistance,
ratios are not zero, constant impedances do not generate, every phase of every place is connected to a source, and sources and closed switches form no loop. -/
structure SuppliedFile (objs : List (Txt × Obj)) : Prop where
  plain : PlainFeeder objs
  conductors : ConductorsNamed objs
  spans : ∀ o ∈ declaredLines objs, ∀ t ph, o.attr "phases".toList = some t → parsePhases t = .ok ph → ∃ s, FileSpan objs o ph s ∧ 0 < s.miles
  coils : ∀ o c p q, .coil o (some c) p q ∈ declaredXfmrs objs → (∀ r y, IsImpedance c r y → 0 < r) ∧ (∀ s, IsRating c s → 0 < s) ∧
    (c.attr "primary_voltage".toList).bind volts ≠ some 0 ∧ (c.attr "secondary_voltage".toList).bind volts ≠ some 0
  taps : ∀ o c, .tap o c ∈ declaredXfmrs objs → (∀ r y, IsImpedance c r y → 0 < r) ∧ (∀ s, IsRating c s → 0 < s) ∧
    (c.attr "secondary_voltage".toList).bind volts ≠ some 0
  regs : ∀ d ∈ declaredRegs objs, ∀ c, d.2.1 = some c → ∀ a, IsRatio c d.2.2 a → a ≠ 0
  impedances : ∀ d ∈ declaredLoads objs, d.kind = .impedance → 0 ≤ d.value.1
  fed : ∀ x ∈ declaredPlaces objs, x.1.2.attr "parent".toList = none → Fed objs (wiredLines objs) x.1.1 x.2
  ideal : ∃ num : Txt → Char → ℕ, (∀ n r p, FileRoot objs n r → num n p = num r p) ∧ Loopless (idealBranches objs num)

end Verif.Glm
