import Verif.Spec.LineSupply
import Verif.Spec.LineCharge
import Verif.Spec.LineSound
import Verif.Spec.GlmSound

/-!
# Feeders fed from their sources, with the lines by their conductors and charged
-/

namespace Verif.Glm

/-- `J` are the currents that charge the whole length of a line whose phases are at the voltages `U`: those of charges on the wires of an overhead line, whose radii
are `f` times half of their diameters in feet, or those of the susceptances of cables. Triplex lines have no charging. -/
def Charged (f : ℚ) (objs : List (Txt × Obj)) (o : Obj) (s : LineSpan) (U J : Char → ℂ) : Prop :=
  if o.cls = "overhead_line".toList then ∃ (P : Char → Char → ℝ) (Q : Char → ℂ), WiresCharged f objs o P ∧
    (∀ p ∈ s.phases, U p = (s.phases.map fun q => (P p q : ℂ) * Q q).sum) ∧ ∀ p ∈ s.phases, J p = Complex.I * ((2 * Real.pi * 60 / 1000000 * s.miles : ℝ) : ℂ) * Q p
  else if o.cls = "triplex_line".toList then ∀ p ∈ s.phases, J p = 0
  else ∃ y : Char → ℝ, CablesCharged objs o y ∧ ∀ p ∈ s.phases, J p = Complex.I * ((s.miles * y p : ℝ) : ℂ) * U p

/-- A line with its charging: currents through its phases, in at one end and out at the other, with which its conductors obey Carson's equations, and at each end `κ`
times the currents that charge its whole length with the voltages of this end. -/
def ChargedSpanFlow (f : ℚ) (κ : ℝ) (objs : List (Txt × Obj)) (V : Txt → Char → ℂ) (o : Obj) (l : List (Term × ℂ)) : Prop :=
  ∃ t ph s a b, ∃ I J K : Char → ℂ, o.attr "phases".toList = some t ∧ parsePhases t = .ok ph ∧ FileSpan objs o ph s ∧
    o.attr "from".toList = some a ∧ o.attr "to".toList = some b ∧ s.Law (fun p => V a p - V b p) I ∧ Charged f objs o s (V a) J ∧ Charged f objs o s (V b) K ∧
    l = s.phases.flatMap fun p => [(some (a, p), I p + κ * J p), (some (b, p), -I p + κ * K p)]

/-- `V` are voltages of the circuit the file describes, with all constant power multiplied by `s`. Half of the charging of every line at each of its ends is `κ = 1 / 2`,
diameters in inches are `f = 1 / 12`. -/
def ChargedFlowAt (f : ℚ) (κ : ℝ) (objs : List (Txt × Obj)) (s : ℝ) (V : Txt → Char → ℂ) : Prop :=
  ∃ lines, List.Forall₂ (ChargedSpanFlow f κ objs V) (declaredLines objs) lines ∧ CircuitFlowAt s objs V lines

/-- A supplied file in which the wires of overhead lines are at one height, without neutral, and the cables of underground lines have concentric neutrals. -/
structure ChargedFile (objs : List (Txt × Obj)) : Prop extends SuppliedFile objs where
  wires : ∀ o ∈ declaredLines objs, o.cls = "overhead_line".toList → ∃ P, WiresCharged 1 objs o P
  cables : ∀ o ∈ declaredLines objs, o.cls = "underground_line".toList → ∃ y, CablesCharged objs o y

/-- A sound file (C92) that is a plain feeder fed from its sources, the wires of its overhead lines at one height without neutral. -/
structure SoundSupply (objs : List (Txt × Obj)) : Prop where
  sound : SoundFeeder objs
  lines : SoundLines objs
  plain : PlainFeeder objs
  conductors : ConductorsNamed objs
  wires : ∀ o ∈ declaredLines objs, o.cls = "overhead_line".toList → ∃ P, WiresCharged 1 objs o P
  coils : ∀ o c p q, .coil o (some c) p q ∈ declaredXfmrs objs → (∀ r y, IsImpedance c r y → 0 < r) ∧ (∀ s, IsRating c s → 0 < s) ∧
    (c.attr "primary_voltage".toList).bind volts ≠ some 0 ∧ (c.attr "secondary_voltage".toList).bind volts ≠ some 0
  taps : ∀ o c, .tap o c ∈ declaredXfmrs objs → (∀ r y, IsImpedance c r y → 0 < r) ∧ (∀ s, IsRating c s → 0 < s) ∧
    (c.attr "secondary_voltage".toList).bind volts ≠ some 0
  regs : ∀ d ∈ declaredRegs objs, ∀ c, d.2.1 = some c → ∀ a, IsRatio c d.2.2 a → a ≠ 0
  impedances : ∀ d ∈ declaredLoads objs, d.kind = .impedance → 0 ≤ d.value.1
  fed : ∀ x ∈ declaredPlaces objs, x.1.2.attr "parent".toList = none → Fed objs (wiredLines objs) x.1.1 x.2
  ideal : ∃ num : Txt → Char → ℕ, (∀ n r p, FileRoot objs n r → num n p = num r p) ∧ Loopless (idealBranches objs num)

end Verif.Glm
