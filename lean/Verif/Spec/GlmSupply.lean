import Verif.Spec.GlmFlow
import Verif.Spec.Resistive

/-!
# Feeders of GridLAB-D files fed from their sources

The circuit of a file with its constant power multiplied by a factor, and conditions that can be read off a file: every device has resistance, every phase of
every node is connected to a source, and no loop consists of sources and closed switches only. Names and phases of the file only.
-/

namespace Verif.Glm

open ComplexConjugate

/-! ### The circuit with a load factor -/

/-- The current of a declared load under the voltage `U`, its constant power multiplied by `s`. -/
noncomputable def DeclaredLoad.currentAt (s : ℝ) (d : DeclaredLoad) (U : ℂ) : ℂ := match d.kind with
  | .power => conj (s * toComplex d.value / U)
  | .impedance => U / toComplex d.value
  | .current => toComplex d.value

/-- The voltage a load is under: between its phases, or between its phase and ground. -/
noncomputable def DeclaredLoad.across (V : Txt → Char → ℂ) (d : DeclaredLoad) : ℂ := match d.phases with
  | [] => 0
  | a :: rest => V d.node a - voltAt V (termOf d.node rest.head?)

/-- A load with its constant power multiplied by `s` takes its current between its phases, or between its phase and ground. -/
def LoadFlowAt (s : ℝ) (V : Txt → Char → ℂ) (d : DeclaredLoad) (l : List (Term × ℂ)) : Prop :=
  ∃ a rest, d.phases = a :: rest ∧
    l = through (some (d.node, a)) (termOf d.node rest.head?) (d.currentAt s (V d.node a - voltAt V (termOf d.node rest.head?)))

/-- `V` are voltages of the circuit the file describes with all constant power multiplied by `s`, if `lines` are the currents of its lines. -/
def CircuitFlowAt (s : ℝ) (objs : List (Txt × Obj)) (V : Txt → Char → ℂ) (lines : List (List (Term × ℂ))) : Prop :=
  (∀ x ∈ declaredPlaces objs, x.1.2.attr "parent".toList = none → ∀ n, FileRoot objs n x.1.1 → V n x.2 = V x.1.1 x.2) ∧
  ∃ xfmrs sources switches loads regs fuses caps,
    List.Forall₂ (XfmrFlow V) (declaredXfmrs objs) xfmrs ∧
    List.Forall₂ (SourceFlow V) (declaredSources objs) sources ∧
    List.Forall₂ (SwitchFlow V) (declaredSwitches objs) switches ∧
    List.Forall₂ (LoadFlowAt s V) (declaredLoads objs) loads ∧
    List.Forall₂ (RegFlow V) (declaredRegs objs) regs ∧
    List.Forall₂ (FuseFlow V) (declaredFuses objs) fuses ∧
    List.Forall₂ (CapFlow V) (declaredCaps objs) caps ∧
    ∀ x ∈ declaredPlaces objs, x.1.2.attr "parent".toList = none →
      drawnAt objs x.1.1 x.2 (lines ++ xfmrs ++ sources ++ switches ++ loads ++ regs ++ fuses ++ caps).flatten = 0

variable {M : Type}

/-- The phases and the data the reader has found for the lines. -/
def Grid.lineData (g : Grid M) : List (List Char × M) := g.lines.map fun l => (l.phases, l.data)

/-- `V` are voltages of the circuit the file describes, whose lines have the phases and the data `ds`, with all constant power multiplied by `s`. -/
def FeederFlowAt (mats : M → (ℕ → ℕ → ℂ) × (ℕ → ℕ → ℝ)) (objs : List (Txt × Obj)) (ds : List (List Char × M)) (s : ℝ) (V : Txt → Char → ℂ) : Prop :=
  ∃ lines, List.Forall₂ (LineFlow mats V) ((declaredLines objs).zip ds) lines ∧ CircuitFlowAt s objs V lines

/-! ### Connection to a source -/

/-- The phase of what the file calls by that name is connected to a source: over lines, closed switches, fuses, regulators, and over transformers from
the primary to a secondary that is not in delta. -/
inductive Fed (objs : List (Txt × Obj)) (ds : List (List Char × M)) : Txt → Char → Prop
  | source {x : (Txt × Obj) × Char} : x ∈ declaredSources objs → Fed objs ds x.1.1 x.2
  | same {n m r : Txt} {p : Char} : FileRoot objs n r → FileRoot objs m r → Fed objs ds n p → Fed objs ds m p
  | line {x : Obj × List Char × M} {a b : Txt} {p : Char} : x ∈ (declaredLines objs).zip ds → x.1.attr "from".toList = some a →
      x.1.attr "to".toList = some b → p ∈ x.2.1 → Fed objs ds a p → Fed objs ds b p
  | lineBack {x : Obj × List Char × M} {a b : Txt} {p : Char} : x ∈ (declaredLines objs).zip ds → x.1.attr "from".toList = some a →
      x.1.attr "to".toList = some b → p ∈ x.2.1 → Fed objs ds b p → Fed objs ds a p
  | switch {d : DeclaredDevice} {a b : Txt} : d ∈ declaredSwitches objs → d.isOpen = false → d.frm = some a → d.to_ = some b →
      Fed objs ds a d.phase → Fed objs ds b d.phase
  | switchBack {d : DeclaredDevice} {a b : Txt} : d ∈ declaredSwitches objs → d.isOpen = false → d.frm = some a → d.to_ = some b →
      Fed objs ds b d.phase → Fed objs ds a d.phase
  | fuse {d : DeclaredDevice × Option Txt} {a b : Txt} : d ∈ declaredFuses objs → d.1.frm = some a → d.1.to_ = some b →
      Fed objs ds a d.1.phase → Fed objs ds b d.1.phase
  | fuseBack {d : DeclaredDevice × Option Txt} {a b : Txt} : d ∈ declaredFuses objs → d.1.frm = some a → d.1.to_ = some b →
      Fed objs ds b d.1.phase → Fed objs ds a d.1.phase
  | reg {d : Obj × Option Obj × Char} {a b : Txt} : d ∈ declaredRegs objs → d.1.attr "from".toList = some a → d.1.attr "to".toList = some b →
      Fed objs ds a d.2.2 → Fed objs ds b d.2.2
  | regBack {d : Obj × Option Obj × Char} {a b : Txt} : d ∈ declaredRegs objs → d.1.attr "from".toList = some a → d.1.attr "to".toList = some b →
      Fed objs ds b d.2.2 → Fed objs ds a d.2.2
  | coil {o c : Obj} {p q : Char} {a b : Txt} : .coil o (some c) p q ∈ declaredXfmrs objs → (deltaSides (c.attr "connect_type".toList)).2 = false →
      o.attr "from".toList = some a → o.attr "to".toList = some b → Fed objs ds a p →
      ((deltaSides (c.attr "connect_type".toList)).1 = true → Fed objs ds a q) → Fed objs ds b p
  | tap {o c : Obj} {p : Char} {a b : Txt} : .tap o c ∈ declaredXfmrs objs → (objPhases o).head? = some p → o.attr "from".toList = some a →
      o.attr "to".toList = some b → Fed objs ds a p → ∀ h ∈ ['1', '2'], Fed objs ds b h

/-- The series admittances of a line with `n` wires have positive real part as a matrix, and both matrices are symmetric. -/
def Lossy (n : ℕ) (m : (ℕ → ℕ → ℂ) × (ℕ → ℕ → ℝ)) : Prop :=
  (∀ i j, m.1 i j = m.1 j i) ∧ (∀ i j, m.2 i j = m.2 j i) ∧
    ∀ d : ℕ → ℝ, (∃ i < n, d i ≠ 0) → 0 < ∑ i ∈ Finset.range n, ∑ j ∈ Finset.range n, d i * (m.1 i j).re * d j

/-- Sources and closed switches as branches between the numbers of their places, a source as a branch to ground. -/
def idealBranches (objs : List (Txt × Obj)) (num : Txt → Char → ℕ) : List (Ref × Ref) :=
  (declaredSources objs).map (fun x => (some (num x.1.1 x.2), none)) ++
    ((declaredSwitches objs).filter fun d => !d.isOpen).map fun d => (d.frm.map (num · d.phase), d.to_.map (num · d.phase))

/-- A plain feeder fed from its sources: lines, transformers and regulators have resistance and ratios that are not zero, constant impedances do not generate,
every phase of every place is connected to a source, and sources and closed switches form no loop. -/
structure SuppliedFeeder (mats : M → (ℕ → ℕ → ℂ) × (ℕ → ℕ → ℝ)) (objs : List (Txt × Obj)) (ds : List (List Char × M)) : Prop where
  plain : PlainFeeder objs
  lines : ∀ d ∈ ds, Lossy d.1.length (mats d.2)
  coils : ∀ o c p q, .coil o (some c) p q ∈ declaredXfmrs objs → (∀ r y, IsImpedance c r y → 0 < r) ∧ (∀ s, IsRating c s → 0 < s) ∧
    (c.attr "primary_voltage".toList).bind volts ≠ some 0 ∧ (c.attr "secondary_voltage".toList).bind volts ≠ some 0
  taps : ∀ o c, .tap o c ∈ declaredXfmrs objs → (∀ r y, IsImpedance c r y → 0 < r) ∧ (∀ s, IsRating c s → 0 < s) ∧
    (c.attr "secondary_voltage".toList).bind volts ≠ some 0
  regs : ∀ d ∈ declaredRegs objs, ∀ c, d.2.1 = some c → ∀ a, IsRatio c d.2.2 a → a ≠ 0
  impedances : ∀ d ∈ declaredLoads objs, d.kind = .impedance → 0 ≤ d.value.1
  fed : ∀ x ∈ declaredPlaces objs, x.1.2.attr "parent".toList = none → Fed objs ds x.1.1 x.2
  ideal : ∃ num : Txt → Char → ℕ, (∀ n r p, FileRoot objs n r → num n p = num r p) ∧ Loopless (idealBranches objs num)

/-- Loads of constant power are under voltage. -/
def LoadsLive (objs : List (Txt × Obj)) (V : Txt → Char → ℂ) : Prop :=
  ∀ d ∈ declaredLoads objs, d.kind = .power → d.value ≠ 0 → d.across V ≠ 0

/-- Loads of constant power are not aligned with the voltages they are under: `S * conj U ^ 2` has a real and an imaginary part. -/
def LoadsOffAxes (objs : List (Txt × Obj)) (V : Txt → Char → ℂ) : Prop :=
  ∀ d ∈ declaredLoads objs, d.kind = .power → d.value ≠ 0 →
    (toComplex d.value * conj (d.across V) ^ 2).re ≠ 0 ∧ (toComplex d.value * conj (d.across V) ^ 2).im ≠ 0

end Verif.Glm
