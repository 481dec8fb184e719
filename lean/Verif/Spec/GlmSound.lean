import Verif.Spec.GlmFlow

/-!
# Sound GridLAB-D files

A file in which every number is a number, every name is a name of the file, and nothing that a device needs is missing. Said of the objects of the file
alone.
-/

namespace Verif.Glm

/-- The attribute is a number, if it is given. -/
def NumberIf (o : Obj) (k : Txt) : Prop := ∀ t, o.attr k = some t → ∃ x, pyFloat t = some x

/-- The attribute is a complex number, if it is given. -/
def ComplexIf (o : Obj) (k : Txt) : Prop := ∀ t, o.attr k = some t → ∃ x, pyComplex t = some x

/-- The attribute is given, and it is this number. -/
def NumberIs (o : Obj) (k : Txt) (x : ℚ) : Prop := ∃ t, o.attr k = some t ∧ pyFloat t = some x

/-- The attribute is given, and it is this integer. -/
def IntegerIs (o : Obj) (k : Txt) (x : ℤ) : Prop := ∃ t, o.attr k = some t ∧ intOf t = .ok x

/-- The file has a place of this name with this phase. -/
def HasPlace (objs : List (Txt × Obj)) (n : Txt) (p : Char) : Prop := ∃ x ∈ declaredPlaces objs, x.1.1 = n ∧ x.2 = p

/-- The attribute names a place of the file with this phase. -/
def EndsAt (objs : List (Txt × Obj)) (o : Obj) (k : Txt) (p : Char) : Prop := ∃ n, o.attr k = some n ∧ HasPlace objs n p

/-- Both ends have the phase. -/
def Joins (objs : List (Txt × Obj)) (o : Obj) (p : Char) : Prop := EndsAt objs o "from".toList p ∧ EndsAt objs o "to".toList p

/-- An object has phases, and of a split phase only one. -/
def PhasesGiven (o : Obj) : Prop := objPhases o ≠ [] ∧ (isSplit o = true → (objPhases o).length = 1)

/-- The classes of the objects that make the circuit. -/
def deviceClasses : List Txt := ["node", "meter", "triplex_meter", "triplex_node", "load", "triplex_load", "transformer", "fuse", "switch", "recloser",
  "overhead_line", "triplex_line", "underground_line", "capacitor", "regulator"].map String.toList

/-- The classes of the objects that others refer to. -/
def configClasses : List Txt := ["transformer_configuration", "regulator_configuration", "line_configuration", "line_spacing", "overhead_line_conductor",
  "underground_line_conductor", "triplex_line_conductor", "triplex_line_configuration"].map String.toList

/-! ### Places and loads -/

/-- A node or meter. If it has a parent it has a nominal voltage of its own and is no source. -/
def SoundNode (o : Obj) : Prop := isSplit o = false ∧ NumberIf o "nominal_voltage".toList ∧ (∀ p ∈ ['A', 'B', 'C'], ComplexIf o ("voltage_".toList ++ [p])) ∧
  ((o.attr "parent".toList).isSome → (o.attr "nominal_voltage".toList).isSome ∧ isSwing o = false)

/-- A triplex meter without power of its own. -/
def SoundMeter (o : Obj) : Prop := isSplit o = true ∧ NumberIf o "nominal_voltage".toList ∧ ∀ p ∈ ['1', '2'], ComplexIf o ("voltage_".toList ++ [p])

/-- A load: without base power, its loads where the file has phases, and in a delta connection only given by the first of two phases. -/
def SoundLoad (objs : List (Txt × Obj)) (name : Txt) (o : Obj) : Prop :=
  NumberIf o "nominal_voltage".toList ∧ (∀ p ∈ ['1', '2'], ComplexIf o ("voltage_".toList ++ [p])) ∧
  (∀ c ∈ loadEndings, o.attr ("base_power_".toList ++ c) = none ∧ ∀ a ∈ loadAttributes, ComplexIf o (a.1 ++ c)) ∧
  (saysDelta o = true → ∀ c ∈ loadEndings, c ∉ ["A", "B", "C"].map String.toList → ∀ a ∈ loadAttributes, o.attr (a.1 ++ c) = none) ∧
  ∀ d ∈ objectLoads name o, ∀ p ∈ d.phases, HasPlace objs d.node p

/-- A place without parent has a voltage for every phase. -/
def VoltagesGiven (o : Obj) : Prop := o.attr "parent".toList = none → ∀ p ∈ placePhases o, (placeVoltage o p).isSome

/-- A place with a parent comes after its parent, which has all its phases. -/
def ParentsFirst (objs : List (Txt × Obj)) : Prop := ∀ pre x post, objs = pre ++ x :: post → isPlace x.2 = true → ∀ q, x.2.attr "parent".toList = some q →
  ∀ p ∈ placePhases x.2, HasPlace pre q p

/-! ### Devices -/

/-- A fuse: it has a limit, and no states for phases it does not have. -/
def SoundFuse (objs : List (Txt × Obj)) (o : Obj) : Prop := NoStrayStates "_status".toList o ∧ (∀ p ∈ objPhases o, Joins objs o p) ∧
  ∃ t x, o.attr "current_limit".toList = some t ∧ pyFloat (removeNonnum t) = some x

/-- A switch. -/
def SoundSwitch (objs : List (Txt × Obj)) (o : Obj) : Prop := ∀ p ∈ objPhases o, Joins objs o p

/-- The numbers of the configuration of a transformer can be read. -/
def SoundWindings (c : Obj) : Prop :=
  NumberIf c "no_load_loss".toList ∧ ComplexIf c "shunt_impedance".toList ∧ NumberIf c "resistance".toList ∧ NumberIf c "reactance".toList ∧
  (∀ k ∈ ["impedance", "impedance1", "impedance2"].map String.toList, ComplexIf c k) ∧
  ∀ p ∈ ['A', 'B', 'C'], ∀ t, c.attr ("power".toList ++ [p] ++ "_rating".toList) = some t → ∃ x, pyFloat (if (find "kVA".toList t).isSome then removeNonnum t else t) = some x

/-- A transformer: voltages, impedance and rating are given and not zero. A center tap has a reactance; its secondary has the phases `1` and `2`. -/
def SoundXfmr (objs : List (Txt × Obj)) (o : Obj) : Prop := ∃ c v1 v2 r x s, configOf objs o = some c ∧ c.cls ∉ conductorClasses ∧ SoundWindings c ∧
  (c.attr "primary_voltage".toList).bind volts = some v1 ∧ (c.attr "secondary_voltage".toList).bind volts = some v2 ∧ v1 ≠ 0 ∧ v2 ≠ 0 ∧
  IsImpedance c r x ∧ IsRating c s ∧ s ≠ 0 ∧
  if isCenterTap (c.attr "connect_type".toList) then
    ((c.attr "reactance".toList).isSome ∨ (c.attr "impedance".toList).isSome) ∧ (∀ p ∈ (objPhases o).head?, EndsAt objs o "from".toList p) ∧
    EndsAt objs o "to".toList '1' ∧ EndsAt objs o "to".toList '2'
  else (r, x) ≠ 0 ∧ ∀ p ∈ objPhases o, Joins objs o p

/-- A capacitor. -/
def SoundCap (objs : List (Txt × Obj)) (o : Obj) : Prop :=
  (∀ k ∈ ["nominal_voltage", "time_delay", "VAr_set_high", "VAr_set_low", "voltage_set_high", "voltage_set_low", "capacitor_A", "capacitor_B",
    "capacitor_C"].map String.toList, NumberIf o k) ∧
  (∀ t, o.attr "phases_connected".toList = some t → letters t ≠ [] ∧ 'S' ∉ t) ∧
  (∃ t, o.attr "control".toList = some t ∧ t ∈ ["MANUAL", "VOLT", "VAR", "VARVOLT"].map String.toList) ∧
  (∃ v, NumberIs o "cap_nominal_voltage".toList v ∧ v ≠ 0) ∧
  (∀ p ∈ ['A', 'B', 'C'], ∀ t, o.attr ("switch".toList ++ [p]) = some t → t ∈ ["OPEN", "CLOSED"].map String.toList) ∧
  ∀ p ∈ capPhases o, p ∈ ['A', 'B', 'C'] → EndsAt objs o "parent".toList p

/-- A regulator: of three phases, connected in wye, with taps in their range that leave a voltage. -/
def SoundReg (objs : List (Txt × Obj)) (o : Obj) : Prop := (objPhases o).length = 3 ∧ (∀ p ∈ objPhases o, Joins objs o p) ∧
  ∃ c up down reg center width, configOf objs o = some c ∧ c.cls ∉ conductorClasses ∧
    (∃ t, c.attr "connect_type".toList = some t ∧ t ∈ ["1", "WYE_WYE"].map String.toList) ∧
    (∃ t, c.attr "Control".toList = some t ∧ t ∈ ["MANUAL", "REMOTE_NODE", "OUTPUT_VOLTAGE", "LINE_DROP_COMP"].map String.toList) ∧
    (∀ t, c.attr "Type".toList = some t → t ∈ ["A", "B"].map String.toList) ∧
    IntegerIs c "raise_taps".toList up ∧ IntegerIs c "lower_taps".toList down ∧ up ≠ 0 ∧ up + down ≠ 0 ∧ NumberIs c "regulation".toList reg ∧ reg ≠ 0 ∧
    NumberIs c "band_center".toList center ∧ center ≠ 0 ∧ NumberIs c "band_width".toList width ∧
    (∀ p ∈ ['A', 'B', 'C'], p ∉ objPhases o → c.attr ("tap_pos_".toList ++ [p]) = none ∧ c.attr ("compensator_r_setting_".toList ++ [p]) = none ∧
      c.attr ("compensator_x_setting_".toList ++ [p]) = none) ∧
    (∀ p ∈ ['A', 'B', 'C'], NumberIf c ("compensator_r_setting_".toList ++ [p]) ∧ NumberIf c ("compensator_x_setting_".toList ++ [p])) ∧
    ∀ p ∈ objPhases o, ∃ tap, IntegerIs c ("tap_pos_".toList ++ [p]) tap ∧ -down ≤ tap ∧ tap ≤ up ∧
      (c.attr "Type".toList = some "A".toList → 1 + (2 * reg / ((up + down : ℤ) : ℚ) * (tap : ℤ) : ℚ) ≠ 0)

/-! ### Files -/

/-- An object that is no line. -/
structure SoundObject (objs : List (Txt × Obj)) (name : Txt) (o : Obj) : Prop where
  phases : PhasesGiven o
  node : o.cls ∈ ["node", "meter"].map String.toList → SoundNode o
  meter : o.cls = "triplex_meter".toList → hasPower o = false → SoundMeter o
  load : isLoadObj o = true → SoundLoad objs name o
  voltages : isPlace o = true → VoltagesGiven o
  fuse : isFuseObj o = true → SoundFuse objs o
  switch : isSwitchObj o = true → SoundSwitch objs o
  transformer : o.cls = "transformer".toList → SoundXfmr objs o
  capacitor : o.cls = "capacitor".toList → SoundCap objs o
  regulator : o.cls = "regulator".toList → SoundReg objs o

/-- A file that is sound but for its lines. -/
structure SoundFeeder (objs : List (Txt × Obj)) : Prop where
  keys : (objs.map Prod.fst).Nodup
  classes : ∀ name o, (name, o) ∈ objs → o.cls ∈ configClasses ++ deviceClasses
  objects : ∀ name o, (name, o) ∈ objs → o.cls ∈ deviceClasses → SoundObject objs name o
  order : ParentsFirst objs

/-- Every line of the file can be read and built, whatever lines were read before it, between places of the file. -/
def LinesAccepted {M : Type} (readLine : LineReader M) (make : M → List (ℕ × ℕ) → Except String Element) (objs : List (Txt × Obj)) : Prop :=
  ∀ o ∈ declaredLines objs, ∀ objs1, SameObjs objs objs1 → ∀ t ph, o.attr "phases".toList = some t → parsePhases t = .ok ph →
    ∃ d objs2, readLine objs1 o ph = .ok (d, objs2) ∧ (∀ p ∈ d.1, Joins objs o p) ∧ ∀ ps, ps.length = d.1.length → ∃ e, make d.2 ps = .ok e

end Verif.Glm
