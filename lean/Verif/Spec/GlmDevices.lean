import Verif.Spec.GlmFile

/-!
# The switches, fuses, capacitors, regulators and transformers a GridLAB-D file asks for
-/

namespace Verif.Glm

/-- The letters of a text of phases without quotes, bars and the marks of neutral, split phase, delta and ground. -/
def letters (t : Txt) : List Char := (stripBy (· = '|') (stripBy (· = '"') t)).filter (· ∉ ['N', 'S', 'D', 'G'])

/-- The phases of an object. -/
def objPhases (o : Obj) : List Char := letters ((o.attr "phases".toList).getD [])

variable {M : Type}

/-! ### Switches and fuses -/

/-- A switch or a fuse of one phase: where it is, its phase, and what the file says of it. -/
structure DeclaredDevice where
  frm : Option Txt
  to_ : Option Txt
  phase : Char
  isOpen : Bool
  deriving DecidableEq, Repr

/-- An object that is a switch. -/
def isSwitchObj (o : Obj) : Bool := o.cls ∈ ["switch", "recloser"].map String.toList

/-- An object that is a fuse. -/
def isFuseObj (o : Obj) : Bool := o.cls = "fuse".toList

/-- The name of the state of one phase. -/
def phaseKey (p : Char) (suffix : Txt) : Txt := "phase_".toList ++ [p] ++ suffix

/-- Whether phase `p` of an object is open: its own state decides if it is there, otherwise the status of the whole. -/
def saysOpen (o : Obj) (suffix : Txt) (opens : List Txt) (p : Char) : Bool := match o.attr (phaseKey p suffix) with
  | some t => t ∈ opens
  | none => o.attr "status".toList = some "OPEN".toList

/-- The switches of a file, one for each phase of each switch. -/
def declaredSwitches (objs : List (Txt × Obj)) : List DeclaredDevice := objs.flatMap fun x =>
  if isSwitchObj x.2 then (objPhases x.2).map fun p =>
    ⟨x.2.attr "from".toList, x.2.attr "to".toList, p, saysOpen x.2 "_state".toList ["OPEN".toList] p⟩ else []

/-- The states are given: the phases are in the usual order, and either there is a state for each of them, or a status for all and no state. -/
def StatesGiven (suffix : Txt) (o : Obj) : Prop := (objPhases o).Sublist ['A', 'B', 'C'] ∧
  ((∀ p ∈ objPhases o, (o.attr (phaseKey p suffix)).isSome) ∨
    (∀ p ∈ ['A', 'B', 'C'], o.attr (phaseKey p suffix) = none) ∧ (o.attr "status".toList).isSome)

/-- The switch `x` of the network is the declared switch `d`. -/
def IsSwitch (objs : List (Txt × Obj)) (g : Grid M) (d : DeclaredDevice) (x : GSwitch) : Prop :=
  FileAtOf objs g d.frm d.phase x.f ∧ FileAtOf objs g d.to_ d.phase x.t ∧ (x.status = .opened ↔ d.isOpen = true)

/-- The fuses of a file with the text of their limits, one for each phase of each fuse. -/
def declaredFuses (objs : List (Txt × Obj)) : List (DeclaredDevice × Option Txt) := objs.flatMap fun x =>
  if isFuseObj x.2 then (objPhases x.2).map fun p =>
    (⟨x.2.attr "from".toList, x.2.attr "to".toList, p, saysOpen x.2 "_status".toList ["BLOWN".toList, "OPEN".toList] p⟩,
      x.2.attr "current_limit".toList) else []

/-- No state is given for a phase the object does not have. -/
def NoStrayStates (suffix : Txt) (o : Obj) : Prop := ∀ p, p ∉ objPhases o → o.attr (phaseKey p suffix) = none

/-- The fuse `x` of the network is where `d` says, over an inner bus, with the limit of the file, and good unless the file says it is blown. -/
def IsFuse (objs : List (Txt × Obj)) (g : Grid M) (d : DeclaredDevice × Option Txt) (x : GFuse) : Prop :=
  FileAtOf objs g d.1.frm d.1.phase x.f ∧ FileAtOf objs g d.1.to_ d.1.phase x.t ∧ Inner g x.i ∧ (d.1.isOpen = false → x.status = .good) ∧
    ∃ t, d.2 = some t ∧ floatOf (removeNonnum t) = .ok x.limit

/-! ### Capacitors -/

/-- A capacitor of one phase as the file declares it. -/
structure DeclaredCap where
  obj : Obj
  phase : Char
  var : ℚ
  deriving DecidableEq, Repr

/-- The phases a capacitor is connected to. -/
def capPhases (o : Obj) : List Char := letters ((o.attr "phases_connected".toList).getD ((o.attr "phases".toList).getD []))

/-- The capacitors of a file: one for each connected phase a reactive power is given for. -/
def declaredCaps (objs : List (Txt × Obj)) : List DeclaredCap := objs.flatMap fun x =>
  if x.2.cls = "capacitor".toList then ['A', 'B', 'C'].flatMap fun p =>
    match (x.2.attr ("capacitor_".toList ++ [p])).bind pyFloat with
    | some v => if p ∈ capPhases x.2 then [⟨x.2, p, v⟩] else []
    | none => []
  else []

/-- The capacitor `x` of the network is the declared capacitor `d`: at that phase of the parent, of the reactive power and the voltage of the
file. A manual one is closed exactly if the file says so; one controlled by voltage, with both limits, has these limits and starts closed. -/
def IsCap (objs : List (Txt × Obj)) (g : Grid M) (d : DeclaredCap) (x : GCap) : Prop :=
  FileAtOf objs g (d.obj.attr "parent".toList) d.phase x.bus ∧ x.var = d.var ∧
    (∃ t, d.obj.attr "cap_nominal_voltage".toList = some t ∧ pyFloat t = some x.nominal) ∧ x.nominal ≠ 0 ∧
    (d.obj.attr "control".toList = some "MANUAL".toList → x.mode = .manual ∧
      (x.switch = .closed ↔ d.obj.attr ("switch".toList ++ [d.phase]) = some "CLOSED".toList)) ∧
    ∀ t1 t2, d.obj.attr "control".toList = some "VOLT".toList → d.obj.attr "voltage_set_high".toList = some t1 →
      d.obj.attr "voltage_set_low".toList = some t2 →
      x.mode = .volt ∧ x.switch = .closed ∧ ∃ h l, pyFloat t1 = some h ∧ pyFloat t2 = some l ∧ x.high = some h ∧ x.low = some l

/-! ### Regulators -/

/-- The configuration of an object. -/
def configOf (objs : List (Txt × Obj)) (o : Obj) : Option Obj := (o.attr "configuration".toList).bind fun k => lookup k objs

/-- The regulators of a file, one for each phase, with their configuration. -/
def declaredRegs (objs : List (Txt × Obj)) : List (Obj × Option Obj × Char) := objs.flatMap fun x =>
  if x.2.cls = "regulator".toList then (objPhases x.2).map fun p => (x.2, configOf objs x.2, p) else []

/-- Settings are only given for phases the regulator has. -/
def NoStraySettings (objs : List (Txt × Obj)) : Prop := ∀ name o, (name, o) ∈ objs → o.cls = "regulator".toList →
  ∀ c, configOf objs o = some c → ∀ p ∈ ['A', 'B', 'C'], p ∉ objPhases o →
    c.attr ("tap_pos_".toList ++ [p]) = none ∧ c.attr ("compensator_r_setting_".toList ++ [p]) = none ∧
    c.attr ("compensator_x_setting_".toList ++ [p]) = none

/-- The configurations of regulators and transformers are not lines or conductors. -/
def PlainConfigurations (objs : List (Txt × Obj)) : Prop := ∀ name o c, (name, o) ∈ objs →
  o.cls ∈ ["regulator", "transformer"].map String.toList → configOf objs o = some c → c.cls ∉ conductorClasses

/-- The regulator `x` is at phase `p` of the object, of the type (`B` if none is given) and at the tap of its configuration, and the steps of all
taps together are twice the regulation. -/
def IsReg (objs : List (Txt × Obj)) (g : Grid M) (d : Obj × Option Obj × Char) (x : GReg) : Prop :=
  FileAtOf objs g (d.1.attr "from".toList) d.2.2 x.f ∧ FileAtOf objs g (d.1.attr "to".toList) d.2.2 x.t ∧ Inner g x.c ∧
    ∃ c, d.2.1 = some c ∧ (x.kind = .A ↔ c.attr "Type".toList = some "A".toList) ∧ (∃ t, c.attr ("tap_pos_".toList ++ [d.2.2]) = some t ∧ intOf t = .ok x.tap) ∧
    (∃ t, c.attr "raise_taps".toList = some t ∧ intOf t = .ok x.raiseTaps) ∧
    (∃ t, c.attr "lower_taps".toList = some t ∧ intOf t = .ok x.lowerTaps) ∧ x.raiseTaps + x.lowerTaps ≠ 0 ∧
    ∃ t reg, c.attr "regulation".toList = some t ∧ pyFloat t = some reg ∧ x.step * ((x.raiseTaps + x.lowerTaps : ℤ) : ℚ) = 2 * reg

/-! ### Transformers -/

/-- Which windings of a connection are in delta. -/
def deltaSides (c : Option Txt) : Bool × Bool :=
  if c = some "2".toList ∨ c = some "DELTA_DELTA".toList then (true, true)
  else if c = some "3".toList ∨ c = some "DELTA_GWYE".toList then (true, false)
  else (false, false)

/-- Whether a connection is that of a center tap. -/
def isCenterTap (c : Option Txt) : Bool := c = some "5".toList ∨ c = some "SINGLE_PHASE_CENTER_TAPPED".toList

/-- A transformer as the file declares it, with its configuration: a coil with its phase and the next one, or a center tap. -/
inductive DeclaredXfmr
  | coil (obj : Obj) (config : Option Obj) (phase next : Char)
  | tap (obj : Obj) (config : Obj)
  deriving DecidableEq, Repr

/-- Each entry of a list with the next one, the last with the first. -/
def around (ps : List Char) : List (Char × Char) := ps.zip (ps.tail ++ ps.take 1)

/-- What one transformer declares: a coil for each phase, or one center tap. -/
def objectXfmrs (objs : List (Txt × Obj)) (o : Obj) : List DeclaredXfmr := match configOf objs o with
  | none => (around (objPhases o)).map fun p => .coil o none p.1 p.2
  | some c => if isCenterTap (c.attr "connect_type".toList) then [.tap o c] else (around (objPhases o)).map fun p => .coil o (some c) p.1 p.2

/-- The transformers of a file. -/
def declaredXfmrs (objs : List (Txt × Obj)) : List DeclaredXfmr :=
  objs.flatMap fun x => if x.2.cls = "transformer".toList then objectXfmrs objs x.2 else []

/-- A voltage in volts: a number, or a number of `kV`. -/
def volts (t : Txt) : Option ℚ := (pyFloat (removeNonnum t)).map fun x => if (find "kV".toList t).isSome then x * 1000 else x

/-- Resistance and reactance in per unit: from `resistance` and `reactance`, from `impedance`, or a resistance alone. -/
def IsImpedance (c : Obj) (r x : ℚ) : Prop :=
  (∃ t1 t2, c.attr "resistance".toList = some t1 ∧ c.attr "reactance".toList = some t2 ∧ pyFloat t1 = some r ∧ pyFloat t2 = some x) ∨
    (c.attr "reactance".toList = none ∧ ∃ t, c.attr "impedance".toList = some t ∧ pyComplex t = some (r, x)) ∨
    (c.attr "reactance".toList = none ∧ c.attr "impedance".toList = none ∧ x = 0 ∧ ∃ t, c.attr "resistance".toList = some t ∧ pyFloat t = some r)

/-- The rating of one phase in kVA, 0 if it is not given. -/
def phaseRating (c : Obj) (p : Char) : ℚ :=
  ((c.attr ("power".toList ++ [p] ++ "_rating".toList)).bind fun t => pyFloat (if (find "kVA".toList t).isSome then removeNonnum t else t)).getD 0

/-- The rated power in VA: that of the whole transformer, or the sum of those of its phases. -/
def IsRating (c : Obj) (s : ℚ) : Prop :=
  (∃ t k, c.attr "power_rating".toList = some t ∧ pyFloat (removeNonnum t) = some k ∧ s = 1000 * k) ∨
    (c.attr "power_rating".toList = none ∧ s = 1000 * (phaseRating c 'A' + phaseRating c 'B' + phaseRating c 'C'))

/-- A coil as it is in the network: terminals, voltages and connection of the two windings, impedance and power. -/
def IsCoil (objs : List (Txt × Obj)) (g : Grid M) (o c : Obj) (p q : Char) (x : GXfmr) : Prop :=
  ∃ fp fn tp tn v1 v2 d1 d2 r y s, x = .coil fp fn tp tn v1 v2 d1 d2 r y s ∧ (d1, d2) = deltaSides (c.attr "connect_type".toList) ∧
    FileAtOf objs g (o.attr "from".toList) p fp ∧ FileAtOf objs g (o.attr "to".toList) p tp ∧
    FileTerm objs g (o.attr "from".toList) (if d1 then some q else none) fn ∧
    FileTerm objs g (o.attr "to".toList) (if d2 then some q else none) tn ∧
    (∃ t, c.attr "primary_voltage".toList = some t ∧ volts t = some v1) ∧
    (∃ t, c.attr "secondary_voltage".toList = some t ∧ volts t = some v2) ∧ v2 ≠ 0 ∧ s ≠ 0 ∧ ¬ (r = 0 ∧ y = 0) ∧ IsImpedance c r y ∧
    IsRating c s

/-- A center tap as it is in the network: terminals, voltages, impedances and power. Its impedance is divided between the windings as usual if it
is given as a whole. -/
def IsTap (objs : List (Txt × Obj)) (g : Grid M) (o c : Obj) (x : GXfmr) : Prop :=
  ∃ p f b0 b1 t1 b2 t2 v0 v1 v2 r0 r1 r2 x0 x1 x2 s, x = .centerTap f b0 b1 t1 b2 t2 v0 v1 v2 r0 r1 r2 x0 x1 x2 s ∧ (objPhases o).head? = some p ∧
    FileAtOf objs g (o.attr "from".toList) p f ∧ FileAtOf objs g (o.attr "to".toList) '1' t1 ∧ FileAtOf objs g (o.attr "to".toList) '2' t2 ∧
    Inner g b0 ∧ Inner g b1 ∧ Inner g b2 ∧ b0 ≠ b1 ∧ b0 ≠ b2 ∧ b1 ≠ b2 ∧
    (∃ t, c.attr "primary_voltage".toList = some t ∧ volts t = some v0) ∧
    (∃ t, c.attr "secondary_voltage".toList = some t ∧ volts t = some v1 ∧ pyFloat (removeNonnum t) = some (-v2)) ∧ v1 ≠ 0 ∧ s ≠ 0 ∧
    (c.attr "impedance1".toList = none → ∃ r y, IsImpedance c r y ∧ r0 = r / 2 ∧ r1 = r ∧ r2 = r ∧
      x0 = 8 / 10 * y ∧ x1 = 4 / 10 * y ∧ x2 = 4 / 10 * y) ∧
    IsRating c s

/-- The transformer `x` of the network is the declared one. -/
def IsXfmr (objs : List (Txt × Obj)) (g : Grid M) (d : DeclaredXfmr) (x : GXfmr) : Prop := match d with
  | .coil o c p q => ∃ c', c = some c' ∧ IsCoil objs g o c' p q x
  | .tap o c => IsTap objs g o c x

end Verif.Glm
