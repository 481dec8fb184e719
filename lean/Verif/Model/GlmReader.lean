import Verif.Model.GlmObjects

/-!
# From GridLAB-D objects to the models of the store: `Reader.parse`

`/repo/src/ditto/readers/gridlabd/read.py` 234-1589 and `load_parser.py`. Numbers are rational. How the matrices of a line are found is a
parameter (`readLine`), with `LineImpedance.lean` for overhead lines; everything the network is built from is kept, the rest (ratings,
delays, positions) is left out.
-/

namespace Verif.Glm

/-! ### Attributes -/

/-- An attribute, `None` where the code catches the `AttributeError` (for example `read.py` 336-339). -/
def Obj.attr (o : Obj) (k : Txt) : Option Txt := lookup k o.attrs

/-- `try: … = complex(obj[k]) except AttributeError: pass` (`read.py` 277-288). -/
def complexAttribute (o : Obj) (k : Txt) : Py (Option (ℚ × ℚ)) := match o.attr k with
  | none => .ok none
  | some t => do
    let z ← complexOf t
    .ok (some z)

/-- `int(x)` of a text: `ValueError` if it is no integer. Underscores between digits are not modelled (`read.py` 1163-1164). -/
def intOf (t : Txt) : Py ℤ :=
  let s := signOf (strip t)
  if s.2 ≠ [] ∧ s.2.all Char.isDigit then .ok (s.1 * natOf s.2) else .error .value

/-! ### Nodes -/

/-- A `Node` or `PowerSource` of the store (`node.py` 6-17, `power_source.py` 22-27). `connecting_element` is never set by the reader. -/
structure DNode where
  name : Txt
  source : Bool
  phases : List Char
  nominal : Option ℚ
  vA : Option (ℚ × ℚ)
  vB : Option (ℚ × ℚ)
  vC : Option (ℚ × ℚ)
  parent : Option Txt
  deriving DecidableEq, Repr

/-- A `node` or `meter` (`read.py` 249-291). -/
def readNode (name : Txt) (o : Obj) (ph : Phases) : Py DNode :=
  if ph.isTriplex then .error .raised
  else do
    let nominal ← floatAttribute o "nominal_voltage".toList
    let vA ← complexAttribute o "voltage_A".toList
    let vB ← complexAttribute o "voltage_B".toList
    let vC ← complexAttribute o "voltage_C".toList
    .ok ⟨name, o.attr "bustype".toList = some "SWING".toList, ph.phases, nominal, vA, vB, vC, o.attr "parent".toList⟩

/-- A `triplex_meter` without power (`read.py` 302-329). Its voltages are not used. -/
def readTriplexMeter (name : Txt) (o : Obj) (ph : Phases) : Py DNode :=
  if !ph.isTriplex then .error .raised
  else do
    let nominal ← floatAttribute o "nominal_voltage".toList
    let v1 ← complexAttribute o "voltage_1".toList
    if v1.isSome then
      let _ ← complexAttribute o "voltage_2".toList
    .ok ⟨name, false, ['1', '2'], nominal, none, none, none, o.attr "parent".toList⟩

/-! ### Loads -/

/-- A `PhaseLoad` (`phase_load.py` 1-24), `None` where no phase was set. -/
structure PhaseLoad where
  phase : Option Txt
  p : ℚ
  q : ℚ
  z : ℚ × ℚ
  i : ℚ × ℚ
  deriving DecidableEq, Repr

/-- A `Load` of the store (`load.py` 22-36). -/
structure DLoad where
  name : Txt
  connecting : Txt
  triplex : Option Char
  loads : List PhaseLoad
  deriving DecidableEq, Repr

/-- The phase of `__create_phaseload` (`load_parser.py` 190-200). -/
def connectionPhase (isDelta : Bool) (c : Txt) : Option Txt :=
  if isDelta then
    if c = "A".toList then some "AB".toList
    else if c = "B".toList then some "BC".toList
    else if c = "C".toList then some "CA".toList
    else none
  else some c

/-- One of the first five parts of `__parse_phase_load` (`load_parser.py` 91-146): an attribute that is there and not zero gives one phase
load. -/
def loadComponent (o : Obj) (k : Txt) (make : ℚ × ℚ → PhaseLoad) : Py (List PhaseLoad) := do
  match ← complexAttribute o k with
  | none => .ok []
  | some z => .ok (if z = 0 then [] else [make z])

/-- `float(all_schedules[a]) * float(b)` if `a` is a schedule (`load_parser.py` 156-163). -/
def scheduledPower (schedules : List (Txt × Txt)) (a b : Txt) (p : ℚ) : Py ℚ := match lookup a schedules with
  | none => .ok p
  | some s => do
    let x ← floatOf s
    let y ← floatOf b
    .ok (x * y)

/-- `base_power_X` (`load_parser.py` 149-163): a number, or a schedule times a number. -/
def basePower (schedules : List (Txt × Txt)) (t : Txt) : Py ℚ := match pyFloat t with
  | some x => .ok x
  | none => match splitOn '*' t with
    | a :: b :: _ => do
      let p ← scheduledPower schedules a b 0
      scheduledPower schedules b a p
    | [a] => match lookup a schedules with
      | none => .error .index
      | some s => do
        let _ ← floatOf s
        .error .index
    | [] => .error .index

/-- The six attributes asked for after the base power (`load_parser.py` 166-171). -/
def zipNames : List Txt :=
  ["current_fraction_", "current_pf_", "power_fraction_", "power_pf_", "impedance_fraction_", "impedance_pf_"].map String.toList

/-- Whether all six are there (`load_parser.py` 166-171, 187-188); one that is no number raises. -/
def zipComplete (o : Obj) (c : Txt) : List Txt → Py Bool
  | [] => .ok true
  | k :: ks => do
    match ← floatAttribute o (k ++ c) with
    | none => .ok false
    | some _ => zipComplete o c ks

/-- The last part of `__parse_phase_load` (`load_parser.py` 148-188). The fractions are stored in fields that the network does not read. -/
def baseComponent (schedules : List (Txt × Txt)) (o : Obj) (c : Txt) (phase : Option Txt) : Py (List PhaseLoad) :=
  match o.attr ("base_power_".toList ++ c) with
  | none => .ok []
  | some t => do
    let p ← basePower schedules t
    let all ← zipComplete o c zipNames
    .ok (if all then [⟨phase, p, 0, 0, 0⟩] else [])

/-- `__parse_phase_load` (`load_parser.py` 88-188). -/
def connectionLoads (schedules : List (Txt × Txt)) (o : Obj) (isDelta : Bool) (c : Txt) : Py (List PhaseLoad) := do
  let phase := connectionPhase isDelta c
  let a ← loadComponent o ("power_".toList ++ c) fun z => ⟨phase, z.1, z.2, 0, 0⟩
  let b ← loadComponent o ("constant_power_".toList ++ c) fun z => ⟨phase, z.1, z.2, 0, 0⟩
  let d ← loadComponent o ("impedance_".toList ++ c) fun z => ⟨phase, 0, 0, z, 0⟩
  let e ← loadComponent o ("constant_impedance_".toList ++ c) fun z => ⟨phase, 0, 0, z, 0⟩
  let f ← loadComponent o ("constant_current_".toList ++ c) fun z => ⟨phase, 0, 0, 0, z⟩
  let g ← baseComponent schedules o c phase
  .ok (a ++ b ++ d ++ e ++ f ++ g)

/-- `load_connections` (`load_parser.py` 78). -/
def loadConnections : List Txt := ["A", "B", "C", "AB", "BC", "CA", "1", "2", "12"].map String.toList

/-- `__parse_phase_loads` (`load_parser.py` 73-86), for the connections given. -/
def phaseLoads (schedules : List (Txt × Txt)) (o : Obj) (isDelta : Bool) : List Txt → Py (List PhaseLoad)
  | [] => .ok []
  | c :: cs => do
    let l ← connectionLoads schedules o isDelta c
    let ls ← phaseLoads schedules o isDelta cs
    .ok (l ++ ls)

/-- The text of the phases (`load_parser.py` 51). -/
def phaseText (o : Obj) : Txt := stripBy (· = '|') (stripBy (· = '"') ((o.attr "phases".toList).getD []))

/-- `LoadParser.parse` (`load_parser.py` 6-71): the load, and the node made for a load without parent. Every object has a name
(`read.py` 148-175). -/
def readLoad (schedules : List (Txt × Txt)) (name : Txt) (o : Obj) : Py (DLoad × Option DNode) := do
  let nominal ← floatAttribute o "nominal_voltage".toList
  let _ ← complexAttribute o "voltage_1".toList
  let _ ← complexAttribute o "voltage_2".toList
  let t := phaseText o
  let split := decide ('S' ∈ t)
  let phases := (if split then "12".toList else t).filter fun c => c ∈ ['A', 'B', 'C', '1', '2']
  let triplex := if split then t.head? else none
  let ls ← phaseLoads schedules o (!split && decide ('D' ∈ t)) loadConnections
  match o.attr "parent".toList with
  | some p => .ok (⟨name, p, triplex, ls⟩, none)
  | none => .ok (⟨"load_".toList ++ name, name, triplex, ls⟩, some ⟨name, false, phases, nominal, none, none, none, none⟩)

/-! ### Transformers -/

/-- The fields of a `Winding` that are used (`winding.py` 15-55). -/
structure DWinding where
  connection : Option Char
  voltage : Option ℚ
  resistance : Option ℚ
  power : Option ℚ
  deriving DecidableEq, Repr

/-- A `PowerTransformer` (`powertransformer.py` 20-100); `w3` only counts for a center tap. -/
structure DTransformer where
  name : Txt
  frm : Option Txt
  to_ : Option Txt
  phases : List Char
  centerTap : Bool
  w1 : DWinding
  w2 : DWinding
  w3 : DWinding
  reactances : List ℚ
  shunt : Option (ℚ × ℚ)
  deriving DecidableEq, Repr

/-- The connection of the two windings and whether there is a center tap (`read.py` 377-411). -/
def connectType (t : Option Txt) : (Option Char × Option Char) × Bool := match t with
  | none => ((none, none), false)
  | some t =>
    if t = "1".toList ∨ t = "WYE_WYE".toList then ((some 'Y', some 'Y'), false)
    else if t = "2".toList ∨ t = "DELTA_DELTA".toList then ((some 'D', some 'D'), false)
    else if t = "3".toList ∨ t = "DELTA_GWYE".toList then ((some 'D', some 'Y'), false)
    else if t = "5".toList ∨ t = "SINGLE_PHASE_CENTER_TAPPED".toList then ((none, none), true)
    else ((none, none), false)

/-- A voltage with or without `kV` (`read.py` 435-445, 450-460). -/
def voltageOf (t : Txt) : Py ℚ := do
  let x ← floatOf (removeNonnum t)
  .ok (if (find "kV".toList t).isSome then x * 1000 else x)

/-- An attribute read by `f`, `None` without it (`read.py` 435-460, 545-556). -/
def attributeBy {α : Type} (o : Obj) (k : Txt) (f : Txt → Py α) : Py (Option α) := match o.attr k with
  | none => .ok none
  | some t => do
    let x ← f t
    .ok (some x)

/-- `powerX_rating` (`read.py` 545-556, 617-624). Writing the text back without its unit has no effect on a later reading. -/
def ratingOf (t : Txt) : Py ℚ := do
  let x ← floatOf (if (find "kVA".toList t).isSome then removeNonnum t else t)
  .ok (x * 1000)

/-- The reactances, and the resistance if it comes from `impedance` (`read.py` 481-534). -/
def readReactances (config : Obj) (centerTap : Bool) : Py (List ℚ × Option ℚ) := do
  match ← floatAttribute config "reactance".toList with
  | some x =>
    if centerTap then
      match ← complexAttribute config "impedance1".toList with
      | none => .ok ([8 / 10 * x, 4 / 10 * x, 4 / 10 * x], none)
      | some z1 =>
        match ← complexAttribute config "impedance2".toList with
        | none => .ok ([8 / 10 * x, z1.2, 4 / 10 * x, 4 / 10 * x], none)
        | some z2 => .ok ([x, z1.2, z2.2], none)
    else .ok ([x], none)
  | none =>
    match ← complexAttribute config "impedance".toList with
    | none => .ok ([], none)
    | some z => .ok (if centerTap then [8 / 10 * z.2, 4 / 10 * z.2, 4 / 10 * z.2] else [z.2], some z.1)

/-- The rated power (`read.py` 540-667): `power_rating`, otherwise the sum of the ratings of the phases that are given. -/
def readRating (config : Obj) (centerTap : Bool) : Py (Option ℚ) := do
  let names := ["powerA_rating".toList, "powerB_rating".toList, "powerC_rating".toList]
  if centerTap then
    let _ ← names.mapM fun k => attributeBy config k ratingOf
  match ← attributeBy config "power_rating".toList fun t => floatOf (removeNonnum t) with
  | some x => .ok (some (x * 1000))
  | none => do
    let rs ← names.mapM fun k => attributeBy config k ratingOf
    .ok (if rs.any Option.isSome then some ((rs.map fun r => r.getD 0).sum) else none)

/-- The windings, reactances and shunt impedance from the configuration (`read.py` 376-667). -/
def readConfiguration (config : Obj) : Py (Bool × DWinding × DWinding × DWinding × List ℚ × Option (ℚ × ℚ)) := do
  let c := connectType (config.attr "connect_type".toList)
  let _ ← floatAttribute config "no_load_loss".toList
  let shunt ← complexAttribute config "shunt_impedance".toList
  let v1 ← attributeBy config "primary_voltage".toList voltageOf
  let v2 ← attributeBy config "secondary_voltage".toList voltageOf
  let v3 ← attributeBy config "secondary_voltage".toList fun t => floatOf (removeNonnum t)
  let r ← floatAttribute config "resistance".toList
  let x ← readReactances config c.2
  let r := match x.2 with
    | some r => some r
    | none => r
  let s ← readRating config c.2
  let half := s.map fun s => if c.2 then s / 2 else s
  .ok (c.2, ⟨c.1.1, v1, r.map (· / 2), s⟩, ⟨c.1.2, v2, r.map fun r => if c.2 then r else r / 2, half⟩,
    ⟨none, v3.map (- ·), r, half⟩, x.1, shunt)

/-- A `transformer` (`read.py` 331-675). -/
def readTransformer (objs : List (Txt × Obj)) (name : Txt) (o : Obj) (ph : Phases) : Py DTransformer :=
  let bare : DWinding := ⟨none, none, none, none⟩
  match (o.attr "configuration".toList).bind fun k => lookup k objs with
  | none => .ok ⟨name, o.attr "from".toList, o.attr "to".toList, ph.phases, false, bare, bare, bare, [], none⟩
  | some config => do
    let (ct, w1, w2, w3, x, sh) ← readConfiguration config
    .ok ⟨name, o.attr "from".toList, o.attr "to".toList, ph.phases, ct, w1, w2, w3, x, sh⟩

/-! ### Fuses, switches, capacitors, regulators -/

/-- A `Line` that is a fuse or a switch (`line.py`; `read.py` 682-823). -/
structure DDevice where
  isFuse : Bool
  frm : Option Txt
  to_ : Option Txt
  phases : List Char
  limit : Option Txt
  wires : List PhaseWire
  deriving DecidableEq, Repr

/-- A `fuse` (`read.py` 682-753). -/
def readFuse (o : Obj) (ph : Phases) : DDevice :=
  ⟨true, o.attr "from".toList, o.attr "to".toList, ph.phases, (o.attr "current_limit".toList).map removeNonnum, fuseWires o ph.phases⟩

/-- A `switch` or `recloser` (`read.py` 755-823). -/
def readSwitch (o : Obj) (ph : Phases) : DDevice :=
  ⟨false, o.attr "from".toList, o.attr "to".toList, ph.phases, none, switchWires o ph.phases⟩

/-- A `Capacitor` of the store (`capacitor.py`, `phase_capacitor.py`) (`capacitor.py` 21-127, `phase_capacitor.py` 9-30). -/
structure DCap where
  name : Txt
  connected : List Char
  high : Option ℚ
  low : Option ℚ
  caps : List (Char × ℚ)
  deriving DecidableEq, Repr

/-- A pair of limits (`read.py` 1294-1304): the second is only asked for after the first. -/
def readLimits (o : Obj) (hi lo : Txt) (before : Option ℚ × Option ℚ) : Py (Option ℚ × Option ℚ) := do
  match ← floatAttribute o hi with
  | none => .ok before
  | some h =>
    match ← floatAttribute o lo with
    | none => .ok (some h, before.2)
    | some l => .ok (some h, some l)

/-- The capacitors of the phases (`read.py` 1311-1345), for the phases given. -/
def readPhaseCaps (o : Obj) : List Char → Py (List (Char × ℚ))
  | [] => .ok []
  | p :: ps => do
    let c ← floatAttribute o ("capacitor_".toList ++ [p])
    let cs ← readPhaseCaps o ps
    .ok ((c.map fun v => (p, v)).toList ++ cs)

/-- The phases a capacitor is connected to (`read.py` 1259-1265). -/
def connectedPhases (o : Obj) (ph : Phases) : Py (List Char) := match o.attr "phases_connected".toList with
  | none => .ok ph.phases
  | some t => (parsePhases t).map Phases.phases

/-- A `capacitor` (`read.py` 1254-1345). -/
def readCapacitor (name : Txt) (o : Obj) (ph : Phases) : Py DCap := do
  let connected ← connectedPhases o ph
  let _ ← floatAttribute o "nominal_voltage".toList
  let _ ← floatAttribute o "time_delay".toList
  let l ← readLimits o "VAr_set_high".toList "VAr_set_low".toList (none, none)
  let l ← readLimits o "voltage_set_high".toList "voltage_set_low".toList l
  let caps ← readPhaseCaps o ['A', 'B', 'C']
  .ok ⟨name, connected, l.1, l.2, caps⟩

/-- A `Regulator` of the store (`regulator.py`): the phases of its windings, the connection type of both windings, and what is read from
the configuration (`regulator.py` 21-134). -/
structure DRegulator where
  name : Txt
  frm : Option Txt
  to_ : Option Txt
  phases : List Char
  connection : Option Char
  kind : Option Txt
  high : Option ℤ
  low : Option ℤ
  regulation : Option ℚ
  deriving DecidableEq, Repr

/-- The windings for the phases that only the configuration mentions (`read.py` 1402-1507): one setting. -/
def settingPhases {α : Type} (config : Obj) (k : Txt) (f : Txt → Py α) (phases : List Char) : List Char → Py (List Char)
  | [] => .ok phases
  | p :: ps => do
    match ← attributeBy config (k ++ [p]) f with
    | none => settingPhases config k f phases ps
    | some _ => settingPhases config k f (if p ∈ phases then phases else phases ++ [p]) ps

/-- The connection of a regulator (`read.py` 1509-1519): only the first kind is known. -/
def regConnection (config : Obj) : Py (Option Char) := match config.attr "connect_type".toList with
  | none => .ok none
  | some t => if t = "1".toList ∨ t = "WYE_WYE".toList then .ok (some 'Y') else .error .raised

/-- A `regulator` (`read.py` 1347-1586). Nominal voltages, delay, band and transducer ratios are left out. -/
def readRegulator (objs : List (Txt × Obj)) (name : Txt) (o : Obj) (ph : Phases) : Py DRegulator :=
  match (o.attr "configuration".toList).bind fun k => lookup k objs with
  | none => .ok ⟨name, o.attr "from".toList, o.attr "to".toList, ph.phases, none, none, none, none, none⟩
  | some config => do
    let phases ← settingPhases config "tap_pos_".toList intOf ph.phases ['A', 'B', 'C']
    let phases ← settingPhases config "compensator_r_setting_".toList floatOf phases ['A', 'B', 'C']
    let phases ← settingPhases config "compensator_x_setting_".toList floatOf phases ['A', 'B', 'C']
    let connection ← regConnection config
    let high ← attributeBy config "raise_taps".toList intOf
    let low ← attributeBy config "lower_taps".toList intOf
    let regulation ← floatAttribute config "regulation".toList
    .ok ⟨name, o.attr "from".toList, o.attr "to".toList, phases, connection, config.attr "Type".toList, high, low, regulation⟩

/-! ### The loop -/

/-- A line with impedances (`line.py`); `M` holds the length and the matrices (`line.py` 18-376). -/
structure DLine (M : Type) where
  frm : Option Txt
  to_ : Option Txt
  phases : List Char
  data : M
  deriving DecidableEq, Repr

/-- The models of the store the network is built from (`threephaseparser.py` 53-67). -/
inductive DModel (M : Type)
  | node (n : DNode)
  | load (l : DLoad)
  | transformer (t : DTransformer)
  | device (d : DDevice)
  | capacitor (c : DCap)
  | regulator (r : DRegulator)
  | line (l : DLine M)
  deriving DecidableEq, Repr

/-- `shared_config_objects` (`read.py` 57-66). -/
def sharedConfigObjects : List Txt :=
  ["regulator_configuration", "line_configuration", "line_spacing", "transformer_configuration", "triplex_line_conductor",
   "triplex_line_configuration", "underground_line_conductor", "overhead_line_conductor"].map String.toList

/-- The class an object is treated as (`read.py` 238, 243-245). -/
def objectClass (o : Obj) : Txt :=
  if o.cls = "triplex_node".toList ∨ o.cls = "triplex_meter".toList ∧ ((o.attr "power_12".toList).isSome ∨
      (o.attr "power_1".toList).isSome ∨ (o.attr "power_2".toList).isSome) then "triplex_load".toList
  else o.cls

/-- The nominal voltage of a child is given to its parent (`read.py` 293-298): the first `Node` of that name. -/
def adoptNominal {M : Type} (parent : Txt) (v : Option ℚ) : List (DModel M) → List (DModel M)
  | [] => []
  | .node n :: ms =>
    if n.source = false ∧ n.name = parent then .node { n with nominal := v } :: ms else .node n :: adoptNominal parent v ms
  | m :: ms => m :: adoptNominal parent v ms

/-- The state of the loop: the objects, which the reading of lines rewrites, and the store (`read.py` 226-237). -/
structure DState (M : Type) where
  objs : List (Txt × Obj)
  models : List (DModel M)

/-- The reading of lines with impedances: wire phases other than `N`, matrices, and the objects afterwards (`read.py` 825-1252). -/
abbrev LineReader (M : Type) := List (Txt × Obj) → Obj → Phases → Py ((List Char × M) × List (Txt × Obj))

/-- What is read from one object (`read.py` 237-1589): the models it adds, and the objects afterwards. -/
def objectModels {M : Type} (readLine : LineReader M) (schedules : List (Txt × Txt)) (objs : List (Txt × Obj)) (name : Txt) (o : Obj) :
    Py (List (DModel M) × List (Txt × Obj)) :=
  if o.cls ∈ sharedConfigObjects then .ok ([], objs)
  else do
    let t ← o.get "phases".toList
    let ph ← parsePhases t
    let c := objectClass o
    if c = "node".toList ∨ c = "meter".toList then do
      let n ← readNode name o ph
      .ok ([.node n], objs)
    else if c = "triplex_meter".toList then do
      let n ← readTriplexMeter name o ph
      .ok ([.node n], objs)
    else if c = "transformer".toList then do
      let x ← readTransformer objs name o ph
      .ok ([.transformer x], objs)
    else if c = "load".toList ∨ c = "triplex_load".toList then do
      let l ← readLoad schedules name o
      .ok (.load l.1 :: (l.2.map DModel.node).toList, objs)
    else if c = "fuse".toList then .ok ([.device (readFuse o ph)], objs)
    else if c = "switch".toList ∨ c = "recloser".toList then .ok ([.device (readSwitch o ph)], objs)
    else if c = "overhead_line".toList ∨ c = "triplex_line".toList ∨ c = "underground_line".toList then do
      let (d, objs') ← readLine objs o ph
      .ok ([.line ⟨o.attr "from".toList, o.attr "to".toList, d.1, d.2⟩], objs')
    else if c = "capacitor".toList then do
      let x ← readCapacitor name o ph
      .ok ([.capacitor x], objs)
    else if c = "regulator".toList then do
      let x ← readRegulator objs name o ph
      .ok ([.regulator x], objs)
    else .error .raised

/-- The parent of a `node` or `meter` adopts its nominal voltage (`read.py` 293-298). -/
def adopt {M : Type} (o : Obj) (new : List (DModel M)) (models : List (DModel M)) : List (DModel M) := match new with
  | [.node n] => if o.cls = "node".toList ∨ o.cls = "meter".toList then
      match n.parent with
      | none => models
      | some p => adoptNominal p n.nominal models
    else models
  | _ => models

/-- One turn of the loop (`read.py` 237-1589). -/
def readObject {M : Type} (readLine : LineReader M) (schedules : List (Txt × Txt)) (s : DState M) (name : Txt) : Py (DState M) :=
  match lookup name s.objs with
  | none => .error .key
  | some o => do
    let (new, objs) ← objectModels readLine schedules s.objs name o
    .ok ⟨objs, adopt o new (s.models ++ new)⟩

/-- `Reader.parse` on the objects and schedules read from the file (`read.py` 234-1589): the loop in file order. -/
def readModels {M : Type} (readLine : LineReader M) (objs : List (Txt × Obj)) (schedules : List (Txt × Txt)) : Py (DState M) :=
  (objs.map Prod.fst).foldlM (readObject readLine schedules) ⟨objs, []⟩

end Verif.Glm
