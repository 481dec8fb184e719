import Verif.Model.GlmReader
import Verif.Model.DeviceControl
import Verif.Model.Start
import Verif.Model.UnbalancedLine
import Mathlib.Analysis.SpecialFunctions.Sqrt

/-!
# From the models of the store to the network: `ThreePhaseParser`, `TransformerParser`

`/repo/src/logic/network/parsers/threephase/threephaseparser.py` 37-325, `transformerparser.py`. A bus is its number, the position in the list
of buses (`create_bus` 133-138 counts from 0). The network is first built with rational data (`Grid`); `Grid.network` computes the real
numbers the components hold.
-/

namespace Verif.Glm

/-- A voltage: a magnitude at the angle of a phase (`threephaseparser.py` 31, 107-108), a complex number from the file (112-115, 121-126), or
magnitude and angle (258, 294). -/
inductive Phasor
  | nominal (m : ℚ) (p : Char)
  | given (z : ℚ × ℚ)
  | polar (m a : ℚ)
  deriving DecidableEq, Repr

/-- A `Bus` (`bus.py` 7-39): name, phase, whether virtual, the nominal voltage and the start value. -/
structure PhaseBus where
  name : Txt
  phase : Char
  virtual : Bool
  nominal : Phasor
  start : Phasor
  deriving DecidableEq, Repr

/-- A `Load` (`threephaseparser.py` 154). -/
structure GLoad where
  f : ℕ
  t : Ref
  p : ℚ
  q : ℚ
  z : ℚ × ℚ
  i : ℚ × ℚ
  num : Txt
  phase : Txt
  triplex : Option Char
  deriving DecidableEq, Repr

/-- A `Capacitor` (`threephaseparser.py` 207-220). -/
structure GCap where
  bus : ℕ
  var : ℚ
  nominal : ℚ
  mode : CapMode
  high : Option ℚ
  low : Option ℚ
  switch : CapSwitch
  deriving DecidableEq, Repr

/-- A `Regulator` (`threephaseparser.py` 260-272). -/
structure GReg where
  f : ℕ
  t : ℕ
  c : ℕ
  tap : ℤ
  step : ℚ
  kind : RegType
  raiseTaps : ℤ
  lowerTaps : ℤ
  deriving DecidableEq, Repr

/-- A `Fuse` (`threephaseparser.py` 296). -/
structure GFuse where
  f : ℕ
  t : ℕ
  i : ℕ
  limit : ℚ
  status : FuseStatus
  phase : Char
  deriving DecidableEq, Repr

/-- A `Switch` (`threephaseparser.py` 310). -/
structure GSwitch where
  f : ℕ
  t : ℕ
  status : SwitchStatus
  phase : Char
  deriving DecidableEq, Repr

/-- A `Transformer` with the data it is computed from (`transformerparser.py` 81-155), or a `CenterTapTransformer` (27-79). Voltages of the
windings, whether they are connected in delta, impedance in per unit, rated power. -/
inductive GXfmr
  | coil (fp : ℕ) (fn : Ref) (tp : ℕ) (tn : Ref) (v1 v2 : ℚ) (d1 d2 : Bool) (r x power : ℚ)
  | centerTap (f p s1 t1 s2 t2 : ℕ) (v0 v1 v2 : ℚ) (r0 r1 r2 x0 x1 x2 : ℚ) (power : ℚ)
  deriving DecidableEq, Repr

/-- The `DxNetworkModel` while it is built (`networkmodel.py` 24-46, 162-178). -/
structure Grid (M : Type) where
  buses : List PhaseBus
  names : List (Txt × ℕ)
  slacks : List (ℕ × Phasor)
  lines : List (DLine M)
  transformers : List GXfmr
  switches : List GSwitch
  loads : List GLoad
  fuses : List GFuse
  capacitors : List GCap
  regulators : List GReg
  deriving DecidableEq, Repr

/-- `DxNetworkModel()` (`threephaseparser.py` 48). -/
def Grid.empty (M : Type) : Grid M := ⟨[], [], [], [], [], [], [], [], [], []⟩

variable {M : Type}

/-! ### Buses -/

/-- `node_name + "_" + node_phase` (`threephaseparser.py` 102, 136). -/
def busKey (name : Txt) (p : Char) : Txt := name ++ "_".toList ++ [p]

/-- `network_model.bus_name_map[name + "_" + phase]` (`threephaseparser.py` 102, 160). -/
def Grid.bus (g : Grid M) (name : Txt) (p : Char) : Py ℕ := match lookup (busKey name p) g.names with
  | some b => .ok b
  | none => .error .key

/-- The same for a name that may be `None`: `None + "_"` is a `TypeError` (`threephaseparser.py` 160). -/
def Grid.busOf (g : Grid M) (name : Option Txt) (p : Char) : Py ℕ := match name with
  | some n => g.bus n p
  | none => .error .type

/-- `create_bus` (`threephaseparser.py` 133-138). -/
def Grid.createBus (g : Grid M) (name : Txt) (p : Char) (virtual : Bool) (nominal start : Phasor) : Grid M × ℕ :=
  ({ g with buses := g.buses ++ [⟨name, p, virtual, nominal, start⟩], names := store (busKey name p) g.buses.length g.names },
    g.buses.length)

/-- `_phase_to_angle` (`threephaseparser.py` 31): the phases that have an angle. -/
def anglePhases : List Char := ['A', 'B', 'C', '1', '2']

/-- The voltage of a phase given for a node (`threephaseparser.py` 112-113). -/
def DNode.volt (n : DNode) (p : Char) : Option (ℚ × ℚ) :=
  if p = 'A' then n.vA else if p = 'B' then n.vB else if p = 'C' then n.vC else none

/-- `v_mag`, `v_ang` (`threephaseparser.py` 107-117); a missing nominal voltage raises in the constructor of the bus (`bus.py` 38). -/
def DNode.phasor (n : DNode) (p : Char) : Py Phasor := match n.volt p with
  | some z => .ok (.given z)
  | none => match n.nominal with
    | some m => .ok (.nominal m p)
    | none => .error .type

/-- The start value of a bus (`threephaseparser.py` 119-126). -/
def startPhasor (v : Phasor) (p : Char) : Phasor :=
  if p = '1' then .given (-60, 10392 / 100) else if p = '2' then .given (60, -(10392 / 100)) else v

/-- One phase of one node (`threephaseparser.py` 99-131). `last` is what the variables `v_mag`, `v_ang` hold; a slack with a parent uses
them as they are, `UnboundLocalError` (here `raised`) if they are not set yet. -/
def busPhase (n : DNode) (s : Grid M × Option Phasor) (p : Char) : Py (Grid M × Option Phasor) :=
  if p ∈ anglePhases then
    match n.parent with
    | some q => do
      let b ← s.1.bus q p
      let g := { s.1 with names := store (busKey n.name p) b s.1.names }
      if n.source then
        match s.2 with
        | some v => .ok ({ g with slacks := g.slacks ++ [(b, v)] }, s.2)
        | none => .error .raised
      else .ok (g, s.2)
    | none => do
      let v ← n.phasor p
      let (g, b) := s.1.createBus n.name p false v (startPhasor v p)
      if n.source then .ok ({ g with slacks := g.slacks ++ [(b, v)] }, some v) else .ok (g, some v)
  else .ok s

/-- `create_buses` (`threephaseparser.py` 90-131), for the nodes in order. -/
def createBuses (ns : List DNode) (g : Grid M) : Py (Grid M) := do
  let s ← ns.foldlM (fun s n => n.phases.foldlM (busPhase n) s) (g, none)
  .ok s.1

/-! ### Loads -/

/-- The second bus of a load (`threephaseparser.py` 146-149): that of the second letter, or ground. -/
def secondBus (g : Grid M) (name : Txt) : List Char → Py Ref
  | [] => .ok none
  | b :: _ => (g.bus name b).map some

/-- One phase load (`threephaseparser.py` 143-155); without a phase `None[0]` is a `TypeError`, an empty one an `IndexError`. -/
def phaseLoad (l : DLoad) (g : Grid M) (pl : PhaseLoad) : Py (Grid M) := match pl.phase with
  | none => .error .type
  | some [] => .error .index
  | some (a :: rest) => do
    let f ← g.bus l.connecting a
    let t ← secondBus g l.connecting rest
    .ok { g with loads := g.loads ++
      [⟨f, t, pl.p, pl.q, pl.z, pl.i, ((splitOn '_' l.name).getLast?).getD [], a :: rest, l.triplex⟩] }

/-- `create_load` (`threephaseparser.py` 140-155). -/
def createLoad (l : DLoad) (g : Grid M) : Py (Grid M) := l.loads.foldlM (phaseLoad l) g

/-! ### Capacitors -/

/-- `CapacitorMode[…]` (`capacitor.py` 10-14). -/
def capModeOf (t : Txt) : Py CapMode :=
  if t = "MANUAL".toList then .ok .manual else if t = "VOLT".toList then .ok .volt
  else if t = "VAR".toList then .ok .var else if t = "VARVOLT".toList then .ok .varvolt else .error .key

/-- `CapSwitchState[…]` (`capacitor.py` 6-8). -/
def capSwitchOf (t : Txt) : Py CapSwitch :=
  if t = "OPEN".toList then .ok .opened else if t = "CLOSED".toList then .ok .closed else .error .key

/-- `parent_bus.Vr_init = …; parent_bus.Vi_init = …` (`threephaseparser.py` 205-206). -/
def Grid.setStart (g : Grid M) (b : ℕ) (v : Phasor) : Grid M := { g with buses := g.buses.modify b fun x => { x with start := v } }

/-- The mode of a capacitor (`threephaseparser.py` 192-199): one without both limits is not controlled by voltage. -/
def capMode (c : DCap) (mode : CapMode) : CapMode := if mode = .volt ∧ (c.high = none ∨ c.low = none) then .manual else mode

/-- The state at the start (`threephaseparser.py` 209-219): a manual capacitor as the file says, open if it says nothing; others closed. -/
def capInitial (o : Obj) (mode : CapMode) (p : Char) : Py CapSwitch :=
  if mode = .manual then
    match o.attr ("switch".toList ++ [p]) with
    | some t => capSwitchOf t
    | none => .ok .opened
  else .ok .closed

/-- One phase capacitor (`threephaseparser.py` 191-222, `capacitor.py` 16-31). -/
def phaseCapacitor (o : Obj) (c : DCap) (g : Grid M) (pc : Char × ℚ) : Py (Grid M) :=
  if pc.1 ∈ c.connected then do
    let mode ← (o.get "control".toList).bind capModeOf
    let mode := capMode c mode
    let parent ← o.get "parent".toList
    let b ← g.bus parent pc.1
    let v ← (o.get "cap_nominal_voltage".toList).bind floatOf
    let g := g.setStart b (.nominal |v| pc.1)
    if v = 0 then .error .zeroDivision
    else do
      let switch ← capInitial o mode pc.1
      .ok { g with capacitors := g.capacitors ++ [⟨b, pc.2, v, mode, c.high, c.low, switch⟩] }
  else .ok g

/-- `create_capacitor` (`threephaseparser.py` 189-222). -/
def createCapacitor (objs : List (Txt × Obj)) (c : DCap) (g : Grid M) : Py (Grid M) := match lookup c.name objs with
  | none => .error .key
  | some o => c.caps.foldlM (phaseCapacitor o c) g

/-! ### Regulators -/

/-- `RegType[…]` (`regulator.py` 6-8, `threephaseparser.py` 236). -/
def regTypeOf (t : Option Txt) : Py RegType := match t with
  | none => .ok .B
  | some t => if t = "A".toList then .ok .A else if t = "B".toList then .ok .B else .error .key

/-- `RegControl[…]` (`regulator.py` 10-14). -/
def regControls : List Txt := ["MANUAL", "REMOTE_NODE", "OUTPUT_VOLTAGE", "LINE_DROP_COMP"].map String.toList

/-- One phase of a regulator (`threephaseparser.py` 252-279). The guess of line 276 is not used, but its division can fail. -/
def phaseRegulator (config : Obj) (r : DRegulator) (step vTap : ℚ) (kind : RegType) (raiseTaps lowerTaps : ℤ) (g : Grid M) (p : Char) :
    Py (Grid M) := do
  let f ← g.busOf r.frm p
  let t ← g.busOf r.to_ p
  let tap ← (config.get ("tap_pos_".toList ++ [p])).bind intOf
  let name := ((g.buses[f]?).map PhaseBus.name).getD []
  let (g, c) := g.createBus (name ++ "-Reg".toList) p true (.polar (1 / 10) (1 / 10)) (.polar (1 / 10) (1 / 10))
  if vTap = 0 then .error .zeroDivision
  else .ok { g with regulators := g.regulators ++ [⟨f, t, c, tap, step, kind, raiseTaps, lowerTaps⟩] }

/-- `create_regulator` (`threephaseparser.py` 224-279). The limits `vlow`, `vhigh` are not used by the regulator and are left out. -/
def createRegulator (objs : List (Txt × Obj)) (r : DRegulator) (g : Grid M) : Py (Grid M) :=
  if r.phases.length ≠ 3 then .error .raised
  else if r.connection ≠ some 'Y' then .error .raised
  else match (lookup r.name objs) with
    | none => .error .key
    | some o => do
      let k ← o.get "configuration".toList
      match lookup k objs with
      | none => .error .key
      | some config =>
        match r.regulation, r.high, r.low with
        | some reg, some hi, some lo =>
          if hi + lo = 0 then .error .zeroDivision
          else do
            let kind ← regTypeOf r.kind
            let control ← config.get "Control".toList
            if control ∉ regControls then .error .key
            else do
              let center ← (config.get "band_center".toList).bind floatOf
              let _ ← (config.get "band_width".toList).bind floatOf
              let raiseTaps ← (config.get "raise_taps".toList).bind intOf
              let lowerTaps ← (config.get "lower_taps".toList).bind intOf
              if raiseTaps = 0 then .error .zeroDivision
              else
                let step : ℚ := reg * 2 / (hi + lo : ℤ)
                List.foldlM (phaseRegulator config r step (center * (reg / raiseTaps)) kind raiseTaps lowerTaps) g r.phases
        | _, _, _ => .error .type

/-! ### Fuses, switches, lines -/

/-- `float(model.current_limit)` (`threephaseparser.py` 288): `float(None)` is a `TypeError`. -/
def fuseLimit (d : DDevice) : Py ℚ := match d.limit with
  | some t => floatOf t
  | none => .error .type

/-- One wire of a fuse (`threephaseparser.py` 284-298). The model is a `Line`, which has no attribute `phase_X_status`, so the status is
always `GOOD`. -/
def fuseWire (d : DDevice) (g : Grid M) (w : PhaseWire) : Py (Grid M) := do
  let f ← g.busOf d.frm w.phase
  let t ← g.busOf d.to_ w.phase
  let limit ← fuseLimit d
  let name := ((g.buses[f]?).map PhaseBus.name).getD []
  let (g, i) := g.createBus (name ++ "-Fuse".toList) w.phase true (.polar (1 / 10) (1 / 10)) (.polar (1 / 10) (1 / 10))
  .ok { g with fuses := g.fuses ++ [⟨f, t, i, limit, .good, w.phase⟩] }

/-- One wire of a switch (`threephaseparser.py` 301-312). -/
def switchWire (d : DDevice) (g : Grid M) (w : PhaseWire) : Py (Grid M) :=
  if w.phase ∈ d.phases then do
    let f ← g.busOf d.frm w.phase
    let t ← g.busOf d.to_ w.phase
    .ok { g with switches := g.switches ++ [⟨f, t, if w.isOpen = some true then .opened else .closed, w.phase⟩] }
  else .ok g

/-- The first two branches of `create_transmission_line` (`threephaseparser.py` 281-312). -/
def createDevice (d : DDevice) (g : Grid M) : Py (Grid M) :=
  if d.isFuse then d.wires.foldlM (fuseWire d) g else d.wires.foldlM (switchWire d) g

/-! ### Transformers -/

/-- `get_phase_list` (`transformerparser.py` 157-177): per coil the positive and negative letter of the primary and of the secondary.
`d1`, `d2` tell whether the sides are connected in delta. -/
def phaseList (d1 d2 : Bool) (phases : List Char) : List (Char × Char × Char × Char) :=
  (phases.zip (phases.rotate 1)).map fun x => (x.1, if d1 then x.2 else 'N', x.1, if d2 then x.2 else 'N')

/-- A terminal of a coil (`transformerparser.py` 123-134): the neutral is the ground. The dictionary of the coil has the buses of its
phases, `KeyError` for another letter. -/
def coilTerminal (g : Grid M) (name : Option Txt) (phases : List Char) (p : Char) : Py Ref :=
  if p = 'N' then .ok none
  else if p ∈ phases then (g.busOf name p).map some
  else .error .key

/-- One coil (`transformerparser.py` 122-155). -/
def coilOf (g : Grid M) (t : DTransformer) (v1 v2 r x power : ℚ) (c : Char × Char × Char × Char) : Py GXfmr := do
  let fp ← g.busOf t.frm c.1
  let fn ← coilTerminal g t.frm t.phases c.2.1
  let tp ← g.busOf t.to_ c.2.2.1
  let tn ← coilTerminal g t.to_ t.phases c.2.2.2
  if r = 0 ∧ x = 0 then .error .zeroDivision
  else .ok (.coil fp fn tp tn v1 v2 (t.w1.connection = some 'D') (t.w2.connection = some 'D') r x power)

/-- `create_three_phase_transformer` (`transformerparser.py` 81-155). `g_shunt`, `b_shunt` are not stamped (`transformer.py` 152-159); the
divisions by which they are computed can fail. `phase_shift` is never set. -/
def createThreePhase (t : DTransformer) (g : Grid M) : Py (Grid M) :=
  match t.w1.voltage, t.w2.voltage, t.w2.resistance with
  | some v1, some v2, some r =>
    if v2 = 0 then .error .zeroDivision
    else do
      let _ ← t.phases.mapM fun p => do
        let _ ← g.busOf t.frm p
        g.busOf t.to_ p
      match t.w2.power with
      | none => .error .type
      | some s =>
        if (∃ z, t.shunt = some z ∧ z ≠ 0) ∧ (v1 = 0 ∨ s = 0) then .error .zeroDivision
        else if s = 0 then .error .zeroDivision
        else do
          let cs ← (phaseList (t.w1.connection = some 'D') (t.w2.connection = some 'D') t.phases).mapM
            (coilOf g t v1 v2 (r * 2) t.reactances.sum s)
          .ok { g with transformers := g.transformers ++ cs }
  | _, _, _ => .error .type

/-- `create_center_tap_transformer` (`transformerparser.py` 27-79) and the constructor (`center_tap_transformer.py` 57-92). The shunt is not
stamped (`center_tap_transformer.py` 147-153). -/
def createCenterTap (t : DTransformer) (g : Grid M) : Py (Grid M) := match t.phases, t.reactances with
  | p :: _, x0 :: x1 :: x2 :: _ =>
    match t.w1.voltage, t.w2.voltage, t.w3.voltage, t.w1.resistance, t.w2.resistance, t.w3.resistance, t.w1.power with
    | some v0, some v1, some v2, some r0, some r1, some r2, some s =>
      if v1 = 0 then .error .zeroDivision
      else if (∃ z, t.shunt = some z ∧ z ≠ 0) ∧ (v0 = 0 ∨ s = 0) then .error .zeroDivision
      else do
        let virt := Phasor.polar (1 / 10) (1 / 10)
        let f ← g.busOf t.frm p
        let (g, b0) := g.createBus (t.name ++ "_primary".toList) p true virt virt
        let (g, b1) := g.createBus (t.name ++ "_sending_1".toList) p true virt virt
        let t1 ← g.busOf t.to_ '1'
        let (g, b2) := g.createBus (t.name ++ "_sending_2".toList) p true virt virt
        let t2 ← g.busOf t.to_ '2'
        if s = 0 then .error .zeroDivision
        else .ok { g with transformers := g.transformers ++ [.centerTap f b0 b1 t1 b2 t2 v0 v1 v2 r0 r1 r2 x0 x1 x2 s] }
    | _, _, _, _, _, _, _ => .error .type
  | _, _ => .error .index

/-- `create_transformer` (`transformerparser.py` 19-25). There are two windings, or three with a center tap. -/
def createTransformer (t : DTransformer) (g : Grid M) : Py (Grid M) := if t.centerTap then createCenterTap t g else createThreePhase t g

/-! ### The loop -/

/-- One model (`threephaseparser.py` 53-67). A line with impedances is only filed here; it looks for its buses when the matrix indices are
assigned (`unbalanced_line.py` 37-51, 99-100). -/
def createModel (objs : List (Txt × Obj)) (g : Grid M) : DModel M → Py (Grid M)
  | .node _ => .ok g
  | .load l => createLoad l g
  | .transformer t => createTransformer t g
  | .device d => createDevice d g
  | .capacitor c => createCapacitor objs c g
  | .regulator r => createRegulator objs r g
  | .line l => .ok { g with lines := g.lines ++ [l] }

/-- The nodes of the store, in order (`threephaseparser.py` 91-93). -/
def modelNodes (ms : List (DModel M)) : List DNode := ms.filterMap fun m => match m with
  | .node n => some n
  | _ => none

/-- `ThreePhaseParser.parse` after the reader (`threephaseparser.py` 48-69). -/
def buildGrid (s : DState M) : Py (Grid M) := do
  let g ← createBuses (modelNodes s.models) (Grid.empty M)
  s.models.foldlM (createModel s.objs) g

/-- `ThreePhaseParser.parse` on the objects and schedules read from the file (`threephaseparser.py` 37-69). -/
def parseGrid (readLine : LineReader M) (objs : List (Txt × Obj)) (schedules : List (Txt × Txt)) : Py (Grid M) := do
  let s ← readModels readLine objs schedules
  buildGrid s

/-! ### The numbers the components hold -/

/-- `_phase_to_angle` (`threephaseparser.py` 27-31), in radians. -/
noncomputable def phaseAngle (p : Char) : ℝ :=
  if p = 'B' then 240 * Real.pi / 180 else if p = 'C' then 120 * Real.pi / 180 else if p = '2' then 180 * Real.pi / 180 else 0

/-- A voltage as magnitude times cosine and sine of its angle (`bus.py` 38-39, `slack.py` 47-48); `abs` and `phase` of a complex number give
the number back. -/
noncomputable def Phasor.value : Phasor → ℝ × ℝ
  | .nominal m p => ((m : ℝ) * Real.cos (phaseAngle p), (m : ℝ) * Real.sin (phaseAngle p))
  | .given z => ((z.1 : ℝ), (z.2 : ℝ))
  | .polar m a => ((m : ℝ) * Real.cos a, (m : ℝ) * Real.sin a)

/-- The voltage of a winding as `create_three_phase_transformer` uses it (`transformerparser.py` 87-94). -/
noncomputable def coilVoltage (d : Bool) (v : ℚ) : ℝ := if d then (v : ℝ) * Real.sqrt 3 else (v : ℝ)

/-- The admittance of `r + jx` (`transformer.py` 83-84). -/
noncomputable def seriesAdmittance (r x : ℝ) : ℝ × ℝ := (r / (r ^ 2 + x ^ 2), -x / (r ^ 2 + x ^ 2))

/-- The numbers of a `Transformer` (`transformerparser.py` 96, 137-138; `transformer.py` 80-84): ratio, conductance, susceptance. -/
noncomputable def coilNumbers (v1 v2 : ℚ) (d1 d2 : Bool) (r x power : ℚ) : ℝ × ℝ × ℝ :=
  let V1 := coilVoltage d1 v1
  let V2 := coilVoltage d2 v2
  (V1 / V2, seriesAdmittance (r * V2 ^ 2 / power) (x * V2 ^ 2 / power))

/-- One winding of a center tap (`center_tap_transformer.py` 77-92). -/
noncomputable def ctNumbers (r x v power : ℚ) : ℝ × ℝ :=
  let R : ℝ := r * (v : ℝ) ^ 2 / power
  let X : ℝ := x * (v : ℝ) ^ 2 / power
  open Classical in if ¬ (R = 0 ∧ X = 0) then seriesAdmittance R X else (0, 0)

/-- The element of a transformer (`transformerparser.py` 77, 140). -/
noncomputable def GXfmr.element : GXfmr → Element
  | .coil fp fn tp tn v1 v2 d1 d2 r x power =>
    let n := coilNumbers v1 v2 d1 d2 r x power
    .transformer (some fp) fn (some tp) tn n.1 0 n.2.1 n.2.2
  | .centerTap f p s1 t1 s2 t2 v0 v1 v2 r0 r1 r2 x0 x1 x2 power =>
    let a := ctNumbers r0 x0 v0 power
    let b := ctNumbers r1 x1 v1 power
    let c := ctNumbers r2 x2 v2 power
    .centerTap f p s1 t1 s2 t2 ((v0 : ℝ) / v1) a.1 a.2 b.1 b.2 c.1 c.2

/-- A complex number from two rational ones (`threephaseparser.py` 151-154). -/
noncomputable def complexPair (z : ℚ × ℚ) : ℂ := ⟨(z.1 : ℝ), (z.2 : ℝ)⟩

/-- The element of a load (`threephaseparser.py` 151-154). -/
noncomputable def GLoad.element (l : GLoad) : Element := .load (some l.f) l.t ⟨l.p, l.q, complexPair l.z, l.i.1, l.i.2⟩

/-- The item of a capacitor (`capacitor.py` 16-31); missing limits are only kept where they are not asked for. -/
noncomputable def GCap.item (c : GCap) : Item :=
  .cap ⟨some c.bus, none, (c.var : ℝ) / ((c.nominal : ℝ) * c.nominal), c.mode, (c.high.getD 0 : ℚ), (c.low.getD 0 : ℚ), c.switch⟩

/-- The item of a fuse (`threephaseparser.py` 296, `fuse.py` 15-30). -/
noncomputable def GFuse.item (f : GFuse) : Item := .fuse ⟨some f.f, some f.i, some f.t, f.limit, f.status⟩

/-- The item of a regulator (`regulator.py` 50-71). -/
noncomputable def GReg.item (r : GReg) : Except String Item := do
  let n := seriesAdmittance (1 / 10000) 0
  let x ← Reg.make (some r.f) (some r.c) (some r.t) r.tap r.step r.kind r.raiseTaps r.lowerTaps n.1 n.2
  .ok (.reg x)

/-- The buses of a line with impedances (`unbalanced_line.py` 48-51). -/
def linePhases (g : Grid M) (l : DLine M) : Py (List (ℕ × ℕ)) := l.phases.mapM fun p => do
  let f ← g.busOf l.frm p
  let t ← g.busOf l.to_ p
  .ok (f, t)

/-- The element of a line with impedances, by the constructor `make` on its data (`unbalanced_line.py` 48-60). -/
def lineElement (make : M → List (ℕ × ℕ) → Except String Element) (g : Grid M) (l : DLine M) : Except String Element :=
  match linePhases g l with
  | .ok ps => make l.data ps
  | .error _ => .error "KeyError"

/-- The network (`networkmodel.py` 48-56, 181-182): lines, transformers, slacks, switches, loads, regulators, fuses, capacitors. -/
noncomputable def Grid.network (make : M → List (ℕ × ℕ) → Except String Element) (g : Grid M) : Except String DxNet := do
  let lines ← g.lines.mapM (lineElement make g)
  let regs ← g.regulators.mapM GReg.item
  .ok ⟨g.buses.length,
    lines.map .fixed ++ g.transformers.map (fun t => .fixed t.element) ++
    g.slacks.map (fun s => .fixed (.slack s.1 s.2.value.1 s.2.value.2)) ++
    g.switches.map (fun s => .fixed (.switch (some s.f) (some s.t) s.status)) ++
    g.loads.map (fun l => .fixed l.element) ++ regs ++ g.fuses.map GFuse.item ++ g.capacitors.map GCap.item,
    none, true⟩

end Verif.Glm
