import Verif.Model.Homotopy
import Verif.Spec.Network
import Verif.Spec.Unknowns

/-!
# Device control (`/repo/src/logic/devicecontroller.py`, `fuse.py`, `capacitor.py`, `regulator.py`)

Fuses, capacitors and regulators as state machines, and the loop that alternates solving and adjusting. The loop is written
against arbitrary solve and adjust operations; `DxNet.ops` instantiates them with the modelled solver and devices.
-/

namespace Verif

/-! ### Fuse -/

/-- `FuseStatus` (`fuse.py` 9-11). -/
inductive FuseStatus | good | blown
  deriving DecidableEq, Repr

/-- `Fuse` (`fuse.py` 13-30). `G`, `B` are the literals `1e4` in `Element.place`. -/
structure Fuse where
  f : Ref
  i : Ref
  t : Ref
  limit : ℝ
  status : FuseStatus

/-- `Fuse.try_adjust_device` (`fuse.py` 56-67); `cur` is the current read from the sensor (`fuse.py` 50-54,
`voltagesource.py` 38-39). The norm on `ℂ` is python's `abs` of a complex number. -/
noncomputable def Fuse.adjust (F : Fuse) (cur : ℂ) : Fuse × Bool :=
  if F.status = .blown then (F, false)
  else if ‖cur‖ > F.limit then ({ F with status := .blown }, true)
  else (F, false)

/-! ### Capacitor -/

/-- `CapacitorMode` (`capacitor.py` 10-14). -/
inductive CapMode | manual | volt | var | varvolt
  deriving DecidableEq, Repr

/-- `Capacitor` (`capacitor.py` 16-31) with the susceptance computed by the constructor (`capB`). -/
structure Cap where
  f : Ref
  t : Ref
  b : ℝ
  mode : CapMode
  high : ℝ
  low : ℝ
  switch : CapSwitch

/-- `Capacitor.try_adjust_device` (`capacitor.py` 45-66); `V` is the voltage of the from bus. The two tests are made one
after the other. -/
noncomputable def Cap.adjust (c : Cap) (V : ℂ) : Except String (Cap × Bool) :=
  match c.mode with
  | .manual => .ok (c, false)
  | .volt =>
    let a : Cap × Bool :=
      if ‖V‖ > c.high ∧ c.switch = .opened then ({ c with switch := .closed }, true) else (c, false)
    let b : Cap × Bool :=
      if ‖V‖ < c.low ∧ a.1.switch = .closed then ({ a.1 with switch := .opened }, true) else a
    .ok b
  | _ => .error "mode for capacitor not implemented"

/-! ### Regulator -/

/-- `RegType` (`regulator.py` 6-8). -/
inductive RegType | A | B
  deriving DecidableEq, Repr

/-- `Regulator` (`regulator.py` 16-71): the fields that matter for the tap. Taps are integers in the files; real numbers
here. `ratio` stands for both `turn_ratio` and `transformer.tr`, which are assigned together (lines 55-66, 89). `g`, `b`
are the series admittance of `r = 1e-4`, `x = 0`. -/
structure Reg where
  f : Ref
  c : Ref
  t : Ref
  tap : ℝ
  step : ℝ
  kind : RegType
  raiseTaps : ℝ
  lowerTaps : ℝ
  ratio : ℝ
  g : ℝ
  b : ℝ

/-- `Regulator.try_increment_tap_position` (`regulator.py` 73-91). `0 ** -1` raises. -/
noncomputable def Reg.increment (r : Reg) (inc : ℝ) : Except String (Reg × Bool) :=
  let tap :=
    if r.tap + inc ≥ r.raiseTaps then r.raiseTaps
    else if r.tap + inc ≤ -r.lowerTaps then -r.lowerTaps
    else r.tap + inc
  match r.kind with
  | .A =>
    if 1 + r.step * tap = 0 then .error "0.0 cannot be raised to a negative power"
    else .ok ({ r with tap := tap, ratio := (1 + r.step * tap)⁻¹ }, decide (r.tap ≠ tap))
  | .B => .ok ({ r with tap := tap, ratio := 1 - r.step * tap }, decide (r.tap ≠ tap))

/-- `Regulator.__init__` (`regulator.py` 18-71): ratio 0, then an increment by 0. -/
noncomputable def Reg.make (f c t : Ref) (tap step : ℝ) (kind : RegType) (raiseTaps lowerTaps g b : ℝ) :
    Except String Reg := do
  let (r, _) ← Reg.increment ⟨f, c, t, tap, step, kind, raiseTaps, lowerTaps, 0, g, b⟩ 0
  .ok r

/-- `Regulator.try_adjust_device` (`regulator.py` 93-95): the code after line 95 is unreachable. -/
def Reg.adjust (r : Reg) (_v : ℕ → ℝ) : Reg × Bool := (r, false)

/-! ### The loop -/

/-- What `DeviceController.run_powerflow` calls: the homotopy controller on the current network, and `try_adjust_devices`.
`δ` is the state of the network's devices, `ρ` the solver's result tuple (`devicecontroller.py` 27, 30, 33). -/
structure DeviceOps (δ ρ : Type) where
  solve : δ → (ℕ → ℝ) → Except String ρ
  success : ρ → Bool
  volts : ρ → ℕ → ℝ
  adjust : δ → (ℕ → ℝ) → Except String (δ × Bool)

/-- One call of the solver: the device state it saw and what it returned or raised (`devicecontroller.py` 30). -/
structure SolveCall (δ ρ : Type) where
  devices : δ
  result : Except String ρ

/-- The outcome of a run: the solver calls made, in order (a record, not part of the python object), and the returned tuple
with the device state left behind, or the exception (`devicecontroller.py` 30-36). -/
structure DeviceOutcome (δ ρ : Type) where
  calls : List (SolveCall δ ρ)
  out : Except String (ρ × δ)

/-- The message of `devicecontroller.py` 36. -/
def unsettledMessage : String := "Could not find solution where no device adjustments were required."

/-- The loop `for _ in range(MAX_DEVICE_ITERATIONS)` with `k` iterations left (`devicecontroller.py` 29-36). -/
def deviceLoop {δ ρ : Type} (O : DeviceOps δ ρ) (control : Bool) (vInit : ℕ → ℝ) : ℕ → δ → List (SolveCall δ ρ) →
    DeviceOutcome δ ρ
  | 0, _, calls => ⟨calls, .error unsettledMessage⟩
  | k + 1, d, calls =>
    match O.solve d vInit with
    | .error e => ⟨calls ++ [⟨d, .error e⟩], .error e⟩
    | .ok r =>
      let calls := calls ++ [⟨d, .ok r⟩]
      if O.success r = false then ⟨calls, .ok (r, d)⟩
      else if control = false then ⟨calls, .ok (r, d)⟩
      else
        match O.adjust d (O.volts r) with
        | .error e => ⟨calls, .error e⟩
        | .ok (d', made) =>
          if made = true then deviceLoop O control vInit k d' calls else ⟨calls, .ok (r, d')⟩

/-- `MAX_DEVICE_ITERATIONS` (`devicecontroller.py` 7). -/
def maxDeviceIterations : ℕ := 10

/-- `DeviceController.run_powerflow` (`devicecontroller.py` 19-36) after `assign_matrix` and `generate_v_init`. -/
def deviceRun {δ ρ : Type} (O : DeviceOps δ ρ) (control : Bool) (vInit : ℕ → ℝ) (d : δ) : DeviceOutcome δ ρ :=
  if control = true then
    match O.adjust d vInit with
    | .error e => ⟨[], .error e⟩
    | .ok (d', _) => deviceLoop O control vInit maxDeviceIterations d' []
  else deviceLoop O control vInit maxDeviceIterations d []

/-! ### A distribution network with its devices -/

/-- The elements of a network with the state of the controllable ones (`networkmodel.py` 48-56, 181-182). -/
inductive Item
  | fixed (e : Element)
  | fuse (F : Fuse)
  | cap (c : Cap)
  | reg (r : Reg)

/-- The element an item takes part in the index assignment as. `Fuse.assign_nodes` does not look at the status
(`fuse.py` 32-36). -/
def Item.element : Item → Element
  | .fixed e => e
  | .fuse F => .fuse F.f F.i F.t
  | .cap c => .capacitor c.f c.t c.switch c.b
  | .reg r => .regulator r.f r.c r.t r.ratio r.g r.b

/-- Whether `get_stamps` of the item raises (`fuse.py` 44-46). -/
def Item.refuses : Item → Bool
  | .fuse F => decide (F.status = .blown)
  | _ => false

/-- A network with devices. `threePhase` is `is_three_phase` (`networkmodel.py` 20-22, 117, 160). -/
structure DxNet where
  buses : ℕ
  items : List Item
  optimization : Option OptKind
  threePhase : Bool

/-- The elements of the network in their present state (`networkmodel.py` 48-56). -/
def DxNet.network (D : DxNet) : Network := ⟨D.buses, D.items.map Item.element, D.optimization⟩

/-- Current through the sensor of the fuse at position `k` (`fuse.py` 54, `voltagesource.py` 38-39). The sensor is the second
part of a fuse. -/
def Assignment.sensor (a : Assignment) (k : ℕ) (v : ℕ → ℝ) : ℂ :=
  ⟨readIdx v (unknownIdx (a.parts.getD k []) (1, .Ir)), readIdx v (unknownIdx (a.parts.getD k []) (1, .Ii))⟩

/-- Voltage of a bus (`capacitor.py` 50-54). A capacitor whose from bus is the ground would fail in python; it reads 0
here. -/
def Assignment.volt (a : Assignment) (r : Ref) (v : ℕ → ℝ) : ℂ :=
  ⟨readIdx v (nodeAt a.nodes r).vr, readIdx v (nodeAt a.nodes r).vi⟩

/-- `try_adjust_device` of the item at position `k` (`devicecontroller.py` 42-44). -/
noncomputable def Item.adjust (a : Assignment) (v : ℕ → ℝ) (k : ℕ) : Item → Except String (Item × Bool)
  | .fixed e => .ok (.fixed e, false)
  | .fuse F => .ok (.fuse (F.adjust (a.sensor k v)).1, (F.adjust (a.sensor k v)).2)
  | .cap c => do
    let (c', made) ← c.adjust (a.volt c.f v)
    .ok (.cap c', made)
  | .reg r => .ok (.reg (r.adjust v).1, (r.adjust v).2)

/-- The loop over the devices (`devicecontroller.py` 41-44): every device is visited. -/
noncomputable def adjustItems (a : Assignment) (v : ℕ → ℝ) : ℕ → List Item → Except String (List Item × Bool)
  | _, [] => .ok ([], false)
  | k, i :: is => do
    let (i', made) ← i.adjust a v k
    let (is', more) ← adjustItems a v (k + 1) is
    .ok (i' :: is', made || more)

/-- `try_adjust_devices` (`devicecontroller.py` 38-49). The indices are those of `assign_matrix` at the start of the run
(line 21); no device state enters the index assignment, so they are computed from the present state here. -/
noncomputable def DxNet.adjust (L : Library) (D : DxNet) (v : ℕ → ℝ) : Except String (DxNet × Bool) :=
  if D.threePhase = true then do
    let (is, made) ← adjustItems (D.network.assign L) v 0 D.items
    .ok ({ D with items := is }, made)
  else .ok (D, false)

/-- `HomotopyController.run_powerflow` on the present network: `build_matrix_stamper` collects the stamps of all elements
(`matrixstamper.py` 123-131), which raises at a blown fuse, then the homotopy sequence. `C.size` is replaced by the size of
the assignment (`networkmodel.py` 82). -/
noncomputable def DxNet.solve (L : Library) (C : NRContext) (txStepping : Bool) (D : DxNet) (vInit : ℕ → ℝ) :
    Except String (HomotopyResult Stamper) :=
  if D.items.any Item.refuses then .error "Blown fuses are not supported"
  else do
    let m ← Stamper.build D.network.opt (D.network.assign L).all
    homotopyRun (solverRun { C with size := (D.network.assign L).size }) txStepping m vInit

/-- The operations of the modelled solver and devices (`devicecontroller.py` 13-17, 38-49). -/
noncomputable def DxNet.ops (L : Library) (C : NRContext) (txStepping : Bool) :
    DeviceOps DxNet (HomotopyResult Stamper) where
  solve := DxNet.solve L C txStepping
  success := HomotopyResult.success
  volts := HomotopyResult.v
  adjust := DxNet.adjust L

/-- `DeviceController.run_powerflow` of the modelled solver (`devicecontroller.py` 19-36), as called by
`PowerFlow.execute` (`powerflow.py` 36-39). -/
noncomputable def DxNet.run (L : Library) (C : NRContext) (txStepping control : Bool) (vInit : ℕ → ℝ) (D : DxNet) :
    DeviceOutcome DxNet (HomotopyResult Stamper) :=
  deviceRun (DxNet.ops L C txStepping) control vInit D

end Verif
