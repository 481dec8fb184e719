import Verif.Model.Devices
import Mathlib.Data.Complex.Basic
import Mathlib.Analysis.SpecialFunctions.Trigonometric.Basic

/-!
# Device classes: the numbers they compute and the segments they stamp

`/repo/src/models/components/*.py`. Numbers are real; python's `ZeroDivisionError` is `Except.error`.
-/

namespace Verif

open Ex

/-- The two-terminal segments created at import time (`line.py` 23, 36; `load.py` 26, 34; `generator.py` 20;
`slack.py` 22; `voltagesource.py` 20). -/
structure Library where
  line : Segment
  shunt : Segment
  pq : Segment
  ic : Segment
  gen : Segment
  slack : Segment
  vs : Segment

/-- The library is what the module-level constructors return. The numbers of the equality multipliers depend on
import order (`_lambda_ids`, `lagrangesegment.py` 214), hence the existential. -/
structure Library.Loaded (L : Library) : Prop where
  line : ∃ n, twoTerminal n Devices.lineArgs = .ok L.line
  shunt : ∃ n, twoTerminal n Devices.shuntArgs = .ok L.shunt
  pq : ∃ n, twoTerminal n Devices.pqArgs = .ok L.pq
  ic : ∃ n, twoTerminal n Devices.icArgs = .ok L.ic
  gen : ∃ n, twoTerminal n Devices.genArgs = .ok L.gen
  slack : ∃ n, twoTerminal n Devices.slackArgs = .ok L.slack
  vs : ∃ n, twoTerminal n Devices.vsArgs = .ok L.vs

/-- A segment with the constants of one device instance: one `(stamper, constantvals)` pair of
`build_stamps_from_stampers` (`matrixstamper.py` 133-140). -/
structure Part where
  seg : Segment
  consts : List ℝ

/-- The arguments an expression of the part is evaluated at (`matrixstamper.py` 286-302, 318-320): constants in
declaration order, the homotopy factor overwritten by `t`, everything else taken from `v`. -/
noncomputable def Part.env (p : Part) (t : ℝ) (v : Env) : Env := fun s =>
  if s ∈ p.seg.constants then
    (if s = .txFactor then t else p.consts.getD (p.seg.constants.idxOf s) 0)
  else v s

/-- Value of one equation row of the part (`matrixstamper.py` 369-377). -/
noncomputable def Part.row (p : Part) (t : ℝ) (v : Env) (d : Sym) : ℝ := eval (p.env t v) (p.seg.derivative d)

/-! ### `line.py` -/

/-- `Line.__init__` (`line.py` 107-110): series conductance, series susceptance, susceptance per end. -/
noncomputable def lineConsts (r x b : ℝ) : Except String (ℝ × ℝ × ℝ) :=
  if x ^ 2 + r ^ 2 = 0 then .error "ZeroDivisionError"
  else .ok (r / (x ^ 2 + r ^ 2), -x / (x ^ 2 + r ^ 2), b / 2)

/-- `Line.get_stamps` (`line.py` 138-143): series part, from-end shunt, to-end shunt. -/
def lineParts (L : Library) (gbl : ℝ × ℝ × ℝ) : Part × Part × Part :=
  (⟨L.line, [gbl.1, gbl.2.1, 0]⟩, ⟨L.shunt, [0, gbl.2.2, 0]⟩, ⟨L.shunt, [0, gbl.2.2, 0]⟩)

/-! ### `load.py` -/

/-- Attributes of a `Load` (`load.py` 55-91). -/
structure Load where
  P : ℝ
  Q : ℝ
  Z : ℂ
  IP : ℝ
  IQ : ℝ

/-- `self.G`, `self.B` (`load.py` 100-107). -/
noncomputable def Load.GB (l : Load) : ℝ × ℝ :=
  if l.Z ≠ 0 then (l.Z.re / (l.Z.re ^ 2 + l.Z.im ^ 2), -l.Z.im / (l.Z.re ^ 2 + l.Z.im ^ 2)) else (0, 0)

/-- `Load.assign_nodes` and `get_stamps` (`load.py` 109-130): the parts that are zero have no stamper. -/
noncomputable def Load.parts (L : Library) (l : Load) : List Part :=
  (if l.P = 0 ∧ l.Q = 0 then [] else [⟨L.pq, [l.P, l.Q]⟩]) ++
  (if l.IP = 0 ∧ l.IQ = 0 then [] else [⟨L.ic, [l.IP, l.IQ]⟩]) ++
  (if l.Z = 0 then [] else [⟨L.shunt, [l.GB.1, l.GB.2, 0]⟩])

/-! ### `generator.py`, `slack.py`, `voltagesource.py`, `switch.py` -/

/-- `Generator.__init__` (`generator.py` 55-62): the stored set point has the opposite sign. -/
structure Generator where
  P : ℝ
  Vset : ℝ
  Qinit : ℝ
  Qmax : ℝ
  Qmin : ℝ

/-- `Generator.__init__` (`generator.py` 55-62). -/
noncomputable def Generator.make (P Vset Qmax Qmin Qinit : ℝ) : Generator :=
  { P := -P, Vset := Vset, Qinit := -Qinit, Qmax := -Qmax, Qmin := -Qmin }

/-- `Generator.get_stamps` (`generator.py` 70-71). -/
def Generator.part (L : Library) (g : Generator) : Part := ⟨L.gen, [g.P, g.Vset]⟩

/-- `Slack.__init__` and `get_stamps` (`slack.py` 47-48, 56-57). -/
noncomputable def slackPart (L : Library) (Vset ang : ℝ) : Part :=
  ⟨L.slack, [Vset * Real.cos ang, Vset * Real.sin ang]⟩

/-- `VoltageSource.get_stamps` (`voltagesource.py` 35-36). -/
def vsPart (L : Library) (vr vi : ℝ) : Part := ⟨L.vs, [vr, vi]⟩

/-- `SwitchStatus` (`switch.py` 5-7). -/
inductive SwitchStatus | opened | closed
  deriving DecidableEq, Repr

/-- `Switch.get_stamps` (`switch.py` 22, 30-34): a zero volt source unless open. -/
def switchParts (L : Library) : SwitchStatus → List Part
  | .opened => []
  | .closed => [vsPart L 0 0]

/-! ### `capacitor.py`, `shunt.py` -/

/-- `Capacitor.__init__` (`capacitor.py` 25-27). -/
noncomputable def capB (var vnom : ℝ) : Except String ℝ :=
  if vnom * vnom = 0 then .error "ZeroDivisionError" else .ok (var / (vnom * vnom))

/-- `CapSwitchState` (`capacitor.py` 6-8). -/
inductive CapSwitch | opened | closed
  deriving DecidableEq, Repr

/-- `Capacitor.get_stamps` (`capacitor.py` 36-40). -/
def capParts (L : Library) (sw : CapSwitch) (B : ℝ) : List Part :=
  match sw with
  | .opened => []
  | .closed => [⟨L.shunt, [0, B, 0]⟩]

/-- `Shunt.__init__` and `get_stamps` (`shunt.py` 45-46, 56-57). -/
noncomputable def shuntPart (L : Library) (G_MW B_MVAR : ℝ) : Part := ⟨L.shunt, [G_MW / 100, B_MVAR / 100, 0]⟩

/-! ### `transformer.py`, `center_tap_transformer.py` -/

/-- `Transformer.__init__` and `get_stamps` (`transformer.py` 80-84, 152-159): ideal part and loss part. -/
noncomputable def xfmrParts (L : Library) (r x tr ang : ℝ) : Except String (Part × Part) :=
  if r ^ 2 + x ^ 2 = 0 then .error "ZeroDivisionError"
  else .ok (⟨Devices.xfmr, [tr, ang * Real.pi / 180, 0]⟩,
            ⟨L.line, [r / (r ^ 2 + x ^ 2), -x / (r ^ 2 + x ^ 2), 0]⟩)

/-- One winding admittance of `CenterTapTransformer.__init__` (`center_tap_transformer.py` 77-92): impedance out of
per unit, zero when both are zero. -/
noncomputable def ctWinding (res rea vnom rating : ℝ) : Except String (ℝ × ℝ) :=
  if rating = 0 then .error "ZeroDivisionError"
  else
    let r := res * vnom ^ 2 / rating
    let x := rea * vnom ^ 2 / rating
    .ok (if ¬(r = 0 ∧ x = 0) then (r / (r ^ 2 + x ^ 2), -x / (r ^ 2 + x ^ 2)) else (0, 0))

/-- The ideal part of `CenterTapTransformer.get_stamps` (`center_tap_transformer.py` 147-149). -/
def ctPart (ratio : ℝ) : Part := ⟨Devices.centerTap, [ratio, 0]⟩

end Verif
