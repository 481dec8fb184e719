import Verif.Model.Placement
import Verif.Spec.Unknowns
import Verif.Spec.Network
import Mathlib.Analysis.SpecialFunctions.Complex.Arg

/-!
# Results (`/repo/src/logic/powerflowresults.py`) and rating checks (`/repo/src/logic/network/timeseriesprocessor.py` 178-206)

The results read a solution vector through the indices of the assignment. Text formatting of numbers is left out: a line of
an output file is a structured row.
-/

namespace Verif

/-- What the results read from a bus besides its indices (`bus.py` 28-39). -/
structure BusInfo where
  virtual : Bool
  vnom : ℝ

/-- `BusResult` (`powerflowresults.py` 40-58); `bus` is the position in `network.buses`. -/
structure BusResult where
  bus : ℕ
  V : ℂ
  lam : Option (ℝ × ℝ)
  mag : ℝ
  deg : ℝ

/-- `BusResult.__init__` (`powerflowresults.py` 41-58): `abs`, `cmath.phase`, `math.degrees`; below `1e-8` the angle is 0. -/
noncomputable def BusResult.make (k : ℕ) (vr vi : ℝ) (lam : Option (ℝ × ℝ)) : BusResult :=
  let V : ℂ := ⟨vr, vi⟩
  ⟨k, V, lam, ‖V‖, if ‖V‖ < 1 / 100000000 then 0 else V.arg * 180 / Real.pi⟩

/-- The loop over the buses (`powerflowresults.py` 123-136). -/
noncomputable def busResults (infos : List BusInfo) (opt : Bool) (nodes : List Node) (v : ℕ → ℝ) : List BusResult :=
  (infos.zip nodes).zipIdx.filterMap fun x =>
    if x.1.1.virtual then none
    else some (BusResult.make x.2 (readIdx v x.1.2.vr) (readIdx v x.1.2.vi)
      (if opt then some (readIdx v x.1.2.lr, readIdx v x.1.2.li) else none))

/-- `GENTYPE` (`powerflowresults.py` 19-23). -/
inductive GenType | PV | Slack | Inf
  deriving DecidableEq, Repr

/-- `GeneratorResult` (`powerflowresults.py` 25-30). -/
structure GenResult where
  bus : ℕ
  P : ℝ
  Q : ℝ
  kind : GenType

/-- `LoadResult` (`powerflowresults.py` 78-83). -/
structure LoadResult where
  bus : Ref
  P : ℝ
  Q : ℝ

/-- The loop over the generators (`powerflowresults.py` 138-142): `generator.P` is the stored, negated power. -/
def pvResults (N : Network) (a : Assignment) (v : ℕ → ℝ) : List GenResult :=
  (N.elements.zip a.parts).filterMap fun x => match x.1 with
    | .generator b P _ => some ⟨b, P, readIdx v (unknownIdx x.2 (0, .Q)), .PV⟩
    | _ => none

/-- The loop over the loads (`powerflowresults.py` 144-148). -/
def loadResults (N : Network) : List LoadResult :=
  N.elements.filterMap fun e => match e with
    | .load f _ l => some ⟨f, l.P, l.Q⟩
    | _ => none

/-- The loop over the slacks (`powerflowresults.py` 150-157): `P = Vr * Ir`, `Q = Vi * Ii`. -/
def slackResults (N : Network) (a : Assignment) (v : ℕ → ℝ) : List GenResult :=
  (N.elements.zip a.parts).filterMap fun x => match x.1 with
    | .slack b _ _ =>
      let n := nodeAt a.nodes (some b)
      some ⟨b, readIdx v n.vr * readIdx v (unknownIdx x.2 (0, .ISr)), readIdx v n.vi * readIdx v (unknownIdx x.2 (0, .ISi)), .Slack⟩
    | _ => none

/-- The infeasibility current of a bus (`powerflowresults.py` 174-179). -/
def infeasCurrent (k : OptKind) (p : Placed) (v : ℕ → ℝ) : ℝ × ℝ :=
  let r := fun s => readIdx v (p.details.varMap s)
  match k with
  | .L2 => (r .Iir, r .Iii)
  | .L1 => (r .IirPlus - r .IirMinus, r .IiiPlus - r .IiiMinus)

/-- `if P < 1e-5: P = 0` (`powerflowresults.py` 181-185). -/
noncomputable def cutSmall (x : ℝ) : ℝ := if x < 1 / 100000 then 0 else x

/-- The loop over the infeasibility currents (`powerflowresults.py` 171-189). -/
noncomputable def infResults (k : OptKind) (a : Assignment) (v : ℕ → ℝ) : List GenResult :=
  (a.nodes.zip a.infeasibility).zipIdx.map fun x =>
    let c := infeasCurrent k x.1.2 v
    ⟨x.2, cutSmall (readIdx v x.1.1.vr * c.1), cutSmall (readIdx v x.1.1.vi * c.2), .Inf⟩

/-- `infeasibility_totals` (`powerflowresults.py` 163-191). -/
noncomputable def infTotals (N : Network) (a : Assignment) (v : ℕ → ℝ) : Option (ℝ × ℝ) :=
  N.optimization.map fun k => (((infResults k a v).map GenResult.P).sum, ((infResults k a v).map GenResult.Q).sum)

/-- `PowerFlowResults` (`powerflowresults.py` 93-161) as far as it is used below. `violates` is the attribute
`violates_equipment_ratings`, absent (here false) unless `execute_powerflow` sets it. -/
structure Results where
  success : Bool
  buses : List BusResult
  generators : List GenResult
  loads : List LoadResult
  totals : Option (ℝ × ℝ)
  violates : Bool

/-- `PowerFlowResults.__init__` (`powerflowresults.py` 94-161). -/
noncomputable def Results.make (N : Network) (infos : List BusInfo) (a : Assignment) (success : Bool) (v : ℕ → ℝ) : Results :=
  { success := success
    buses := busResults infos N.opt a.nodes v
    generators := pvResults N a v ++ slackResults N a v ++ (match N.optimization with
      | none => []
      | some k => infResults k a v)
    loads := loadResults N
    totals := infTotals N a v
    violates := false }

/-! ### Output files -/

/-- A line of an output file (`powerflowresults.py` 36-38, 73-76, 89-91, 262-283). -/
inductive FileLine
  | failure
  | header
  | bus (b : BusResult)
  | gen (g : GenResult)
  | load (l : LoadResult)
  | violated

/-- `_voltage.csv` (`powerflowresults.py` 260-268). -/
def Results.voltageFile (r : Results) : List FileLine :=
  if r.success = false then [.failure]
  else [.header] ++ r.buses.map .bus ++ (if r.violates = true then [.violated] else [])

/-- `_power.csv` (`powerflowresults.py` 272-283). -/
def Results.powerFile (r : Results) : List FileLine :=
  if r.success = false then [.failure]
  else [.header] ++ r.generators.map .gen ++ r.loads.map .load ++ (if r.violates = true then [.violated] else [])

/-! ### Power and current of branches -/

/-- `TransformerResult.get_P`, `get_Q` (`powerflowresults.py` 307-319); `p` is the ideal part of the transformer. -/
def xfmrPower (p : Placed) (v : ℕ → ℝ) : ℝ × ℝ :=
  let r := fun s => readIdx v (p.details.varMap s)
  ((r .VrPriPos - r .VrPriNeg) * r .IrPrim, (r .ViPriPos - r .ViPriNeg) * r .IiPrim)

/-- `CenterTapTransformerResult.get_P`, `get_Q` (`powerflowresults.py` 327-338). -/
def ctPower (p : Placed) (v : ℕ → ℝ) : ℝ × ℝ :=
  let r := fun s => readIdx v (p.details.varMap s)
  (r .VrL1 * r .IrL1 + r .ViL1 * r .IiL1 + r .VrL2 * r .IrL2 + r .ViL2 * r .IiL2,
   -r .VrL1 * r .IiL1 + r .ViL1 * r .IrL1 - r .VrL2 * r .IiL2 + r .ViL2 * r .IrL2)

/-- `LineResult.get_Ir`, `get_Ii` (`powerflowresults.py` 348-360), with `g`, `b` from `UnbalancedLine.loop_lines`
(`unbalanced_line.py` 225-230). -/
def lineResult (f t : Node) (g b : ℝ) (v : ℕ → ℝ) : ℂ :=
  ⟨(readIdx v f.vr - readIdx v t.vr) * g - (readIdx v f.vi - readIdx v t.vi) * b,
   (readIdx v f.vr - readIdx v t.vr) * b + (readIdx v f.vi - readIdx v t.vi) * g⟩

/-! ### Rating checks -/

/-- Ratings of one element: ampacities of the phases of a line, power rating of a transformer (`ampacities`, `power_rating` as used in `timeseriesprocessor.py` 185, 196). -/
structure Rating where
  amps : List (Option ℝ)
  power : Option ℝ

/-- One test of the line loop (`timeseriesprocessor.py` 182-187): phase `i` of the line. -/
noncomputable def phaseTest (nodes : List Node) (ph : List (ℕ × ℕ)) (y : ℕ → ℕ → ℂ) (amps : List (Option ℝ)) (v : ℕ → ℝ) (i : ℕ) :
    Except String Bool :=
  let p := ph.getD i (0, 0)
  let cur := lineResult (nodeAt nodes (some p.1)) (nodeAt nodes (some p.2)) (y i i).re (y i i).im v
  match amps[i]? with
  | none => .error "list index out of range"
  | some none => .ok false
  | some (some A) => .ok (decide (‖cur‖ > A))

/-- The test of the transformer loop (`timeseriesprocessor.py` 190-198) on a reported power. -/
noncomputable def powerTest (S : ℝ × ℝ) (rating : Option ℝ) : Bool :=
  match rating with
  | none => false
  | some R => decide (‖(⟨S.1, S.2⟩ : ℂ)‖ > R)

/-- The tests made for one element (`timeseriesprocessor.py` 181-198). Only `UnbalancedLine` has `loop_lines`. -/
noncomputable def elementTests (nodes : List Node) (v : ℕ → ℝ) (e : Element) (ps : List Placed) (r : Rating) : List (Except String Bool) :=
  match e with
  | .line .. => [.error "'Line' object has no attribute 'loop_lines'"]
  | .unbalanced ph y _ => (List.range ph.length).map (phaseTest nodes ph y r.amps v)
  | .transformer .. => match ps[0]? with
    | some p => [.ok (powerTest (xfmrPower p v) r.power)]
    | none => []
  | .centerTap .. => match ps[0]? with
    | some p => [.ok (powerTest (ctPower p v) r.power)]
    | none => []
  | _ => []

/-- The test of the bus loop (`timeseriesprocessor.py` 16, 201-204). -/
noncomputable def busTest (infos : List BusInfo) (b : BusResult) : Except String Bool :=
  match infos[b.bus]? with
  | none => .ok false
  | some i => if i.vnom = 0 then .error "ZeroDivisionError" else .ok (decide (|b.mag - i.vnom| / i.vnom ≥ 1 / 20))

/-- `exceeds_rating = True` whenever a test is met; no test is skipped (`timeseriesprocessor.py` 179, 187, 198, 204). -/
def anyTest : List (Except String Bool) → Except String Bool
  | [] => .ok false
  | t :: ts => do
    let b ← t
    let r ← anyTest ts
    .ok (b || r)

/-- `violates_equipment_ratings` (`timeseriesprocessor.py` 178-206). The code tests all lines, then all transformers, then
all buses; here elements are tested in their order, which can only change which exception is raised first. -/
noncomputable def violatesRatings (N : Network) (infos : List BusInfo) (ratings : List Rating) (a : Assignment) (v : ℕ → ℝ) (r : Results) :
    Except String Bool :=
  anyTest (((N.elements.zip a.parts).zip ratings).flatMap (fun x => elementTests a.nodes v x.1.1 x.1.2 x.2) ++
    r.buses.map (busTest infos))

/-- The last lines of `execute_powerflow` (`timeseriesprocessor.py` 231-233). -/
noncomputable def markViolations (N : Network) (infos : List BusInfo) (ratings : List Rating) (a : Assignment) (v : ℕ → ℝ) (r : Results) :
    Except String Results :=
  if r.success = true then do
    let b ← violatesRatings N infos ratings a v r
    .ok (if b = true then { r with violates := true } else r)
  else .ok r

end Verif
