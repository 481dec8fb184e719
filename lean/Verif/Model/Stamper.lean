import Verif.Model.Components
import Verif.Model.Builder

/-!
# `LagrangeStampDetails`, `MatrixStamper` and `InputBuilder`

`/repo/src/logic/stamping/lagrangestampdetails.py`, `/repo/src/logic/stamping/matrixstamper.py`.

An index is `Option ℕ`, `none` being `SKIP` (`lagrangesegment.py` 8). Vectors are functions `ℕ → ℝ`.
Dictionary keys that are strings built from a segment, symbols and numbers are replaced by those objects themselves
(assumed injective; see DESIGN.md).
-/

namespace Verif

open Ex

open Classical in
noncomputable instance : DecidableEq Segment := Classical.decEq _

/-- A row or column index; `none` is `SKIP` (`lagrangesegment.py` 8). -/
abbrev Idx := Option ℕ

/-- `LagrangeStampDetails` (`lagrangestampdetails.py` 7-20). The maps are total functions; a python KeyError for a
variable missing in the map is not modelled. -/
structure Details where
  seg : Segment
  varMap : Sym → Idx
  eqnMap : Sym → Idx
  opt : Bool

/-- `get_eqn_row_index_str` (`lagrangestampdetails.py` 22-26). The map of `lagrangesegment.py` 158-161 raises at
construction of the segment when a multiplier has no primal at its position; such a segment does not exist, here its
row would be SKIP. -/
def Details.row (d : Details) (x : Sym) : Idx :=
  if d.opt then d.eqnMap x else (d.seg.dualPrimal x).bind d.eqnMap

/-- `first_order_variables` (`matrixstamper.py` 157-160). -/
def Details.firstOrder (d : Details) : List Sym := if d.opt then d.seg.vars else d.seg.duals

/-- `StampInput` (`matrixstamper.py` 13-26); its `key` is the triple itself. -/
structure Input where
  consts : List ℝ
  primalIdx : List Idx
  dualIdx : List Idx

noncomputable instance : DecidableEq Input := Classical.decEq _

/-- `primal_indexes`, `dual_indexes`, `StampInput(...)` (`matrixstamper.py` 187-188, 192). -/
def Details.input (d : Details) (consts : List ℝ) : Input :=
  ⟨consts, d.seg.primals.map d.varMap, d.seg.duals.map d.varMap⟩

/-- `StampExpression` (`matrixstamper.py` 36-69); its `key` is the object itself. -/
structure StampExpr where
  seg : Segment
  firstOrder : Sym
  entry : Entry

noncomputable instance : DecidableEq StampExpr := Classical.decEq _

/-- `StampInstance` (`matrixstamper.py` 74-87); `col = none` goes to `J`. -/
structure Stamp where
  expr : StampExpr
  input : Input
  row : ℕ
  col : Option ℕ

/-- `ResidualInstance` (`matrixstamper.py` 89-107). -/
structure Residual where
  seg : Segment
  firstOrder : Sym
  row : ℕ
  input : Input

/-- A stamper with its constants: one argument of `build_stamps_from_stampers` (`matrixstamper.py` 133-140). -/
structure Placed where
  details : Details
  consts : List ℝ

/-- Where one entry of one equation goes (`matrixstamper.py` 203-212); `none` is `continue`. -/
def Placed.place (p : Placed) (x : Sym) (e : Entry) : Option Stamp :=
  match p.details.row x with
  | none => none
  | some r => match e.col with
    | none => some ⟨⟨p.details.seg, x, e⟩, p.details.input p.consts, r, none⟩
    | some y => (p.details.varMap y).map fun c => ⟨⟨p.details.seg, x, e⟩, p.details.input p.consts, r, some c⟩

/-- `__build_stamps` over the expressions of `get_or_build_stamp_expressions` (`matrixstamper.py` 147-184, 200-223). -/
def Placed.stamps (p : Placed) : List Stamp :=
  p.details.firstOrder.flatMap fun x => (p.details.seg.entries x).filterMap (p.place x)

/-- `__build_residuals` (`matrixstamper.py` 226-243). -/
def Placed.residuals (p : Placed) : List Residual :=
  p.details.firstOrder.filterMap fun x =>
    (p.details.row x).map fun r => ⟨p.details.seg, x, r, p.details.input p.consts⟩

/-! ### `InputBuilder` -/

/-- `InputBuilder` (`matrixstamper.py` 246-266). `inputs` is the list of distinct inputs in column order, `args` one list
of argument values per input (python stores the transposed table), `iter` the stored iteration number. -/
structure InputBuilder where
  params : List Sym
  txIdx : Option ℕ
  opt : Bool
  inputs : List Input
  args : List (List ℝ)
  iter : ℤ

/-- `add_input` on the list of inputs (`matrixstamper.py` 268-273): returns the list and the column. -/
noncomputable def addTo (i : Input) (l : List Input) : List Input × ℕ :=
  if i ∈ l then (l, l.idxOf i) else (l ++ [i], l.length)

/-- Initial argument values of one column (`matrixstamper.py` 278, 286-302). Simplified: in plain mode a multiplier
with an index would get NaN (line 301); equations of plain mode contain no multiplier, so it is never read. -/
def Input.initial (i : Input) : List ℝ :=
  i.consts ++ i.primalIdx.map (fun _ => 0) ++ i.dualIdx.map (fun _ => 0)

/-- The positions refreshed from the operating point: `input_fills` (`matrixstamper.py` 291-302). -/
def Input.fills (opt : Bool) (i : Input) : List Idx :=
  i.consts.map (fun _ => none) ++ i.primalIdx ++ i.dualIdx.map (fun k => if opt then k else none)

/-- `freeze_inputs` (`matrixstamper.py` 275-307); the error is the raised "Length mismatch". -/
def InputBuilder.freeze (b : InputBuilder) : Except String InputBuilder :=
  if b.inputs.all fun i => i.initial.length = b.params.length then
    .ok { b with args := b.inputs.map Input.initial }
  else .error "Length mismatch in parameter inputs for stamp"

/-- Overwrite one argument (`matrixstamper.py` 313-314). -/
def fill1 (v : ℕ → ℝ) (k : Idx) (a : ℝ) : ℝ :=
  match k with
  | none => a
  | some j => v j

/-- `update_vprev` (`matrixstamper.py` 309-316): returns at once when the iteration number is the stored one. -/
def InputBuilder.updateV (v : ℕ → ℝ) (it : ℤ) (b : InputBuilder) : InputBuilder :=
  if it = b.iter then b
  else { b with
    args := List.zipWith (fun i col => List.zipWith (fill1 v) (i.fills b.opt) col) b.inputs b.args
    iter := it }

/-- `update_txfactor` (`matrixstamper.py` 318-320). -/
def InputBuilder.updateTx (t : ℝ) (b : InputBuilder) : InputBuilder :=
  match b.txIdx with
  | none => b
  | some k => { b with args := b.args.map fun col => col.set k t }

/-- The arguments of a `lambdify`d function as an environment: parameter `s` is the argument at its position
(`lagrangesegment.py` 103-108, `matrixstamper.py` 346, 372). -/
def argEnv (params : List Sym) (col : List ℝ) : Env := fun s => col.getD (params.idxOf s) 0

/-- `output_v[output_idx]` (`matrixstamper.py` 346, 352, 355, 372, 377). -/
noncomputable def InputBuilder.output (b : InputBuilder) (e : Ex) (out : ℕ) : ℝ :=
  eval (argEnv b.params (b.args.getD out [])) e

/-! ### `MatrixStamper` -/

/-- `StampSet` (`matrixstamper.py` 326-341): expression and `(stamp, output_index)` list; `params` names its input
builder. -/
structure StampSet where
  expr : StampExpr
  items : List (Stamp × ℕ)

/-- `ResidualSet` (`matrixstamper.py` 357-367); `builderKey` is the parameters key of the stale loop variable `stamp`
(line 414). -/
structure ResidualSet where
  seg : Segment
  firstOrder : Sym
  builderKey : List Sym
  items : List (Residual × ℕ)

/-- `MatrixStamper` (`matrixstamper.py` 379-435). -/
structure Stamper where
  builders : List InputBuilder
  stampSets : List StampSet
  residualSets : List ResidualSet

/-- Create the builder on first use, then `add_input` (`matrixstamper.py` 399-400, 268-273). -/
noncomputable def addInput (params : List Sym) (tx : Option ℕ) (opt : Bool) (i : Input) :
    List InputBuilder → List InputBuilder × ℕ
  | [] => ([⟨params, tx, opt, [i], [], -1⟩], 0)
  | b :: bs =>
    if b.params = params then ({ b with inputs := (addTo i b.inputs).1 } :: bs, (addTo i b.inputs).2)
    else (b :: (addInput params tx opt i bs).1, (addInput params tx opt i bs).2)

/-- Append to the set of the expression, creating it on first use (`matrixstamper.py` 402-405). -/
noncomputable def addStampItem (s : Stamp) (out : ℕ) : List StampSet → List StampSet
  | [] => [⟨s.expr, [(s, out)]⟩]
  | t :: ts => if t.expr = s.expr then { t with items := t.items ++ [(s, out)] } :: ts
               else t :: addStampItem s out ts

/-- One pass of the stamp loop (`matrixstamper.py` 398-405). -/
noncomputable def Stamper.addStamp (opt : Bool) (m : Stamper) (s : Stamp) : Stamper :=
  let r := addInput s.expr.seg.parameters s.expr.seg.txFactorIndex opt s.input m.builders
  { m with builders := r.1, stampSets := addStampItem s r.2 m.stampSets }

/-- Add an input to an existing builder (`matrixstamper.py` 366); a missing builder would be a KeyError. -/
noncomputable def addInputExisting (params : List Sym) (i : Input) : List InputBuilder → List InputBuilder × ℕ
  | [] => ([], 0)
  | b :: bs =>
    if b.params = params then ({ b with inputs := (addTo i b.inputs).1 } :: bs, (addTo i b.inputs).2)
    else (b :: (addInputExisting params i bs).1, (addInputExisting params i bs).2)

/-- Find the residual set, or create it with the builder of the stale `stamp` (`matrixstamper.py` 408-417). Returns the
builder key actually used. -/
noncomputable def residualKey (r : Residual) (stale : List Sym) : List ResidualSet → List Sym
  | [] => stale
  | t :: ts => if t.seg = r.seg ∧ t.firstOrder = r.firstOrder then t.builderKey else residualKey r stale ts

/-- Append to the residual set (`matrixstamper.py` 408-417, 365-367). -/
noncomputable def addResidualItem (r : Residual) (stale : List Sym) (out : ℕ) : List ResidualSet → List ResidualSet
  | [] => [⟨r.seg, r.firstOrder, stale, [(r, out)]⟩]
  | t :: ts => if t.seg = r.seg ∧ t.firstOrder = r.firstOrder then { t with items := t.items ++ [(r, out)] } :: ts
               else t :: addResidualItem r stale out ts

/-- One pass of the residual loop (`matrixstamper.py` 407-417). -/
noncomputable def Stamper.addResidual (stale : List Sym) (m : Stamper) (r : Residual) : Stamper :=
  let key := residualKey r stale m.residualSets
  let a := addInputExisting key r.input m.builders
  { m with builders := a.1, residualSets := addResidualItem r stale a.2 m.residualSets }

/-- The `parameters_key` of the loop variable `stamp` after the stamp loop (`matrixstamper.py` 398, 414): the last stamp
of this collection, or the one left over from before. -/
def staleKey (prev : List Sym) (stamps : List Stamp) : List Sym :=
  match stamps.getLast? with
  | none => prev
  | some s => s.expr.seg.parameters

/-- One stamp collection (`matrixstamper.py` 397-417); carries the stale key along. -/
noncomputable def Stamper.addCollection (opt : Bool) (mk : Stamper × List Sym) (p : Placed) : Stamper × List Sym :=
  let key := staleKey mk.2 p.stamps
  (p.residuals.foldl (Stamper.addResidual key) (p.stamps.foldl (Stamper.addStamp opt) mk.1), key)

/-- The constructor before freezing (`matrixstamper.py` 388-417). -/
noncomputable def Stamper.collect (opt : Bool) (ps : List Placed) : Stamper :=
  (ps.foldl (Stamper.addCollection opt) (⟨[], [], []⟩, [])).1

/-- `MatrixStamper.__init__` (`matrixstamper.py` 380-435). -/
noncomputable def Stamper.build (opt : Bool) (ps : List Placed) : Except String Stamper := do
  let m := Stamper.collect opt ps
  let bs ← m.builders.mapM InputBuilder.freeze
  pure { m with builders := bs }

/-- The builder with the given key (`matrixstamper.py` 403, 414). -/
def Stamper.builder (m : Stamper) (params : List Sym) : Option InputBuilder := m.builders.find? fun b => b.params = params

/-- The value the set's expression gives for one of its stamps (`matrixstamper.py` 343-355). -/
noncomputable def Stamper.value (m : Stamper) (params : List Sym) (e : Ex) (out : ℕ) : ℝ :=
  match m.builder params with
  | some b => b.output e out
  | none => 0

/-- Everything the sets with the given linearity flag emit: `(row, column or J, value)` in stamping order
(`matrixstamper.py` 428-432, 441-442, 448-449, 350-355). -/
noncomputable def Stamper.emit (m : Stamper) (lin : Bool) : List (ℕ × Option ℕ × ℝ) :=
  (m.stampSets.filter fun s => s.expr.entry.isLinear = lin).flatMap fun s =>
    s.items.map fun it => (it.1.row, it.1.col, m.value s.expr.seg.parameters s.expr.entry.expr it.2)

/-- The triples that go to the matrix (`matrixstamper.py` 353-355). -/
def tripsOf (l : List (ℕ × Option ℕ × ℝ)) : List Trip := l.filterMap fun e => e.2.1.map fun c => ⟨e.1, c, e.2.2⟩

/-- What is added to `J` (`matrixstamper.py` 350-352). -/
def jOf (l : List (ℕ × Option ℕ × ℝ)) (i : ℕ) : ℝ :=
  ((l.filter fun e => e.1 = i ∧ e.2.1 = none).map fun e => e.2.2).sum

/-- `update_txfactor` on all builders (`matrixstamper.py` 438-439, 455-456). -/
def Stamper.updateTx (t : ℝ) (m : Stamper) : Stamper := { m with builders := m.builders.map (InputBuilder.updateTx t) }

/-- `update_vprev` on all builders (`matrixstamper.py` 445-446, 452-453). -/
def Stamper.updateV (v : ℕ → ℝ) (it : ℤ) (m : Stamper) : Stamper :=
  { m with builders := m.builders.map (InputBuilder.updateV v it) }

/-- `residual_contributions` of `calc_residuals` after the updates (`matrixstamper.py` 458-460, 369-377). -/
noncomputable def Stamper.contributions (m : Stamper) : List (ℕ × ℝ) :=
  m.residualSets.flatMap fun s => s.items.map fun it => (it.1.row, m.value s.builderKey (s.seg.derivative s.firstOrder) it.2)

end Verif
