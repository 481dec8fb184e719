import Verif.Model.Expr

/-!
# Lagrangian segments

Model of `LagrangeSegment`, `TwoTerminalModelDefinition` and `check_missing_symbols`
(`/repo/src/logic/stamping/lagrangesegment.py` 130-299).
-/

namespace Verif

open Ex

/-- `LagrangeSegment` (`lagrangesegment.py` 133-151). The cache key, pickling and memoisation are not part of
this structure. -/
structure Segment where
  lagrange : Ex
  constants : List Sym
  primals : List Sym
  duals : List Sym

namespace Segment

/-- `self.vars = self.primals + self.duals` (`lagrangesegment.py` 144). -/
def vars (s : Segment) : List Sym := s.primals ++ s.duals

/-- `self.parameters = self.constants + self.vars` (`lagrangesegment.py` 146). -/
def parameters (s : Segment) : List Sym := s.constants ++ s.vars

/-- `self.tx_factor_index` (`lagrangesegment.py` 150-153); `none` is SKIP. -/
def txFactorIndex (s : Segment) : Option ℕ :=
  if Sym.txFactor ∈ s.constants then some (s.constants.idxOf Sym.txFactor) else none

/-- `get_duals_corresponding_primal` (`lagrangesegment.py` 158-166): the primal at the dual's position;
`none` is the IndexError / KeyError. -/
def dualPrimal (s : Segment) (d : Sym) : Option Sym :=
  if d ∈ s.duals then s.primals[s.duals.idxOf d]? else none

/-- `diff(self.lagrange, first_order)` (`lagrangesegment.py` 186): the residual expression of an equation row. -/
def derivative (s : Segment) (x : Sym) : Ex := diff x s.lagrange

/-- `split_expr(derivative, self.vars)` (`lagrangesegment.py` 188). -/
def split (s : Segment) (x : Sym) : Split := splitExpr s.vars (s.derivative x)

/-- `DerivativeEntry(...).get_evals()` for one first-order variable (`lagrangesegment.py` 190, 110-125). -/
def entries (s : Segment) (x : Sym) : List Entry := evals s.vars (s.split x)

end Segment

/-- `expr.free_symbols` as a list (`lagrangesegment.py` 297). -/
def Ex.syms : Ex → List Sym
  | .num _ => []
  | .sym s => [s]
  | .add a b => a.syms ++ b.syms
  | .mul a b => a.syms ++ b.syms
  | .pow a _ => a.syms
  | .sin a => a.syms
  | .cos a => a.syms

/-- `check_missing_symbols` (`lagrangesegment.py` 296-299): `none` means no exception, `some s` names the
first undeclared symbol. -/
def checkMissing (declared : List Sym) (e : Ex) : Option Sym := e.syms.find? fun s => !(declared.contains s)

/-- Arguments of `TwoTerminalModelDefinition.__init__` (`lagrangesegment.py` 217-227). -/
structure TwoTerminalArgs where
  vars : List Sym
  constants : List Sym
  kclRFrom : Option Ex
  kclIFrom : Option Ex
  kclRTo : Option Ex := none
  kclITo : Option Ex := none
  equalities : List Ex := []
  objective : Option Ex := none

/-- The two to-side equations (`lagrangesegment.py` 234-239): the given ones if both are given, otherwise the
from-side ones. -/
def TwoTerminalArgs.toSide (a : TwoTerminalArgs) (kr ki : Ex) : Ex × Ex :=
  match a.kclRTo, a.kclITo with
  | some r, some i => (r, i)
  | _, _ => (kr, ki)

/-- The sum over the equality constraints (`lagrangesegment.py` 267-271), numbering the multipliers from `n`
(the global counter `_lambda_ids`, line 214). -/
def addEqualities : ℕ → Ex → List Ex → Ex
  | _, acc, [] => acc
  | n, acc, e :: es => addEqualities (n + 1) (acc + Ex.sym (.lam n) * e) es

/-- Names of the equality multipliers (`lagrangesegment.py` 269-270). -/
def equalityDuals (n : ℕ) (es : List Ex) : List Sym := (List.range es.length).map fun k => .lam (n + k)

/-- The Lagrangian built by `TwoTerminalModelDefinition.__init__` (`lagrangesegment.py` 246, 249-271).
`lagrange = 0` plus the objective, when given, is the start of the sum. -/
def twoTerminalLagrange (obj : Option Ex) (kr ki krTo kiTo : Ex) (n : ℕ) (eqs : List Ex) : Ex :=
  let start : Ex := match obj with
    | some o => Ex.num 0 + o
    | none => Ex.num 0
  addEqualities n
    (start + Ex.sym .LrFrom * kr + Ex.sym .LiFrom * ki + Ex.sym .LrTo * (-krTo) + Ex.sym .LiTo * (-kiTo)) eqs

/-- `TwoTerminalModelDefinition.__init__` (`lagrangesegment.py` 216-273). The second check of the from-side
pair tests `kcl_r_from` again (line 256), exactly as in the code. `n` is the current value of `_lambda_ids`.
Exceptions are `Except.error`. -/
def twoTerminal (n : ℕ) (a : TwoTerminalArgs) : Except String Segment :=
  match a.kclRFrom, a.kclIFrom with
  | some kr, some ki =>
    let to' := a.toSide kr ki
    let declared := a.constants ++ a.vars
    let checked : List Ex := (a.objective.toList) ++ [kr, kr, to'.1, to'.2] ++ a.equalities
    if checked.any (fun e => (checkMissing declared e).isSome) then
      .error "symbol was not supplied as a variable or constant"
    else
      let duals := [.LrFrom, .LiFrom, .LrTo, .LiTo] ++ equalityDuals n a.equalities
      if a.vars.length < duals.length then .error "IndexError: tuple index out of range"
      else .ok { lagrange := twoTerminalLagrange a.objective kr ki to'.1 to'.2 n a.equalities
                 constants := a.constants
                 primals := a.vars
                 duals := duals }
  | _, _ => .error "KCL real/imginary must be supplied"

end Verif
