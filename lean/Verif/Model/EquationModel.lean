import Verif.Model.Segment

/-!
# Models given by equations alone (`/repo/src/logic/stamping/lagrangesegment.py` 275-294)
-/

namespace Verif

/-- Arguments of `ModelDefinition.__init__` (`lagrangesegment.py` 278). -/
structure EquationArgs where
  vars : List Sym
  constants : List Sym
  equalities : List Ex := []
  objective : Option Ex := none

/-- `self.check_missing_symbols(…)` (`lagrangesegment.py` 285, 289): the function belongs to the module (296-299), neither `ModelDefinition` nor `LagrangeSegment` (133-195) has an attribute
of this name. The symbols and the equation are not looked at. -/
def checkOnSelf (_declared : List Sym) (_eqn : Ex) : Except String Unit := .error "'ModelDefinition' object has no attribute 'check_missing_symbols'"

/-- The loop over the equalities (`lagrangesegment.py` 288-292): the Lagrangian and the multipliers so far, numbered from `n`. -/
def equationLoop (declared : List Sym) : ℕ → Ex × List Sym → List Ex → Except String (Ex × List Sym)
  | _, acc, [] => .ok acc
  | n, acc, e :: es =>
    match checkOnSelf declared e with
    | .error m => .error m
    | .ok _ => equationLoop declared (n + 1) (acc.1 + Ex.sym (.lam n) * e, acc.2 ++ [.lam n]) es

/-- The objective (`lagrangesegment.py` 282-286). -/
def equationStart (declared : List Sym) : Option Ex → Except String Ex
  | none => .ok (.num 0)
  | some o =>
    match checkOnSelf declared o with
    | .error m => .error m
    | .ok _ => .ok (Ex.num 0 + o)

/-- `ModelDefinition.__init__` (`lagrangesegment.py` 278-294, 137-156). `n` is the value of `_lambda_ids`. -/
def equationModel (n : ℕ) (a : EquationArgs) : Except String Segment :=
  match equationStart (a.constants ++ a.vars) a.objective with
  | .error m => .error m
  | .ok start =>
    match equationLoop (a.constants ++ a.vars) n (start, []) a.equalities with
    | .error m => .error m
    | .ok (l, duals) => if a.vars.length < duals.length then .error "IndexError: tuple index out of range" else .ok ⟨l, a.constants, a.vars, duals⟩

end Verif
