import Mathlib.Data.Real.Basic
import Mathlib.Analysis.SpecialFunctions.Trigonometric.Basic

/-!
# Symbolic expressions

Model of the fragment of sympy used by `/repo/src/logic/stamping/lagrangesegment.py`:
expression trees, `free_symbols`, `atoms(Pow)`, `diff`, `expand`, and the functions
`is_constant`, `is_linear`, `get_linear_term`, `linearize_expr`, `split_expr`.

Simplifications: n-ary `Add`/`Mul` are binary trees; exponents are integers; numbers are rationals
(python floats are exact rationals; rounding is not modelled); the only functions are `sin` and `cos`
(the only ones used in `/repo/src/models`).
-/

namespace Verif

/-- Symbols occurring in the device equations:
`/repo/src/models/wellknownvariables.py` 3-6 and the `symbols(...)` calls of
`/repo/src/models/components/*.py`, `/repo/src/models/optimization/*.py`.
`lam n` is `Symbol(f"lambda_{n}")` from `lagrangesegment.py` 269 and 290.
`other n` stands for any further symbol. -/
inductive Sym
  | txFactor
  | VrFrom | ViFrom | VrTo | ViTo
  | LrFrom | LiFrom | LrTo | LiTo
  | lam (n : ℕ)
  | G | B | P | Q | Vset | IP | IQ
  | Vrset | Viset | ISr | ISi | Ir | Ii | VrSet | ViSet
  | tr | ang
  | VrPriPos | ViPriPos | VrPriNeg | ViPriNeg | IrPrim | IiPrim
  | VrSecPos | ViSecPos | VrSecNeg | ViSecNeg
  | LrPriPos | LiPriPos | LrPriNeg | LiPriNeg | LirPrim | LiiPrim
  | LrSecPos | LiSecPos | LrSecNeg | LiSecNeg
  | VrPri | ViPri | IrL1 | IiL1 | VrL1 | ViL1 | IrL2 | IiL2 | VrL2 | ViL2
  | LrPri | LiPri | LirL1 | LiiL1 | LrL1 | LiL1 | LirL2 | LiiL2 | LrL2 | LiL2
  | Iir | Iii | LVr | LVi
  | IirPlus | IiiPlus | IirMinus | IiiMinus | VrBus | ViBus
  | muVrPlus | muViPlus | muVrMinus | muViMinus
  | other (n : ℕ)
  deriving DecidableEq, Repr

/-- A sympy expression (the argument type of every function in
`/repo/src/logic/stamping/lagrangesegment.py` 10-79). Subtraction and division are encoded, as sympy does,
by `(-1) * e` and `e ** -1`. -/
inductive Ex
  | num (q : ℚ)
  | sym (s : Sym)
  | add (a b : Ex)
  | mul (a b : Ex)
  | pow (a : Ex) (n : ℤ)
  | sin (a : Ex)
  | cos (a : Ex)
  deriving DecidableEq, Repr

namespace Ex

/-! The operators with which the equations of `/repo/src/models/components/*.py` are written (e.g. `line.py` 13-42). -/

instance : Add Ex := ⟨Ex.add⟩
instance : Mul Ex := ⟨Ex.mul⟩
instance : Neg Ex := ⟨fun a => Ex.mul (Ex.num (-1)) a⟩
instance : Sub Ex := ⟨fun a b => Ex.add a (Ex.mul (Ex.num (-1)) b)⟩
instance : Div Ex := ⟨fun a b => Ex.mul a (Ex.pow b (-1))⟩
instance : OfNat Ex n := ⟨Ex.num (n : ℚ)⟩

/-- An assignment of numbers to symbols: the arguments handed to a `lambdify`d function
(`lagrangesegment.py` 103-108). -/
abbrev Env := Sym → ℝ

/-- Numerical value: `lambdify(inputs, expr, "numpy")` applied to the arguments
(`lagrangesegment.py` 103-108). Negative powers of zero get Lean's junk value 0; statements that
depend on it carry the hypothesis `Defined`. -/
noncomputable def eval (env : Env) : Ex → ℝ
  | num q => (q : ℝ)
  | sym s => env s
  | add a b => eval env a + eval env b
  | mul a b => eval env a * eval env b
  | pow a n => eval env a ^ n
  | sin a => Real.sin (eval env a)
  | cos a => Real.cos (eval env a)

/-- The expression has a finite value at `env`: no division by zero happens (numpy would give inf/nan) (where the functions of `lagrangesegment.py` 103-108 are called). -/
def Defined (env : Env) : Ex → Prop
  | num _ => True
  | sym _ => True
  | add a b => Defined env a ∧ Defined env b
  | mul a b => Defined env a ∧ Defined env b
  | pow a n => Defined env a ∧ (0 ≤ n ∨ eval env a ≠ 0)
  | sin a => Defined env a
  | cos a => Defined env a

/-- `s in expr.free_symbols` (`lagrangesegment.py` 11-12, 21-22, 35-36, 114, 120). -/
def has (s : Sym) : Ex → Bool
  | num _ => false
  | sym t => decide (s = t)
  | add a b => has s a || has s b
  | mul a b => has s a || has s b
  | pow a _ => has s a
  | sin a => has s a
  | cos a => has s a

/-- `len(expr.atoms(Pow)) > 0` (`lagrangesegment.py` 25). -/
def hasPow : Ex → Bool
  | num _ => false
  | sym _ => false
  | add a b => hasPow a || hasPow b
  | mul a b => hasPow a || hasPow b
  | pow _ _ => true
  | sin a => hasPow a
  | cos a => hasPow a

/-- Sympy's automatic simplification of `a + b` when one side is the number zero
(needed because `lagrangesegment.py` 107 and 113 test expressions against zero). -/
def sadd (a b : Ex) : Ex :=
  if a = num 0 then b else if b = num 0 then a else add a b

/-- Sympy's automatic simplification of `a * b` with the numbers zero and one (needed because `lagrangesegment.py` 107 and 113 test expressions against zero). -/
def smul (a b : Ex) : Ex :=
  if a = num 0 then num 0 else if b = num 0 then num 0
  else if a = num 1 then b else if b = num 1 then a else mul a b

/-- `sympy.diff(expr, x)` (`lagrangesegment.py` 45, 70, 186). -/
def diff (x : Sym) : Ex → Ex
  | num _ => num 0
  | sym s => if x = s then num 1 else num 0
  | add a b => sadd (diff x a) (diff x b)
  | mul a b => sadd (smul (diff x a) b) (smul a (diff x b))
  | pow a n => smul (smul (num (n : ℚ)) (pow a (n - 1))) (diff x a)
  | sin a => smul (cos a) (diff x a)
  | cos a => smul (smul (num (-1)) (sin a)) (diff x a)

/-- `is_constant(expr, vars)` (`lagrangesegment.py` 10-14). -/
def isConstant (vars : List Sym) (e : Ex) : Bool := vars.all fun x => !e.has x

/-- `is_linear(expr, vars)` (`lagrangesegment.py` 16-28): exactly one of `vars` is a free symbol of the
expression and no power occurs anywhere in it. `vars` is assumed duplicate free (python tuples of distinct
symbols), so counting list entries counts symbols. -/
def isLinear (vars : List Sym) (e : Ex) : Bool :=
  !isConstant vars e && ((vars.filter fun x => e.has x).length == 1) && !e.hasPow

/-- `get_linear_term(expr, vars)` (`lagrangesegment.py` 30-38): the one variable of a linear expression;
`none` is the raised exception. -/
def getLinearTerm (vars : List Sym) (e : Ex) : Option Sym :=
  if isLinear vars e then (vars.filter fun x => e.has x).head? else none

/-- A right-hand side expression and the matrix expressions, keyed by variable: the pair
`(constant_expr, variable_expr_dict)` of `lagrangesegment.py` 54-55, 79. The dictionary is an
association list with at most one entry per key; a missing key is an absent entry. -/
structure Split where
  constant : Ex
  vars : List (Sym × Ex)

/-- `d[key] += value` with `d[key] = 0` when absent (`lagrangesegment.py` 68-70, 75-77). -/
def addEntry (k : Sym) (v : Ex) : List (Sym × Ex) → List (Sym × Ex)
  | [] => [(k, sadd (num 0) v)]
  | (k', v') :: rest => if k' = k then (k', sadd v' v) :: rest else (k', v') :: addEntry k v rest

/-- `kth_sum` of `linearize_expr` (`lagrangesegment.py` 41, 47): `-expr + Σ diff(expr, x) * x`. -/
def kthSum (vars : List Sym) (e : Ex) : Ex :=
  vars.foldl (fun acc x => sadd acc (smul (diff x e) (sym x))) (smul (num (-1)) e)

/-- `Y_components` of `linearize_expr` (`lagrangesegment.py` 42, 45-46). -/
def yComponents (vars : List Sym) (e : Ex) : List (Sym × Ex) :=
  vars.map fun x => (x, diff x e)

/-- Loop body of `split_expr` (`lagrangesegment.py` 62-77). -/
def splitStep (vars : List Sym) (acc : Split) (e : Ex) : Split :=
  if isConstant vars e then
    { acc with constant := sadd acc.constant (smul (num (-1)) e) }
  else match getLinearTerm vars e with
    | some x => { acc with vars := addEntry x (diff x e) acc.vars }
    | none =>
      { constant := sadd acc.constant (kthSum vars e)
        vars := (yComponents vars e).foldl (fun d kv => addEntry kv.1 kv.2 d) acc.vars }

/-- The loop of `split_expr` over the addends of the expanded equation (`lagrangesegment.py` 54-79). -/
def splitTerms (vars : List Sym) (terms : List Ex) : Split :=
  terms.foldl (splitStep vars) { constant := num 0, vars := [] }

/-! ### `sympy.expand` -/

/-- A monomial of an expanded sum: a rational coefficient and powers of distinct bases
(sympy's `Mul.args` after `expand`, `lagrangesegment.py` 52, 58). -/
structure Mono where
  coeff : ℚ
  factors : List (Ex × ℤ)

/-- Multiply one power into a factor list, merging equal bases (sympy's automatic `x**a * x**b = x**(a+b)`) (`lagrangesegment.py` 52). -/
def insertFactor (b : Ex) (k : ℤ) : List (Ex × ℤ) → List (Ex × ℤ)
  | [] => [(b, k)]
  | (b', k') :: rest =>
    if b' = b then (if k' + k = 0 then rest else (b', k' + k) :: rest)
    else (b', k') :: insertFactor b k rest

/-- Product of two monomials (part of `expand`, `lagrangesegment.py` 52). -/
def Mono.mul (m n : Mono) : Mono :=
  { coeff := m.coeff * n.coeff
    factors := n.factors.foldl (fun fs bk => insertFactor bk.1 bk.2 fs) m.factors }

/-- Product of two sums of monomials (distribution) (part of `expand`, `lagrangesegment.py` 52). -/
def mulMonos (ms ns : List Mono) : List Mono :=
  ms.flatMap fun m => ns.map fun n => m.mul n

/-- A natural power of a sum of monomials (part of `expand`, `lagrangesegment.py` 52). -/
def powMonos (ms : List Mono) : ℕ → List Mono
  | 0 => [{ coeff := 1, factors := [] }]
  | n + 1 => mulMonos ms (powMonos ms n)

/-- Back from one power to an expression; exponent one needs no `Pow` (the arguments of `lagrangesegment.py` 58). -/
def factorEx (bk : Ex × ℤ) : Ex := if bk.2 = 1 then bk.1 else pow bk.1 bk.2

/-- Back from a monomial to an expression (the arguments of `lagrangesegment.py` 58). -/
def Mono.toEx (m : Mono) : Ex :=
  m.factors.foldr (fun bk acc => Ex.mul (factorEx bk) acc) (num m.coeff)

/-- A base that `expand` never opens up: a symbol or a function application (`lagrangesegment.py` 52). -/
def isAtomic : Ex → Bool
  | sym _ => true
  | sin _ => true
  | cos _ => true
  | _ => false

/-- The reciprocal power of a sum of monomials: pushed inside a single monomial over atomic bases, otherwise
left as an opaque power of `a` (sympy leaves `1/(x**2 + y**2)` alone) (part of `expand`, `lagrangesegment.py` 52). -/
def negPow (a : Ex) (k : ℤ) : List Mono → Mono
  | [m] => if m.coeff ≠ 0 ∧ (m.factors.all fun bk => isAtomic bk.1) then
             { coeff := m.coeff ^ k, factors := m.factors.map fun bk => (bk.1, bk.2 * k) }
           else { coeff := 1, factors := [(a, k)] }
  | _ => { coeff := 1, factors := [(a, k)] }

/-- `sympy.expand(expr)` as a list of addends (`lagrangesegment.py` 52, 57-60). Products are distributed over
sums, natural powers multiplied out, a negative power of a single monomial is pushed inside, a negative
power of a genuine sum stays an opaque base (as sympy leaves `1/(x**2 + y**2)`); `sin`/`cos` are opaque.
Simplified: equal monomials are not collected and nested reciprocals of sums are not cancelled
(neither changes a value). -/
def expand : Ex → List Mono
  | num q => [{ coeff := q, factors := [] }]
  | sym s => [{ coeff := 1, factors := [(sym s, 1)] }]
  | add a b => expand a ++ expand b
  | mul a b => mulMonos (expand a) (expand b)
  | pow a (Int.ofNat n) => powMonos (expand a) n
  | pow a (Int.negSucc n) => [negPow a (Int.negSucc n) (expand a)]
  | sin a => [{ coeff := 1, factors := [(sin a, 1)] }]
  | cos a => [{ coeff := 1, factors := [(cos a, 1)] }]

/-- The addends of `expand(eqn)` as expressions; monomials with coefficient zero vanish
(`lagrangesegment.py` 52, 57-60). -/
def addends (e : Ex) : List Ex := ((expand e).filter fun m => m.coeff ≠ 0).map Mono.toEx

/-- `split_expr(eqn, vars)` (`lagrangesegment.py` 51-79). -/
def splitExpr (vars : List Sym) (e : Ex) : Split := splitTerms vars (addends e)

/-- Look up the matrix expression of a variable; absent means zero (nothing is stamped) (`lagrangesegment.py` 106-108). -/
def Split.coeff (s : Split) (x : Sym) : Ex :=
  match s.vars.find? (fun kv => kv.1 = x) with
  | some kv => kv.2
  | none => num 0

/-- `EvaluationEntry` (`lagrangesegment.py` 81-87): `col = none` is the constant expression (goes to J),
`col = some x` the matrix column of `x`; `isLinear` marks entries stamped once only. -/
structure Entry where
  col : Option Sym
  expr : Ex
  isLinear : Bool

/-- `not any([(x in free_syms) for x in variables])` (`lagrangesegment.py` 115, 121). -/
def entryLinear (vars : List Sym) (e : Ex) : Bool := isConstant vars e

/-- `DerivativeEntry.evals` (`lagrangesegment.py` 105-122): zero expressions are dropped. -/
def evals (vars : List Sym) (s : Split) : List Entry :=
  (if s.constant = num 0 then [] else [⟨none, s.constant, entryLinear vars s.constant⟩]) ++
  (s.vars.filter (fun kv => kv.2 ≠ num 0)).map fun kv => ⟨some kv.1, kv.2, entryLinear vars kv.2⟩

end Ex
end Verif
