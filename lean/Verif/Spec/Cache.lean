import Verif.Props.Stamps
import Verif.Model.Cache

/-!
# What derivatives of a segment are, independently of how they are computed or stored
-/

namespace Verif

open Ex

/-- `d` are the derivatives of the segment `s`: one row per variable, in order; the expression of a row is the partial derivative of the
Lagrangian, and its entries are the Newton linearisation of that expression. -/
structure IsDerivatives (s : Segment) (d : Derivs) : Prop where
  rows : d.map Prod.fst = s.primals ++ s.duals
  slope : ∀ r ∈ d, ∀ v : Env, Defined v s.lagrange →
    HasDerivAt (fun t => eval (Function.update v r.1 t) s.lagrange) (eval v r.2.1) (v r.1)
  newton : ∀ r ∈ d, ∀ v : Env, (s.primals ++ s.duals).Nodup → Defined v r.2.1 → TrigFree (s.primals ++ s.duals) r.2.1 →
    IsNewtonRow (s.primals ++ s.duals) (fun w => eval w r.2.1) v (fun x => entrySum v r.2.2 (some x)) (entrySum v r.2.2 none)

/-- What is known of a machine: which segments were ever handed to the cache there, under which value of `VERSION`. -/
abbrev KnownSegments := ℕ → Segment → Prop

/-- No two keys used on the machine share the first ten digits of their hash. -/
def NoCollision (pr : Ex → Txt) (sha : Txt → HexDigits) (K : KnownSegments) : Prop :=
  ∀ v s v' s', K v s → K v' s' → (sha (lagrangeKey pr v s)).take 10 = (sha (lagrangeKey pr v' s')).take 10 →
    lagrangeKey pr v s = lagrangeKey pr v' s'

/-- The printed forms of two Lagrangians used on the machine are equal only if the Lagrangians are. -/
def Faithful (pr : Ex → Txt) (K : KnownSegments) : Prop :=
  ∀ v s v' s', K v s → K v' s' → pr s.lagrange = pr s'.lagrange → s.lagrange = s'.lagrange

/-- The directory was filled by runs of the program: a whole file holds what some code, of some version, computed for a segment known on the
machine, and code with the present version number computed the derivatives of that segment. -/
def FilledByRuns (pr : Ex → Txt) (sha : Txt → HexDigits) (version : ℕ) (K : KnownSegments) (dir : CacheDir) : Prop :=
  ∀ f d, dir f = some (.whole d) → ∃ v s, K v s ∧ f = (sha (lagrangeKey pr v s)).take 10 ∧ (v = version → d = generateDerivs s)

end Verif
