import Verif.Model.Stamper

/-!
# Network equations, stated without stampers

What a list of placed device parts means: each part reads its terminals from the solution vector (ground reads zero) and
contributes its equations to the rows it was given.
-/

namespace Verif

open Ex

/-- Ground reads zero, an unknown reads its entry. -/
def readIdx (v : ℕ → ℝ) : Idx → ℝ
  | none => 0
  | some k => v k

/-- The variables of a placed part at the solution vector `v`. -/
noncomputable def Placed.point (p : Placed) (v : ℕ → ℝ) : Env := fun s =>
  if s ∈ p.details.seg.vars then readIdx v (p.details.varMap s) else 0

/-- The part of the placed part. -/
def Placed.part (p : Placed) : Part := ⟨p.details.seg, p.consts⟩

/-- Everything a placed part's equations are evaluated at. -/
noncomputable def Placed.env (p : Placed) (t : ℝ) (v : ℕ → ℝ) : Env := p.part.env t (p.point v)

/-- The equations of a placed part: `(row, value)` pairs, ground rows omitted. -/
noncomputable def Placed.equations (p : Placed) (t : ℝ) (v : ℕ → ℝ) : List (ℕ × ℝ) :=
  p.details.firstOrder.filterMap fun x => (p.details.row x).map fun r => (r, eval (p.env t v) (p.details.seg.derivative x))

/-- Sum of the values given for row `i`. -/
def rowTotal (l : List (ℕ × ℝ)) (i : ℕ) : ℝ := ((l.filter fun e => e.1 = i).map Prod.snd).sum

/-- The network equation of row `i`: the sum of all contributions. -/
noncomputable def networkEq (ps : List Placed) (t : ℝ) (v : ℕ → ℝ) (i : ℕ) : ℝ :=
  rowTotal (ps.flatMap fun p => p.equations t v) i

/-- What all stamps of the given linearity contribute when each is evaluated at its own part's arguments. -/
noncomputable def Placed.emitted (p : Placed) (t : ℝ) (v : ℕ → ℝ) (lin : Bool) : List (ℕ × Option ℕ × ℝ) :=
  (p.stamps.filter fun s => s.expr.entry.isLinear = lin).map fun s => (s.row, s.col, eval (p.env t v) s.expr.entry.expr)

/-- The constants given match the declared ones and, in plain mode, multipliers have no index. -/
structure Placed.WellPlaced (p : Placed) (opt : Bool) : Prop where
  mode : p.details.opt = opt
  consts : p.consts.length = p.details.seg.constants.length
  plain : opt = false → ∀ d ∈ p.details.seg.duals, p.details.varMap d = none
  params : p.details.seg.parameters.Nodup
  tx : Sym.txFactor ∉ p.details.seg.vars
  /-- a part with equations in the system has a stamp in it -/
  stamped : p.residuals ≠ [] → p.stamps ≠ []

end Verif
