import Verif.Spec.Kirchhoff
import Verif.Spec.Network

/-!
# What optimization mode should solve

The textbook problem: minimise a function of the infeasibility currents subject to the equations of the same network
without optimization, each balance with the infeasibility current of its bus added. Its Lagrangian is written here from
the plain network's own equations, one multiplier per equation.
-/

namespace Verif

/-- Line matrices are symmetric; every other element is. -/
def Element.Reciprocal : Element → Prop
  | .unbalanced ph y sh => ∀ i j, i < ph.length → j < ph.length → y i j = y j i ∧ sh i j = sh j i
  | _ => True

/-- The network without infeasibility analysis. -/
def Network.plain (N : Network) : Network := { N with optimization := none }

/-- Numbers of own unknowns of the parts of an element. -/
def Element.blocks : Element → List ℕ
  | .transformer .. => [4]
  | .centerTap .. => [4]
  | .slack .. => [2]
  | .switch _ _ s => match s with
    | .opened => []
    | .closed => [2]
  | .generator .. => [1]
  | .voltageSource .. => [2]
  | .regulator .. => [4, 2]
  | .fuse .. => [2]
  | _ => []

/-- Unknowns per bus and per part. -/
def Network.blocks (N : Network) : List ℕ := List.replicate N.buses 2 ++ N.elements.flatMap Element.blocks

/-- Blocks of unknowns, each followed by the block of its multipliers: where unknown number `r` and the multiplier of
equation number `r` are. Beyond the blocks the pairs continue one by one. -/
def twinOf : ℕ → List ℕ → ℕ → ℕ × ℕ
  | n, [], r => (n + 2 * r, n + 2 * r + 1)
  | n, m :: ms, r => if r < m then (n + r, n + m + r) else twinOf (n + 2 * m) ms (r - m)

/-- Where unknown `r` of the plain network and the multiplier of its equation `r` are in optimization mode. -/
def Network.twin (N : Network) : ℕ → ℕ × ℕ := twinOf 0 N.blocks

/-- The plain network's unknowns read from the optimization mode's. -/
def Network.primal (N : Network) (v : ℕ → ℝ) : ℕ → ℝ := fun r => v (N.twin r).1

/-- The multipliers of the plain network's equations. -/
def Network.multiplier (N : Network) (v : ℕ → ℝ) : ℕ → ℝ := fun r => v (N.twin r).2

/-- Number of plain unknowns. -/
def Network.unknowns (N : Network) : ℕ := N.blocks.sum

/-- Objective and multiplier terms of the infeasibility currents of bus `k`: for `L2` one complex current `I`, cost `|I|²`, added
to the balance; for `L1` two nonnegative ones `a`, `b`, cost `a + b` and, since the bound multipliers share the indices of the
currents, `a² + b²`, and `b - a` added to the balance. `base` is the index of the first current. -/
def infTerm (o : OptKind) (base k : ℕ) (lam : ℕ → ℝ) (v : ℕ → ℝ) : ℝ :=
  match o with
  | .L2 => v (base + 2 * k) ^ 2 + v (base + 2 * k + 1) ^ 2 + v (base + 2 * k) * lam (2 * k) + v (base + 2 * k + 1) * lam (2 * k + 1)
  | .L1 =>
    let ar := v (base + 4 * k)
    let ai := v (base + 4 * k + 1)
    let br := v (base + 4 * k + 2)
    let bi := v (base + 4 * k + 3)
    ar + ai + br + bi + (ar ^ 2 + ai ^ 2 + br ^ 2 + bi ^ 2) + (br - ar) * lam (2 * k) + (bi - ai) * lam (2 * k + 1)

/-- The infeasibility current added to equation `r` of the plain network: the equations of bus `k` are number `2k` and `2k + 1`, the
others get none. -/
def Network.injection (N : Network) (o : OptKind) (v : ℕ → ℝ) (r : ℕ) : ℝ :=
  if r < 2 * N.buses then
    match o with
    | .L2 => v (2 * N.unknowns + r)
    | .L1 => v (2 * N.unknowns + 4 * (r / 2) + 2 + r % 2) - v (2 * N.unknowns + 4 * (r / 2) + r % 2)
  else 0

/-- `v` solves the assembled equations. -/
def Network.Solved (L : Library) (N : Network) (t : ℝ) (v : ℕ → ℝ) : Prop := ∀ i, networkEq (N.assign L).all t v i = 0

/-- The Lagrangian: multipliers times the equations of the plain network, plus the infeasibility terms of all buses. -/
noncomputable def Network.lagrangian (L : Library) (N : Network) (o : OptKind) (t : ℝ) (v : ℕ → ℝ) : ℝ :=
  ((List.range N.unknowns).map fun r => N.multiplier v r * networkEq (N.plain.assign L).all t (N.primal v) r).sum +
  ((List.range N.buses).map fun k => infTerm o (2 * N.unknowns) k (N.multiplier v) v).sum

/-- The vector with the given plain unknowns, all multipliers and infeasibility currents zero. -/
noncomputable def Network.lift (N : Network) (u : ℕ → ℝ) (i : ℕ) : ℝ :=
  open Classical in if h : ∃ r < N.unknowns, i = (N.twin r).1 then u h.choose else 0

end Verif
