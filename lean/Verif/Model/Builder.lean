import Mathlib.Data.Real.Basic
import Mathlib.Algebra.BigOperators.Group.List.Basic

/-!
# `MatrixBuilder` (`/repo/src/logic/stamping/matrixbuilder.py`)
-/

namespace Verif

/-- One `(row, column, value)` triple, the parallel lists `_row`, `_col`, `_val` (`matrixbuilder.py` 10-12). -/
structure Trip where
  row : ℕ
  col : ℕ
  val : ℝ

/-- `MatrixBuilder` (`matrixbuilder.py` 8-14). The three parallel lists are one list of triples. -/
structure Builder where
  entries : List Trip
  index : ℕ
  maxIndex : ℕ

namespace Builder

/-- `__init__` (`matrixbuilder.py` 9-14). -/
def empty : Builder := ⟨[], 0, 0⟩

/-- `stamp` (`matrixbuilder.py` 16-39). Rows and columns are naturals and values numbers here, so the debug type checks of
lines 20-26 never fire. -/
noncomputable def stamp (b : Builder) (t : Trip) : Builder :=
  if t.val = 0 then b
  else if b.index = b.maxIndex then
    { entries := b.entries ++ [t], index := b.index + 1, maxIndex := b.maxIndex + 1 }
  else { b with entries := b.entries.set b.index t, index := b.index + 1 }

/-- A sequence of `stamp` calls (`matrixstamper.py` 354-355). -/
noncomputable def stamps (b : Builder) (ts : List Trip) : Builder := ts.foldl stamp b

/-- `clear` (`matrixbuilder.py` 41-42). -/
def clear (b : Builder) (retain : ℕ) : Builder := { b with index := retain }

/-- `get_usage` (`matrixbuilder.py` 90-91). -/
def usage (b : Builder) : ℕ := b.index

/-- `csc_matrix((val, (row, col)))` adds up duplicate positions (`matrixbuilder.py` 48). -/
def matOf (ts : List Trip) (i j : ℕ) : ℝ := ((ts.filter fun t => t.row = i ∧ t.col = j).map Trip.val).sum

/-- `to_matrix` (`matrixbuilder.py` 44-48). -/
def toMatrix (debug : Bool) (b : Builder) : Except String (ℕ → ℕ → ℝ) :=
  if debug ∧ b.maxIndex ≠ b.index then .error "Solver was not fully utilized. Garbage data remains"
  else .ok (matOf b.entries)

/-- `get_row` (`matrixbuilder.py` 50-54): only the entries below `_index`. -/
def getRow (b : Builder) (r : ℕ) : List (ℕ × ℝ) :=
  ((b.entries.take b.index).filter fun t => t.row = r).map fun t => (t.col, t.val)

/-- One call on a builder (the calls of `nrsolver.py` 27-43, 84 on `MatrixBuilder`, `matrixbuilder.py` 16-48). -/
inductive Op
  | stamp (t : Trip)
  | clear (retain : ℕ)

/-- Effect of a call (`matrixbuilder.py` 16-48). -/
noncomputable def apply (b : Builder) : Op → Builder
  | .stamp t => b.stamp t
  | .clear r => b.clear r

/-- Effect of a history of calls on a fresh builder (`matrixbuilder.py` 7-48). -/
noncomputable def run (ops : List Op) : Builder := ops.foldl apply empty

/-- The builder work of one Newton iteration: stamp, read the matrix, clear down to the linear stamps
(`nrsolver.py` 39, 43, 84). -/
noncomputable def newtonRound (linIdx : ℕ) (b : Builder) (ts : List Trip) : Builder := (b.clear linIdx).stamps ts

/-- The builder after the linear stamps and the given iterations, at the moment `to_matrix` is called for the last of
them (`nrsolver.py` 27-43, 84). -/
noncomputable def newton (lin : List Trip) (its : List (List Trip)) : Builder :=
  its.foldl (newtonRound (empty.stamps lin).usage) (empty.stamps lin)

end Builder
end Verif
