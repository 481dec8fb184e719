import Verif.Model.Builder

/-!
# Other views of a `MatrixBuilder` (`/repo/src/logic/stamping/matrixbuilder.py` 50-68)
-/

namespace Verif.Builder

/-- `get_col` (`matrixbuilder.py` 56-60): only the entries below `_index`. -/
def getCol (b : Builder) (c : ℕ) : List (ℕ × ℝ) :=
  ((b.entries.take b.index).filter fun t => t.col = c).map fun t => (t.row, t.val)

/-- `rows[row][col] += value` (`matrixbuilder.py` 67). -/
noncomputable def symAdd (rows : List (List ℝ)) (t : Trip) : List (List ℝ) := rows.modify t.row fun r => r.modify t.col (· + t.val)

/-- `max(l) + 1` (`matrixbuilder.py` 64-65) for a list that is not empty. -/
def maxSucc (l : List ℕ) : ℕ := l.foldr (fun a m => max (a + 1) m) 0

/-- `to_symbolic_matrix` (`matrixbuilder.py` 62-68): the rows handed to sympy. All entries are added, also those above `_index`; `max` of an empty list raises. Numbers stand for
the symbolic values. -/
noncomputable def toSymbolic (b : Builder) : Except String (List (List ℝ)) :=
  if b.entries.isEmpty then .error "max() arg is an empty sequence"
  else .ok (b.entries.foldl symAdd (List.replicate (maxSucc (b.entries.map Trip.row)) (List.replicate (maxSucc (b.entries.map Trip.col)) 0)))

end Verif.Builder
