import Verif.Model.Stamper

/-!
# What the stamper's argument tables should hold

An independent description of a history of updates: the current vector, homotopy factor and iteration number.
-/

namespace Verif

/-- One update call on all input builders: `update_txfactor` or `update_vprev` (`matrixstamper.py` 309-320). -/
inductive Upd
  | tx (t : ℝ)
  | v (w : ℕ → ℝ) (it : ℤ)

/-- The vector, factor and iteration number the tables are at. -/
structure Clock where
  v : ℕ → ℝ
  t : ℝ
  it : ℤ

/-- A vector update with the iteration number already stored is ignored; anything else is taken over. -/
def Clock.step (c : Clock) : Upd → Clock
  | .tx t => { c with t := t }
  | .v w it => if it = c.it then c else { c with v := w, it := it }

/-- Clock of a history that starts with setting the factor. -/
def Clock.run (t : ℝ) (us : List Upd) : Clock := us.foldl Clock.step ⟨fun _ => 0, t, -1⟩

/-- The stamper under one update. -/
def Stamper.update (m : Stamper) : Upd → Stamper
  | .tx t => m.updateTx t
  | .v w it => m.updateV w it

end Verif
