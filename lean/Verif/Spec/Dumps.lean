import Verif.Model.TimeSeries

/-!
# Reading a dump file

How a reader takes a dump file apart: lines end with a carriage return, a line is a name and a value with a colon and a space between.
-/

namespace Verif

/-- The lines of a text, each ended by a carriage return; what follows the last one is not a line. -/
def crLines (t : Txt) : List Txt := go [] t
where
  go : Txt → Txt → List Txt
    | _, [] => []
    | w, c :: cs => if c = '\r' then w :: go [] cs else go (w ++ [c]) cs

/-- A line taken apart at its first colon; the space after it is dropped. -/
def entryParts (l : Txt) : Txt × Txt := (l.takeWhile (· ≠ ':'), (l.dropWhile (· ≠ ':')).drop 2)

/-- The entries of a dump file. -/
def readDump (t : Txt) : List (Txt × Txt) := (crLines t).map entryParts

end Verif
