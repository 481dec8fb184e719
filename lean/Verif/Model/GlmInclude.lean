import Verif.Model.Glm
import Verif.Model.Loader

/-!
# The files a GridLAB-D feeder is read from

`/repo/src/ditto/readers/gridlabd/read.py` 80-90: the file itself and the files it includes.
-/

namespace Verif.Glm

/-- The loop of `readlines` on a file opened as text (`read.py` 80-81, 87-88): `\n`, `\r\n` and `\r` end a row. The end of a row is not kept here; in the code it is
taken off by `strip` (line 92) and `split` (line 85). `w` is the row read so far. -/
def fileRowsAux : Txt → Txt → List Txt
  | w, [] => if w.isEmpty then [] else [w]
  | w, [c] => if c = '\n' ∨ c = '\r' then [w] else [w ++ [c]]
  | w, c :: d :: cs =>
    if c = '\r' ∧ d = '\n' then w :: fileRowsAux [] cs
    else if c = '\n' ∨ c = '\r' then w :: fileRowsAux [] (d :: cs)
    else fileRowsAux (w ++ [c]) (d :: cs)

/-- `inputfile.readlines()` (`read.py` 81, 88). -/
def fileRows (t : Txt) : List Txt := fileRowsAux [] t

/-- `row[:8] == "#include"` (`read.py` 84). -/
def isInclude (row : Txt) : Bool := row.take 8 = "#include".toList

/-- `row.split()[1].strip('";')` (`read.py` 85-86). -/
def includeLocation (row : Txt) : Py Txt := match split row with
  | _ :: e :: _ => .ok (stripBy (fun c => c = '"' || c = ';') e)
  | _ => .error .index

/-- `open(location, "r").readlines()` (`read.py` 80-81, 87-88); a `FileNotFoundError` is `raised`. Locations are looked up as they are written. -/
def openRows (disk : Disk) (location : Txt) : Py (List Txt) := match disk location with
  | some t => .ok (fileRows t)
  | none => .error .raised

/-- The rows of the included files, one after another (`read.py` 83-89). Rows of included files are not searched for further files. -/
def includedRows (disk : Disk) : List Txt → Py (List Txt)
  | [] => .ok []
  | r :: rows =>
    if isInclude r then do
      let location ← includeLocation r
      let a ← openRows disk location
      let b ← includedRows disk rows
      .ok (a ++ b)
    else includedRows disk rows

/-- `read_gld_objects_and_schedules` (`read.py` 68-199). -/
def readFile (disk : Disk) (W : World) (path : Txt) : Py (List (Txt × Obj) × List (Txt × Txt)) := do
  let rows ← openRows disk path
  let more ← includedRows disk rows
  readRows W (rows ++ more)

end Verif.Glm
