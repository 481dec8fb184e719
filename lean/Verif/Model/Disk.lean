import Verif.Model.CommandLine

/-!
# What a run leaves on the disk

`PowerFlowResults.output` (`/repo/src/logic/powerflowresults.py` 249-283) as it changes the disk, for all the results a run writes.
-/

namespace Verif

/-- The files on a disk: the text of the file at a path (`powerflowresults.py` 253-254). Directories are left out, since missing ones are made (lines 256, 270), and two
paths are the same file only if they are the same text. -/
abbrev OutDisk := Txt → Option Txt

/-- `open(path, "w+")` and writing a text (`powerflowresults.py` 258-268, 272-283): what was in the file before is gone. -/
def OutDisk.put (d : OutDisk) (path text : Txt) : OutDisk := fun p => if p = path then some text else d p

/-- The text of the two files of a result (`powerflowresults.py` 258-268, 272-283). -/
noncomputable def Results.texts (names : List BusName) (r : Results) : Txt × Txt := (r.voltageText names, r.powerText names)

/-- `output` for a name that is not empty (`powerflowresults.py` 249-283): first the file of the voltages, then that of the powers. -/
def OutDisk.output {R : Type} (texts : R → Txt × Txt) (d : OutDisk) (f : Txt × R) : OutDisk :=
  (d.put (f.1 ++ "_voltage.csv".toList) (texts f.2).1).put (f.1 ++ "_power.csv".toList) (texts f.2).2

/-- The disk after all the files of a run are written, in the order of the run (`timeseriesprocessor.py` 220-221, `run_solver.py` 97). -/
def OutDisk.after {R : Type} (texts : R → Txt × Txt) (d : OutDisk) (files : List (Txt × R)) : OutDisk := files.foldl (OutDisk.output texts) d

end Verif
