import Verif.Model.HourlyRun
import Verif.Model.CommandLine
import Verif.Model.Disk

/-!
# The command line on a feeder

`main` (`/repo/src/run_solver.py` 46-97) with the power flow of a feeder that was loaded.
-/

namespace Verif.Glm

variable {M : Type}

/-- What `main` meets for a feeder (`run_solver.py` 64-97): the power flow and the check of the ratings are those of `feederSeries`, the display is that of the results, with
whatever iterations and residuals there were. `read_csv`, `os.path.isfile` and `select_island` are given. -/
noncomputable def feederSurroundings (L : Library) (S : PFSettings) (solver : PFNet → (ℕ → ℕ → ℝ) → (ℕ → ℝ) → Option (ℕ → ℝ)) (islands voltageIslands : PFNet → List (List Txt))
    (mark : Results → Except String Results) (g : Grid M) (names : ℕ → Txt × Txt) (shown : Results → ℕ × ℝ × ℕ) (readCsv : Txt → Except String (List Column)) (isFile : Txt → Bool)
    (select : Txt → DxNet → List NamedLoad → Except String Unit × DxNet × List NamedLoad) : Surroundings DxNet Results where
  solve := (feederSeries L S solver islands voltageIslands mark g names [] 0 0 none none none).solve
  gens := genOuts names
  mark := mark
  display r verbose := (r.display (shown r).1 (shown r).2.1 (shown r).2.2 verbose).2
  readCsv := readCsv
  isFile := isFile
  select := select
  threePhase := true

end Verif.Glm
