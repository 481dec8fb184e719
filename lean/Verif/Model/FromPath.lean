import Verif.Model.GlmInclude
import Verif.Model.GlmExecute
import Verif.Model.RawText
import Verif.Model.Execute
import Verif.Model.LineReader

/-!
# From a path to the results

`/repo/src/logic/network/networkloader.py` 41-82 and `/repo/src/run_solver.py` 52-66, 92 put together from the parts modelled elsewhere.
-/

namespace Verif

/-- `__parse_GLM_network` (`networkloader.py` 55-59): `ThreePhaseParser(network_file, …).parse()` (`threephaseparser.py` 29-69). The parser opens the file again, under its absolute path
(`threephaseparser.py` 30); here both paths name the same file. All exceptions of the reader and the builder are one. -/
noncomputable def feederFrom (disk : Disk) (W : Glm.World) (path : Txt) : Except String (Glm.Grid Glm.LineData × DxNet) :=
  match Glm.readFile disk W path with
  | .error _ => .error "exception"
  | .ok (objs, schedules) => match Glm.parseGrid Glm.lineReader objs schedules with
    | .error _ => .error "exception"
    | .ok g => match g.network Glm.lineMade with
      | .error _ => .error "exception"
      | .ok D => .ok (g, D)

/-- `__parse_RAW_network` (`networkloader.py` 61-82). The names of the buses, which are not among the fields modelled, are given. All exceptions of the reader are one. -/
noncomputable def caseFrom (disk : Disk) (name : ℤ → Txt) (path : Txt) : Except String PFNet :=
  match disk path with
  | none => .error "exception"
  | some t => match Raw.readText t with
    | .error _ => .error "exception"
    | .ok f => match f.toCase with
      | .error _ => .error "exception"
      | .ok c => match Raw.parseRaw c with
        | .error _ => .error "exception"
        | .ok o => .ok (c.grid name o)

/-- `NetworkLoader(settings).from_file(case)` (`networkloader.py` 41-53, `run_solver.py` 62). -/
noncomputable def networkFrom (disk : Disk) (web : Web) (tmp : Txt) (W : Glm.World) (name : ℤ → Txt) (uri : Txt) : Except String PFNet :=
  match pullFile disk web tmp uri with
  | (.error e, _) => .error e
  | (.ok p, d) => match readerFor p with
    | .error e => .error e
    | .ok .glm => match feederFrom d W p with
      | .error e => .error e
      | .ok (g, D) => .ok (g.pf D)
    | .ok .raw => caseFrom d name p

/-- The settings `main` makes (`run_solver.py` 52-60, `powerflowsettings.py` 2-14). -/
noncomputable def mainSettings (debug txStepping : Bool) : PFSettings := ⟨1 / 100000, 50, false, debug, false, txStepping, true⟩

/-- `modify_load_factor(network, load_factor, load_factor)` (`run_solver.py` 67, `loadfactor.py` 3-6). -/
noncomputable def PFNet.factor (s : ℝ) (G : PFNet) : PFNet := { G with net := G.net.factor s s }

/-- `main` without `--infeasibility` and without the options of the time series, up to the results (`run_solver.py` 52-92). What networkx and `spsolve` return depends on the
network. The time series processor, which without its options returns `None` or raises an exception that is caught (`timeseriesprocessor.py` 236-244, see
`Model/CommandLine.lean`), and the displays are left out. -/
noncomputable def resultsFrom (L : Library) (disk : Disk) (web : Web) (tmp : Txt) (W : Glm.World) (name : ℤ → Txt) (debug txStepping : Bool) (s : ℝ)
    (solve : PFNet → (ℕ → ℕ → ℝ) → (ℕ → ℝ) → Option (ℕ → ℝ)) (islands voltageIslands : PFNet → List (List Txt)) (uri : Txt) : Except String Results :=
  match networkFrom disk web tmp W name uri with
  | .error e => .error e
  | .ok G => match execute L (mainSettings debug txStepping) (solve (G.factor s)) (islands (G.factor s)) (voltageIslands (G.factor s)) (G.factor s) with
    | .error e => .error e
    | .ok (R, _) => .ok R

end Verif
