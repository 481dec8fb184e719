import Verif.Model.Report
import Verif.Model.GlmReader

/-!
# The command line

`/repo/src/run_solver.py` 16-97 with `/repo/src/logic/network/timeseriessettings.py` and the constructor and `execute` of
`/repo/src/logic/network/timeseriesprocessor.py` (20-26, 236-244), from the texts of the options on. How `argparse` finds the options among
the words of the command line is not modelled. `--debug`, `--infeasibility` and `--tx_stepping` only reach the power flow, which is a
parameter here; `display` of the network (line 68), which prints counts, is left out.
-/

namespace Verif

/-- The options as `argparse` hands them over, `none` for those not given (`run_solver.py` 20-32). -/
structure Options where
  loadfile : Option Txt
  loadstart : Option Txt
  loadend : Option Txt
  negativeloads : Option (List Txt)
  swing : Option Txt
  outputfile : Option Txt
  verbose : Bool
  loadFactor : Option Txt
  selectIsland : Option Txt

/-- What `main` meets outside of itself: the power flow and what is read of its results (`powerflow.py` 18-54, `timeseriesprocessor.py` 163, 178-206,
231-232), `read_csv` and `os.path.isfile` (`timeseriesprocessor.py` 24, 210), `select_island` (`timeseriesprocessor.py` 28-123) and
`is_three_phase` of the network (`networkmodel.py` 22). -/
structure Surroundings (σ R : Type) where
  solve : σ → List NamedLoad → Except String R × σ
  gens : R → List GenOut
  mark : R → Except String R
  display : R → Bool → Option String
  readCsv : Txt → Except String (List Column)
  isFile : Txt → Bool
  select : Txt → σ → List NamedLoad → Except String Unit × σ × List NamedLoad
  threePhase : Bool

/-- `int(x or 0)` (`timeseriessettings.py` 14-15). -/
def hourOption : Option Txt → Except String ℤ
  | none => .ok 0
  | some t => if t = [] then .ok 0 else match Glm.intOf t with
    | .ok h => .ok h
    | .error _ => .error "invalid literal for int() with base 10"

/-- `float(args.load_factor)` (`run_solver.py` 30, 46). -/
def factorOption : Option Txt → Except String ℚ
  | none => .ok (-1)
  | some t => match Glm.pyFloat t with
    | some x => .ok x
    | none => .error "could not convert string to float"

/-- The truth of `settings.select_island` (`run_solver.py` 32, `timeseriesprocessor.py` 25): `False` if it is not given, otherwise that of a text. -/
def selectOption : Option Txt → Bool
  | none => false
  | some t => t ≠ []

variable {σ R : Type}

/-- `TimeSeriesSettings(…)`, `TimeSeriesProcessor(…)` and the checks at the beginning of `execute` (`run_solver.py` 73-83, `timeseriessettings.py` 13-20,
`timeseriesprocessor.py` 20-26, 210-211, 237-240): the settings as the loops use them or an exception, and the network, from which an island may have
been selected. -/
def prepare (W : Surroundings σ R) (o : Options) (s : σ) (loads : List NamedLoad) : Except String (TSConfig σ R) × σ × List NamedLoad :=
  match hourOption o.loadstart with
  | .error e => (.error e, s, loads)
  | .ok start => match hourOption o.loadend with
    | .error e => (.error e, s, loads)
    | .ok stop =>
      match (match o.loadfile with
        | none => Except.ok none
        | some f => (W.readCsv f).map some) with
      | .error e => (.error e, s, loads)
      | .ok columns =>
        match (match selectOption o.selectIsland, o.swing with
          | true, some sw => W.select sw s loads
          | _, _ => (.ok (), s, loads)) with
        | (.error e, s', loads') => (.error e, s', loads')
        | (.ok _, s', loads') =>
          if W.threePhase = false then (.error "Post-processing options only currently supported for distribution networks", s', loads')
          else if (o.loadfile.any fun f => !W.isFile f) = true then (.error "Load file does not exist.", s', loads')
          else (.ok ⟨W.solve, W.gens, W.mark, columns, start, stop, o.swing, o.negativeloads, o.outputfile⟩, s', loads')

/-- The power flow at the end of `main` (`run_solver.py` 94-97), after the errors printed so far. -/
def plainEnd (W : Surroundings σ R) (o : Options) (errors : List String) (st : TSState σ R) : MainEnd R :=
  match (W.solve st.devices st.loads).1 with
  | .error e => ⟨some e, errors, [], st.files⟩
  | .ok r => match W.display r o.verbose with
    | some e => ⟨some e, errors, [], st.files⟩
    | none => ⟨none, errors, [r], writeFiles o.outputfile r st.files⟩

/-- `main` from the options on (`run_solver.py` 46, 66-97). A load factor that is no number raises before anything else is done. -/
noncomputable def commandRun (W : Surroundings σ R) (o : Options) (fuel : ℕ) (s : σ) (loads : List NamedLoad) : Option (MainEnd R) :=
  match factorOption o.loadFactor with
  | .error e => some ⟨some e, [], [], []⟩
  | .ok f => match prepare W o s (modifyLoadFactor loads f f) with
    | (.error e, s', loads') => some (plainEnd W o [e] ⟨s', loads', [], []⟩)
    | (.ok C, s', loads') => (tsExecute C fuel ⟨s', loads', [], []⟩).map fun x => match x.1 with
      | .error e => plainEnd W o [e] x.2
      | .ok .nothing => plainEnd W o [] x.2
      | .ok (.snapshot r) => match W.display r false with
        | some e => plainEnd W o [e] x.2
        | none => ⟨none, [], [r], x.2.files⟩
      | .ok (.hours l) => match (l.map Prod.snd).findSome? fun r => W.display r false with
        | some e => plainEnd W o [e] x.2
        | none => ⟨none, [], l.map Prod.snd, x.2.files⟩

end Verif
