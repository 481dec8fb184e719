import Verif.Model.Results
import Mathlib.Analysis.SpecialFunctions.Complex.Arg

/-!
# Load factor, time series and swing-bus balancing

`/repo/src/logic/network/loadfactor.py`, `/repo/src/logic/network/timeseriesprocessor.py` 125-175 and 209-244, and
`/repo/src/run_solver.py` 16-97. Written against an arbitrary power flow (`PowerFlow.execute`, `powerflow.py` 18-54): a function of
the state of the devices and of the loads, returning a result or an exception and the changed device state.

`atan2(Q, P)` is the argument of the complex number `P + jQ` (the same function on reals; signed zeros are not modelled). Cells
of the load file are reals: a blank cell, which pandas reads as `nan`, is not modelled.
-/

namespace Verif

/-- Names and phases; a python string as its characters (as in `load.py` 71-91). -/
abbrev Txt := List Char

/-- A `Load` with what names it (`load.py` 71-91). -/
structure NamedLoad where
  num : Txt
  phase : Txt
  triplex : Option Txt
  load : Load

/-- `load.P *= loadfactor_P; load.Q *= loadfactor_Q` (`loadfactor.py` 5-6). -/
noncomputable def NamedLoad.scale (a b : ℝ) (l : NamedLoad) : NamedLoad := { l with load := { l.load with P := l.load.P * a, Q := l.load.Q * b } }

/-- `modify_load_factor` (`loadfactor.py` 3-6). -/
noncomputable def modifyLoadFactor (loads : List NamedLoad) (a b : ℝ) : List NamedLoad := loads.map (NamedLoad.scale a b)

/-! ### Hourly loads -/

/-- Python's `isalpha` and `isnumeric` on ASCII text: not empty and all characters of the kind (`timeseriesprocessor.py` 131, 133). -/
def allChars (p : Char → Bool) (s : Txt) : Bool := !s.isEmpty && s.all p

/-- `get_load_name` (`timeseriesprocessor.py` 130-137). -/
def NamedLoad.name (l : NamedLoad) : Txt :=
  if allChars Char.isAlpha l.phase then ['c', 'l', '_'] ++ l.num ++ l.phase
  else if allChars Char.isDigit l.phase then ['r', 'l', '_'] ++ l.num ++ ['_'] ++ l.phase.take 1
  else l.num ++ ['_'] ++ l.phase

/-- Position of the last entry that satisfies `p` (`timeseriesprocessor.py` 126-128). -/
def lastIndex {α : Type} (p : α → Bool) : List α → Option ℕ
  | [] => none
  | x :: xs => match lastIndex p xs with
    | some i => some (i + 1)
    | none => if p x then some 0 else none

/-- `load_name_map[name]` after `set_load_names` (`timeseriesprocessor.py` 125-128, 147): of loads with the same name the last
one is in the map. -/
def loadIndex (loads : List NamedLoad) (name : Txt) : Option ℕ := lastIndex (fun l => l.name = name) loads

/-- Apparent power (`P` and `Q` of `load.py` 71-91). -/
def NamedLoad.S (l : NamedLoad) : ℂ := ⟨l.load.P, l.load.Q⟩

/-- `angle = math.atan2(Q, P); P = magnitude * cos(angle); Q = magnitude * sin(angle)` (`timeseriesprocessor.py` 154-156). -/
noncomputable def NamedLoad.setMagnitude (m : ℝ) (l : NamedLoad) : NamedLoad :=
  let angle := l.S.arg
  { l with load := { l.load with P := m * Real.cos angle, Q := m * Real.sin angle } }

/-- A column of the load file: its name and the value of an hour, if there is a row for it (`timeseriesprocessor.py` 145, 151). -/
structure Column where
  name : Txt
  value : ℤ → Option ℝ

/-- One pass of the loop of `set_load_values` (`timeseriesprocessor.py` 145-156): unknown names and missing hours are passed over. -/
noncomputable def setColumn (h : ℤ) (loads : List NamedLoad) (c : Column) : List NamedLoad :=
  match loadIndex loads c.name with
  | none => loads
  | some i => match c.value h with
    | none => loads
    | some m => loads.modify i (NamedLoad.setMagnitude m)

/-- `set_load_values` (`timeseriesprocessor.py` 139-156) on a three-phase network with a load file. The name map is built once
per run (line 215); names do not change during a run, so it is looked up in the current loads. -/
noncomputable def setLoadValues (columns : List Column) (h : ℤ) (loads : List NamedLoad) : List NamedLoad :=
  columns.foldl (setColumn h) loads

/-! ### Balancing -/

/-- An entry of `generator_results` as `adjust_generator_output` reads it (`timeseriesprocessor.py` 163). -/
structure GenOut where
  node : Txt
  phase : Txt
  P : ℝ
  Q : ℝ

/-- `generator_results` with the node names and phases of the buses (`timeseriesprocessor.py` 163). -/
def genOuts (names : ℕ → Txt × Txt) (r : Results) : List GenOut := r.generators.map fun g => ⟨(names g.bus).1, (names g.bus).2, g.P, g.Q⟩

/-- `negativeload.split("_")[-1]` (`timeseriesprocessor.py` 169): what follows the last underscore. -/
def afterUnderscore : Txt → Txt
  | [] => []
  | c :: cs => if '_' ∈ cs then afterUnderscore cs else if c = '_' then cs else c :: cs

/-- `load.phase if load.triplex_phase is None else load.triplex_phase` (`timeseriesprocessor.py` 170). -/
def NamedLoad.balancePhase (l : NamedLoad) : Txt := l.triplex.getD l.phase

/-- `negativeload_objs[phase]` (`timeseriesprocessor.py` 169-172): of several negative loads of one phase the last one is in the
dictionary. -/
def negativeIndex (negative : List Txt) (loads : List NamedLoad) (phase : Txt) : Option ℕ :=
  lastIndex (fun l => l.num ∈ negative.map afterUnderscore ∧ l.balancePhase = phase) loads

/-- `phase_load.P += p; phase_load.Q += q` (`timeseriesprocessor.py` 173-174). -/
noncomputable def NamedLoad.add (p q : ℝ) (l : NamedLoad) : NamedLoad := { l with load := { l.load with P := l.load.P + p, Q := l.load.Q + q } }

/-- The loop over the outputs (`timeseriesprocessor.py` 171-174). The exception leaves the loads adjusted so far. -/
noncomputable def addOutputs (negative : List Txt) : List GenOut → List NamedLoad → Except String Unit × List NamedLoad
  | [], ls => (.ok (), ls)
  | g :: gs, ls => match negativeIndex negative ls g.phase with
    | none => (.error "KeyError", ls)
    | some i => addOutputs negative gs (ls.modify i (NamedLoad.add g.P g.Q))

/-- `swingbusoutputs` (`timeseriesprocessor.py` 163). -/
def swingOutputs (swing : Txt) (gens : List GenOut) : List GenOut := gens.filter fun g => g.node = swing

/-- The sum of apparent powers (`timeseriesprocessor.py` 164). -/
noncomputable def totalApparent (gs : List GenOut) : ℝ := (gs.map fun g => ‖(⟨g.P, g.Q⟩ : ℂ)‖).sum

/-- `adjust_generator_output` (`timeseriesprocessor.py` 159-175) with `THRESHOLD = 1e-1` (line 19). -/
noncomputable def adjustGenerators (swing : Option Txt) (negative : Option (List Txt)) (gens : List GenOut) (loads : List NamedLoad) :
    Except String Bool × List NamedLoad :=
  open Classical in
  match swing, negative with
  | some sw, some neg =>
    if totalApparent (swingOutputs sw gens) < 1 / 10 then (.ok false, loads)
    else match addOutputs neg (swingOutputs sw gens) loads with
      | (.ok _, ls) => (.ok true, ls)
      | (.error e, ls) => (.error e, ls)
  | _, _ => (.ok false, loads)

/-- `TimeSeriesSettings` (`timeseriessettings.py`), the power flow and what is read from its results. `solve` is
`self.powerflow.execute()`; `mark` are lines 231-232 of `timeseriesprocessor.py`, `violates_equipment_ratings` being set on the result;
`loadfile` is the opened file (`none` when no file was given). -/
structure TSConfig (σ R : Type) where
  solve : σ → List NamedLoad → Except String R × σ
  gens : R → List GenOut
  mark : R → Except String R
  loadfile : Option (List Column)
  start : ℤ
  stop : ℤ
  swing : Option Txt
  negative : Option (List Txt)
  outputfile : Option Txt

variable {σ R : Type}

/-- The loop `while self.adjust_generator_output(…)` (`timeseriesprocessor.py` 229-230). The loop has no bound: `none` is a run not
finished within the given number of rounds. -/
noncomputable def balanceLoop (C : TSConfig σ R) : ℕ → R → σ → List NamedLoad → Option (Except String R × σ × List NamedLoad)
  | 0, _, _, _ => none
  | k + 1, r, s, ls => match adjustGenerators C.swing C.negative (C.gens r) ls with
    | (.error e, ls') => some (.error e, s, ls')
    | (.ok false, ls') => some (.ok r, s, ls')
    | (.ok true, ls') => match C.solve s ls' with
      | (.error e, s') => some (.error e, s', ls')
      | (.ok r', s') => balanceLoop C k r' s' ls'

/-- `execute_powerflow` (`timeseriesprocessor.py` 226-233). -/
noncomputable def executePowerflow (C : TSConfig σ R) (fuel : ℕ) (s : σ) (ls : List NamedLoad) :
    Option (Except String R × σ × List NamedLoad) :=
  match C.solve s ls with
  | (.error e, s') => some (.error e, s', ls)
  | (.ok r, s') => (balanceLoop C fuel r s' ls).map fun x => (x.1.bind C.mark, x.2)

/-- What a run has done so far: device state, loads, results per hour, files written (name and result) (`timeseriesprocessor.py` 209-223). -/
structure TSState (σ R : Type) where
  devices : σ
  loads : List NamedLoad
  results : List (ℤ × R)
  files : List (Txt × R)

/-- The decimal text of an hour in a file name (`timeseriesprocessor.py` 221). -/
def hourText (h : ℤ) : Txt := if h < 0 then '-' :: Nat.toDigits 10 h.natAbs else Nat.toDigits 10 h.natAbs

/-- Writing the files of a result (`powerflowresults.py` 250-283: nothing when there is no name or it is empty). -/
def writeFiles (name : Option Txt) (r : R) (files : List (Txt × R)) : List (Txt × R) :=
  match name with
  | none => files
  | some n => if n = [] then files else files ++ [(n, r)]

/-- The loop over the hours (`timeseriesprocessor.py` 216-222), with the exception that ended it, if any. -/
noncomputable def hoursLoop (C : TSConfig σ R) (columns : List Column) (fuel : ℕ) : List ℤ → TSState σ R → Option (Option String × TSState σ R)
  | [], st => some (none, st)
  | h :: hs, st =>
    let ls := setLoadValues columns h st.loads
    match executePowerflow C fuel st.devices ls with
    | none => none
    | some (.error e, s', ls') => some (some e, { st with devices := s', loads := ls' })
    | some (.ok r, s', ls') => hoursLoop C columns fuel hs
        ⟨s', ls', st.results ++ [(h, r)], writeFiles (C.outputfile.map (· ++ '_' :: hourText h)) r st.files⟩

/-- `range(start, end)` (`timeseriesprocessor.py` 216). -/
def hourRange (start stop : ℤ) : List ℤ := (List.range (stop - start).toNat).map fun k : ℕ => start + (k : ℤ)

/-- What `TimeSeriesProcessor.execute` returns (`timeseriesprocessor.py` 236-244): nothing, one result, or results per hour. -/
inductive Returned (R : Type)
  | nothing
  | snapshot (r : R)
  | hours (l : List (ℤ × R))

/-- `TimeSeriesProcessor.execute` (`timeseriesprocessor.py` 236-244) on a three-phase network. -/
noncomputable def tsExecute (C : TSConfig σ R) (fuel : ℕ) (st : TSState σ R) : Option (Except String (Returned R) × TSState σ R) :=
  match C.loadfile with
  | some columns => (hoursLoop C columns fuel (hourRange C.start C.stop) st).map fun x => match x.1 with
    | some e => (.error e, x.2)
    | none => (.ok (.hours x.2.results), x.2)
  | none => match C.swing with
    | some _ => (executePowerflow C fuel st.devices st.loads).map fun x => match x.1 with
      | .error e => (.error e, { st with devices := x.2.1, loads := x.2.2 })
      | .ok r => (.ok (.snapshot r), { st with devices := x.2.1, loads := x.2.2 })
    | none => some (.ok .nothing, st)

/-! ### The command line -/

/-- What the user sees of a run: an error text printed, the results displayed, the files written (`run_solver.py` 85-97). -/
structure Seen (R : Type) where
  errors : List String
  shown : List R
  files : List (Txt × R)

/-- `main` from the loaded network on (`run_solver.py` 66-97): `factor` is the argument `--load_factor`, absent or a number, with
default `-1` (line 30); `setup` is the exception raised before `execute` does anything, by the
constructor of `TimeSeriesProcessor` (lines 20-26 of `timeseriesprocessor.py`) or by the checks in lines 210-211 and 237-238; island selection is modelled in `Verif/Model/Islands.lean`. An exception of the
final power flow (line 94) leaves `main`. -/
noncomputable def mainRun (C : TSConfig σ R) (fuel : ℕ) (setup : Option String) (factor : Option ℝ) (s : σ) (loads : List NamedLoad) :
    Option (Except String (Seen R)) :=
  let f := factor.getD (-1)
  let st : TSState σ R := ⟨s, modifyLoadFactor loads f f, [], []⟩
  let plain (errors : List String) (st : TSState σ R) : Except String (Seen R) :=
    match (C.solve st.devices st.loads).1 with
    | .error e => .error e
    | .ok r => .ok ⟨errors, [r], writeFiles C.outputfile r st.files⟩
  match setup with
  | some e => some (plain [e] st)
  | none => (tsExecute C fuel st).map fun x => match x.1 with
    | .error e => plain [e] x.2
    | .ok .nothing => plain [] x.2
    | .ok (.snapshot r) => .ok ⟨[], [r], x.2.files⟩
    | .ok (.hours l) => .ok ⟨[], l.map Prod.snd, x.2.files⟩

end Verif
