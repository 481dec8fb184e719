import Verif.Model.Results
import Verif.Model.TimeSeries
import Mathlib.Algebra.Order.Floor.Semiring

/-!
# Output files as text, and the display of results

`/repo/src/logic/powerflowresults.py` 36-38, 73-76, 89-91, 193-283 and the end of `main` in `/repo/src/run_solver.py` 75-97.
-/

namespace Verif

/-! ### Numbers with a fixed number of decimals -/

/-- Rounding to the nearest whole number, ties to the even one (`format` with `.2f` and `.3f`, `powerflowresults.py` 38, 74-75, 91). -/
noncomputable def roundEven (x : ℝ) : ℕ :=
  let n := ⌊x⌋₊
  if x - n < 1 / 2 then n else if 1 / 2 < x - n then n + 1 else if n % 2 = 0 then n else n + 1

/-- Digits filled up with zeros on the left (`powerflowresults.py` 38). -/
def padZeros (k : ℕ) (ds : Txt) : Txt := List.replicate (k - ds.length) '0' ++ ds

/-- `"{:.kf}".format(x)` for `k > 0` (`powerflowresults.py` 38, 64-65, 74-75, 91). The sign of a negative zero is left out. -/
noncomputable def fixedText (k : ℕ) (x : ℝ) : Txt :=
  let m := roundEven (|x| * 10 ^ k)
  (if x < 0 then ['-'] else []) ++ (Nat.toDigits 10 (m / 10 ^ k) ++ '.' :: padZeros k (Nat.toDigits 10 (m % 10 ^ k)))

/-! ### Files -/

/-- `bus.Bus`, `bus.NodeName`, `bus.NodePhase` (`bus.py` 26-29). -/
structure BusName where
  number : ℤ
  name : Txt
  phase : Txt

/-- The names of bus number `k` of the network (`powerflowresults.py` 76). -/
def busNameAt (names : List BusName) (k : ℕ) : BusName := names.getD k ⟨0, [], []⟩

/-- `load.from_bus.NodeName` (`powerflowresults.py` 91); ground is called `Gnd` (`bus.py` 88). -/
def refName (names : List BusName) : Ref → Txt
  | none => "Gnd".toList
  | some k => (busNameAt names k).name

/-- `type_str` (`powerflowresults.py` 19-23). -/
def GenType.text : GenType → Txt
  | .PV => "PV".toList
  | .Slack => "Slack".toList
  | .Inf => "Inf".toList

/-- `BusResult.csv_string` (`powerflowresults.py` 73-76) without the end of line. -/
noncomputable def BusResult.csv (names : List BusName) (b : BusResult) : Txt :=
  let n := busNameAt names b.bus
  hourText n.number ++ ',' :: (n.name ++ ':' :: (n.phase ++ ',' :: (fixedText 3 b.mag ++ ',' :: fixedText 3 b.deg)))

/-- `GeneratorResult.csv_string` (`powerflowresults.py` 36-38) without the end of line. -/
noncomputable def GenResult.csv (names : List BusName) (g : GenResult) : Txt :=
  hourText (busNameAt names g.bus).number ++ ',' :: (g.kind.text ++ ',' :: (fixedText 2 g.P ++ ',' :: fixedText 2 g.Q))

/-- `LoadResult.csv_string` (`powerflowresults.py` 89-91) without the end of line; `type_str` is `PQ` (line 148). -/
noncomputable def LoadResult.csv (names : List BusName) (l : LoadResult) : Txt :=
  refName names l.bus ++ ',' :: ("PQ".toList ++ ',' :: (fixedText 2 l.P ++ ',' :: fixedText 2 l.Q))

/-- `_voltage.csv` as text (`powerflowresults.py` 260-268). -/
noncomputable def Results.voltageText (names : List BusName) (r : Results) : Txt :=
  if r.success = false then "FAILURE".toList
  else "bus,name,v_magnitude,v_ang_degrees\n".toList ++ (r.buses.flatMap fun b => b.csv names ++ ['\n']) ++
    (if r.violates = true then "VIOLATED EQUIPMENT RATINGS".toList else [])

/-- `_power.csv` as text (`powerflowresults.py` 272-283). -/
noncomputable def Results.powerText (names : List BusName) (r : Results) : Txt :=
  if r.success = false then "FAILURE".toList
  else "bus,name,P(MW),Q(MVar)\n".toList ++ (r.generators.flatMap fun g => g.csv names ++ ['\n']) ++
    (r.loads.flatMap fun l => l.csv names ++ ['\n']) ++ (if r.violates = true then "VIOLATED EQUIPMENT RATINGS".toList else [])

/-! ### Display -/

/-- A line printed by `display` (`powerflowresults.py` 193-234); numbers are not rounded here. -/
inductive ShownLine
  | rule
  | title (s : String)
  | successful (b : Bool)
  | iterations (n : ℕ)
  | duration
  | maxResidual (x : ℝ) (i : ℕ)
  | infP (x : ℝ)
  | infQ (x : ℝ)
  | bus (b : BusResult)
  | gen (g : GenResult)
  | load (l : LoadResult)

/-- `report_infeasible` (`powerflowresults.py` 236-247). -/
noncomputable def reportInfeasible (gs : List GenResult) : List GenResult :=
  gs.filter fun g => !(decide (|g.P| < 1 / 100000 ∧ |g.Q| < 1 / 100000)) && decide (g.kind = .Inf)

/-- `display` (`powerflowresults.py` 193-234): the lines printed and the exception that ended it, if any. In the verbose form `len` is
applied to a `ResidualDetails`, which defines no `__len__` (`residualdetails.py` 3-12). -/
noncomputable def Results.display (r : Results) (iterations : ℕ) (maxResidual : ℝ) (maxIndex : ℕ) (verbose : Bool) : List ShownLine × Option String :=
  let head := [.rule, .rule, .title "Powerflow Results:", .successful r.success, .iterations iterations, .duration, .maxResidual maxResidual maxIndex]
  if verbose then (head, some "object of type 'ResidualDetails' has no len()")
  else
    let inf := reportInfeasible r.generators
    (head ++ [.infP (inf.map GenResult.P).sum, .infQ (inf.map GenResult.Q).sum, .rule], none)

/-! ### The end of `main` -/

/-- How a run ends: the exception that left `main`, the error texts printed before, the results displayed without exception, the files written
(`run_solver.py` 75-97). -/
structure MainEnd (R : Type) where
  raised : Option String
  errors : List String
  shown : List R
  files : List (Txt × R)

/-- `main` from the loaded network on, with the switch `--verbose` (`run_solver.py` 66-97); the arguments are those of `mainRun`, and `disp r verbose` is the
exception of `results.display(verbose)`. Results of the time series are displayed with `verbose=False` (line 87), inside the `try`. -/
noncomputable def mainEnd {σ R : Type} (disp : R → Bool → Option String) (verbose : Bool) (C : TSConfig σ R) (fuel : ℕ) (setup : Option String)
    (factor : Option ℝ) (s : σ) (loads : List NamedLoad) : Option (MainEnd R) :=
  let f := factor.getD (-1)
  let st : TSState σ R := ⟨s, modifyLoadFactor loads f f, [], []⟩
  let plain (errors : List String) (st : TSState σ R) : MainEnd R :=
    match (C.solve st.devices st.loads).1 with
    | .error e => ⟨some e, errors, [], st.files⟩
    | .ok r => match disp r verbose with
      | some e => ⟨some e, errors, [], st.files⟩
      | none => ⟨none, errors, [r], writeFiles C.outputfile r st.files⟩
  match setup with
  | some e => some (plain [e] st)
  | none => (tsExecute C fuel st).map fun x => match x.1 with
    | .error e => plain [e] x.2
    | .ok .nothing => plain [] x.2
    | .ok (.snapshot r) => match disp r false with
      | some e => plain [e] x.2
      | none => ⟨none, [], [r], x.2.files⟩
    | .ok (.hours l) => match (l.map Prod.snd).findSome? fun r => disp r false with
      | some e => plain [e] x.2
      | none => ⟨none, [], l.map Prod.snd, x.2.files⟩

end Verif
