import Verif.Model.Newton
import Verif.Model.Labels

/-!
# Matrix dumps (`/repo/src/logic/nrsolver.py` 22-23, 45-47, 76-77, 86-87, 91-149)

With `dump_matrix` set the solver writes text files into `./dumps`. The files are written in the midst of the loop and stay if an
exception follows, so a run returns the files beside its result or exception.
-/

namespace Verif

/-- The files of the directory `./dumps` by name (`nrsolver.py` 92, 94, 108, 123, 138). -/
abbrev Files := Txt → Option Txt

/-- Remove the file if it is there, then append to a new one (`nrsolver.py` 96-103, 110-118, 125-133, 140-149). -/
def Files.write (fs : Files) (name text : Txt) : Files := fun n => if n = name then some text else fs n

/-- `f"{i}"` of an index (`nrsolver.py` 103, 108, 118, 133, 138, 149). -/
def indexText (i : ℕ) : Txt := Nat.toDigits 10 i

/-- `f"{key}"` of a key of `matrix_map` (`nrsolver.py` 103); `SKIP` is `None`. -/
def keyText : Idx → Txt
  | none => "None".toList
  | some i => indexText i

/-- One line `f"{what}: {value}\r"` (`nrsolver.py` 103, 118, 133, 149). -/
def dumpLine (what value : Txt) : Txt := what ++ ':' :: ' ' :: (value ++ ['\r'])

/-- The lines of a vector, zeros left out (`nrsolver.py` 116-118, 131-133). `fmt` is `format(x, ".5g")`, which is not modelled. -/
noncomputable def vectorText (fmt : ℝ → Txt) (n : ℕ) (v : ℕ → ℝ) : Txt :=
  (List.range n).flatMap fun i => if v i ≠ 0 then dumpLine (indexText i) (fmt (v i)) else []

/-- The lines of a matrix, zeros left out (`nrsolver.py` 146-149). -/
noncomputable def matrixText (fmt : ℝ → Txt) (n : ℕ) (A : ℕ → ℕ → ℝ) : Txt :=
  (List.range n).flatMap fun i => (List.range n).flatMap fun j =>
    if A i j ≠ 0 then dumpLine (indexText i ++ ',' :: ' ' :: indexText j) (fmt (A i j)) else []

/-- The dictionary `matrix_map` out of the assignments to it: a later value replaces an earlier one, a key keeps its first place
(`networkmodel.py` 84-103). -/
def dictOf (m : List (Idx × Txt)) : List (Idx × Txt) :=
  m.foldl (fun d x => if d.any (fun y => y.1 == x.1) then d.map (fun y => if y.1 == x.1 then (y.1, x.2) else y) else d ++ [x]) []

/-- The lines of the lookup file (`nrsolver.py` 102-103). -/
def lookupText (m : List (Idx × Txt)) : Txt := (dictOf m).flatMap fun x => dumpLine (keyText x.1) x.2

/-- `lookup.txt` (`nrsolver.py` 94). -/
def lookupName : Txt := "lookup.txt".toList

/-- `v_output.txt` (`nrsolver.py` 123). -/
def vName : Txt := "v_output.txt".toList

/-- `f'J{iteration + 1}_output.txt'` (`nrsolver.py` 108). -/
def jName (it : ℕ) : Txt := 'J' :: (indexText (it + 1) ++ "_output.txt".toList)

/-- `f'Y{iteration + 1}_output.txt'` (`nrsolver.py` 138). -/
def yName (it : ℕ) : Txt := 'Y' :: (indexText (it + 1) ++ "_output.txt".toList)

/-- `Y.shape[0]` of the matrix: without a given shape it is one more than the largest row (`matrixbuilder.py` 48, `nrsolver.py` 146). -/
def Builder.shape (b : Builder) : ℕ := maxNat (b.entries.map Trip.row) + 1

/-- One pass through the loop body with dumps (`nrsolver.py` 37-84). -/
noncomputable def dumpPass {σ : Type} (fmt : ℝ → Txt) (C : NRContext) (O : StamperOps σ) (tx : ℝ) (jLinear : ℕ → ℝ) (linearIndex : ℕ)
    (it : ℕ) (st : NRState σ) (fs : Files) : Except String (NRPass σ) × Files :=
  let (m1, em) := O.stampNonlinear st.stamper st.vPrev it
  let Y := st.Y.stamps (tripsOf em)
  let J := fun i => jLinear i + jOf em i
  match Y.assertValid C.debug with
  | .error e => (.error e, fs)
  | .ok _ => match Y.toMatrix C.debug with
    | .error e => (.error e, fs)
    | .ok A =>
      let fs := (fs.write (yName it) (matrixText fmt Y.shape A)).write (jName it) (vectorText fmt C.size J)
      match C.solve A J with
      | none => (.error "Error solving linear system", fs)
      | some vNext =>
        let (m2, cs) := O.residuals m1 tx vNext it
        match ResidualDetails.make cs C.size with
        | .error e => (.error e, fs)
        | .ok rd =>
          let history := st.history ++ [rd.maxResidual]
          if history.length % 50 = 0 ∧ 0 < slope history then
            (.ok (.ret ⟨false, vNext, it⟩ ⟨m2, Y, st.vPrev, history⟩), fs)
          else if rd.maxResidual < C.tolerance then
            (.ok (.ret ⟨true, vNext, it⟩ ⟨m2, Y, st.vPrev, history⟩), fs.write vName (vectorText fmt C.size vNext))
          else
            let vNext := match C.limit with
              | some f => if rd.maxResidual > C.tolerance then f vNext st.vPrev else vNext
              | none => vNext
            (.ok (.next ⟨m2, Y.clear linearIndex, vNext, history⟩), fs)

/-- The loop with dumps (`nrsolver.py` 36-89). -/
noncomputable def dumpLoop {σ : Type} (fmt : ℝ → Txt) (C : NRContext) (O : StamperOps σ) (tx : ℝ) (jLinear : ℕ → ℝ) (linearIndex : ℕ) :
    ℕ → ℕ → NRState σ → Files → Except String (NRResult × NRState σ) × Files
  | 0, it, st, fs => (.ok (⟨false, st.vPrev, it - 1⟩, st), fs.write vName (vectorText fmt C.size st.vPrev))
  | k + 1, it, st, fs => match dumpPass fmt C O tx jLinear linearIndex it st fs with
    | (.error e, fs) => (.error e, fs)
    | (.ok (.ret r st'), fs) => (.ok (r, st'), fs)
    | (.ok (.next st'), fs) => dumpLoop fmt C O tx jLinear linearIndex k (it + 1) st' fs

/-- `NRSolver.run_powerflow` with `dump_matrix` (`nrsolver.py` 21-89); `m` are the assignments to `matrix_map`. -/
noncomputable def dumpRun {σ : Type} (fmt : ℝ → Txt) (map : List (Idx × Txt)) (C : NRContext) (O : StamperOps σ) (m : σ) (vInit : ℕ → ℝ) (tx : ℝ)
    (fs : Files) : Except String (NRResult × NRState σ) × Files :=
  let fs := fs.write lookupName (lookupText map)
  if C.maxIters = 0 then (.error "cannot access local variable 'v_next'", fs)
  else
    let (m1, em) := O.stampLinear m tx
    let Y := Builder.empty.stamps (tripsOf em)
    dumpLoop fmt C O tx (jOf em) Y.usage C.maxIters 0 ⟨m1, Y, vInit, []⟩ fs

end Verif
