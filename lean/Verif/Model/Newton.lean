import Verif.Model.Stamper
import Verif.Model.Residuals

/-!
# `NRSolver.run_powerflow` (`/repo/src/logic/nrsolver.py` 21-89)

The loop is written against the three `MatrixStamper` operations it calls, so that its bookkeeping can be proved for
every stamper; `Stamper.ops` is the modelled `MatrixStamper`. Exceptions are `Except.error`. Printing is left out; the loop with
matrix dumps is in `Dumps`, the printed labels in `Labels`.
-/

namespace Verif

/-- What a `stamp` call writes: row, column (`none` is `J`), value (`matrixstamper.py` 350-355). -/
abbrev Emission := ℕ × Option ℕ × ℝ

/-- The interface of `MatrixStamper` used by the solver (`matrixstamper.py` 437-468): each operation returns the changed
object and what it emits. -/
structure StamperOps (σ : Type) where
  stampLinear : σ → ℝ → σ × List Emission
  stampNonlinear : σ → (ℕ → ℝ) → ℤ → σ × List Emission
  residuals : σ → ℝ → (ℕ → ℝ) → ℤ → σ × List (ℕ × ℝ)

/-- `MatrixStamper.stamp_linear`, `stamp_nonlinear`, `calc_residuals` (`matrixstamper.py` 437-468). -/
noncomputable def Stamper.ops : StamperOps Stamper where
  stampLinear m t := (m.updateTx t, (m.updateTx t).emit true)
  stampNonlinear m v it := (m.updateV v it, (m.updateV v it).emit false)
  residuals m t v it := ((m.updateV v it).updateTx t, ((m.updateV v it).updateTx t).contributions)

/-- The solver's environment: the settings it reads (`powerflowsettings.py` 2-23), the length of the vectors, the linear
solver `spsolve` (`nrsolver.py` 49; `none` is a vector containing NaN) and the voltage limiting (line 80;
`none` is `None`). `spsolve` is arbitrary; statements that need it to solve the system say so. -/
structure NRContext where
  maxIters : ℕ
  tolerance : ℝ
  debug : Bool
  size : ℕ
  solve : (ℕ → ℕ → ℝ) → (ℕ → ℝ) → Option (ℕ → ℝ)
  limit : Option ((ℕ → ℝ) → (ℕ → ℝ) → (ℕ → ℝ))

/-- `max` over a list of naturals (`matrixbuilder.py` 74). -/
def maxNat (l : List ℕ) : ℕ := l.foldr max 0

/-- `assert_valid(check_zeros=True)` (`matrixbuilder.py` 70-88). `getnnz` counts stored entries, so a row is flagged
when no triple lies in it. `max` of an empty list raises. -/
def Builder.assertValid (debug : Bool) (b : Builder) : Except String Unit :=
  if debug = false then .ok ()
  else if b.entries = [] then .error "max() arg is an empty sequence"
  else
    let rows := b.entries.map Trip.row
    let cols := b.entries.map Trip.col
    if maxNat rows ≠ maxNat cols then .error "Matrix is not square"
    else if (List.range (maxNat rows + 1)).all (fun r => rows.contains r) = false then .error "Row is invalid"
    else if (List.range (maxNat cols + 1)).all (fun c => cols.contains c) = false then .error "Column is invalid"
    else .ok ()

/-- Slope of the least-squares line through `(0, y₀), (1, y₁), …` (`nrsolver.py` 68-71, `np.linalg.lstsq` of a matrix of
full rank, `len ≥ 2`). -/
noncomputable def slope (y : List ℝ) : ℝ :=
  let n : ℝ := y.length
  let sx := ((List.range y.length).map fun k => (k : ℝ)).sum
  let sxx := ((List.range y.length).map fun k => (k : ℝ) ^ 2).sum
  let sxy := (y.zipIdx.map fun p => (p.2 : ℝ) * p.1).sum
  (n * sxy - sx * y.sum) / (n * sxx - sx ^ 2)

/-- The tuple returned by `run_powerflow` (`nrsolver.py` 73, 79, 89). -/
structure NRResult where
  success : Bool
  v : ℕ → ℝ
  iter : ℕ

/-- The local variables at the head of the loop (`nrsolver.py` 25-36). -/
structure NRState (σ : Type) where
  stamper : σ
  Y : Builder
  vPrev : ℕ → ℝ
  history : List ℝ

/-- How one pass through the loop body ends (`nrsolver.py` 37-84). -/
inductive NRPass (σ : Type)
  | ret (r : NRResult) (st : NRState σ)
  | next (st : NRState σ)

/-- One pass through the loop body (`nrsolver.py` 37-84). -/
noncomputable def nrPass {σ : Type} (C : NRContext) (O : StamperOps σ) (tx : ℝ) (jLinear : ℕ → ℝ) (linearIndex : ℕ)
    (it : ℕ) (st : NRState σ) : Except String (NRPass σ) := do
  let (m1, em) := O.stampNonlinear st.stamper st.vPrev it
  let Y := st.Y.stamps (tripsOf em)
  let J := fun i => jLinear i + jOf em i
  Y.assertValid C.debug
  let A ← Y.toMatrix C.debug
  match C.solve A J with
  | none => .error "Error solving linear system"
  | some vNext =>
    let (m2, cs) := O.residuals m1 tx vNext it
    let rd ← ResidualDetails.make cs C.size
    let history := st.history ++ [rd.maxResidual]
    if history.length % 50 = 0 ∧ 0 < slope history then
      .ok (.ret ⟨false, vNext, it⟩ ⟨m2, Y, st.vPrev, history⟩)
    else if rd.maxResidual < C.tolerance then
      .ok (.ret ⟨true, vNext, it⟩ ⟨m2, Y, st.vPrev, history⟩)
    else
      let vNext := match C.limit with
        | some f => if rd.maxResidual > C.tolerance then f vNext st.vPrev else vNext
        | none => vNext
      .ok (.next ⟨m2, Y.clear linearIndex, vNext, history⟩)

/-- The loop `for iteration_num in range(max_iters)` from iteration `it` with `k` iterations left (`nrsolver.py` 36-89).
After the last pass `v_next` is `v_previous` (line 83). -/
noncomputable def nrLoop {σ : Type} (C : NRContext) (O : StamperOps σ) (tx : ℝ) (jLinear : ℕ → ℝ) (linearIndex : ℕ) :
    ℕ → ℕ → NRState σ → Except String (NRResult × NRState σ)
  | 0, it, st => .ok (⟨false, st.vPrev, it - 1⟩, st)
  | k + 1, it, st => do
    match ← nrPass C O tx jLinear linearIndex it st with
    | .ret r st' => .ok (r, st')
    | .next st' => nrLoop C O tx jLinear linearIndex k (it + 1) st'

/-- `NRSolver.run_powerflow` (`nrsolver.py` 21-89). The second component is the final state of the locals, which the
caller does not see, except for the stamper. With `max_iters = 0` python fails on line 89 because `v_next` is not bound. -/
noncomputable def nrRun {σ : Type} (C : NRContext) (O : StamperOps σ) (m : σ) (vInit : ℕ → ℝ) (tx : ℝ) :
    Except String (NRResult × NRState σ) :=
  if C.maxIters = 0 then .error "cannot access local variable 'v_next'"
  else
    let (m1, em) := O.stampLinear m tx
    let Y := Builder.empty.stamps (tripsOf em)
    nrLoop C O tx (jOf em) Y.usage C.maxIters 0 ⟨m1, Y, vInit, []⟩

end Verif
