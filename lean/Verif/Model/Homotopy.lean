import Verif.Model.Newton

/-!
# `HomotopyController.run_powerflow` (`/repo/src/logic/homotopycontroller.py`)

Written against an arbitrary Newton run (a function of the stamper, the start vector and the factor, returning the result
and the changed stamper), instantiated with `nrRun` in `Verif/Props/Newton.lean`.
-/

namespace Verif

/-- A Newton run on one stamper: `self.nrsolver.run_powerflow(matrix_stamper, v, tx)` (`homotopycontroller.py` 22, 35). -/
abbrev NewtonRun (σ : Type) := σ → (ℕ → ℝ) → ℝ → Except String (NRResult × σ)

/-- One call of the Newton solver as the caller sees it: start vector, factor, result (`homotopycontroller.py` 22, 35). -/
structure NRCall where
  start : ℕ → ℝ
  tx : ℝ
  result : NRResult

/-- The tuple returned by `HomotopyController.run_powerflow` (`homotopycontroller.py` 24, 44), without the residual
report; `txPercent` is in hundredths: the returned number is `txPercent * TX_SCALE`. `calls` is a record of the Newton
runs made, in order; it is not part of the python object. -/
structure HomotopyResult (σ : Type) where
  success : Bool
  v : ℕ → ℝ
  iterations : ℕ
  txPercent : ℤ
  stamper : σ
  calls : List NRCall

/-- The returned factor: `tx_factor * TX_SCALE` with `TX_SCALE = 1/100` (`homotopycontroller.py` 7-8, 44). -/
noncomputable def HomotopyResult.tx {σ : Type} (r : HomotopyResult σ) : ℝ := r.txPercent * (1 / 100)

/-- The loop `while tx_factor >= 0` (`homotopycontroller.py` 31-44), `k` is `tx_factor + 1`; `prev` are the values of
`is_success`, `v_next`, `iterations`. -/
def homotopyLoop {σ : Type} (run : NewtonRun σ) : ℕ → Bool → (ℕ → ℝ) → ℕ → σ → List NRCall →
    (scale : ℕ → ℝ) → Except String (HomotopyResult σ)
  | 0, ok, v, its, m, calls, _ => .ok ⟨ok, v, its, -1, m, calls⟩
  | k + 1, _, v, _, m, calls, scale => do
    let (r, m') ← run m v (scale k)
    let calls := calls ++ [⟨v, scale k, r⟩]
    if r.success then homotopyLoop run k r.success r.v (r.iter + 1) m' calls scale
    else .ok ⟨r.success, r.v, r.iter + 1, k, m', calls⟩

/-- `tx_factor * TX_SCALE` (`homotopycontroller.py` 35). -/
noncomputable def txScale (k : ℕ) : ℝ := k * (1 / 100)

/-- `HomotopyController.run_powerflow` (`homotopycontroller.py` 18-44) on a freshly built stamper `m`. -/
noncomputable def homotopyRun {σ : Type} (run : NewtonRun σ) (txStepping : Bool) (m : σ) (vInit : ℕ → ℝ) :
    Except String (HomotopyResult σ) := do
  let (r, m') ← run m vInit 0
  if r.success ∨ txStepping = false then .ok ⟨r.success, r.v, r.iter, 0, m', [⟨vInit, 0, r⟩]⟩
  else homotopyLoop run 101 false vInit 0 m' [⟨vInit, 0, r⟩] txScale

/-- `HomotopyController` with the modelled Newton solver and stamper (`homotopycontroller.py` 22, 35). -/
noncomputable def solverRun (C : NRContext) : NewtonRun Stamper := fun m v t => do
  let (r, st) ← nrRun C Stamper.ops m v t
  .ok (r, st.stamper)

/-- The residual report returned beside the voltages: `matrix_stamper.calc_residuals(0, v_final, iteration_num)`
(`homotopycontroller.py` 24, 44), where `v_final`, `iteration_num` are those of the last Newton run. -/
noncomputable def homotopyReport (n : ℕ) (r : HomotopyResult Stamper) : Except String ResidualDetails :=
  match r.calls.getLast? with
  | none => .error "no Newton run"
  | some c => ResidualDetails.make (Stamper.ops.residuals r.stamper 0 c.result.v c.result.iter).2 n

end Verif
