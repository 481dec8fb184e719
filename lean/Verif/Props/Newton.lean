import Verif.Lemmas.NewtonStep
import Verif.Lemmas.Feeder
import Mathlib.Tactic.IntervalCases

/-!
# C01, C02, C03, C21, C22, C25: the Newton loop
-/

namespace Verif

open Ex

variable {L : Library}

/-! ### C01, C02: the assembled system is Newton's -/

/-- **C02, Newton step.** For any placed parts, any update history and any `x`: `x` solves the system assembled at the
current vector exactly when `x` is a Newton step from it. -/
theorem C02_newton_step (opt : Bool) (ps : List Placed) (hw : ∀ p ∈ ps, p.WellPlaced opt) (t : ℝ) (us : List Upd)
    (hr : ∀ p ∈ ps, p.Regular (Clock.run t us).t (Clock.run t us).v) (n : ℕ)
    (hn : ∀ p ∈ ps, ∀ x ∈ p.details.seg.vars, ∀ c, p.details.varMap x = some c → c < n) :
    ∃ m, Stamper.build opt ps = .ok m ∧
      let m' := us.foldl Stamper.update (m.updateTx t)
      let l := m'.emit true ++ m'.emit false
      let c := Clock.run t us
      ∀ x, Solves n (Builder.matOf (tripsOf l)) (jOf l) x ↔ NewtonStep ps c.t n c.v x := by
  obtain ⟨m, hm, h1, h2⟩ := follows_clock opt ps hw t us
  refine ⟨m, hm, ?_⟩
  intro m' l c x
  have hperm : l.Perm ((ps.flatMap fun p => p.emitted c.t c.v true) ++ (ps.flatMap fun p => p.emitted c.t c.v false)) :=
    (emit_perm h1 h2 true).append (emit_perm h1 h2 false)
  constructor
  · intro hs
    have hd := fun i => network_jacobian ps c.t c.v hr (fun k => x k - c.v k) i
    exact ⟨_, hd, (newton_solves hr hn hperm hd).1 hs⟩
  · rintro ⟨d, hd, hz⟩
    exact (newton_solves hr hn hperm hd).2 hz

/-- **C01, whole matrix.** Every entry of the assembled matrix is the partial derivative of the network equation of its
row by the unknown of its column. -/
theorem C01_matrix_is_jacobian (opt : Bool) (ps : List Placed) (hw : ∀ p ∈ ps, p.WellPlaced opt) (t : ℝ) (us : List Upd)
    (hr : ∀ p ∈ ps, p.Regular (Clock.run t us).t (Clock.run t us).v) (n : ℕ)
    (hn : ∀ p ∈ ps, ∀ x ∈ p.details.seg.vars, ∀ c, p.details.varMap x = some c → c < n) :
    ∃ m, Stamper.build opt ps = .ok m ∧
      let m' := us.foldl Stamper.update (m.updateTx t)
      let l := m'.emit true ++ m'.emit false
      let c := Clock.run t us
      ∀ i, ∀ j < n, HasDerivAt (fun s => networkEq ps c.t (Function.update c.v j s) i) (Builder.matOf (tripsOf l) i j) (c.v j) := by
  obtain ⟨m, hm, h1, h2⟩ := follows_clock opt ps hw t us
  refine ⟨m, hm, ?_⟩
  intro m' l c i j hj
  have hperm : l.Perm ((ps.flatMap fun p => p.emitted c.t c.v true) ++ (ps.flatMap fun p => p.emitted c.t c.v false)) :=
    (emit_perm h1 h2 true).append (emit_perm h1 h2 false)
  have hc : ∀ e ∈ l, ∀ c, e.2.1 = some c → c < n := fun e he => emitted_cols ps c.t c.v n hn e (hperm.mem_iff.1 he)
  have hd := network_jacobian ps c.t c.v hr (fun k => if k = j then 1 else 0) i
  rw [← dirRow_perm _ hperm, ← sum_matOf_dir n _ l hc] at hd
  have hsum : (∑ k ∈ Finset.range n, Builder.matOf (tripsOf l) i k * (if k = j then (1 : ℝ) else 0)) = Builder.matOf (tripsOf l) i j := by
    simp only [mul_ite, mul_one, mul_zero, Finset.sum_ite_eq', Finset.mem_range, hj, if_true]
  rw [hsum] at hd
  have hd' : HasDerivAt (fun s => networkEq ps c.t (along c.v (fun k => if k = j then 1 else 0) s) i)
      (Builder.matOf (tripsOf l) i j) (c.v j - c.v j) := by rw [sub_self]; exact hd
  have := HasDerivAt.comp_sub_const (c.v j) (c.v j) hd'
  refine this.congr_of_eventuallyEq (Filter.Eventually.of_forall fun s => ?_)
  show networkEq ps c.t (Function.update c.v j s) i = networkEq ps c.t (along c.v _ (s - c.v j)) i
  congr 1
  funext k
  by_cases hk : k = j
  · subst hk; simp [along]
  · simp [along, hk]

/-- **C02, for networks.** -/
theorem C02_network_newton_step (hL : L.Loaded) (N : Network) (hv : N.Valid) (t : ℝ) (us : List Upd)
    (hr : ∀ e ∈ N.elements, e.RegularAt (Clock.run t us).t ((N.assign L).voltages (Clock.run t us).v)) :
    let a := N.assign L
    ∃ m, Stamper.build N.opt a.all = .ok m ∧
      let m' := us.foldl Stamper.update (m.updateTx t)
      let l := m'.emit true ++ m'.emit false
      let c := Clock.run t us
      ∀ x, Solves a.size (Builder.matOf (tripsOf l)) (jOf l) x ↔ NewtonStep a.all c.t a.size c.v x :=
  C02_newton_step N.opt (N.assign L).all (network_wellPlaced hL N hv) t us (network_regular hL N hv _ _ hr)
    (N.assign L).size (fun p hp x hx c hc => network_below hL N p hp x hx c hc)

/-- The feeder is a valid network, regular wherever the load voltage is not zero. -/
example (hL : L.Loaded) (us : List Upd) (h : (Clock.run 0 us).v 2 ≠ 0) (h0 : (Clock.run 0 us).t = 0) :
    ∃ m, Stamper.build (feeder 1).opt ((feeder 1).assign L).all = .ok m := by
  obtain ⟨m, hm, -⟩ := C02_network_newton_step hL (feeder 1) (feeder_valid 1) 0 us (by rw [h0]; exact feeder_regularAt 1 _ h)
  exact ⟨m, hm⟩

/-! ### C21, C22: bookkeeping, for every stamper and every linear solver -/

variable {σ : Type}

/-- **C21.** Every run that returns made between one and `max_iters` linear solves (the history has one entry per solve);
the reported iteration is that number minus one; no earlier solve had a residual below the tolerance; a success had;
and a failure is reported only at the iteration limit or at a multiple of 50 solves with a rising trend. -/
theorem C21_bookkeeping (C : NRContext) (O : StamperOps σ) (m : σ) (vInit : ℕ → ℝ) (tx : ℝ) (r : NRResult) (st : NRState σ)
    (h : nrRun C O m vInit tx = .ok (r, st)) :
    1 ≤ st.history.length ∧ st.history.length ≤ C.maxIters ∧ r.iter + 1 = st.history.length ∧
    (∀ k < r.iter, ∀ x, st.history[k]? = some x → C.tolerance ≤ x) ∧
    (r.success = true → ∀ x, st.history[r.iter]? = some x → x < C.tolerance) ∧
    (r.success = false → st.history.length = C.maxIters ∨ (st.history.length % 50 = 0 ∧ 0 < slope st.history)) := by
  obtain ⟨hm, ⟨k, st2, hk, hreach, F, rfl, hv, hi, hcase⟩ | ⟨hreach, rfl⟩⟩ := nrRun_end h
  · obtain ⟨l1, l2, -⟩ := reach_history rfl hreach
    have hh : F.done.history = st2.history ++ [F.rd.maxResidual] := rfl
    have hlen : F.done.history.length = k + 1 := by rw [hh]; simp [l1]
    refine ⟨by omega, by omega, by omega, ?_, ?_, ?_⟩
    · intro j hj x hx
      rw [hh, List.getElem?_append_left (by omega)] at hx
      exact not_lt.1 (l2 x (List.mem_of_getElem? hx))
    · intro hs x hx
      rcases hcase with ⟨hf, _⟩ | ⟨_, _, ht⟩
      · rw [hs] at hf; simp at hf
      · rw [hh, hi, List.getElem?_append_right (by omega), l1] at hx
        simp at hx; rw [← hx]; exact ht
    · intro hs
      rcases hcase with ⟨_, hb⟩ | ⟨ht, _⟩
      · exact Or.inr hb
      · rw [hs] at ht; simp at ht
  · obtain ⟨l1, l2, -⟩ := reach_history rfl hreach
    refine ⟨by omega, by omega, by simp only; omega, ?_, by simp, fun _ => Or.inl l1⟩
    intro j _ x hx
    exact not_lt.1 (l2 x (List.mem_of_getElem? hx))

/-- **C21, NaN.** If at some iteration the linear solver returns NaN the run raises: it does not return. -/
theorem C21_nan_raises (C : NRContext) (O : StamperOps σ) (m : σ) (vInit : ℕ → ℝ) (tx : ℝ) (k : ℕ) (st : NRState σ)
    (hk : k < C.maxIters) (hreach : RunReach C O m vInit tx k st)
    (hnan : ∀ A, C.solve A (fun i => jOf (O.stampLinear m tx).2 i + jOf (O.stampNonlinear st.stamper st.vPrev k).2 i) = none) :
    ∃ e, nrRun C O m vInit tx = .error e := by
  have hp : ∃ e, runPass C O m vInit tx k st = .error e := by
    cases hp : runPass C O m vInit tx k st with
    | error e => exact ⟨e, rfl⟩
    | ok p =>
      obtain ⟨F, _⟩ := nrPass_cases hp
      have := F.sol
      rw [hnan] at this; simp at this
  obtain ⟨e, he⟩ := hp
  refine ⟨e, ?_⟩
  rw [nrRun_of_pass hk hreach, he]; rfl

/-- A stamper that stamps one constant equation `x = 0` and reports the residuals `y 0, y 1, …` in turn. -/
noncomputable def scripted (y : ℕ → ℝ) : StamperOps ℕ where
  stampLinear s _ := (s, [(0, some 0, 1)])
  stampNonlinear s _ _ := (s, [])
  residuals s _ _ _ := (s + 1, [(0, y s)])

/-- The surroundings of the scripted runs: one unknown. -/
noncomputable def scriptedCtx (maxIters : ℕ) (tol : ℝ) : NRContext :=
  ⟨maxIters, tol, false, 1, fun _ b => some b, none⟩

theorem scripted_pass (y : ℕ → ℝ) (n : ℕ) (tol : ℝ) (jl : ℕ → ℝ) (li it : ℕ) (st : NRState ℕ) :
    nrPass (scriptedCtx n tol) (scripted y) 0 jl li it st =
      (let h := st.history ++ [|y st.stamper|]
       let v := fun i => jl i + jOf [] i
       if h.length % 50 = 0 ∧ 0 < slope h then .ok (.ret ⟨false, v, it⟩ ⟨st.stamper + 1, st.Y.stamps [], st.vPrev, h⟩)
       else if |y st.stamper| < tol then .ok (.ret ⟨true, v, it⟩ ⟨st.stamper + 1, st.Y.stamps [], st.vPrev, h⟩)
       else .ok (.next ⟨st.stamper + 1, (st.Y.stamps []).clear li, v, h⟩)) := by
  have hr : residualVector [(0, y st.stamper)] 0 = y st.stamper := by simp [residualVector, addAt]
  unfold nrPass
  simp only [scripted, scriptedCtx, Builder.assertValid, Builder.toMatrix, ResidualDetails.make, bind, Except.bind, amax, hr]
  rfl

/-- The scripted run reaches every iteration up to which no residual is below the tolerance and no bail-out occurs. -/
theorem scripted_reach (y : ℕ → ℝ) (n : ℕ) (tol : ℝ) (k : ℕ) (hy : ∀ j < k, tol ≤ |y j|)
    (hb : ∀ j, j ≤ k → 0 < j → j % 50 ≠ 0) :
    ∃ st, RunReach (scriptedCtx n tol) (scripted y) 0 (fun _ => 0) 0 k st ∧ st.stamper = k ∧
      st.history = (List.range k).map fun j => |y j| := by
  induction k with
  | zero => exact ⟨_, .start, rfl, rfl⟩
  | succ k ih =>
    obtain ⟨st, h1, h2, h3⟩ := ih (fun j hj => hy j (by omega)) (fun j hj => hb j (by omega))
    have hlen : (st.history ++ [|y st.stamper|]).length = k + 1 := by simp [h3]
    have hp := scripted_pass y n tol (jOf ((scripted y).stampLinear 0 0).2)
      (nrStart (scripted y) 0 (fun _ => 0) 0).Y.usage k st
    have e1 : ¬ ((st.history ++ [|y st.stamper|]).length % 50 = 0 ∧ 0 < slope (st.history ++ [|y st.stamper|])) := by
      rw [hlen]; intro hc; exact hb (k + 1) (le_refl _) (by omega) hc.1
    have e2 : ¬ |y st.stamper| < tol := by rw [h2]; exact not_lt.2 (hy k (by omega))
    simp only at hp
    rw [if_neg e1, if_neg e2] at hp
    refine ⟨_, h1.step hp, by simp [h2], ?_⟩
    simp [h3, h2, List.range_succ]

/-- **C22, disagreement.** Residuals that rise from 2 to 49 over 49 iterations and drop to 0 in the fiftieth: the
measured residual of the last iteration is below the tolerance, yet the run reports failure, because the trend check
comes first. -/
theorem C22_converged_is_success_fails :
    ∃ (C : NRContext) (O : StamperOps ℕ) (r : NRResult) (st : NRState ℕ),
      nrRun C O 0 (fun _ => 0) 0 = .ok (r, st) ∧ r.success = false ∧
      ∃ x, st.history[r.iter]? = some x ∧ x < C.tolerance := by
  let y : ℕ → ℝ := fun k => if k < 49 then k + 1 else 0
  obtain ⟨st, h1, h2, h3⟩ := scripted_reach y 60 (1 / 2) 49 (by
    intro j hj
    simp only [y, if_pos hj]
    rw [abs_of_pos (by positivity)]
    have : (0 : ℝ) ≤ j := Nat.cast_nonneg j
    linarith) (by omega)
  have hp := scripted_pass y 60 (1 / 2) (jOf ((scripted y).stampLinear 0 0).2)
      (nrStart (scripted y) 0 (fun _ => 0) 0).Y.usage 49 st
  simp only at hp
  have hy49 : |y st.stamper| = 0 := by rw [h2]; simp [y]
  have hhist : st.history ++ [|y st.stamper|] = (List.range 49).map (fun j : ℕ => ((j : ℝ) + 1)) ++ [0] := by
    rw [hy49, h3]
    congr 1
    apply List.map_congr_left
    intro j hj
    have hj' : j < 49 := by simpa using hj
    simp only [y, if_pos hj']
    rw [abs_of_pos (by positivity)]
  have e1 : (st.history ++ [|y st.stamper|]).length % 50 = 0 ∧ 0 < slope (st.history ++ [|y st.stamper|]) := by
    rw [hhist]
    refine ⟨by simp, ?_⟩
    unfold slope
    simp [List.range_succ, List.zipIdx]
    norm_num
  rw [if_pos e1] at hp
  refine ⟨scriptedCtx 60 (1 / 2), scripted y, _, _, nrRun_of_ret (by decide) h1 hp, rfl, 0, ?_, by simp [scriptedCtx]⟩
  rw [hhist]
  rw [List.getElem?_append_right (by simp)]
  simp

/-- **C22, what holds.** A measured residual below the tolerance ends the run at that iteration, and with success unless
the number of iterations is a multiple of 50 and the trend is rising. Missing: that last case. -/
theorem C22_converged_is_success_partial (C : NRContext) (O : StamperOps σ) (m : σ) (vInit : ℕ → ℝ) (tx : ℝ) (r : NRResult)
    (st : NRState σ) (h : nrRun C O m vInit tx = .ok (r, st)) (k : ℕ) (x : ℝ) (hx : st.history[k]? = some x)
    (hlt : x < C.tolerance) :
    r.iter = k ∧ (¬ ((k + 1) % 50 = 0 ∧ 0 < slope st.history) → r.success = true) := by
  obtain ⟨h1, h2, h3, h4, h5, h6⟩ := C21_bookkeeping C O m vInit tx r st h
  have hk : k < st.history.length := (List.getElem?_eq_some_iff.1 hx).1
  have hi : r.iter = k := by
    by_contra hne
    exact absurd hlt (not_lt.2 (h4 k (by omega) x hx))
  refine ⟨hi, fun hb => ?_⟩
  obtain ⟨_, ⟨k2, st2, hk2, hreach, F, rfl, hv, hi2, ⟨_, hc⟩ | ⟨hc, _⟩⟩ | ⟨hreach, rfl⟩⟩ := nrRun_end h
  · exfalso; apply hb
    unfold Bails at hc
    rw [← h3, hi] at hc
    exact hc
  · exact hc
  · exfalso
    obtain ⟨_, l2, _⟩ := reach_history rfl hreach
    exact l2 x (List.mem_of_getElem? hx) hlt

/-- Three scripted iterations with residuals 3, 2, 0: success at iteration 2, as both theorems say. -/
example : ∃ r st, nrRun (scriptedCtx 10 1) (scripted fun k => if k = 0 then 3 else if k = 1 then 2 else 0) 0 (fun _ => 0) 0 = .ok (r, st) ∧
    r.success = true ∧ r.iter = 2 := by
  obtain ⟨st, h1, h2, h3⟩ := scripted_reach (fun k => if k = 0 then 3 else if k = 1 then 2 else 0) 10 1 2
    (by intro j hj; interval_cases j <;> norm_num) (by omega)
  have hp := scripted_pass (fun k => if k = 0 then 3 else if k = 1 then 2 else 0) 10 1
    (jOf ((scripted fun k => if k = 0 then 3 else if k = 1 then 2 else 0).stampLinear 0 0).2)
      (nrStart (scripted fun k => if k = 0 then 3 else if k = 1 then 2 else 0) 0 (fun _ => 0) 0).Y.usage 2 st
  simp only at hp
  rw [if_neg (by simp [h3]), if_pos (by simp [h2])] at hp
  exact ⟨_, _, nrRun_of_ret (by decide) h1 hp, rfl, rfl⟩

/-! ### C03, C25: what a success says about the equations -/

/-- **C25, what holds.** On a stamper that is fresh or whose previous run ended at a later iteration than the first
(`it0 ≠ 0`), a run that returns at iteration 0 returns the Newton step from the vector it was given, for the factor it was
given. Missing: a stamper whose previous run ended at iteration 0. -/
theorem C25_first_step_partial (opt : Bool) (ps : List Placed) (m : Stamper) (v0 : ℕ → ℝ) (it0 : ℤ) (hr : Ready opt ps m v0 it0)
    (hit : it0 ≠ 0) (C : NRContext) (hsolve : ExactSolver C.size C.solve) (hmax : C.maxIters ≠ 1 ∨ C.limit = none)
    (hn : ∀ p ∈ ps, ∀ x ∈ p.details.seg.vars, ∀ c, p.details.varMap x = some c → c < C.size)
    (vInit : ℕ → ℝ) (tx : ℝ) (hreg : ∀ p ∈ ps, p.Regular tx vInit)
    (r : NRResult) (st : NRState Stamper) (h : nrRun C Stamper.ops m vInit tx = .ok (r, st)) (hz : r.iter = 0) :
    NewtonStep ps tx C.size vInit r.v := by
  have key : ∀ st2 (F : RunFacts C Stamper.ops m vInit tx 0 st2), RunReach C Stamper.ops m vInit tx 0 st2 →
      NewtonStep ps tx C.size vInit F.vNext := by
    intro st2 F hreach
    have hv : st2.vPrev = vInit := (reach_at hr hreach).2.1 rfl
    have hw : linPoint v0 it0 0 st2 = vInit := by unfold linPoint; rw [if_neg (by simp [hit]), hv]
    have hd := fun i => network_jacobian ps tx vInit hreg (fun k => F.vNext k - vInit k) i
    refine ⟨_, hd, ?_⟩
    have := pass_newton hr hn hreach (Or.inr rfl) F (by rw [hw]; exact hreg) (x := F.vNext) (by rw [hw]; exact hd)
    rw [hw] at this
    exact this.1 (hsolve _ _ _ F.sol)
  obtain ⟨hm, ⟨k, st2, hk, hreach, F, rfl, hv, hi, _⟩ | ⟨hreach, rfl⟩⟩ := nrRun_end h
  · have hk0 : k = 0 := by omega
    subst hk0
    rw [hv]; exact key st2 F hreach
  · have h1 : C.maxIters = 1 := by simp only at hz; omega
    have hlim : C.limit = none := hmax.resolve_left (by omega)
    rw [h1] at hreach
    cases hreach with
    | @step k st2 _ hreach2 hp =>
      obtain ⟨F, ⟨_, hF⟩ | ⟨_, _, hF⟩ | ⟨_, _, hF⟩⟩ := nrPass_cases hp
      · simp at hF
      · simp at hF
      · injection hF with hF
        subst hF
        show NewtonStep ps tx C.size vInit F.carry
        unfold PassFacts.carry
        rw [hlim]
        exact key st2 F hreach2

/-- **C03, what holds.** A success returned by a run on a fresh stamper means: there is a vector `w` (the given one if the
run ended at iteration 0) at which every network equation is below the tolerance, and, if the run ended at iteration 0
or in debug mode, the returned vector is the Newton step from `w`. Missing: the residual at the returned vector itself,
which is not what the code evaluates. -/
theorem C03_success_residual_partial (opt : Bool) (ps : List Placed) (hw : ∀ p ∈ ps, p.WellPlaced opt) (m : Stamper)
    (hm : Stamper.build opt ps = .ok m) (C : NRContext) (hsolve : ExactSolver C.size C.solve)
    (hn : ∀ p ∈ ps, ∀ x ∈ p.details.seg.vars, ∀ c, p.details.varMap x = some c → c < C.size)
    (vInit : ℕ → ℝ) (tx : ℝ) (r : NRResult) (st : NRState Stamper)
    (h : nrRun C Stamper.ops m vInit tx = .ok (r, st)) (hs : r.success = true) :
    ∃ w, (r.iter = 0 → w = vInit) ∧ (∀ i < C.size, |networkEq ps tx w i| < C.tolerance) ∧
      ((C.debug = true ∨ r.iter = 0) → (∀ p ∈ ps, p.Regular tx w) → NewtonStep ps tx C.size w r.v) := by
  obtain ⟨m0, hm0, hr⟩ := build_ready opt ps hw
  rw [hm] at hm0; injection hm0 with hm0; subst hm0
  obtain ⟨_, ⟨k, st2, hk, hreach, F, rfl, hv, hi, hcase⟩ | ⟨hreach, rfl⟩⟩ := nrRun_end h
  · have ht : F.rd.maxResidual < C.tolerance := by
      rcases hcase with ⟨hf, _⟩ | ⟨_, _, ht⟩
      · rw [hs] at hf; simp at hf
      · exact ht
    have hlin : linPoint (fun _ => 0) (-1) k st2 = st2.vPrev := by unfold linPoint; rw [if_neg (by simp)]
    obtain ⟨_, _, p3, _⟩ := pass_spec hr hreach F
    rw [hlin] at p3
    refine ⟨st2.vPrev, fun h0 => (reach_at hr hreach).2.1 (by omega), fun i hi => lt_of_le_of_lt (p3 i hi) ht, ?_⟩
    intro hc hreg
    have hd := fun i => network_jacobian ps tx st2.vPrev hreg (fun k => F.vNext k - st2.vPrev k) i
    rw [hv]
    refine ⟨_, hd, ?_⟩
    have := pass_newton hr hn hreach (hc.imp id (fun h => by omega)) F (by rw [hlin]; exact hreg) (x := F.vNext)
      (by rw [hlin]; exact hd)
    rw [hlin] at this
    exact this.1 (hsolve _ _ _ F.sol)
  · simp at hs

/-! #### The witness

The feeder with a load just above what the line can deliver: no voltages satisfy its equations. Started a hair's breadth
from the nose of the power-voltage curve, the residual at the start is below the tolerance, so the code reports success;
the voltages it returns are those of the Newton step, far away. -/

/-- The start vector. -/
noncomputable def noseVec : ℕ → ℝ := fun i => if i = 0 then 1 else if i = 2 then 1 / 2 else if i = 4 then -1 / 2 else 0

/-- What the Newton step returns. -/
noncomputable def noseStep : ℕ → ℝ := fun i => if i = 0 then 1 else if i = 2 then 1 else 0

/-- The load. -/
noncomputable def noseLoad (tol : ℝ) : ℝ := 1 / 4 + tol / 4

theorem nose_residual (tol : ℝ) (hpos : 0 < tol) (i : ℕ) : |feederEq (noseLoad tol) noseVec i| ≤ tol / 2 := by
  match i with
  | 0 => simp [feederEq, noseVec]; norm_num; linarith
  | 1 => simp [feederEq, noseVec]; linarith
  | 2 =>
    have : feederEq (noseLoad tol) noseVec 2 = tol / 2 := by simp [feederEq, noseVec, noseLoad]; ring
    rw [this, abs_of_pos (by linarith)]
  | 3 => simp [feederEq, noseVec]; linarith
  | 4 => simp [feederEq, noseVec]; linarith
  | 5 => simp [feederEq, noseVec]; linarith
  | k + 6 => simp [feederEq]; linarith

theorem nose_solves (tol : ℝ) (hpos : 0 < tol) (x : ℕ → ℝ) :
    (∀ i < 6, feederEq (noseLoad tol) noseVec i + feederDir (noseLoad tol) noseVec (fun k => x k - noseVec k) i = 0) ↔
      ∀ i < 6, x i = noseStep i := by
  have hP : noseLoad tol / (1 / 2) ^ 2 = 1 + tol := by unfold noseLoad; ring
  constructor
  · intro h
    have e0 := h 0 (by omega)
    have e1 := h 1 (by omega)
    have e2 := h 2 (by omega)
    have e3 := h 3 (by omega)
    have e4 := h 4 (by omega)
    have e5 := h 5 (by omega)
    simp [feederEq, feederDir, noseVec, noseLoad] at e0 e1 e2 e3 e4 e5
    have x0 : x 0 = 1 := by linarith
    have x1 : x 1 = 0 := e5
    have x2 : x 2 = 1 := by
      rw [x0] at e2
      have : tol * (x 2 - 1) = 0 := by linear_combination -e2
      rcases mul_eq_zero.1 this with h | h
      · linarith
      · linarith
    have x3 : x 3 = 0 := by
      rw [x1] at e3
      have : (2 + tol) * x 3 = 0 := by linear_combination e3
      rcases mul_eq_zero.1 this with h | h
      · linarith
      · exact h
    have x4 : x 4 = 0 := by rw [x0, x2] at e0; linarith
    have x5 : x 5 = 0 := by rw [x1, x3] at e1; linarith
    intro i hi
    interval_cases i <;> simp [noseStep, *]
  · intro h i hi
    have x0 := h 0 (by omega)
    have x1 := h 1 (by omega)
    have x2 := h 2 (by omega)
    have x3 := h 3 (by omega)
    have x4 := h 4 (by omega)
    have x5 := h 5 (by omega)
    simp [noseStep] at x0 x1 x2 x3 x4 x5
    clear h
    interval_cases i <;> simp only [feederEq, feederDir, x0, x1, x2, x3, x4, x5] <;> simp [noseVec, noseLoad] <;> ring

/-- The surroundings of the witness: an exact linear solver, any positive iteration limit, any limiting. -/
noncomputable def noseCtx (n : ℕ) (tol : ℝ) (lim : Option ((ℕ → ℝ) → (ℕ → ℝ) → (ℕ → ℝ))) : NRContext :=
  ⟨n + 1, tol, false, 6, idealSolve 6, lim⟩

/-- One run on the feeder whose first linearisation happens at `noseVec`, whatever vector it was given. -/
theorem nose_run (hL : L.Loaded) (n : ℕ) (tol : ℝ) (hpos : 0 < tol) (lim : Option ((ℕ → ℝ) → (ℕ → ℝ) → (ℕ → ℝ))) (m : Stamper)
    (v0 : ℕ → ℝ) (it0 : ℤ) (hr : Ready false ((feeder (noseLoad tol)).assign L).all m v0 it0) (vInit : ℕ → ℝ)
    (hlin : (if it0 = 0 then v0 else vInit) = noseVec) :
    ∃ r st, nrRun (noseCtx n tol lim) Stamper.ops m vInit 0 = .ok (r, st) ∧ r.success = true ∧ r.iter = 0 ∧
      (∀ i < 6, r.v i = noseStep i) ∧ Ready false ((feeder (noseLoad tol)).assign L).all st.stamper noseVec 0 := by
  set P := noseLoad tol with hP
  set ps := ((feeder P).assign L).all with hps
  set st0 := nrStart Stamper.ops m vInit 0 with hst0
  have hreach : RunReach (noseCtx n tol lim) Stamper.ops m vInit 0 0 st0 := .start
  have hw : linPoint v0 it0 0 st0 = noseVec := by
    unfold linPoint
    simp only [true_and]
    exact hlin
  have hreg : ∀ p ∈ ps, p.Regular 0 noseVec :=
    network_regular hL (feeder P) (feeder_valid P) 0 noseVec (feeder_regularAt P noseVec (by simp [noseVec]))
  have hn : ∀ p ∈ ps, ∀ x ∈ p.details.seg.vars, ∀ c, p.details.varMap x = some c → c < 6 := fun p hp x hx c hc => by
    have := network_below hL (feeder P) p hp x hx c hc
    rwa [feeder_size hL] at this
  have hrow : ∀ i v, networkEq ps 0 v i = feederEq P v i := fun i v => feeder_rows hL P v i
  have hd : ∀ x : ℕ → ℝ, ∀ i, HasDerivAt (fun s => networkEq ps 0 (along noseVec (fun k => x k - noseVec k) s) i)
      (feederDir P noseVec (fun k => x k - noseVec k) i) 0 := fun x i => by
    simp only [hrow]
    exact feeder_dir P noseVec _ (by simp [noseVec]) (by simp [noseVec]) i
  -- the system of the first pass
  obtain ⟨i1, _, i3⟩ := reach_at hr hreach
  obtain ⟨j1, j2⟩ := mid_at i1 i3
  rw [hw] at j2
  have hperm : ((Stamper.ops.stampLinear m 0).2 ++ (Stamper.ops.stampNonlinear st0.stamper st0.vPrev 0).2).Perm
      ((ps.flatMap fun p => p.emitted 0 noseVec true) ++ (ps.flatMap fun p => p.emitted 0 noseVec false)) := by
    refine List.Perm.append ?_ (emit_perm j1 j2 false)
    have := emit_perm (hr.frozen.updateTx 0) (hr.at_ 0) true
    have e : (ps.flatMap fun p => p.emitted 0 v0 true) = ps.flatMap fun p => p.emitted 0 noseVec true :=
      List.flatMap_congr fun p hp => emitted_linear (fun x hx hc =>
          (List.nodup_append.1 (hr.frozen.wp p hp).params).2.2 x hc x hx rfl) 0 v0 noseVec
    rw [e] at this
    exact this
  have hsol := fun x => newton_solves hreg hn hperm (hd x)
  have hA : Builder.matOf (st0.Y.stamps (tripsOf (Stamper.ops.stampNonlinear st0.stamper st0.vPrev 0).2)).entries =
      Builder.matOf (tripsOf ((Stamper.ops.stampLinear m 0).2 ++ (Stamper.ops.stampNonlinear st0.stamper st0.vPrev 0).2)) := by
    funext i j
    obtain ⟨A, hA, h2⟩ := C04_matrix_current_partial (tripsOf (Stamper.ops.stampLinear m 0).2) []
      (tripsOf (Stamper.ops.stampNonlinear st0.stamper st0.vPrev 0).2) (by simp)
    rw [tripsOf_append, ← h2 i j]
    unfold Builder.toMatrix at hA
    simp at hA
    rw [← hA]; rfl
  have hJ : (fun i => jOf (Stamper.ops.stampLinear m 0).2 i + jOf (Stamper.ops.stampNonlinear st0.stamper st0.vPrev 0).2 i) =
      jOf ((Stamper.ops.stampLinear m 0).2 ++ (Stamper.ops.stampNonlinear st0.stamper st0.vPrev 0).2) := by
    funext i; rw [jOf_append]
  have hiff : ∀ x, Solves 6 (Builder.matOf (tripsOf ((Stamper.ops.stampLinear m 0).2 ++ (Stamper.ops.stampNonlinear st0.stamper st0.vPrev 0).2)))
      (jOf ((Stamper.ops.stampLinear m 0).2 ++ (Stamper.ops.stampNonlinear st0.stamper st0.vPrev 0).2)) x ↔ ∀ i < 6, x i = noseStep i := by
    intro x
    rw [hsol x]
    simp only [hrow]
    exact nose_solves tol hpos x
  obtain ⟨y, hy, hy2⟩ := idealSolve_of ((hiff noseStep).2 fun i _ => rfl) (fun z hz i hi => (hiff z).1 hz i hi)
  obtain ⟨p, hp⟩ := nrPass_ok (C := noseCtx n tol lim) (O := Stamper.ops) (tx := 0) (jl := jOf (Stamper.ops.stampLinear m 0).2)
    (li := st0.Y.usage) (it := 0) (st := st0) rfl (by simp [noseCtx]) (v := y) (by
      rw [Nat.cast_zero, hA, hJ]; exact hy)
  obtain ⟨F, hF⟩ := nrPass_cases hp
  obtain ⟨_, _, p3, ⟨i, hi, p4⟩, p5, p6⟩ := pass_spec hr hreach F
  have hres : F.rd.maxResidual < tol := by
    rw [← p4, hw, hrow]
    exact lt_of_le_of_lt (nose_residual tol hpos i) (by linarith)
  have hnb : ¬ Bails (st0.history ++ [F.rd.maxResidual]) := by
    intro hb; have := hb.1; simp [hst0, nrStart] at this
  rcases hF with ⟨hb, _⟩ | ⟨_, _, hF⟩ | ⟨_, ht, _⟩
  · exact absurd hb hnb
  · rw [hF] at hp
    refine ⟨_, _, nrRun_of_ret (by simp [noseCtx]) hreach hp, rfl, rfl, ?_, ?_⟩
    · have hv : Solves 6 F.A _ F.vNext := idealSolve_exact 6 _ _ _ F.sol
      have := (pass_newton hr hn hreach (Or.inr rfl) F (by rw [hw]; exact hreg) (x := F.vNext) (by rw [hw]; exact hd _)).1 hv
      rw [hw] at this
      simp only [hrow] at this
      exact (nose_solves tol hpos F.vNext).1 this
    · rw [hw] at p5
      exact Ready.of_at p6 p5
  · exact absurd hres ht

/-- **C03, disagreement.** For every tolerance up to one quarter, every iteration limit and limiting, and an exact linear
solver: there is a valid network and a start vector for which the run reports success, although the returned voltages
violate an equation by more than the tolerance, and although no voltages at all satisfy the network's equations. -/
theorem C03_success_residual_fails (hL : L.Loaded) (n : ℕ) (tol : ℝ) (hpos : 0 < tol) (hle : tol ≤ 1 / 4)
    (lim : Option ((ℕ → ℝ) → (ℕ → ℝ) → (ℕ → ℝ))) :
    ∃ (N : Network) (vInit : ℕ → ℝ) (m : Stamper) (r : NRResult) (st : NRState Stamper),
      N.Valid ∧ Stamper.build N.opt (N.assign L).all = .ok m ∧ (N.assign L).size = (noseCtx n tol lim).size ∧
      nrRun (noseCtx n tol lim) Stamper.ops m vInit 0 = .ok (r, st) ∧ r.success = true ∧
      (∃ i < (N.assign L).size, tol < |networkEq (N.assign L).all 0 r.v i|) ∧
      ∀ v, ∃ i < (N.assign L).size, networkEq (N.assign L).all 0 v i ≠ 0 := by
  obtain ⟨m, hm, hr⟩ := build_ready false ((feeder (noseLoad tol)).assign L).all
    (network_wellPlaced hL (feeder (noseLoad tol)) (feeder_valid _))
  obtain ⟨r, st, h1, h2, h3, h4, _⟩ := nose_run hL n tol hpos lim m _ _ hr noseVec (by simp)
  refine ⟨feeder (noseLoad tol), noseVec, m, r, st, feeder_valid _, hm, feeder_size hL _, h1, h2, ?_, ?_⟩
  · refine ⟨2, by rw [feeder_size hL]; omega, ?_⟩
    rw [feeder_rows hL]
    simp only [feederEq]
    rw [h4 2 (by omega), h4 0 (by omega), h4 3 (by omega)]
    simp [noseStep, noseLoad]
    rw [abs_of_pos (by linarith)]; linarith
  · intro v
    obtain ⟨i, hi, h⟩ := feeder_unsolvable (noseLoad tol) (by unfold noseLoad; linarith) v
    exact ⟨i, by rw [feeder_size hL]; exact hi, by rw [feeder_rows hL]; exact h⟩

/-- **C25, disagreement.** Two runs on one stamper, the second started from the first one's result, as in a homotopy
sequence: the first ends at iteration 0, so the second ignores its start vector. It reports success at iteration 0
although an equation at its start vector is violated by more than the tolerance, and it returns a vector that is not the
Newton step from its start vector. -/
theorem C25_second_run_fails (hL : L.Loaded) (n : ℕ) (tol : ℝ) (hpos : 0 < tol) (hle : tol ≤ 1 / 4)
    (lim : Option ((ℕ → ℝ) → (ℕ → ℝ) → (ℕ → ℝ))) :
    ∃ (N : Network) (vInit : ℕ → ℝ) (m : Stamper) (r1 r2 : NRResult) (st1 st2 : NRState Stamper),
      N.Valid ∧ Stamper.build N.opt (N.assign L).all = .ok m ∧
      nrRun (noseCtx n tol lim) Stamper.ops m vInit 0 = .ok (r1, st1) ∧ r1.success = true ∧
      nrRun (noseCtx n tol lim) Stamper.ops st1.stamper r1.v 0 = .ok (r2, st2) ∧ r2.success = true ∧ r2.iter = 0 ∧
      (∃ i < (N.assign L).size, tol < |networkEq (N.assign L).all 0 r1.v i|) ∧
      ¬ NewtonStep (N.assign L).all 0 (N.assign L).size r1.v r2.v := by
  set P := noseLoad tol with hP
  obtain ⟨m, hm, hr⟩ := build_ready false ((feeder P).assign L).all (network_wellPlaced hL (feeder P) (feeder_valid _))
  obtain ⟨r, st, h1, h2, h3, h4, h5⟩ := nose_run hL n tol hpos lim m _ _ hr noseVec (by simp)
  obtain ⟨r2, st2, g1, g2, g3, g4, _⟩ := nose_run hL n tol hpos lim st.stamper _ _ h5 r.v (by simp)
  refine ⟨feeder P, noseVec, m, r, r2, st, st2, feeder_valid _, hm, h1, h2, g1, g2, g3, ?_, ?_⟩
  · refine ⟨2, by rw [feeder_size hL]; omega, ?_⟩
    rw [feeder_rows hL]
    simp only [feederEq]
    rw [h4 2 (by omega), h4 0 (by omega), h4 3 (by omega)]
    simp [noseStep, hP, noseLoad]
    rw [abs_of_pos (by linarith)]; linarith
  · rintro ⟨d, hd, hz⟩
    have e := hz 2 (by rw [feeder_size hL]; omega)
    have hc := hd 2
    have hconst : ∀ s : ℝ, ∀ k < 6, r.v k + s * (r2.v k - r.v k) = r.v k := fun s k hk => by
      rw [g4 k hk, h4 k hk]; ring
    have : (fun s => networkEq ((feeder P).assign L).all 0 (fun k => r.v k + s * (r2.v k - r.v k)) 2) =
        fun _ => networkEq ((feeder P).assign L).all 0 r.v 2 := by
      funext s
      rw [feeder_rows hL, feeder_rows hL]
      simp only [feederEq]
      rw [hconst s 2 (by omega), hconst s 0 (by omega), hconst s 3 (by omega)]
    rw [this] at hc
    rw [(hasDerivAt_const (0 : ℝ) _).unique hc |>.symm, feeder_rows hL] at e
    simp only [feederEq] at e
    rw [h4 2 (by omega), h4 0 (by omega), h4 3 (by omega)] at e
    simp [noseStep, hP, noseLoad] at e
    linarith

/-! ### Examples -/

/-- The two resistors of `Props/Assembly`: the assembled matrix is the Jacobian of their equations. -/
example (us : List Upd) := C01_matrix_is_jacobian false [exPlaced 0, exPlaced 1] exPlaced_pair 0 us (by simp [exPlaced_regular]) 2
  exPlaced_below

example (us : List Upd) := C02_newton_step false [exPlaced 0, exPlaced 1] exPlaced_pair 0 us (by simp [exPlaced_regular]) 2
  exPlaced_below

/-- The scripted run above made three solves; its first two residuals were not below the tolerance. -/
example (r : NRResult) (st : NRState ℕ)
    (h : nrRun (scriptedCtx 10 1) (scripted fun k => if k = 0 then 3 else if k = 1 then 2 else 0) 0 (fun _ => 0) 0 = .ok (r, st))
    (hi : r.iter = 2) : st.history.length = 3 := by
  have := (C21_bookkeeping _ _ _ _ _ r st h).2.2.1
  omega

/-- A linear solver that always gives NaN. -/
example : ∃ e, nrRun ⟨10, 1, false, 1, fun _ _ => none, none⟩ (scripted fun _ => 3) 0 (fun _ => 0) 0 = .error e :=
  C21_nan_raises _ _ _ _ _ 0 _ (by decide) .start fun _ => rfl

/-- The feeder of the witnesses, from its own vector: a first run that ends at iteration 0, whose result is the Newton step
and whose equations were below the tolerance at the start vector. -/
example (hL : L.Loaded) : ∃ m r st, nrRun (noseCtx 9 (1 / 10) none) Stamper.ops m noseVec 0 = .ok (r, st) ∧
    NewtonStep ((feeder (noseLoad (1 / 10))).assign L).all 0 6 noseVec r.v ∧
    ∀ i < 6, |networkEq ((feeder (noseLoad (1 / 10))).assign L).all 0 noseVec i| < 1 / 10 := by
  have hn : ∀ p ∈ ((feeder (noseLoad (1 / 10))).assign L).all, ∀ x ∈ p.details.seg.vars, ∀ c, p.details.varMap x = some c → c < 6 :=
    fun p hp x hx c hc => by
      have := network_below hL (feeder (noseLoad (1 / 10))) p hp x hx c hc
      rwa [feeder_size hL] at this
  have hw := network_wellPlaced hL (feeder (noseLoad (1 / 10))) (feeder_valid _)
  have hreg := network_regular hL (feeder (noseLoad (1 / 10))) (feeder_valid _) 0 noseVec (feeder_regularAt _ noseVec (by simp [noseVec]))
  obtain ⟨m, hm, hr⟩ := build_ready false ((feeder (noseLoad (1 / 10))).assign L).all hw
  obtain ⟨r, st, h1, h2, h3, -⟩ := nose_run hL 9 (1 / 10) (by norm_num) none m _ _ hr noseVec (by simp)
  refine ⟨m, r, st, h1, C25_first_step_partial false _ m _ _ hr (by decide) _ (idealSolve_exact 6) (Or.inr rfl) hn noseVec 0 hreg r st h1 h3, ?_⟩
  obtain ⟨w, e, h, -⟩ := C03_success_residual_partial false _ hw m hm (noseCtx 9 (1 / 10) none) (idealSolve_exact 6) hn noseVec 0 r st h1 h2
  rw [e h3] at h
  exact h

end Verif
