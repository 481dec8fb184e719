import Verif.Props.Newton
import Verif.Model.Homotopy

/-!
# C23, C24: the homotopy sequence
-/

namespace Verif

variable {σ : Type}

/-- The calls were really made, one after the other on the evolving stamper. -/
inductive CallChain (run : NewtonRun σ) : σ → List NRCall → σ → Prop
  | nil (m : σ) : CallChain run m [] m
  | cons {m m1 m2 : σ} {c : NRCall} {cs : List NRCall} : run m c.start c.tx = .ok (c.result, m1) →
      CallChain run m1 cs m2 → CallChain run m (c :: cs) m2

/-- A descending sequence of factors from `k / 100`: the first started from `v`, every other one from the previous result,
which was a success. -/
structure Descent (v : ℕ → ℝ) (k : ℕ) (cs : List NRCall) : Prop where
  first : ∀ c, cs[0]? = some c → c.start = v
  tx : ∀ (j : ℕ) (c : NRCall), cs[j]? = some c → c.tx = ((k : ℝ) - j) / 100
  next : ∀ (j : ℕ) (c c' : NRCall), cs[j]? = some c → cs[j + 1]? = some c' → c'.start = c.result.v ∧ c.result.success = true

theorem homotopyLoop_spec (run : NewtonRun σ) (k : ℕ) (ok : Bool) (v : ℕ → ℝ) (its : ℕ) (m : σ) (calls : List NRCall)
    (r : HomotopyResult σ) (h : homotopyLoop run k ok v its m calls txScale = .ok r) :
    ∃ new, r.calls = calls ++ new ∧ new.length ≤ k ∧ CallChain run m new r.stamper ∧ Descent v ((k : ℕ) - 1) new ∧
      (k ≠ 0 → new ≠ []) ∧
      (new = [] → r.success = ok ∧ r.v = v) ∧
      (∀ c, new.getLast? = some c → r.v = c.result.v ∧ r.success = c.result.success ∧ r.iterations = c.result.iter + 1) ∧
      ((new ≠ [] → r.success = true) → new.length = k ∧ r.txPercent = -1) ∧
      (new ≠ [] → r.success = false → ∃ c, new.getLast? = some c ∧ r.tx = c.tx ∧ 0 ≤ r.txPercent ∧ r.txPercent ≤ (k : ℤ) - 1) := by
  induction k generalizing ok v its m calls with
  | zero =>
    simp only [homotopyLoop, Except.ok.injEq] at h
    subst h
    exact ⟨[], by simp, by simp, .nil m, ⟨by simp, by simp, by simp⟩, by simp, by simp, by simp, by simp, by simp⟩
  | succ k ih =>
    unfold homotopyLoop at h
    simp only [bind, Except.bind] at h
    split at h
    · simp at h
    · rename_i p hp
      obtain ⟨res, m'⟩ := p
      simp only at h
      by_cases hs : res.success = true
      · rw [if_pos hs] at h
        obtain ⟨new, e1, e2, e3, e4, e5, e6, e7, e8, e9⟩ := ih _ _ _ _ _ h
        refine ⟨⟨v, txScale k, res⟩ :: new, by simp [e1], by simp; omega, .cons hp e3, ⟨?_, ?_, ?_⟩, by simp, by simp, ?_, ?_, ?_⟩
        · intro c hc; simp at hc; rw [← hc]
        · intro j c hc
          cases j with
          | zero => simp at hc; rw [← hc]; simp [txScale]; ring
          | succ j =>
            rw [List.getElem?_cons_succ] at hc
            rw [e4.tx j c hc]
            have hj : j < new.length := (List.getElem?_eq_some_iff.1 hc).1
            have : 1 ≤ k := by omega
            push_cast [Nat.cast_sub this]
            ring
        · intro j c c' hc hc'
          cases j with
          | zero =>
            simp only [List.getElem?_cons_zero, Option.some.injEq] at hc
            rw [List.getElem?_cons_succ] at hc'
            rw [← hc]
            exact ⟨e4.first c' hc', hs⟩
          | succ j =>
            rw [List.getElem?_cons_succ] at hc hc'
            exact e4.next j c c' hc hc'
        · intro c hc
          by_cases hn : new = []
          · subst hn
            simp only [List.getLast?_singleton, Option.some.injEq] at hc
            subst hc
            have hk : k = 0 := by by_contra hk; exact e5 hk rfl
            subst hk
            simp only [homotopyLoop, Except.ok.injEq] at h
            subst h
            exact ⟨rfl, rfl, rfl⟩
          · rw [List.getLast?_cons_of_ne_nil hn] at hc
            exact e7 c hc
        · intro hsucc
          have := e8 (fun _ => hsucc (by simp))
          exact ⟨by simp [this.1], this.2⟩
        · intro _ hf
          by_cases hn : new = []
          · rw [(e6 hn).1, hs] at hf; simp at hf
          · obtain ⟨c, hc, h1, h2, h3⟩ := e9 hn hf
            exact ⟨c, by rw [List.getLast?_cons_of_ne_nil hn]; exact hc, h1, h2, by push_cast; omega⟩
      · rw [if_neg hs] at h
        injection h with h
        subst h
        refine ⟨[⟨v, txScale k, res⟩], rfl, by simp, .cons hp (.nil m'), ⟨?_, ?_, ?_⟩, by simp, by simp, ?_, ?_, ?_⟩
        · intro c hc; simp at hc; rw [← hc]
        · intro j c hc
          cases j with
          | zero => simp at hc; rw [← hc]; simp [txScale]; ring
          | succ j => simp at hc
        · intro j c c' hc hc'
          simp at hc'
        · intro c hc; simp at hc; subst hc; exact ⟨rfl, rfl, rfl⟩
        · intro hsucc; exact absurd (hsucc (by simp)) hs
        · intro _ _
          exact ⟨_, rfl, by simp [HomotopyResult.tx, txScale], by simp, by simp⟩

theorem getLast?_append_ne {α : Type} (a b : List α) (h : b ≠ []) : (a ++ b).getLast? = b.getLast? := by
  rw [List.getLast?_append]
  cases hb : b.getLast? with
  | none => rw [List.getLast?_eq_none_iff] at hb; exact absurd hb h
  | some x => rfl

/-- **C23.** For every behaviour of the Newton solver: the Newton runs of a homotopy solve are a first one at factor 0 from
the given vector and, only if it failed and stepping is on, runs at 1, 0.99, … each started from the previous
successful one's result, the first again from the given vector. A reported success means that the last run was at
factor 0, succeeded, and gave the returned voltages. A failure during stepping reports the factor that failed. -/
theorem C23_homotopy (run : NewtonRun σ) (txStepping : Bool) (m : σ) (vInit : ℕ → ℝ) (r : HomotopyResult σ)
    (h : homotopyRun run txStepping m vInit = .ok r) :
    ∃ c0 steps, r.calls = c0 :: steps ∧ c0.start = vInit ∧ c0.tx = 0 ∧ CallChain run m r.calls r.stamper ∧
      Descent vInit 100 steps ∧ steps.length ≤ 101 ∧
      (steps ≠ [] → c0.result.success = false ∧ txStepping = true) ∧
      (∃ c, r.calls.getLast? = some c ∧ r.v = c.result.v ∧ r.success = c.result.success ∧ (r.success = true → c.tx = 0)) ∧
      (steps ≠ [] → r.success = false → ∃ c, r.calls.getLast? = some c ∧ r.tx = c.tx) := by
  unfold homotopyRun at h
  simp only [bind, Except.bind] at h
  split at h
  · simp at h
  · rename_i p hp
    obtain ⟨res, m'⟩ := p
    simp only at h
    by_cases hc : res.success = true ∨ txStepping = false
    · rw [if_pos hc] at h
      injection h with h
      subst h
      refine ⟨⟨vInit, 0, res⟩, [], rfl, rfl, rfl, .cons hp (.nil m'), ⟨by simp, by simp, by simp⟩, by simp, by simp, ?_, by simp⟩
      exact ⟨_, rfl, rfl, rfl, fun _ => rfl⟩
    · rw [if_neg hc] at h
      push Not at hc
      obtain ⟨new, e1, e2, e3, e4, e5, e6, e7, e8, e9⟩ := homotopyLoop_spec run 101 _ _ _ _ _ r h
      have hne := e5 (by simp)
      have hlast : ([(⟨vInit, 0, res⟩ : NRCall)] ++ new).getLast? = new.getLast? := getLast?_append_ne _ _ hne
      refine ⟨⟨vInit, 0, res⟩, new, e1, rfl, rfl, by rw [e1]; exact .cons hp e3, e4, e2, ?_, ?_, ?_⟩
      · intro _; exact ⟨by simpa using hc.1, by simpa using hc.2⟩
      · obtain ⟨c, hcl⟩ : ∃ c, new.getLast? = some c := by
          cases hl : new.getLast? with
          | none => rw [List.getLast?_eq_none_iff] at hl; exact absurd hl hne
          | some c => exact ⟨c, rfl⟩
        refine ⟨c, by rw [e1, hlast]; exact hcl, (e7 c hcl).1, (e7 c hcl).2.1, fun hs => ?_⟩
        have hl := (e8 fun _ => hs).1
        rw [List.getLast?_eq_getElem?, hl] at hcl
        rw [e4.tx 100 c hcl]
        norm_num
      · intro _ hf
        obtain ⟨c, hcl, h1, _⟩ := e9 hne hf
        exact ⟨c, by rw [e1, hlast]; exact hcl, h1⟩

/-- **C24, disagreement.** A Newton solver that fails once and then succeeds: the solve succeeds after 102 runs, the last
one at factor 0, and reports a percentage of -0.01. -/
theorem C24_percentage_fails : ∃ (run : NewtonRun ℕ) (r : HomotopyResult ℕ),
    homotopyRun run true 0 (fun _ => 0) = .ok r ∧ r.success = true ∧ r.tx < 0 := by
  let run : NewtonRun ℕ := fun s v _ => .ok (⟨decide (s ≠ 0), v, 0⟩, s + 1)
  have hloop : ∀ k ok (its s : ℕ) calls, 0 < s → (k ≠ 0 ∨ ok = true) →
      ∃ r, homotopyLoop run k ok (fun _ => 0) its s calls txScale = .ok r ∧ r.success = true ∧ r.txPercent = -1 := by
    intro k
    induction k with
    | zero =>
      intro ok its s calls _ hok
      exact ⟨_, rfl, by simpa using hok, rfl⟩
    | succ k ih =>
      intro ok its s calls hs _
      obtain ⟨r, h1, h2⟩ := ih true (0 + 1) (s + 1) (calls ++ [⟨fun _ => 0, txScale k, ⟨true, fun _ => 0, 0⟩⟩]) (by omega) (Or.inr rfl)
      refine ⟨r, ?_, h2⟩
      have hne : s ≠ 0 := by omega
      rw [← h1]
      simp [homotopyLoop, run, bind, Except.bind, hne]
  obtain ⟨r, h1, h2, h3⟩ := hloop 101 false 0 1 [⟨fun _ => 0, 0, ⟨false, fun _ => 0, 0⟩⟩] (by omega) (by simp)
  refine ⟨run, r, ?_, h2, ?_⟩
  · rw [← h1]
    simp [homotopyRun, run, bind, Except.bind]
  · unfold HomotopyResult.tx; rw [h3]; norm_num

/-- **C24, what holds.** The reported factor lies between -0.01 and 1; it is 0 whenever no stepping happened; a failed
stepping reports a factor in `[0, 1]`; a successful stepping always reports -0.01. Missing: 0 in that last case. -/
theorem C24_percentage_partial (run : NewtonRun σ) (txStepping : Bool) (m : σ) (vInit : ℕ → ℝ) (r : HomotopyResult σ)
    (h : homotopyRun run txStepping m vInit = .ok r) :
    (r.calls.length = 1 → r.tx = 0) ∧
    (1 < r.calls.length → r.success = false → 0 ≤ r.tx ∧ r.tx ≤ 1) ∧
    (1 < r.calls.length → r.success = true → r.tx = -(1 / 100) ∧ r.calls.length = 102) := by
  unfold homotopyRun at h
  simp only [bind, Except.bind] at h
  split at h
  · simp at h
  · rename_i p hp
    obtain ⟨res, m'⟩ := p
    simp only at h
    by_cases hc : res.success = true ∨ txStepping = false
    · rw [if_pos hc] at h
      injection h with h
      subst h
      simp [HomotopyResult.tx]
    · rw [if_neg hc] at h
      obtain ⟨new, e1, e2, e3, e4, e5, e6, e7, e8, e9⟩ := homotopyLoop_spec run 101 _ _ _ _ _ r h
      have hne := e5 (by simp)
      have hlen : r.calls.length = new.length + 1 := by rw [e1]; simp
      have hpos : 0 < new.length := List.length_pos_iff.2 hne
      refine ⟨fun h1 => by omega, fun _ hf => ?_, fun _ hs => ?_⟩
      · obtain ⟨c, _, _, h2, h3⟩ := e9 hne hf
        unfold HomotopyResult.tx
        have h2' : (0 : ℝ) ≤ r.txPercent := by exact_mod_cast h2
        have h3' : (r.txPercent : ℝ) ≤ 100 := by
          have : r.txPercent ≤ 100 := by push_cast at h3; omega
          exact_mod_cast this
        constructor <;> linarith
      · obtain ⟨h1, h2⟩ := e8 fun _ => hs
        unfold HomotopyResult.tx
        rw [h2]
        exact ⟨by norm_num, by omega⟩

/-- The feeder of C03 solved through the homotopy controller: one Newton run, at factor 0. -/
example {L : Library} (hL : L.Loaded) : ∃ m r, Stamper.build false ((feeder (noseLoad (1 / 8))).assign L).all = .ok m ∧
    homotopyRun (solverRun (noseCtx 49 (1 / 8) none)) true m noseVec = .ok r ∧ r.success = true ∧ r.calls.length = 1 := by
  obtain ⟨m, hm, hr⟩ := build_ready false ((feeder (noseLoad (1 / 8))).assign L).all
    (network_wellPlaced hL (feeder (noseLoad (1 / 8))) (feeder_valid _))
  obtain ⟨r, st, h1, h2, _⟩ := nose_run hL 49 (1 / 8) (by norm_num) none m _ _ hr noseVec (by simp)
  refine ⟨m, ⟨r.success, r.v, r.iter, 0, st.stamper, [⟨noseVec, 0, r⟩]⟩, hm, ?_, h2, rfl⟩
  simp only [homotopyRun, solverRun, h1, bind, Except.bind]
  rw [if_pos (Or.inl h2)]

/-! ### C68: the residual report -/

/-- The stamper after a Newton run holds the vector of its last linearisation under the reported iteration number. -/
theorem run_leaves (opt : Bool) (ps : List Placed) (m : Stamper) (v0 : ℕ → ℝ) (it0 : ℤ) (hr : Ready opt ps m v0 it0) (C : NRContext)
    (vInit : ℕ → ℝ) (tx : ℝ) (r : NRResult) (st : NRState Stamper) (h : nrRun C Stamper.ops m vInit tx = .ok (r, st)) :
    ∃ w, st.stamper.At w tx r.iter ∧ Frozen opt ps st.stamper ∧ (r.iter = 0 → w = if it0 = 0 then v0 else vInit) ∧
      (r.success = true → ∀ i < C.size, |networkEq ps tx w i| < C.tolerance) := by
  have hlp : ∀ st2, RunReach C Stamper.ops m vInit tx 0 st2 → linPoint v0 it0 0 st2 = if it0 = 0 then v0 else vInit := by
    intro st2 hreach
    unfold linPoint
    rw [(reach_at hr hreach).2.1 rfl]
    simp
  obtain ⟨hm, ⟨k, st2, hk, hreach, F, rfl, hv, hi, hc⟩ | ⟨hreach, rfl⟩⟩ := nrRun_end h
  · obtain ⟨_, _, p3, _, p5, p6⟩ := pass_spec hr hreach F
    refine ⟨linPoint v0 it0 k st2, by rw [hi]; exact p5, p6, fun h0 => ?_, fun hs i hi => ?_⟩
    · have : k = 0 := by omega
      subst this
      exact hlp st2 hreach
    · rcases hc with ⟨hf, _⟩ | ⟨_, _, ht⟩
      · rw [hs] at hf; simp at hf
      · exact lt_of_le_of_lt (p3 i hi) ht
  · obtain ⟨n, hn⟩ := Nat.exists_eq_succ_of_ne_zero hm
    rw [hn] at hreach
    cases hreach with
    | @step k st2 _ hreach2 hp =>
      obtain ⟨F, ⟨_, hF⟩ | ⟨_, _, hF⟩ | ⟨_, _, hF⟩⟩ := nrPass_cases hp
      · simp at hF
      · simp at hF
      · injection hF with hF
        subst hF
        obtain ⟨_, _, _, _, p5, p6⟩ := pass_spec hr hreach2 F
        refine ⟨linPoint v0 it0 n st2, ?_, p6, fun h0 => ?_, by simp⟩
        · simp only [hn, Nat.succ_sub_one]; exact p5
        · simp only [hn, Nat.succ_sub_one] at h0
          subst h0
          exact hlp st2 hreach2

/-- **C68, what holds.** The report belongs to the vector `w` at which the last linear system was assembled, at factor 0:
its entries are the network equations there. Missing: the returned vector. -/
theorem C68_report_partial (opt : Bool) (ps : List Placed) (m : Stamper) (v0 : ℕ → ℝ) (it0 : ℤ) (hr : Ready opt ps m v0 it0)
    (C : NRContext) (vInit : ℕ → ℝ) (tx : ℝ) (res : NRResult) (m' : Stamper) (h : solverRun C m vInit tx = .ok (res, m')) (n : ℕ)
    (hn : n ≠ 0) :
    ∃ w rd, ResidualDetails.make (Stamper.ops.residuals m' 0 res.v res.iter).2 n = .ok rd ∧
      (∀ i, rd.residuals i = networkEq ps 0 w i) ∧
      (res.success = true → ∀ i < C.size, |networkEq ps tx w i| < C.tolerance) := by
  unfold solverRun at h
  simp only [bind, Except.bind] at h
  split at h
  · simp at h
  · rename_i p hp
    obtain ⟨r, st⟩ := p
    simp only [Except.ok.injEq, Prod.mk.injEq] at h
    obtain ⟨rfl, rfl⟩ := h
    obtain ⟨w, h1, h2, _, h4⟩ := run_leaves opt ps m v0 it0 hr C vInit tx r st hp
    obtain ⟨n, rfl⟩ := Nat.exists_eq_succ_of_ne_zero hn
    refine ⟨w, _, rfl, fun i => ?_, h4⟩
    show residualVector _ i = _
    rw [residualVector_eq]
    show rowTotal ((st.stamper.updateV r.v r.iter).updateTx 0).contributions i = _
    rw [At.updateV_same h1]
    exact rowTotal_perm (contributions_perm (h2.updateTx 0) (At.updateTx h1 0)) i

/-- **C68, disagreement.** On the feeder of C03 the reported maximum residual is below the tolerance, while an equation
at the returned voltages is off by more than the tolerance. -/
theorem C68_report_fails {L : Library} (hL : L.Loaded) (n : ℕ) (tol : ℝ) (hpos : 0 < tol) (hle : tol ≤ 1 / 4)
    (lim : Option ((ℕ → ℝ) → (ℕ → ℝ) → (ℕ → ℝ))) :
    ∃ (N : Network) (vInit : ℕ → ℝ) (m : Stamper) (r : HomotopyResult Stamper) (rd : ResidualDetails),
      N.Valid ∧ Stamper.build N.opt (N.assign L).all = .ok m ∧
      homotopyRun (solverRun (noseCtx n tol lim)) true m vInit = .ok r ∧ r.success = true ∧
      homotopyReport (N.assign L).size r = .ok rd ∧ rd.maxResidual < tol ∧
      ∃ i < (N.assign L).size, tol < |networkEq (N.assign L).all 0 r.v i| := by
  obtain ⟨m, hm, hr⟩ := build_ready false ((feeder (noseLoad tol)).assign L).all
    (network_wellPlaced hL (feeder (noseLoad tol)) (feeder_valid _))
  obtain ⟨r, st, h1, h2, h3, h4, h5⟩ := nose_run hL n tol hpos lim m _ _ hr noseVec (by simp)
  have hrun : homotopyRun (solverRun (noseCtx n tol lim)) true m noseVec =
      .ok ⟨r.success, r.v, r.iter, 0, st.stamper, [⟨noseVec, 0, r⟩]⟩ := by
    simp only [homotopyRun, solverRun, h1, bind, Except.bind]
    rw [if_pos (Or.inl h2)]
  obtain ⟨w, g1, g2, g3, g4⟩ := run_leaves false _ m _ _ hr (noseCtx n tol lim) noseVec 0 r st h1
  refine ⟨feeder (noseLoad tol), noseVec, m, _,
    ⟨(Stamper.ops.residuals st.stamper 0 r.v r.iter).2,
      residualVector (Stamper.ops.residuals st.stamper 0 r.v r.iter).2,
      amax (fun i => |residualVector (Stamper.ops.residuals st.stamper 0 r.v r.iter).2 i|) 5,
      argmax (fun i => |residualVector (Stamper.ops.residuals st.stamper 0 r.v r.iter).2 i|) 5⟩,
    feeder_valid _, hm, hrun, h2, ?_, ?_, 2, by rw [feeder_size hL]; omega, ?_⟩
  · rw [feeder_size hL]; rfl
  · show amax (fun i => |residualVector (Stamper.ops.residuals st.stamper 0 r.v r.iter).2 i|) 5 < tol
    obtain ⟨_, a2, a3, _⟩ := amax_argmax (fun i => |residualVector (Stamper.ops.residuals st.stamper 0 r.v r.iter).2 i|) 5
    rw [← a3, residualVector_eq]
    show |rowTotal ((st.stamper.updateV r.v r.iter).updateTx 0).contributions _| < tol
    rw [At.updateV_same g1, show rowTotal (st.stamper.updateTx 0).contributions _ = _ from
      rowTotal_perm (contributions_perm (g2.updateTx 0) (At.updateTx g1 0)) _]
    exact g4 h2 _ (lt_of_le_of_lt a2 (by simp [noseCtx]))
  · show tol < |networkEq ((feeder (noseLoad tol)).assign L).all 0 r.v 2|
    rw [feeder_rows hL]
    simp only [feederEq]
    rw [h4 2 (by omega), h4 0 (by omega), h4 3 (by omega)]
    simp [noseStep, noseLoad]
    rw [abs_of_pos (by linarith)]; linarith

/-- `C23_homotopy` and `C24_percentage_partial` on that run: the first call started from the given vector at factor 0, and the
reported factor is 0. -/
example {L : Library} (hL : L.Loaded) : ∃ m r c0 steps, homotopyRun (solverRun (noseCtx 49 (1 / 8) none)) true m noseVec = .ok r ∧
    r.calls = c0 :: steps ∧ c0.start = noseVec ∧ c0.tx = 0 ∧ r.tx = 0 ∧ Stamper.build false ((feeder (noseLoad (1 / 8))).assign L).all = .ok m := by
  obtain ⟨m, hm, hr⟩ := build_ready false ((feeder (noseLoad (1 / 8))).assign L).all
    (network_wellPlaced hL (feeder (noseLoad (1 / 8))) (feeder_valid _))
  obtain ⟨r, st, h1, h2, _⟩ := nose_run hL 49 (1 / 8) (by norm_num) none m _ _ hr noseVec (by simp)
  have h : homotopyRun (solverRun (noseCtx 49 (1 / 8) none)) true m noseVec =
      .ok ⟨r.success, r.v, r.iter, 0, st.stamper, [⟨noseVec, 0, r⟩]⟩ := by
    simp only [homotopyRun, solverRun, h1, bind, Except.bind]
    rw [if_pos (Or.inl h2)]
  obtain ⟨c0, steps, k1, k2, k3, -⟩ := C23_homotopy _ _ _ _ _ h
  exact ⟨m, _, c0, steps, h, k1, k2, k3, (C24_percentage_partial _ _ _ _ _ h).1 rfl, hm⟩

/-- The residual report after the Newton run: its entries are the network equations at the point of the last linearisation. -/
example {L : Library} (hL : L.Loaded) : ∃ (m m' : Stamper) (res : NRResult) (rd : ResidualDetails),
    solverRun (noseCtx 49 (1 / 8) none) m noseVec 0 = .ok (res, m') ∧
    ResidualDetails.make (Stamper.ops.residuals m' 0 res.v res.iter).2 6 = .ok rd ∧
    ∀ i < 6, |rd.residuals i| < 1 / 8 := by
  obtain ⟨m, hm, hr⟩ := build_ready false ((feeder (noseLoad (1 / 8))).assign L).all
    (network_wellPlaced hL (feeder (noseLoad (1 / 8))) (feeder_valid _))
  obtain ⟨r, st, h1, h2, _⟩ := nose_run hL 49 (1 / 8) (by norm_num) none m _ _ hr noseVec (by simp)
  have h : solverRun (noseCtx 49 (1 / 8) none) m noseVec 0 = .ok (r, st.stamper) := by
    simp only [solverRun, h1, bind, Except.bind]
  obtain ⟨w, rd, k1, k2, k3⟩ := C68_report_partial false _ m _ _ hr _ _ _ _ _ h 6 (by omega)
  exact ⟨m, _, r, rd, h, k1, fun i hi => by rw [k2]; exact k3 h2 i hi⟩

end Verif
