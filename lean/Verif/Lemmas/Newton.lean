import Verif.Model.Newton

/-! The Newton loop for an arbitrary stamper. -/

namespace Verif

variable {σ : Type} {C : NRContext} {O : StamperOps σ} {tx : ℝ} {jl : ℕ → ℝ} {li : ℕ}

/-- Everything one successful pass computed. -/
structure PassFacts (C : NRContext) (O : StamperOps σ) (tx : ℝ) (jl : ℕ → ℝ) (li : ℕ) (it : ℕ) (st : NRState σ) where
  A : ℕ → ℕ → ℝ
  vNext : ℕ → ℝ
  rd : ResidualDetails
  mat : (st.Y.stamps (tripsOf (O.stampNonlinear st.stamper st.vPrev it).2)).toMatrix C.debug = .ok A
  sol : C.solve A (fun i => jl i + jOf (O.stampNonlinear st.stamper st.vPrev it).2 i) = some vNext
  res : ResidualDetails.make (O.residuals (O.stampNonlinear st.stamper st.vPrev it).1 tx vNext it).2 C.size = .ok rd

/-- The state after the pass, before clearing. -/
noncomputable def PassFacts.done {it : ℕ} {st : NRState σ} (F : PassFacts C O tx jl li it st) : NRState σ :=
  ⟨(O.residuals (O.stampNonlinear st.stamper st.vPrev it).1 tx F.vNext it).1,
    st.Y.stamps (tripsOf (O.stampNonlinear st.stamper st.vPrev it).2), st.vPrev, st.history ++ [F.rd.maxResidual]⟩

/-- The voltages carried over to the next iteration (`nrsolver.py` 80-83). -/
noncomputable def PassFacts.carry {it : ℕ} {st : NRState σ} (F : PassFacts C O tx jl li it st) : ℕ → ℝ :=
  match C.limit with
  | some f => if F.rd.maxResidual > C.tolerance then f F.vNext st.vPrev else F.vNext
  | none => F.vNext

/-- The bail-out condition (`nrsolver.py` 66-73). -/
def Bails (h : List ℝ) : Prop := h.length % 50 = 0 ∧ 0 < slope h

theorem nrPass_cases {it : ℕ} {st : NRState σ} {p : NRPass σ} (h : nrPass C O tx jl li it st = .ok p) :
    ∃ F : PassFacts C O tx jl li it st,
      (Bails (st.history ++ [F.rd.maxResidual]) ∧ p = .ret ⟨false, F.vNext, it⟩ F.done) ∨
      (¬ Bails (st.history ++ [F.rd.maxResidual]) ∧ F.rd.maxResidual < C.tolerance ∧ p = .ret ⟨true, F.vNext, it⟩ F.done) ∨
      (¬ Bails (st.history ++ [F.rd.maxResidual]) ∧ ¬ F.rd.maxResidual < C.tolerance ∧
        p = .next ⟨F.done.stamper, F.done.Y.clear li, F.carry, F.done.history⟩) := by
  unfold nrPass at h
  simp only [bind, Except.bind] at h
  split at h
  · simp at h
  · split at h
    · simp at h
    · rename_i A hA
      split at h
      · simp at h
      · rename_i vNext hs
        split at h
        · simp at h
        · rename_i rd hrd
          refine ⟨⟨A, vNext, rd, hA, hs, hrd⟩, ?_⟩
          by_cases h1 : (st.history ++ [rd.maxResidual]).length % 50 = 0 ∧ 0 < slope (st.history ++ [rd.maxResidual])
          · rw [if_pos h1] at h
            left; exact ⟨h1, by injection h with h; exact h.symm⟩
          · rw [if_neg h1] at h
            by_cases h2 : rd.maxResidual < C.tolerance
            · rw [if_pos h2] at h
              right; left; exact ⟨h1, h2, by injection h with h; exact h.symm⟩
            · rw [if_neg h2] at h
              right; right; exact ⟨h1, h2, by injection h with h; exact h.symm⟩

/-- The states at the head of the loop. -/
inductive NRReach (C : NRContext) (O : StamperOps σ) (tx : ℝ) (jl : ℕ → ℝ) (li : ℕ) (st0 : NRState σ) : ℕ → NRState σ → Prop
  | start : NRReach C O tx jl li st0 0 st0
  | step {k : ℕ} {st st' : NRState σ} : NRReach C O tx jl li st0 k st → nrPass C O tx jl li k st = .ok (.next st') →
      NRReach C O tx jl li st0 (k + 1) st'

theorem nrLoop_of_reach {st0 st : NRState σ} {k : ℕ} (h : NRReach C O tx jl li st0 k st) (n : ℕ) :
    nrLoop C O tx jl li (n + k) 0 st0 = nrLoop C O tx jl li n k st := by
  induction h generalizing n with
  | start => rfl
  | @step k st st' _ hp ih =>
    have := ih (n + 1)
    rw [show n + 1 + k = n + (k + 1) by omega] at this
    rw [this]
    show (do match ← nrPass C O tx jl li k st with
      | .ret r st' => Except.ok (r, st')
      | .next st' => nrLoop C O tx jl li n (k + 1) st') = _
    rw [hp]; rfl

/-- How a run of the loop ends. -/
theorem nrLoop_end {st0 : NRState σ} (n : ℕ) {k : ℕ} {st : NRState σ} (hk : NRReach C O tx jl li st0 k st) {r : NRResult}
    {st' : NRState σ} (h : nrLoop C O tx jl li n k st = .ok (r, st')) :
    (∃ k2 st2, k2 < k + n ∧ NRReach C O tx jl li st0 k2 st2 ∧ nrPass C O tx jl li k2 st2 = .ok (.ret r st')) ∨
    (NRReach C O tx jl li st0 (k + n) st' ∧ r = ⟨false, st'.vPrev, k + n - 1⟩) := by
  induction n generalizing k st with
  | zero =>
    simp only [nrLoop, Except.ok.injEq, Prod.mk.injEq] at h
    obtain ⟨rfl, rfl⟩ := h
    right; exact ⟨hk, rfl⟩
  | succ n ih =>
    have hstep : nrLoop C O tx jl li (n + 1) k st = (do match ← nrPass C O tx jl li k st with
      | .ret r st' => Except.ok (r, st')
      | .next st' => nrLoop C O tx jl li n (k + 1) st') := rfl
    rw [hstep] at h
    cases hp : nrPass C O tx jl li k st with
    | error e => rw [hp] at h; simp [bind, Except.bind] at h
    | ok p =>
      rw [hp] at h
      simp only [bind, Except.bind] at h
      cases p with
      | ret r2 s2 =>
        simp only [Except.ok.injEq, Prod.mk.injEq] at h
        obtain ⟨rfl, rfl⟩ := h
        left; exact ⟨k, st, by omega, hk, hp⟩
      | next s2 =>
        have := ih (hk.step hp) h
        rw [show k + 1 + n = k + (n + 1) by omega] at this
        exact this

theorem reach_history {st0 st : NRState σ} {k : ℕ} (h0 : st0.history = []) (h : NRReach C O tx jl li st0 k st) :
    st.history.length = k ∧ (∀ x ∈ st.history, ¬ x < C.tolerance) ∧ ∀ j, 0 < j → j ≤ k → ¬ Bails (st.history.take j) := by
  induction h with
  | start => rw [h0]; exact ⟨rfl, by simp, by omega⟩
  | @step k st st' _ hp ih =>
    obtain ⟨i1, i2, i3⟩ := ih
    obtain ⟨F, ⟨_, hF⟩ | ⟨_, _, hF⟩ | ⟨hb, ht, hF⟩⟩ := nrPass_cases hp
    · simp at hF
    · simp at hF
    · injection hF with hF
      subst hF
      have hh : F.done.history = st.history ++ [F.rd.maxResidual] := rfl
      refine ⟨by simp [hh, i1], ?_, ?_⟩
      · intro x hx
        rw [hh, List.mem_append] at hx
        rcases hx with hx | hx
        · exact i2 x hx
        · simp at hx; rw [hx]; exact ht
      · intro j hj hjk
        rw [hh]
        rcases Nat.lt_or_ge j (k + 1) with hlt | hge
        · rw [List.take_append_of_le_length (by omega)]; exact i3 j hj (by omega)
        · have : j = (st.history ++ [F.rd.maxResidual]).length := by simp [i1]; omega
          rw [this, List.take_length]; exact hb

/-- The start of a run. -/
noncomputable def nrStart (O : StamperOps σ) (m : σ) (vInit : ℕ → ℝ) (tx : ℝ) : NRState σ :=
  ⟨(O.stampLinear m tx).1, Builder.empty.stamps (tripsOf (O.stampLinear m tx).2), vInit, []⟩

theorem nrRun_eq {m : σ} {vInit : ℕ → ℝ} (h : C.maxIters ≠ 0) : nrRun C O m vInit tx =
    nrLoop C O tx (jOf (O.stampLinear m tx).2) (nrStart O m vInit tx).Y.usage C.maxIters 0 (nrStart O m vInit tx) := by
  unfold nrRun
  rw [if_neg h]; rfl

/-- Heads of the loop of a run. -/
abbrev RunReach (C : NRContext) (O : StamperOps σ) (m : σ) (vInit : ℕ → ℝ) (tx : ℝ) :=
  NRReach C O tx (jOf (O.stampLinear m tx).2) (nrStart O m vInit tx).Y.usage (nrStart O m vInit tx)

/-- One pass of a run. -/
noncomputable abbrev runPass (C : NRContext) (O : StamperOps σ) (m : σ) (vInit : ℕ → ℝ) (tx : ℝ) :=
  nrPass C O tx (jOf (O.stampLinear m tx).2) (nrStart O m vInit tx).Y.usage

/-- Facts of one pass of a run. -/
abbrev RunFacts (C : NRContext) (O : StamperOps σ) (m : σ) (vInit : ℕ → ℝ) (tx : ℝ) :=
  PassFacts C O tx (jOf (O.stampLinear m tx).2) (nrStart O m vInit tx).Y.usage

/-- A run that returns: the last pass, and either it returned or it was the last allowed one. -/
theorem nrRun_end {m : σ} {vInit : ℕ → ℝ} {r : NRResult} {st : NRState σ} (h : nrRun C O m vInit tx = .ok (r, st)) :
    C.maxIters ≠ 0 ∧
    ((∃ k st2, k < C.maxIters ∧ RunReach C O m vInit tx k st2 ∧ ∃ F : RunFacts C O m vInit tx k st2,
        st = F.done ∧ r.v = F.vNext ∧ r.iter = k ∧
        ((r.success = false ∧ Bails st.history) ∨ (r.success = true ∧ ¬ Bails st.history ∧ F.rd.maxResidual < C.tolerance))) ∨
     (RunReach C O m vInit tx C.maxIters st ∧ r = ⟨false, st.vPrev, C.maxIters - 1⟩)) := by
  have hm : C.maxIters ≠ 0 := by
    intro h0; unfold nrRun at h; rw [if_pos h0] at h; simp at h
  refine ⟨hm, ?_⟩
  rw [nrRun_eq hm] at h
  rcases nrLoop_end C.maxIters .start h with ⟨k2, st2, h1, h2, h3⟩ | ⟨h1, h2⟩
  · left
    refine ⟨k2, st2, by omega, h2, ?_⟩
    obtain ⟨F, ⟨hb, hF⟩ | ⟨hb, ht, hF⟩ | ⟨hb, ht, hF⟩⟩ := nrPass_cases h3
    · injection hF with e1 e2
      subst e1; subst e2
      exact ⟨F, rfl, rfl, rfl, Or.inl ⟨rfl, hb⟩⟩
    · injection hF with e1 e2
      subst e1; subst e2
      exact ⟨F, rfl, rfl, rfl, Or.inr ⟨rfl, hb, ht⟩⟩
    · simp at hF
  · right
    rw [Nat.zero_add] at h1 h2
    exact ⟨h1, h2⟩

theorem nrRun_of_pass {m : σ} {vInit : ℕ → ℝ} {k : ℕ} {st : NRState σ} (hk : k < C.maxIters)
    (hreach : RunReach C O m vInit tx k st) :
    nrRun C O m vInit tx = (do match ← runPass C O m vInit tx k st with
      | .ret r st' => Except.ok (r, st')
      | .next st' => nrLoop C O tx (jOf (O.stampLinear m tx).2) (nrStart O m vInit tx).Y.usage (C.maxIters - 1 - k) (k + 1) st') := by
  rw [nrRun_eq (by omega)]
  obtain ⟨d, hd⟩ : ∃ d, C.maxIters = d + 1 + k := ⟨C.maxIters - 1 - k, by omega⟩
  have : C.maxIters - 1 - k = d := by omega
  rw [this, hd, nrLoop_of_reach hreach (d + 1)]
  rfl

theorem nrRun_of_ret {m : σ} {vInit : ℕ → ℝ} {k : ℕ} {st st' : NRState σ} {r : NRResult} (hk : k < C.maxIters)
    (hreach : RunReach C O m vInit tx k st) (h : runPass C O m vInit tx k st = .ok (.ret r st')) :
    nrRun C O m vInit tx = .ok (r, st') := by
  rw [nrRun_of_pass hk hreach, h]; rfl

/-- Outside debug mode a pass only fails on NaN. -/
theorem nrPass_ok {it : ℕ} {st : NRState σ} (hd : C.debug = false) (hs : C.size ≠ 0) {v : ℕ → ℝ}
    (hv : C.solve (Builder.matOf (st.Y.stamps (tripsOf (O.stampNonlinear st.stamper st.vPrev it).2)).entries)
      (fun i => jl i + jOf (O.stampNonlinear st.stamper st.vPrev it).2 i) = some v) :
    ∃ p, nrPass C O tx jl li it st = .ok p := by
  unfold nrPass
  obtain ⟨n, hn⟩ := Nat.exists_eq_succ_of_ne_zero hs
  simp only [bind, Except.bind, Builder.assertValid, hd, if_true, Builder.toMatrix, Bool.false_eq_true, false_and, if_false, hv, hn,
    ResidualDetails.make]
  split
  · exact ⟨_, rfl⟩
  · split
    · exact ⟨_, rfl⟩
    · exact ⟨_, rfl⟩

end Verif
