import Verif.Lemmas.Linear
import Verif.Lemmas.FuseNet
import Verif.Props.Homotopy

/-!
# C69: networks without nonlinear devices
-/

namespace Verif

variable {L : Library}

/-- What an exact solver returns in any pass on a linear network satisfies every equation. -/
theorem linear_exact (hL : L.Loaded) (N : Network) (hv : N.Valid) (hN : N.Linear) {m : Stamper} {v0 : ℕ → ℝ} {it0 : ℤ}
    (hr : Ready N.opt (N.assign L).all m v0 it0) {C : NRContext} (hs : C.size = (N.assign L).size) (he : ExactSolver C.size C.solve)
    {vInit : ℕ → ℝ} {tx : ℝ} (ht : N.RatiosNonzero tx) {k : ℕ} {st : NRState Stamper} (hreach : RunReach C Stamper.ops m vInit tx k st)
    (F : RunFacts C Stamper.ops m vInit tx k st) (i : ℕ) : networkEq (N.assign L).all tx F.vNext i = 0 := by
  rcases Nat.lt_or_ge i C.size with hi | hi
  · refine (linear_pass (network_linearStamps hL N hN) hr (fun v => network_linear_regular hL N hv hN tx ht v)
      (fun p hp x hx c hc => ?_) hreach F F.vNext).1 (he _ _ _ F.sol) i hi
    rw [hs]; exact network_below hL N p hp x hx c hc
  · exact network_rows_high hL N hN.1 tx F.vNext i (by omega)

theorem not_bails_short {h : List ℝ} (h0 : h ≠ []) (h1 : h.length < 50) : ¬ Bails h := by
  rintro ⟨h2, _⟩
  have := List.length_pos_iff.2 h0
  omega

/-- From the second pass on the residual of a linear network is zero. -/
theorem linear_second (hL : L.Loaded) (N : Network) (hv : N.Valid) (hN : N.Linear) {m : Stamper} {v0 : ℕ → ℝ} {it0 : ℤ}
    (hr : Ready N.opt (N.assign L).all m v0 it0) {C : NRContext} (hs : C.size = (N.assign L).size) (he : ExactSolver C.size C.solve)
    (hlim : C.limit = none) {vInit : ℕ → ℝ} {tx : ℝ} (ht : N.RatiosNonzero tx) {k : ℕ} {st : NRState Stamper}
    (hreach : RunReach C Stamper.ops m vInit tx (k + 1) st)
    (F : RunFacts C Stamper.ops m vInit tx (k + 1) st) : F.rd.maxResidual = 0 := by
  obtain ⟨_, _, _, ⟨i, hi, h4⟩, _⟩ := pass_spec hr hreach F
  rw [← h4]
  have hlp : linPoint v0 it0 (k + 1) st = st.vPrev := by unfold linPoint; simp
  rw [hlp]
  cases hreach with
  | @step k st' _ hreach' hp =>
    obtain ⟨G, ⟨_, hG⟩ | ⟨_, _, hG⟩ | ⟨_, _, hG⟩⟩ := nrPass_cases hp
    · simp at hG
    · simp at hG
    · injection hG with hG
      subst hG
      have hc : G.carry = G.vNext := by unfold PassFacts.carry; rw [hlim]
      show |networkEq (N.assign L).all tx G.carry i| = 0
      rw [hc, linear_exact hL N hv hN hr hs he ht hreach' G i, abs_zero]

/-- **C69.** A Newton run on a network of linear devices, on a fresh or reused stamper, from any start vector, at any
homotopy factor, with a linear solver that returns solutions: if it returns, it reports success, in the first or the second
iteration, and the returned vector satisfies Kirchhoff's laws and all device laws exactly. -/
theorem C69_linear_network (hL : L.Loaded) (N : Network) (hv : N.Valid) (hN : N.Linear) (m : Stamper) (v0 : ℕ → ℝ)
    (it0 : ℤ) (hr : Ready N.opt (N.assign L).all m v0 it0) (C : NRContext) (hs : C.size = (N.assign L).size)
    (he : ExactSolver C.size C.solve) (hlim : C.limit = none) (htol : 0 < C.tolerance) (hmax : 2 ≤ C.maxIters) (vInit : ℕ → ℝ)
    (tx : ℝ) (ht : N.RatiosNonzero tx) (r : NRResult) (st : NRState Stamper) (h : nrRun C Stamper.ops m vInit tx = .ok (r, st)) :
    r.success = true ∧ r.iter ≤ 1 ∧
    Kirchhoff N.buses tx ((N.assign L).voltages r.v) ((N.assign L).owned L N r.v) := by
  have hsecond : ∀ k st2, RunReach C Stamper.ops m vInit tx (k + 2) st2 → False := by
    intro k st2 hreach
    cases hreach with
    | @step _ st1 _ hreach1 hp =>
      obtain ⟨G, ⟨_, hG⟩ | ⟨_, _, hG⟩ | ⟨_, hlt, hG⟩⟩ := nrPass_cases hp
      · simp at hG
      · simp at hG
      · rw [linear_second hL N hv hN hr hs he hlim ht hreach1 G] at hlt
        exact hlt htol
  obtain ⟨hm, ⟨k, st2, hk, hreach, F, rfl, hv2, hi, hc⟩ | ⟨hreach, rfl⟩⟩ := nrRun_end h
  · have hk1 : k ≤ 1 := by
      by_contra hgt
      obtain ⟨j, rfl⟩ : ∃ j, k = j + 2 := ⟨k - 2, by omega⟩
      exact hsecond j st2 hreach
    have hlen : st2.history.length = k := (reach_history rfl hreach).1
    have hnb : ¬ Bails F.done.history := by
      apply not_bails_short
      · simp [PassFacts.done]
      · simp [PassFacts.done, hlen]; omega
    refine ⟨?_, by omega, ?_⟩
    · rcases hc with ⟨_, hb⟩ | ⟨hs', _⟩
      · exact absurd hb hnb
      · exact hs'
    · refine (C67_equations_are_kirchhoff hL N hN.1 tx r.v).1 ?_
      rw [hv2]
      exact linear_exact hL N hv hN hr hs he ht hreach F
  · exfalso
    obtain ⟨j, hj⟩ : ∃ j, C.maxIters = j + 2 := ⟨C.maxIters - 2, by omega⟩
    rw [hj] at hreach
    exact hsecond j _ hreach

/-- The equations of a network have one solution at factor `tx`. -/
def Network.UniqueSolution (L : Library) (N : Network) (tx : ℝ) : Prop :=
  ∃ x, (∀ i < (N.assign L).size, networkEq (N.assign L).all tx x i = 0) ∧
    ∀ y, (∀ i < (N.assign L).size, networkEq (N.assign L).all tx y i = 0) → ∀ i < (N.assign L).size, y i = x i

/-- **C69, no exception.** With the ideal linear solver, outside debug mode, the run does return whenever the network has
exactly one solution. -/
theorem C69_linear_returns (hL : L.Loaded) (N : Network) (hv : N.Valid) (hN : N.Linear) (hne : (N.assign L).size ≠ 0)
    (tx : ℝ) (ht : N.RatiosNonzero tx) (hu : N.UniqueSolution L tx) (m : Stamper) (v0 : ℕ → ℝ)
    (it0 : ℤ) (hr : Ready N.opt (N.assign L).all m v0 it0) (C : NRContext) (hs : C.size = (N.assign L).size)
    (hsolve : C.solve = idealSolve C.size) (hd : C.debug = false) (hlim : C.limit = none) (htol : 0 < C.tolerance)
    (hmax : 2 ≤ C.maxIters) (vInit : ℕ → ℝ) :
    ∃ r st, nrRun C Stamper.ops m vInit tx = .ok (r, st) := by
  have he : ExactSolver C.size C.solve := by rw [hsolve]; exact idealSolve_exact _
  -- every pass goes through
  have hpass : ∀ k st, RunReach C Stamper.ops m vInit tx k st → ∃ p, runPass C Stamper.ops m vInit tx k st = .ok p := by
    intro k st hreach
    set A := Builder.matOf (st.Y.stamps (tripsOf (Stamper.ops.stampNonlinear st.stamper st.vPrev k).2)).entries with hA
    set b := fun i => jOf (Stamper.ops.stampLinear m tx).2 i + jOf (Stamper.ops.stampNonlinear st.stamper st.vPrev k).2 i with hb
    -- facts of a hypothetical pass with a solver that returns `x`
    have key : ∀ x, Solves C.size A b x ↔ ∀ i < C.size, networkEq (N.assign L).all tx x i = 0 := by
      intro x
      exact linear_system (network_linearStamps hL N hN) hr (fun v => network_linear_regular hL N hv hN tx ht v)
        (fun p hp x hx c hc => by rw [hs]; exact network_below hL N p hp x hx c hc) hreach x
    obtain ⟨x, hx, hux⟩ := hu
    rw [← hs] at hx hux
    obtain ⟨y, hy, _⟩ := idealSolve_of ((key x).2 hx) (fun y hy => hux y ((key y).1 hy))
    exact nrPass_ok hd (by omega) (by rw [hsolve]; exact hy)
  obtain ⟨p0, hp0⟩ := hpass 0 _ .start
  cases p0 with
  | ret r st' => exact ⟨r, st', nrRun_of_ret (by omega) .start hp0⟩
  | next st1 =>
    have hreach1 : RunReach C Stamper.ops m vInit tx 1 st1 := .step .start hp0
    obtain ⟨p1, hp1⟩ := hpass 1 st1 hreach1
    cases p1 with
    | ret r st' => exact ⟨r, st', nrRun_of_ret (by omega) hreach1 hp1⟩
    | next st2 =>
      obtain ⟨G, ⟨_, hG⟩ | ⟨_, _, hG⟩ | ⟨_, hlt, hG⟩⟩ := nrPass_cases hp1
      · simp at hG
      · simp at hG
      · rw [linear_second hL N hv hN hr hs he hlim ht hreach1 G] at hlt
        exact absurd htol hlt

/-- **C69, whole solve.** The homotopy sequence on a linear network is one Newton run, successful, and its vector satisfies
the laws at factor 0. -/
theorem C69_linear_homotopy (hL : L.Loaded) (N : Network) (hv : N.Valid) (hN : N.Linear) (m : Stamper) (v0 : ℕ → ℝ)
    (it0 : ℤ) (hr : Ready N.opt (N.assign L).all m v0 it0) (C : NRContext) (hs : C.size = (N.assign L).size)
    (he : ExactSolver C.size C.solve) (hlim : C.limit = none) (htol : 0 < C.tolerance) (hmax : 2 ≤ C.maxIters) (vInit : ℕ → ℝ)
    (ht : N.RatiosNonzero 0) (txStepping : Bool) (r : HomotopyResult Stamper) (h : homotopyRun (solverRun C) txStepping m vInit = .ok r) :
    r.success = true ∧ r.calls.length = 1 ∧ r.tx = 0 ∧ r.iterations ≤ 1 ∧
    Kirchhoff N.buses 0 ((N.assign L).voltages r.v) ((N.assign L).owned L N r.v) := by
  unfold homotopyRun solverRun at h
  simp only [bind, Except.bind] at h
  split at h
  · simp at h
  · rename_i p hp
    split at hp
    · simp at hp
    · rename_i q hq
      injection hp with hp
      subst hp
      obtain ⟨res, st⟩ := q
      obtain ⟨h1, h2, h3⟩ := C69_linear_network hL N hv hN m v0 it0 hr C hs he hlim htol hmax vInit 0 ht res st hq
      simp only [h1, true_or, if_true, Except.ok.injEq] at h
      subst h
      exact ⟨rfl, rfl, by simp [HomotopyResult.tx], h2, h3⟩

/-! ### A network that meets the hypotheses -/

/-- Settings for the examples: the defaults, with the ideal linear solver. -/
noncomputable def plainCtx (n : ℕ) : NRContext := ⟨50, 1 / 100000, false, n, idealSolve n, none⟩

theorem fuseNet_ratios : fuseNet.RatiosNonzero 0 := by
  intro e he
  simp [fuseNet] at he
  rcases he with rfl | rfl | rfl <;> trivial

/-- The fuse network has exactly one solution. -/
theorem fuseNet_uniqueSolution (hL : L.Loaded) : fuseNet.UniqueSolution L 0 := by
  refine ⟨fuseNetSol, fun i _ => by rw [fuseNet_rows hL]; exact fuseNet_sol i, fun y hy i hi => ?_⟩
  rw [fuseNet_size hL] at hi hy
  exact fuseNet_unique y (fun j hj => by rw [← fuseNet_rows hL]; exact hy j hj) i hi

/-- Both theorems apply: from any start vector the fuse network is solved, and the vector is the solution. -/
theorem fuseNet_solve (hL : L.Loaded) (vInit : ℕ → ℝ) : ∃ m r, Stamper.build false (fuseNet.assign L).all = .ok m ∧
    homotopyRun (solverRun (plainCtx (fuseNet.assign L).size)) true m vInit = .ok r ∧ r.success = true ∧
    ∀ i < 10, r.v i = fuseNetSol i := by
  obtain ⟨m, hm, hr⟩ := build_ready false (fuseNet.assign L).all (network_wellPlaced hL fuseNet fuseNet_valid)
  obtain ⟨res, st, hrun⟩ := C69_linear_returns hL fuseNet fuseNet_valid fuseNet_linear (by rw [fuseNet_size hL]; omega) 0
    fuseNet_ratios (fuseNet_uniqueSolution hL) m _ _ hr (plainCtx (fuseNet.assign L).size) rfl rfl rfl rfl (by norm_num [plainCtx])
    (by norm_num [plainCtx]) vInit
  obtain ⟨h1, h2, h3⟩ := C69_linear_network hL fuseNet fuseNet_valid fuseNet_linear m _ _ hr
    (plainCtx (fuseNet.assign L).size) rfl (idealSolve_exact _) rfl (by norm_num [plainCtx]) (by norm_num [plainCtx]) vInit 0 fuseNet_ratios res st hrun
  refine ⟨m, ⟨res.success, res.v, res.iter, 0, st.stamper, [⟨vInit, 0, res⟩]⟩, hm, ?_, h1, ?_⟩
  · simp only [homotopyRun, solverRun, hrun, bind, Except.bind]
    rw [if_pos (Or.inl h1)]
  · have := (C67_equations_are_kirchhoff hL fuseNet rfl 0 res.v).2 h3
    exact fun i hi => fuseNet_unique res.v (fun j _ => by rw [← fuseNet_rows hL]; exact this j) i hi

/-- The whole solve of the fuse network needs one Newton run of at most two iterations. -/
example (hL : L.Loaded) (m : Stamper) (v0 : ℕ → ℝ) (it0 : ℤ) (hr : Ready fuseNet.opt (fuseNet.assign L).all m v0 it0)
    (vInit : ℕ → ℝ) (r : HomotopyResult Stamper)
    (h : homotopyRun (solverRun (plainCtx (fuseNet.assign L).size)) true m vInit = .ok r) : r.calls.length = 1 ∧ r.iterations ≤ 1 := by
  obtain ⟨_, h2, _, h4, _⟩ := C69_linear_homotopy hL fuseNet fuseNet_valid fuseNet_linear m v0 it0 hr (plainCtx (fuseNet.assign L).size)
    rfl (idealSolve_exact _) rfl (by norm_num [plainCtx]) (by norm_num [plainCtx]) vInit fuseNet_ratios true r h
  exact ⟨h2, h4⟩

end Verif
