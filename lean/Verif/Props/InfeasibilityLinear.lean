import Verif.Lemmas.OptUnique

/-!
# C132: infeasibility analysis of linear networks
-/

namespace Verif

open Ex Devices

variable {L : Library}

/-- Kirchhoff's laws and all device laws of the network have exactly one solution. -/
def Network.OneState (L : Library) (N : Network) (t : ℝ) : Prop :=
  ∃ x, Kirchhoff N.buses t ((N.assign L).voltages x) ((N.assign L).owned L N x) ∧
    ∀ y, Kirchhoff N.buses t ((N.assign L).voltages y) ((N.assign L).owned L N y) → ∀ i < (N.assign L).size, y i = x i

theorem oneState_iff (hL : L.Loaded) (N : Network) (ho : N.optimization = none) (t : ℝ) : N.OneState L t ↔ N.UniqueSolution L t := by
  have hk := fun v => C67_equations_are_kirchhoff hL N ho t v
  constructor
  · rintro ⟨x, hx, hu⟩
    exact ⟨x, fun i _ => (hk x).2 hx i, fun y hy => hu y ((hk y).1 (solved_of_below hL N hy))⟩
  · rintro ⟨x, hx, hu⟩
    exact ⟨x, (hk x).1 (solved_of_below hL N hx), fun y hy => hu y fun i _ => (hk y).2 hy i⟩

/-- **C132, solvable networks.** If the laws of a network of linear, reciprocal equipment have exactly one solution, infeasibility analysis, `L1` or `L2`,
returns from every start vector, on a fresh or reused stamper, after one Newton run of at most two iterations. It reports success, all its
infeasibility currents are zero, so are the two totals, and voltages and device currents are those of the network without the analysis. -/
theorem C132_solvable_partial (hL : L.Loaded) (N : Network) (hv : N.Valid) (o : OptKind) (ho : N.optimization = some o)
    (hlin : ∀ e ∈ N.elements, e.Linear) (hrec : ∀ e ∈ N.elements, e.Reciprocal) (ht : N.RatiosNonzero 0) (hu : N.plain.OneState L 0)
    (hb : 0 < N.buses) (m : Stamper) (v0 : ℕ → ℝ) (it0 : ℤ) (hr : Ready N.opt (N.assign L).all m v0 it0) (C : NRContext)
    (hs : C.size = (N.assign L).size) (hsolve : C.solve = idealSolve C.size) (hd : C.debug = false) (hlim : C.limit = none)
    (htol : 0 < C.tolerance) (hmax : 2 ≤ C.maxIters) (txStepping : Bool) (vInit : ℕ → ℝ) :
    ∃ r, homotopyRun (solverRun C) txStepping m vInit = .ok r ∧ r.success = true ∧ r.calls.length = 1 ∧ r.tx = 0 ∧ r.iterations ≤ 1 ∧
      (∀ k, N.injection o r.v k = 0) ∧ infTotals N (N.assign L) r.v = some (0, 0) ∧
      Kirchhoff N.buses 0 ((N.plain.assign L).voltages (N.primal r.v)) ((N.plain.assign L).owned L N.plain (N.primal r.v)) := by
  have hu' := (oneState_iff hL N.plain rfl 0).1 hu
  have hun := opt_unique_of_plain hL N hv o ho hlin hrec ht hu'
  have hne : C.size ≠ 0 := by rw [hs, size_opt hL N o ho]; cases o <;> simp only [OptKind.width] <;> omega
  obtain ⟨res, st, hrun, h1, h2, h3⟩ := affine_run (C := C) (vInit := vInit) (tx := 0) (network_affineStamps hL N hlin) hr
    (network_affine_regular hL N hv hlin 0 ht) (fun p hp x hx c hc => by rw [hs]; exact network_below hL N p hp x hx c hc)
    (by rw [hs]; exact network_rows_below hL N) hne (by rw [hs]; exact hun) hsolve hd hlim htol hmax
  have hin := injections_zero hL N hv o ho hlin hrec ht hu' h3
  refine ⟨⟨res.success, res.v, res.iter, 0, st.stamper, [⟨vInit, 0, res⟩]⟩, ?_, h1, rfl, by simp [HomotopyResult.tx], h2, hin,
    C35_zero_partial hL N o ho _ fun k _ => hin k, ?_⟩
  · simp only [homotopyRun, solverRun, hrun, bind, Except.bind]
    rw [if_pos (Or.inl h1)]
  · exact (C67_equations_are_kirchhoff hL N.plain rfl 0 _).1 (primal_solved hL N hv o ho hlin hrec ht hu' h3)

/-- **C132, all others.** If the laws have no solution, or several, every solve with infeasibility analysis raises an exception, from any start vector and
with any settings. -/
theorem C132_others_raise (hL : L.Loaded) (N : Network) (hv : N.Valid) (o : OptKind) (ho : N.optimization = some o)
    (hlin : ∀ e ∈ N.elements, e.Linear) (hrec : ∀ e ∈ N.elements, e.Reciprocal) (ht : N.RatiosNonzero 0) (hu : ¬ N.plain.OneState L 0)
    (m : Stamper) (v0 : ℕ → ℝ) (it0 : ℤ) (hr : Ready N.opt (N.assign L).all m v0 it0) (C : NRContext)
    (hs : C.size = (N.assign L).size) (hsolve : C.solve = idealSolve C.size) (txStepping : Bool) (vInit : ℕ → ℝ) :
    ∃ e, homotopyRun (solverRun C) txStepping m vInit = .error e := by
  obtain ⟨e, he⟩ := affine_raises (C := C) (vInit := vInit) (tx := 0) (network_affineStamps hL N hlin) hr
    (network_affine_regular hL N hv hlin 0 ht) (fun p hp x hx c hc => by rw [hs]; exact network_below hL N p hp x hx c hc)
    (fun h => hu ((oneState_iff hL N.plain rfl 0).2 (plain_unique_of_opt hL N hv o ho hlin hrec ht (by
      rw [hs] at h; exact h)))) hsolve
  exact ⟨e, by simp only [homotopyRun, solverRun, he, bind, Except.bind]⟩

/-- **C132 fails: no infeasibility is ever located.** A current of one ampere is drawn at a bus without a source. The analysis is meant to find the current that is
missing there, and its equations do have solutions, one of which is shown; yet every run raises an exception, because they have many. -/
theorem C132_located_fails (hL : L.Loaded) : (loadOnly (some .L2)).Valid ∧ (∃ v, (loadOnly (some .L2)).Solved L 0 v ∧
      (loadOnly (some .L2)).injection .L2 v 0 = -1) ∧
    ∀ m v0 it0, Ready true ((loadOnly (some .L2)).assign L).all m v0 it0 → ∀ C : NRContext, C.size = ((loadOnly (some .L2)).assign L).size →
      C.solve = idealSolve C.size → ∀ txStepping vInit, ∃ e, homotopyRun (solverRun C) txStepping m vInit = .error e := by
  refine ⟨loadOnly_valid _, ⟨loadOnlyVec, loadOnly_solved hL 0, rfl⟩, fun m v0 it0 hr C hs hsolve txStepping vInit => ?_⟩
  refine C132_others_raise hL _ (loadOnly_valid _) .L2 rfl ?_ ?_ ?_ ?_ m v0 it0 hr C hs hsolve txStepping vInit
  · intro e he
    simp [loadOnly] at he
    subst he; exact ⟨rfl, rfl⟩
  · intro e he
    simp [loadOnly] at he
    subst he; trivial
  · intro e he
    simp [loadOnly] at he
    subst he; trivial
  · rintro ⟨x, hx, _⟩
    have := (C67_equations_are_kirchhoff hL (loadOnly none) rfl 0 x).2 hx 0
    rw [loadOnly_rows hL] at this
    simp at this

/-- Stampers for that network exist. -/
example (hL : L.Loaded) : ∃ m v0 it0, Ready true ((loadOnly (some .L2)).assign L).all m v0 it0 ∧
    ∃ e, homotopyRun (solverRun (plainCtx ((loadOnly (some .L2)).assign L).size)) true m (fun _ => 1) = .error e := by
  obtain ⟨m, hm, hr⟩ := build_ready true ((loadOnly (some .L2)).assign L).all (network_wellPlaced hL (loadOnly (some .L2)) (loadOnly_valid _))
  exact ⟨m, _, _, hr, (C132_located_fails hL).2.2 m _ _ hr (plainCtx _) rfl rfl true _⟩

/-- **C132, what a returned result says.** Whenever the analysis of a linear, reciprocal network returns, its infeasibility currents are all zero. -/
theorem C132_zero (hL : L.Loaded) (N : Network) (hv : N.Valid) (o : OptKind) (ho : N.optimization = some o)
    (hlin : ∀ e ∈ N.elements, e.Linear) (hrec : ∀ e ∈ N.elements, e.Reciprocal) (ht : N.RatiosNonzero 0) (hb : 0 < N.buses)
    (m : Stamper) (v0 : ℕ → ℝ) (it0 : ℤ) (hr : Ready N.opt (N.assign L).all m v0 it0) (C : NRContext)
    (hs : C.size = (N.assign L).size) (hsolve : C.solve = idealSolve C.size) (hd : C.debug = false) (hlim : C.limit = none)
    (htol : 0 < C.tolerance) (hmax : 2 ≤ C.maxIters) (txStepping : Bool) (vInit : ℕ → ℝ) (r : HomotopyResult Stamper)
    (h : homotopyRun (solverRun C) txStepping m vInit = .ok r) : r.success = true ∧ ∀ k, N.injection o r.v k = 0 := by
  by_cases hu : N.plain.OneState L 0
  · obtain ⟨r', h', h1, _, _, _, h2, _⟩ := C132_solvable_partial hL N hv o ho hlin hrec ht hu hb m v0 it0 hr C hs hsolve hd hlim htol hmax txStepping vInit
    rw [h] at h'
    injection h' with h'
    subst h'
    exact ⟨h1, h2⟩
  · obtain ⟨e, he⟩ := C132_others_raise hL N hv o ho hlin hrec ht hu m v0 it0 hr C hs hsolve txStepping vInit
    rw [h] at he
    cases he

/-- The plant of `C125` with either analysis meets the hypotheses. -/
example (hL : L.Loaded) (o : OptKind) : ∃ m v0 it0, Ready true (({ plantNet with optimization := some o } : Network).assign L).all m v0 it0 ∧
    ∀ vInit, ∃ r, homotopyRun (solverRun (plainCtx (({ plantNet with optimization := some o } : Network).assign L).size)) false m vInit = .ok r ∧
      r.success = true ∧ ∀ k, ({ plantNet with optimization := some o } : Network).injection o r.v k = 0 := by
  have hv : ({ plantNet with optimization := some o } : Network).Valid := plant_valid
  have hlin : ∀ e ∈ plantNet.elements, e.Linear := plant_sturdy.linear.2
  have hrec : ∀ e ∈ plantNet.elements, e.Reciprocal := by
    intro e he
    simp [plantNet] at he
    rcases he with rfl | rfl | rfl | rfl | rfl | rfl <;> trivial
  have hone : plantNet.OneState L 0 := (oneState_iff hL plantNet rfl 0).2 (sturdy_unique hL plant_valid plant_sturdy)
  obtain ⟨m, hm, hr⟩ := build_ready true (({ plantNet with optimization := some o } : Network).assign L).all
    (network_wellPlaced hL { plantNet with optimization := some o } hv)
  refine ⟨m, _, _, hr, fun vInit => ?_⟩
  obtain ⟨r, h, h1, _, _, _, h2, _⟩ := C132_solvable_partial hL { plantNet with optimization := some o } hv o rfl hlin hrec plant_sturdy.ratios hone
    (show 0 < 4 by norm_num) m _ _ hr (plainCtx _) rfl rfl rfl rfl (by norm_num [plainCtx]) (by simp [plainCtx]) false vInit
  exact ⟨r, h, (C132_zero hL { plantNet with optimization := some o } hv o rfl hlin hrec plant_sturdy.ratios (show 0 < 4 by norm_num) m _ _ hr (plainCtx _)
    rfl rfl rfl rfl (by norm_num [plainCtx]) (by simp [plainCtx]) false vInit r h).1, h2⟩

/-- So does the load without a source for `C132_others_raise`; see `C132_located_fails`. -/
example (hL : L.Loaded) := C132_others_raise hL (loadOnly (some .L2)) (loadOnly_valid _) .L2 rfl

end Verif
