import Verif.Lemmas.Resistive

/-!
# C125: connected networks of resistive equipment are solved
-/

namespace Verif

open Ex Devices

variable {L : Library}

/-- **C125, what holds.** A network of resistive linear equipment in which the voltage of every bus is held and ideal conductors form no loop has exactly
one solution. -/
theorem C125_unique_partial (hL : L.Loaded) (N : Network) (hv : N.Valid) (hN : N.Sturdy) :
    (∃ x, Kirchhoff N.buses 0 ((N.assign L).voltages x) ((N.assign L).owned L N x)) ∧
    ∀ x y, Kirchhoff N.buses 0 ((N.assign L).voltages x) ((N.assign L).owned L N x) →
      Kirchhoff N.buses 0 ((N.assign L).voltages y) ((N.assign L).owned L N y) → ∀ i < (N.assign L).size, x i = y i := by
  have hk := fun v => C67_equations_are_kirchhoff hL N hN.plain 0 v
  obtain ⟨x, hx, _⟩ := sturdy_unique hL hv hN
  refine ⟨⟨x, (hk x).1 fun i => ?_⟩, fun x y h1 h2 => same_residual hL hv hN fun i _ => ?_⟩
  · by_cases hi : i < (N.assign L).size
    · exact hx i hi
    · exact networkEq_high (network_rows_below hL N) 0 x (not_lt.1 hi)
  · rw [(hk x).2 h1 i, (hk y).2 h2 i]

theorem Network.Sturdy.linear {N : Network} (hN : N.Sturdy) : N.Linear := ⟨hN.plain, fun e he => (hN.resistive e he).linear⟩

theorem Network.Sturdy.ratios {N : Network} (hN : N.Sturdy) : N.RatiosNonzero 0 := fun e he => by
  have := hN.resistive e he
  cases e <;> simp_all [Element.RatioNonzero, Element.Resistive, ratioAt]

/-- **C125, the solver.** On such a network the solve returns from every start vector, on a fresh or reused stamper, after one Newton run of
at most two iterations. It reports success, and its vector is the solution. -/
theorem C125_solved_partial (hL : L.Loaded) (N : Network) (hv : N.Valid) (hN : N.Sturdy) (hne : (N.assign L).size ≠ 0) (m : Stamper) (v0 : ℕ → ℝ)
    (it0 : ℤ) (hr : Ready N.opt (N.assign L).all m v0 it0) (C : NRContext) (hs : C.size = (N.assign L).size)
    (hsolve : C.solve = idealSolve C.size) (hd : C.debug = false) (hlim : C.limit = none) (htol : 0 < C.tolerance)
    (hmax : 2 ≤ C.maxIters) (txStepping : Bool) (vInit : ℕ → ℝ) :
    ∃ r, homotopyRun (solverRun C) txStepping m vInit = .ok r ∧ r.success = true ∧ r.calls.length = 1 ∧ r.tx = 0 ∧ r.iterations ≤ 1 ∧
      Kirchhoff N.buses 0 ((N.assign L).voltages r.v) ((N.assign L).owned L N r.v) ∧
      ∀ y, Kirchhoff N.buses 0 ((N.assign L).voltages y) ((N.assign L).owned L N y) → ∀ i < (N.assign L).size, y i = r.v i := by
  obtain ⟨res, st, hrun⟩ := C69_linear_returns hL N hv hN.linear hne 0 hN.ratios (sturdy_unique hL hv hN) m v0 it0 hr C hs hsolve hd hlim htol hmax vInit
  obtain ⟨h1, h2, h3⟩ := C69_linear_network hL N hv hN.linear m v0 it0 hr C hs (by rw [hsolve]; exact idealSolve_exact _) hlim htol hmax vInit 0
    hN.ratios res st hrun
  refine ⟨⟨res.success, res.v, res.iter, 0, st.stamper, [⟨vInit, 0, res⟩]⟩, ?_, h1, rfl, by simp [HomotopyResult.tx], h2, h3, fun y hy i hi => ?_⟩
  · simp only [homotopyRun, solverRun, hrun, bind, Except.bind]
    rw [if_pos (Or.inl h1)]
  · exact (C125_unique_partial hL N hv hN).2 y res.v hy h3 i hi

/-! ### Loops of ideal conductors -/

/-- A run on a linear network whose equations do not have exactly one solution raises an exception. -/
theorem linear_raises (hL : L.Loaded) (N : Network) (hv : N.Valid) (hN : N.Linear) (tx : ℝ) (ht : N.RatiosNonzero tx)
    (hu : ¬ N.UniqueSolution L tx) (m : Stamper) (v0 : ℕ → ℝ) (it0 : ℤ) (hr : Ready N.opt (N.assign L).all m v0 it0) (C : NRContext)
    (hs : C.size = (N.assign L).size) (hsolve : C.solve = idealSolve C.size) (vInit : ℕ → ℝ) :
    ∃ e, nrRun C Stamper.ops m vInit tx = .error e := by
  have hno : ∀ k st, RunReach C Stamper.ops m vInit tx k st → ∀ F : RunFacts C Stamper.ops m vInit tx k st, False := by
    intro k st hreach F
    have key := linear_pass (network_linearStamps hL N hN) hr (fun v => network_linear_regular hL N hv hN tx ht v)
        (fun p hp x hx c hc => by rw [hs]; exact network_below hL N p hp x hx c hc) hreach F
    have hsol := F.sol
    rw [hsolve] at hsol
    unfold idealSolve at hsol
    split_ifs at hsol with hx
    obtain ⟨x, hx, hux⟩ := hx
    refine hu ⟨x, ?_, fun y hy i hi => ?_⟩
    · rw [← hs]; exact (key x).1 hx
    · exact hux y ((key y).2 (by rw [hs]; exact hy)) i (by rw [hs]; exact hi)
  cases h : nrRun C Stamper.ops m vInit tx with
  | error e => exact ⟨e, rfl⟩
  | ok p =>
    exfalso
    obtain ⟨r, st⟩ := p
    obtain ⟨hm, ⟨k, st2, _, hreach, F, _⟩ | ⟨hreach, _⟩⟩ := nrRun_end h
    · exact hno k st2 hreach F
    · have hstep : ∀ k st, RunReach C Stamper.ops m vInit tx k st → k = 0 := by
        intro k st hreach
        cases hreach with
        | start => rfl
        | step hreach1 hp =>
          obtain ⟨G, _⟩ := nrPass_cases hp
          exact (hno _ _ hreach1 G).elim
      exact hm (hstep _ _ hreach)

/-- Bus 0 held at one volt, two closed switches in parallel to bus 1, a shunt of one siemens there. -/
noncomputable def twinNet : Network := ⟨2, [.slack 0 1 0, .switch (some 0) (some 1) .closed, .switch (some 0) (some 1) .closed, .shunt 1 1 0], none⟩

theorem twin_valid : twinNet.Valid := by
  intro e he
  simp [twinNet] at he
  rcases he with rfl | rfl | rfl <;> simp [Element.Valid, Ref.Valid, twinNet]

theorem twin_resistive : ∀ e ∈ twinNet.elements, e.Resistive := by
  intro e he
  simp [twinNet] at he
  rcases he with rfl | rfl | rfl <;> simp [Element.Resistive]

theorem twin_held : ∀ k < twinNet.buses, Held twinNet.elements (some k) := by
  have h0 : Held twinNet.elements (some 0) := .forth (e := .slack 0 1 0) (a := none) (by simp [twinNet]) ⟨rfl, rfl⟩ .ground
  intro k hk
  have hk : k < 2 := hk
  interval_cases k
  · exact h0
  · exact .forth (e := .switch (some 0) (some 1) .closed) (by simp [twinNet]) ⟨rfl, rfl⟩ h0

/-- The share `s` of the current of the shunt over the first switch. -/
theorem twin_share (hL : L.Loaded) (s : ℝ) : ∃ v,
    (∀ i, networkEq (twinNet.assign L).all 0 v i = 0) ∧
    (twinNet.assign L).owned L twinNet v = [(.slack 0 1 0, [-1, 0]), (.switch (some 0) (some 1) .closed, [s, 0]),
      (.switch (some 0) (some 1) .closed, [1 - s, 0]), (.shunt 1 1 0, [])] := by
  set es : List (Element × List ℝ) := [(.slack 0 1 0, [-1, 0]), (.switch (some 0) (some 1) .closed, [s, 0]),
      (.switch (some 0) (some 1) .closed, [1 - s, 0]), (.shunt 1 1 0, [])] with hes
  obtain ⟨v, h1, h2⟩ := exists_values hL twinNet rfl (fun _ => 1) es rfl (by
    intro x hx
    simp only [hes, List.mem_cons, List.not_mem_nil, or_false] at hx
    rcases hx with rfl | rfl | rfl | rfl <;> rfl)
  refine ⟨v, (C67_equations_are_kirchhoff hL twinNet rfl 0 v).2 ?_, h2⟩
  have v0 := h1 0 (by simp [twinNet])
  have v1 := h1 1 (by simp [twinNet])
  rw [h2, hes]
  constructor
  · intro k hk
    have hk : k < 2 := hk
    interval_cases k
    · apply Complex.ext <;> simp [Element.draws, branch, pairAt]
    · apply Complex.ext <;> simp [Element.draws, branch, pairAt, v1, faded]
  · intro x hx z hz
    simp only [List.mem_cons, List.not_mem_nil, or_false] at hx
    rcases hx with rfl | rfl | rfl | rfl
    · simp only [Element.laws, v0, both, List.mem_cons, List.not_mem_nil, or_false] at hz
      rcases hz with rfl | rfl <;> simp
    · simp only [Element.laws, v0, v1, both, List.mem_cons, List.not_mem_nil, or_false] at hz
      rcases hz with rfl | rfl <;> simp
    · simp only [Element.laws, v0, v1, both, List.mem_cons, List.not_mem_nil, or_false] at hz
      rcases hz with rfl | rfl <;> simp
    · simp [Element.laws] at hz

theorem owned_agree (hL : L.Loaded) (N : Network) {v w : ℕ → ℝ} (h : ∀ i < (N.assign L).size, v i = w i) :
    (N.assign L).owned L N v = (N.assign L).owned L N w := by
  rw [owned_eq, owned_eq]
  refine List.map_congr_left fun z hz => ?_
  refine congrArg (Prod.mk z.1) (List.map_congr_left fun i hi => ?_)
  cases i with
  | none => rfl
  | some i =>
    refine h i (((C07_distinct_and_dense hL N).2 i).2 ?_)
    unfold Assignment.unknowns
    refine List.mem_append_left _ (List.mem_append_right _ (List.mem_flatten.2 ⟨z.2, ?_, hi⟩))
    have : z.2 ∈ ((N.assign L).ownIdx L N).map Prod.snd := List.mem_map_of_mem hz
    unfold Assignment.ownIdx at this
    rwa [List.map_zipWith] at this

theorem twin_not_unique (hL : L.Loaded) : ¬ twinNet.UniqueSolution L 0 := by
  rintro ⟨x, _, hu⟩
  obtain ⟨v, hv, ov⟩ := twin_share hL 0
  obtain ⟨w, hw, ow⟩ := twin_share hL 1
  have := owned_agree hL twinNet fun i hi => (hu v (fun i _ => hv i) i hi).trans (hu w (fun i _ => hw i) i hi).symm
  rw [ov, ow] at this
  simp at this

/-- **C125 fails for switches in parallel.** In the network below all equipment is resistive and both buses are held at one volt, yet every solve, from any
start vector and with any settings, raises an exception: how two closed switches share a current is not determined, and the matrix is singular. -/
theorem C125_switches_fails (hL : L.Loaded) : twinNet.Valid ∧ (∀ e ∈ twinNet.elements, e.Resistive) ∧
    (∀ k < twinNet.buses, Held twinNet.elements (some k)) ∧
    ∀ m v0 it0, Ready twinNet.opt (twinNet.assign L).all m v0 it0 → ∀ C : NRContext, C.size = (twinNet.assign L).size → C.solve = idealSolve C.size →
      ∀ txStepping vInit, ∃ e, homotopyRun (solverRun C) txStepping m vInit = .error e := by
  refine ⟨twin_valid, twin_resistive, twin_held, fun m v0 it0 hr C hs hsolve txStepping vInit => ?_⟩
  obtain ⟨e, he⟩ := linear_raises hL twinNet twin_valid ⟨rfl, fun e he => (twin_resistive e he).linear⟩ 0 (fun e he => by
    simp [twinNet] at he
    rcases he with rfl | rfl | rfl <;> trivial) (twin_not_unique hL) m v0 it0 hr C hs hsolve vInit
  exact ⟨e, by simp only [homotopyRun, solverRun, he, bind, Except.bind]⟩

/-- Stampers for the network exist. -/
example (hL : L.Loaded) : ∃ m v0 it0, Ready twinNet.opt (twinNet.assign L).all m v0 it0 ∧
    ∃ e, homotopyRun (solverRun (plainCtx (twinNet.assign L).size)) true m (fun _ => 1) = .error e := by
  obtain ⟨m, hm, hr⟩ := build_ready twinNet.opt (twinNet.assign L).all (network_wellPlaced hL twinNet twin_valid)
  exact ⟨m, _, _, hr, (C125_switches_fails hL).2.2.2 m _ _ hr (plainCtx _) rfl rfl true _⟩

/-! ### A network that meets the hypotheses: a line, a transformer with a phase shift, a switch, a load of impedance and current -/

/-- The network. -/
noncomputable def plantNet : Network := ⟨4, [.slack 0 1 0, .line (some 0) (some 1) 1 (-2) (1 / 10), .transformer (some 1) none (some 2) none 2 (1 / 2) 3 (-4),
  .switch (some 2) (some 3) .closed, .load (some 3) none ⟨0, 0, ⟨1, 1⟩, 1, 1 / 2⟩, .capacitor (some 2) none .closed 5], none⟩

theorem plant_valid : plantNet.Valid := by
  intro e he
  simp [plantNet] at he
  rcases he with rfl | rfl | rfl | rfl | rfl | rfl <;> simp [Element.Valid, Ref.Valid, plantNet]

theorem plant_sturdy : plantNet.Sturdy where
  plain := rfl
  resistive := by
    intro e he
    simp [plantNet] at he
    rcases he with rfl | rfl | rfl | rfl | rfl | rfl <;> simp [Element.Resistive]
  held := by
    have h0 : Held plantNet.elements (some 0) := .forth (e := .slack 0 1 0) (a := none) (by simp [plantNet]) ⟨rfl, rfl⟩ .ground
    have h1 : Held plantNet.elements (some 1) :=
      .forth (e := .line (some 0) (some 1) 1 (-2) (1 / 10)) (by simp [plantNet]) ⟨rfl, rfl⟩ h0
    have h2 : Held plantNet.elements (some 2) :=
      .secondary (fp := some 1) (fn := none) (tn := none) (tr := 2) (ang := 1 / 2) (g := 3) (b := -4) (by simp [plantNet]) h1 .ground .ground
    have h3 : Held plantNet.elements (some 3) := .forth (e := .switch (some 2) (some 3) .closed) (by simp [plantNet]) ⟨rfl, rfl⟩ h2
    intro k hk
    have hk : k < 4 := hk
    interval_cases k <;> assumption
  loopless := by
    show Loopless ([(some 0, none), (some 2, some 3)] : List (Ref × Ref))
    exact .leaf (l₁ := []) 0 (.leaf (l₁ := []) 2 .nil (by simp) (by simp)) (by simp) (by simp)

example (hL : L.Loaded) := (C125_unique_partial hL plantNet plant_valid plant_sturdy).1

theorem plant_size (hL : L.Loaded) : (plantNet.assign L).size ≠ 0 := by
  have hopt : plantNet.opt = false := rfl
  have h : some 0 ∈ (plantNet.assign L).unknowns L plantNet := by
    unfold Assignment.unknowns
    refine List.mem_append_left _ (List.mem_append_left _ (List.mem_flatMap.2 ⟨plainNode 0, ?_, by simp [Node.unknowns, plainNode]⟩))
    show plainNode 0 ∈ [plainNode 0, plainNode 1, plainNode 2, plainNode 3]
    simp
  have := ((C07_distinct_and_dense hL plantNet).2 0).2 h
  omega

/-- From every start vector it is solved. -/
example (hL : L.Loaded) (vInit : ℕ → ℝ) : ∃ m r, Stamper.build false (plantNet.assign L).all = .ok m ∧
    homotopyRun (solverRun (plainCtx (plantNet.assign L).size)) true m vInit = .ok r ∧ r.success = true := by
  obtain ⟨m, hm, hr⟩ := build_ready false (plantNet.assign L).all (network_wellPlaced hL plantNet plant_valid)
  obtain ⟨r, h1, h2, _⟩ := C125_solved_partial hL plantNet plant_valid plant_sturdy (plant_size hL) m _ _ hr (plainCtx _) rfl rfl rfl rfl
    (by norm_num [plainCtx]) (by norm_num [plainCtx]) true vInit
  exact ⟨m, r, hm, h1, h2⟩

end Verif
