import Verif.Lemmas.Balanced
import Verif.Lemmas.Feeder
import Verif.Lemmas.Light
import Verif.Props.Unique

/-!
# C137: a balanced three-phase network behaves as its single-phase equivalent
-/

namespace Verif

open Ex Devices

variable {L : Library}

/-- **C137.** Every solution of the single-phase equivalent is, with phases B and C one and two thirds of a turn behind, a solution of the balanced three-phase network. -/
theorem C137_balanced (hL : L.Loaded) (N M : Network) (h : Equivalent N M) (x : ℕ → ℝ) (hx : ∀ i, networkEq (N.assign L).all 0 x i = 0) :
    ∃ y, (∀ i, networkEq (M.assign L).all 0 y i = 0) ∧
      ∀ k, ∀ p < 3, (M.assign L).voltages y (some (3 * k + p)) = behind ^ p * (N.assign L).voltages x (some k) := by
  obtain ⟨ess, he, hM⟩ := h.elements
  have h0 : (N.assign L).voltages x none = 0 := rfl
  obtain ⟨xs, h1, h2, h3⟩ := kirchhoff_spread (n := N.buses) h0 (zs := (N.assign L).owned L N x) (ess := ess) (by rw [owned_fst]; exact he)
    (owned_widths (L := L) N h.plain x) ((C67_equations_are_kirchhoff hL N h.plain 0 x).1 hx)
  obtain ⟨y, g1, g2⟩ := exists_values hL M h.plain' (fun j => spread ((N.assign L).voltages x) (some j)) xs (by rw [h1, hM]) h2
  have hV : (M.assign L).voltages y = spread ((N.assign L).voltages x) := by
    funext r
    cases r with
    | none => rfl
    | some j =>
      by_cases hj : j < M.buses
      · exact g1 j hj
      · rw [voltages_out M y (not_lt.1 hj)]
        show 0 = behind ^ (j % 3) * (N.assign L).voltages x (some (j / 3))
        rw [voltages_out N x (by rw [h.buses] at hj; omega), mul_zero]
  refine ⟨y, (C67_equations_are_kirchhoff hL M h.plain' 0 y).2 ?_, fun k p hp => ?_⟩
  · rw [hV, g2, h.buses]; exact h3
  · rw [hV]; exact (spread_balanced h0).at p hp (some k)

/-- **C137, the run.** If the equipment is resistive, connected and without loops of ideal conductors, the solver returns this state: all three phases of a bus have the voltage
magnitude of the single-phase equivalent, a third of a turn apart. -/
theorem C137_solved (hL : L.Loaded) (N M : Network) (h : Equivalent N M) (x : ℕ → ℝ) (hx : ∀ i, networkEq (N.assign L).all 0 x i = 0)
    (hv : M.Valid) (hM : M.Sturdy) (hne : (M.assign L).size ≠ 0) (m : Stamper) (v0 : ℕ → ℝ)
    (it0 : ℤ) (hr : Ready M.opt (M.assign L).all m v0 it0) (C : NRContext) (hs : C.size = (M.assign L).size)
    (hsolve : C.solve = idealSolve C.size) (hd : C.debug = false) (hlim : C.limit = none) (htol : 0 < C.tolerance)
    (hmax : 2 ≤ C.maxIters) (txStepping : Bool) (vInit : ℕ → ℝ) :
    ∃ r, homotopyRun (solverRun C) txStepping m vInit = .ok r ∧ r.success = true ∧ r.tx = 0 ∧
      ∀ k < N.buses, ∀ p < 3, (M.assign L).voltages r.v (some (3 * k + p)) = behind ^ p * (N.assign L).voltages x (some k) ∧
        ‖(M.assign L).voltages r.v (some (3 * k + p))‖ = ‖(N.assign L).voltages x (some k)‖ := by
  obtain ⟨r, h1, h2, _, h3, _, _, h4⟩ := C125_solved_partial hL M hv hM hne m v0 it0 hr C hs hsolve hd hlim htol hmax txStepping vInit
  obtain ⟨y, g1, g2⟩ := C137_balanced hL N M h x hx
  have hy := h4 y ((C67_equations_are_kirchhoff hL M h.plain' 0 y).1 g1)
  refine ⟨r, h1, h2, h3, fun k hk p hp => ?_⟩
  have e : (M.assign L).voltages r.v (some (3 * k + p)) = behind ^ p * (N.assign L).voltages x (some k) := by
    rw [← g2 k p hp, volt_agree hL h.plain' hy]
  refine ⟨e, ?_⟩
  rw [e, norm_mul, behind_pow_norm, one_mul]

/-! ### A feeder -/

/-- Two three-phase buses, slack voltages a third of a turn apart, a line with coupled conductors, loads between the phases. -/
noncomputable def feeder3 : Network :=
  ⟨6, [.unbalanced [(0, 3), (1, 4), (2, 5)] (alike 2 1) (alike 0 0),
    (Element.slack 0 1 0).inPhase 0, (Element.slack 0 1 0).inPhase 1, (Element.slack 0 1 0).inPhase 2,
    .load (some 3) (some 4) (loadIn (3 / 16) 0 0 0 0), .load (some 4) (some 5) (loadIn (3 / 16) 0 0 0 1), .load (some 5) (some 3) (loadIn (3 / 16) 0 0 0 2)], none⟩

theorem feeder3_equivalent : Equivalent (feeder (3 / 16)) feeder3 := by
  refine ⟨rfl, rfl, rfl, [[.unbalanced [(0, 3), (1, 4), (2, 5)] (alike 2 1) (alike 0 0)],
    [(Element.slack 0 1 0).inPhase 0, (Element.slack 0 1 0).inPhase 1, (Element.slack 0 1 0).inPhase 2],
    [.load (some 3) (some 4) (loadIn (3 / 16) 0 0 0 0), .load (some 4) (some 5) (loadIn (3 / 16) 0 0 0 1), .load (some 5) (some 3) (loadIn (3 / 16) 0 0 0 2)]], ?_, rfl⟩
  refine .cons ?_ (.cons (.copies _ trivial) (.cons ?_ .nil))
  · have := Threefold.coupledLine 0 1 2 1 0 0
    rw [show (2 : ℂ) - 1 = 1 by norm_num, sub_self, zero_div] at this
    exact this
  · have := Threefold.deltaLoad 1 (3 / 16) 0 0 0
    rw [show loadIn (3 / 16) 0 (0 / 3) (0 * (1 - behind ^ 2)) 0 = ⟨3 / 16, 0, 0, 0, 0⟩ by simp [loadIn]] at this
    exact this

/-- The single-phase state: three quarters of a volt at the load. -/
noncomputable def feederState : ℕ → ℝ
  | 0 => 1
  | 2 => 3 / 4
  | 4 => -1 / 4
  | _ => 0

/-- Beside `C137_balanced`: with loads between the phases and coupled conductors, three quarters of a volt remain in each phase. -/
example (hL : L.Loaded) : ∃ y, (∀ i, networkEq (feeder3.assign L).all 0 y i = 0) ∧ (feeder3.assign L).voltages y (some 3) = 3 / 4 ∧
    (feeder3.assign L).voltages y (some 4) = behind * (3 / 4) ∧ (feeder3.assign L).voltages y (some 5) = behind ^ 2 * (3 / 4) := by
  obtain ⟨y, h1, h2⟩ := C137_balanced hL (feeder (3 / 16)) feeder3 feeder3_equivalent feederState (fun i => by
    rw [feeder_rows hL]
    match i with
    | 0 | 1 | 2 | 3 | 4 | 5 => simp [feederEq, feederState] <;> norm_num
    | n + 6 => simp [feederEq])
  have hv : ((feeder (3 / 16)).assign L).voltages feederState (some 1) = 3 / 4 := by
    rw [(feeder_volt (L := L) (3 / 16) feederState).2.1]
    apply Complex.ext <;> simp [feederState]
  refine ⟨y, h1, ?_, ?_, ?_⟩
  · have := h2 1 0 (by norm_num); rw [hv, pow_zero, one_mul] at this; exact this
  · have := h2 1 1 (by norm_num); rw [hv, pow_one] at this; exact this
  · have := h2 1 2 (by norm_num); rw [hv] at this; exact this

/-! ### The same feeder with an impedance load -/

/-- The single-phase feeder, with an impedance as its load. -/
noncomputable def heater : Network := ⟨2, [.line (some 0) (some 1) 1 0 0, .slack 0 1 0, .load (some 1) none (loadIn 0 0 (3 / 3) (0 * (1 - behind ^ 2)) 0)], none⟩

/-- The three-phase feeder, with impedances between the phases. -/
noncomputable def heater3 : Network :=
  ⟨6, [.unbalanced [(0, 3), (1, 4), (2, 5)] (alike 2 1) (alike 0 0),
    (Element.slack 0 1 0).inPhase 0, (Element.slack 0 1 0).inPhase 1, (Element.slack 0 1 0).inPhase 2,
    .load (some 3) (some 4) (loadIn 0 0 3 0 0), .load (some 4) (some 5) (loadIn 0 0 3 0 1), .load (some 5) (some 3) (loadIn 0 0 3 0 2)], none⟩

theorem heater_equivalent : Equivalent heater heater3 := by
  refine ⟨rfl, rfl, rfl, [[.unbalanced [(0, 3), (1, 4), (2, 5)] (alike 2 1) (alike 0 0)],
    [(Element.slack 0 1 0).inPhase 0, (Element.slack 0 1 0).inPhase 1, (Element.slack 0 1 0).inPhase 2],
    [.load (some 3) (some 4) (loadIn 0 0 3 0 0), .load (some 4) (some 5) (loadIn 0 0 3 0 1), .load (some 5) (some 3) (loadIn 0 0 3 0 2)]], ?_, rfl⟩
  refine .cons ?_ (.cons (.copies _ trivial) (.cons (.deltaLoad 1 0 0 3 0) .nil))
  have := Threefold.coupledLine 0 1 2 1 0 0
  rw [show (2 : ℂ) - 1 = 1 by norm_num, sub_self, zero_div] at this
  exact this

theorem heater_valid : heater.Valid := by
  intro e he
  simp [heater] at he
  rcases he with rfl | rfl | rfl <;> simp [Element.Valid, Ref.Valid, heater]

theorem heater_sturdy : heater.Sturdy where
  plain := rfl
  resistive := by
    intro e he
    simp [heater] at he
    rcases he with rfl | rfl | rfl <;> simp [Element.Resistive, loadIn]
  held := by
    have h0 : Held heater.elements (some 0) := .forth (e := .slack 0 1 0) (a := none) (by simp [heater]) ⟨rfl, rfl⟩ .ground
    have h1 : Held heater.elements (some 1) := .forth (e := .line (some 0) (some 1) 1 0 0) (by simp [heater]) ⟨rfl, rfl⟩ h0
    intro k hk
    have hk : k < 2 := hk
    interval_cases k <;> assumption
  loopless := .leaf (l₁ := []) (l₂ := []) 0 .nil (by simp) (Or.inl ⟨rfl, by simp⟩)

theorem slack_inPhase (p : ℕ) : ∃ vr vi, (Element.slack 0 1 0).inPhase p = .slack p vr vi :=
  ⟨_, _, by rw [Element.inPhase, Element.turn, Element.put, mul_zero, zero_add]⟩

theorem heater3_valid : heater3.Valid := by
  intro e he
  obtain ⟨a0, b0, e0⟩ := slack_inPhase 0
  obtain ⟨a1, b1, e1⟩ := slack_inPhase 1
  obtain ⟨a2, b2, e2⟩ := slack_inPhase 2
  simp [heater3, e0, e1, e2] at he
  rcases he with rfl | rfl | rfl | rfl | rfl | rfl | rfl <;> simp [Element.Valid, Ref.Valid, heater3]

theorem heater3_sturdy : heater3.Sturdy where
  plain := rfl
  resistive := by
    intro e he
    obtain ⟨a0, b0, e0⟩ := slack_inPhase 0
    obtain ⟨a1, b1, e1⟩ := slack_inPhase 1
    obtain ⟨a2, b2, e2⟩ := slack_inPhase 2
    simp [heater3, e0, e1, e2] at he
    rcases he with rfl | rfl | rfl | rfl | rfl | rfl | rfl
    · refine ⟨?_, ?_, ?_⟩
      · intro i j; simp [alike, eq_comm]
      · intro i j; simp [alike]
      · rintro d ⟨i, hi, hd⟩
        simp only [List.length_cons, List.length_nil, Finset.sum_range_succ, Finset.sum_range_zero, alike]
        simp
        have hi : i < 3 := hi
        have : 0 < d 0 ^ 2 + d 1 ^ 2 + d 2 ^ 2 := by
          interval_cases i <;> positivity
        nlinarith [sq_nonneg (d 0 + d 1 + d 2)]
    all_goals simp [Element.Resistive, loadIn]
  held := by
    obtain ⟨a0, b0, e0⟩ := slack_inPhase 0
    obtain ⟨a1, b1, e1⟩ := slack_inPhase 1
    obtain ⟨a2, b2, e2⟩ := slack_inPhase 2
    have h0 : Held heater3.elements (some 0) := .forth (e := .slack 0 a0 b0) (a := none) (by simp [heater3, e0]) ⟨rfl, rfl⟩ .ground
    have h1 : Held heater3.elements (some 1) := .forth (e := .slack 1 a1 b1) (a := none) (by simp [heater3, e1]) ⟨rfl, rfl⟩ .ground
    have h2 : Held heater3.elements (some 2) := .forth (e := .slack 2 a2 b2) (a := none) (by simp [heater3, e2]) ⟨rfl, rfl⟩ .ground
    have hl : Element.unbalanced [(0, 3), (1, 4), (2, 5)] (alike 2 1) (alike 0 0) ∈ heater3.elements := by simp [heater3]
    have h3 : Held heater3.elements (some 3) := .forth hl ⟨(0, 3), by simp, rfl, rfl⟩ h0
    have h4 : Held heater3.elements (some 4) := .forth hl ⟨(1, 4), by simp, rfl, rfl⟩ h1
    have h5 : Held heater3.elements (some 5) := .forth hl ⟨(2, 5), by simp, rfl, rfl⟩ h2
    intro k hk
    have hk : k < 6 := hk
    interval_cases k <;> assumption
  loopless := by
    obtain ⟨a0, b0, e0⟩ := slack_inPhase 0
    obtain ⟨a1, b1, e1⟩ := slack_inPhase 1
    obtain ⟨a2, b2, e2⟩ := slack_inPhase 2
    simp only [heater3, e0, e1, e2]
    exact .leaf (l₁ := []) (l₂ := [(some 1, none), (some 2, none)]) 0
      (.leaf (l₁ := []) (l₂ := [(some 2, none)]) 1 (.leaf (l₁ := []) (l₂ := []) 2 .nil (by simp) (Or.inl ⟨rfl, by simp⟩)) (by simp) (Or.inl ⟨rfl, by simp⟩))
      (by simp) (Or.inl ⟨rfl, by simp⟩)

/-- Beside `C137_solved`: the run returns three phases a third of a turn apart with the magnitudes of the single-phase feeder. -/
example (hL : L.Loaded) (vInit : ℕ → ℝ) : ∃ m r x, homotopyRun (solverRun (plainCtx (heater3.assign L).size)) false m vInit = .ok r ∧
    Kirchhoff 2 0 ((heater.assign L).voltages x) ((heater.assign L).owned L heater x) ∧
    ‖(heater3.assign L).voltages r.v (some 5)‖ = ‖(heater.assign L).voltages x (some 1)‖ := by
  obtain ⟨x, hx⟩ := (C125_unique_partial hL heater heater_valid heater_sturdy).1
  obtain ⟨m, _, hr⟩ := build_ready heater3.opt (heater3.assign L).all (network_wellPlaced hL heater3 heater3_valid)
  have hne : (heater3.assign L).size ≠ 0 := by
    have h : some 0 ∈ (heater3.assign L).unknowns L heater3 := by
      unfold Assignment.unknowns
      refine List.mem_append_left _ (List.mem_append_left _ (List.mem_flatMap.2 ⟨plainNode 0, ?_, by simp [Node.unknowns, plainNode]⟩))
      show plainNode 0 ∈ [plainNode 0, plainNode 1, plainNode 2, plainNode 3, plainNode 4, plainNode 5]
      simp
    have := ((C07_distinct_and_dense hL heater3).2 0).2 h
    omega
  obtain ⟨r, h1, _, _, h2⟩ := C137_solved hL heater heater3 heater_equivalent x ((C67_equations_are_kirchhoff hL heater rfl 0 x).2 hx) heater3_valid heater3_sturdy hne
    m _ _ hr (plainCtx _) rfl rfl rfl rfl (by norm_num [plainCtx]) (by norm_num [plainCtx]) false vInit
  exact ⟨m, r, x, h1, hx, (h2 1 (by norm_num [heater]) 2 (by norm_num)).2⟩

end Verif
