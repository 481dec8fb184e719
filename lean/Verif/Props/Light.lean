import Verif.Lemmas.Light
import Verif.Props.Unique
import Verif.Props.Converge

/-!
# C130: lightly loaded networks are solved

Full statement: on a connected network of resistive equipment, if the constant-power loads are light enough, the solver finds the solution near the
voltages without load, from every starting vector at which the loads have voltage. Missing: generators; in the theorem on the solver also loads whose
power, turned back by twice the angle of the voltage without load, is real or imaginary (`Element.SteadyAt`), and voltage limiting. The theorems do not
say how light the loads have to be, and `C130_overload` shows that there is a limit. A bound under which a solution exists is in C135.
-/

namespace Verif

open Ex Devices

variable {L : Library}

/-- **C130, the circuit.** Let `N` be a network that is sturdy without its constant-power loads, with voltages `x0` without load at which all loads have voltage. There is a
distance `δ` so that for every `ε` all small enough load factors leave the network with a solution within `ε` of `x0`, and with no other
within `δ`. -/
theorem C130_solution_partial (hL : L.Loaded) (N : Network) (hv : N.Valid) (hN : (N.factor 0 0).Sturdy) (x0 : ℕ → ℝ)
    (hz : Kirchhoff N.buses 0 (((N.factor 0 0).assign L).voltages x0) (((N.factor 0 0).assign L).owned L (N.factor 0 0) x0))
    (hreg : ∀ e ∈ N.elements, e.RegularAt 0 ((N.assign L).voltages x0)) :
    ∃ δ > 0, ∀ ε > 0, ∃ s0 > 0, ∀ s : ℝ, |s| ≤ s0 →
      ∃ x, Within (N.assign L).size ε x x0 ∧
        Kirchhoff N.buses 0 (((N.factor s s).assign L).voltages x) (((N.factor s s).assign L).owned L (N.factor s s) x) ∧
        ∀ y, Within (N.assign L).size δ y x0 →
          Kirchhoff N.buses 0 (((N.factor s s).assign L).voltages y) (((N.factor s s).assign L).owned L (N.factor s s) y) →
          ∀ i < (N.assign L).size, y i = x i := by
  have hz' := (C67_equations_are_kirchhoff hL (N.factor 0 0) hN.plain 0 x0).2 hz
  obtain ⟨A, hF⟩ := light_facts hL hv hN rfl (fun i _ => hz' i) hreg
  obtain ⟨ρ, hρ, h⟩ := light_zero hF.affine hF.inj hF.zero hF.smooth
  refine ⟨ρ, hρ, fun ε hε => ?_⟩
  obtain ⟨s0, hs0, h⟩ := h (min ε ρ) (lt_min hε hρ) (min_le_right _ _)
  refine ⟨s0, hs0, fun s hs => ?_⟩
  obtain ⟨x, hx, hx0, hu⟩ := h s hs _ (hF.family s)
  have hk := fun v => C67_equations_are_kirchhoff hL (N.factor s s) hF.plain 0 v
  refine ⟨stretch (N.assign L).size x, (within_iff hε.le _ _).2 ?_, (hk _).1 fun i => ?_, fun y hy hky i hi => ?_⟩
  · rw [cutTo_stretch]; exact hx.trans (min_le_left _ _)
  · by_cases hi : i < (N.assign L).size
    · exact congrFun hx0 ⟨i, hi⟩
    · exact networkEq_high (hF.rows s) 0 _ (not_lt.1 hi)
  · have h1 := hu (cutTo _ y) ((within_iff hρ.le _ _).1 hy) (by
      funext j
      show networkEq _ 0 _ j = 0
      rw [← networkEq_agree (hF.below s) 0 (stretch_agree y)]
      exact (hk y).2 hky j)
    rw [stretch_lt x hi, ← h1]
    rfl

/-- **C130, the solver.** On the same networks, from a starting vector at which all loads have voltage, for every `ε` and tolerance all small enough
load factors but zero make the solve on a fresh stamper return after one Newton run of at most two iterations, in debug mode or not. It reports
success, and its vector is within `ε` of the voltages without load. -/
theorem C130_light_partial (hL : L.Loaded) (N : Network) (hv : N.Valid) (hN : (N.factor 0 0).Sturdy) (hne : (N.assign L).size ≠ 0) (x0 : ℕ → ℝ)
    (hz : Kirchhoff N.buses 0 (((N.factor 0 0).assign L).voltages x0) (((N.factor 0 0).assign L).owned L (N.factor 0 0) x0))
    (hst : ∀ e ∈ N.elements, e.SteadyAt ((N.assign L).voltages x0) []) (vInit : ℕ → ℝ)
    (hvi : ∀ e ∈ N.elements, e.RegularAt 0 ((N.assign L).voltages vInit)) (ε tol : ℝ) (hε : 0 < ε) (htol : 0 < tol) :
    ∃ s0 > 0, ∀ s : ℝ, s ≠ 0 → |s| ≤ s0 → ∀ m C txStepping, Stamper.build (N.factor s s).opt ((N.factor s s).assign L).all = .ok m →
      C.size = ((N.factor s s).assign L).size → C.solve = idealSolve C.size → C.limit = none → tol ≤ C.tolerance → 2 ≤ C.maxIters →
      ∃ r, homotopyRun (solverRun C) txStepping m vInit = .ok r ∧ r.success = true ∧ r.calls.length = 1 ∧ r.tx = 0 ∧ r.iterations ≤ 1 ∧
        Within C.size ε r.v x0 := by
  have hz' := (C67_equations_are_kirchhoff hL (N.factor 0 0) hN.plain 0 x0).2 hz
  obtain ⟨s0, hs0, h⟩ := light_run hL hv hN rfl hne (fun i _ => hz' i) hst hvi hε htol
  refine ⟨s0, hs0, fun s hs1 hs2 m C txStepping hm hs hsolve hlim htl hmax => ?_⟩
  obtain ⟨r, st, h1, h2, h3, h4⟩ := h s hs1 hs2 m C hm (hs.trans (factor_size (N := N) hN.plain hL s)) hsolve hlim htl hmax
  refine ⟨⟨r.success, r.v, r.iter, 0, st.stamper, [⟨vInit, 0, r⟩]⟩, ?_, h2, rfl, by simp [HomotopyResult.tx], h3, h4⟩
  simp only [homotopyRun, solverRun, h1, bind, Except.bind]
  rw [if_pos (Or.inl h2)]

/-! ### There is a limit -/

theorem feeder_factor (s : ℝ) : (feeder 1).factor s s = feeder s := by
  simp [feeder, Network.factor, Element.factor]

/-- **C130, overload.** One siemens from a source of one volt carries at most a quarter of a watt: the feeder with a load of one watt has no solution
at any factor above one quarter. -/
theorem C130_overload (hL : L.Loaded) (s : ℝ) (hs : 1 / 4 < s) (v : ℕ → ℝ) :
    ¬ Kirchhoff 2 0 ((((feeder 1).factor s s).assign L).voltages v) ((((feeder 1).factor s s).assign L).owned L ((feeder 1).factor s s) v) := by
  rw [feeder_factor]
  intro hk
  have h := (C67_equations_are_kirchhoff hL (feeder s) rfl 0 v).2 hk
  have h2 := h 2
  have h3 := h 3
  have h4 := h 4
  have h5 := h 5
  simp only [feeder_rows hL, feederEq] at h2 h3 h4 h5
  have e0 : v 0 = 1 := by linarith
  rw [e0] at h2
  rw [h5] at h3
  by_cases hq : v 2 ^ 2 + v 3 ^ 2 = 0
  · rw [hq, div_zero] at h2
    have : v 2 = 0 := by nlinarith [sq_nonneg (v 2), sq_nonneg (v 3)]
    linarith
  · have hpos : 0 < v 2 ^ 2 + v 3 ^ 2 := lt_of_le_of_ne (by positivity) (Ne.symm hq)
    field_simp at h2 h3
    have e3 : v 3 = 0 := by
      have : v 3 * (v 2 ^ 2 + v 3 ^ 2 + s) = 0 := by linarith
      rcases mul_eq_zero.1 this with h | h
      · exact h
      · nlinarith
    rw [e3] at h2 hpos
    have e2 : v 2 ≠ 0 := fun h => by rw [h] at hpos; norm_num at hpos
    have : v 2 * (v 2 ^ 2 - v 2 + s) = 0 := by linarith
    rcases mul_eq_zero.1 this with h | h
    · exact e2 h
    · nlinarith [sq_nonneg (v 2 - 1 / 2)]

/-! ### Debug mode without load -/

/-- **C125, in debug mode.** On a sturdy network the solve on a fresh stamper also returns in debug mode, where the matrix is checked, with the solution. -/
theorem C125_debug_partial (hL : L.Loaded) (N : Network) (hv : N.Valid) (hN : N.Sturdy) (hne : (N.assign L).size ≠ 0) (m : Stamper)
    (hm : Stamper.build N.opt (N.assign L).all = .ok m) (C : NRContext) (hs : C.size = (N.assign L).size)
    (hsolve : C.solve = idealSolve C.size) (hlim : C.limit = none) (htol : 0 < C.tolerance)
    (hmax : 2 ≤ C.maxIters) (txStepping : Bool) (vInit : ℕ → ℝ) :
    ∃ r, homotopyRun (solverRun C) txStepping m vInit = .ok r ∧ r.success = true ∧ r.calls.length = 1 ∧ r.tx = 0 ∧ r.iterations ≤ 1 ∧
      ∀ y, Kirchhoff N.buses 0 ((N.assign L).voltages y) ((N.assign L).owned L N y) → ∀ i < (N.assign L).size, y i = r.v i := by
  obtain ⟨A, hA, haff⟩ := sturdy_affine (L := L) hL hv hN hs.symm
  obtain ⟨x, hx⟩ := (C125_unique_partial (L := L) hL N hv hN).1
  have hx' := (C67_equations_are_kirchhoff hL N hN.plain 0 x).2 hx
  have hn : Below (N.assign L).all C.size := fun p hp x hx c hc => hs ▸ network_below hL N p hp x hx c hc
  have hrows : ∀ p ∈ (N.assign L).all, p.RowsBelow C.size := by rw [hs]; exact network_rows_below hL N
  have hreg : ∀ w, ∀ p ∈ (N.assign L).all, p.Regular 0 w := fun w => network_linear_regular hL N hv hN.linear 0 hN.ratios w
  have hzero : equationsMap (N.assign L).all 0 C.size (cutTo C.size x) = 0 := by
    funext j
    show networkEq _ 0 _ j = 0
    rw [← networkEq_agree hn 0 (stretch_agree x)]; exact hx' j
  have hder : ∀ w, HasFDerivAt (equationsMap (N.assign L).all 0 C.size) A w := fun w => by
    have e : equationsMap (N.assign L).all 0 C.size = fun x => equationsMap (N.assign L).all 0 C.size w + (A x - A w) := by
      funext x; rw [haff x w, map_sub]
    rw [e]
    exact ((A.hasFDerivAt.sub_const (A w)).const_add _)
  have hstep : ∀ w z, equationsMap (N.assign L).all 0 C.size w + fderiv ℝ (equationsMap (N.assign L).all 0 C.size) w (z - w) = 0 →
      ‖z - cutTo C.size x‖ ≤ 0 := fun w z h => by
    rw [(hder w).fderiv, ← haff z w, haff z (cutTo C.size x), hzero, zero_add] at h
    rw [(injective_iff_map_eq_zero A).1 hA _ h, norm_zero]
  obtain ⟨m', hm', hready⟩ := build_ready N.opt (N.assign L).all (network_wellPlaced hL N hv)
  obtain rfl : m' = m := by rw [hm] at hm'; injection hm' with h; exact h.symm
  obtain ⟨r, st, h1, h2, h3, h4⟩ := two_passes (vInit := vInit) hready (by norm_num) hn hsolve (fun _ => hrows) (by rw [hs]; exact hne) hlim hmax (hreg vInit)
    (x0 := cutTo C.size x) (ρ := 0)
    ⟨(hder _).differentiableAt, by rw [(hder _).fderiv]; exact hA, hstep _⟩
    (fun w hw => ⟨hreg w, fun p hp => filled_of_linear (network_linearStamps hL N hN.linear p hp) 0 w, (hder _).differentiableAt,
      by rw [(hder _).fderiv]; exact hA, by rw [sub_eq_zero.1 (norm_le_zero_iff.1 hw), hzero, norm_zero]; exact htol, hstep _⟩)
  refine ⟨⟨r.success, r.v, r.iter, 0, st.stamper, [⟨vInit, 0, r⟩]⟩, ?_, h2, rfl, by simp [HomotopyResult.tx], h3, fun y hy i hi => ?_⟩
  · simp only [homotopyRun, solverRun, h1, bind, Except.bind]
    rw [if_pos (Or.inl h2)]
  · rw [(C125_unique_partial (L := L) hL N hv hN).2 y x hy hx i hi]
    exact (congrFun (sub_eq_zero.1 (norm_le_zero_iff.1 h4)) ⟨i, by rw [hs]; exact hi⟩).symm

/-! ### A feeder that meets the hypotheses

The network of `C123_converges_partial`: a slack of one volt, a line of one siemens and a load of `1/9 + j/3`. -/

theorem reactive_sturdy : (reactiveNet.factor 0 0).Sturdy where
  plain := rfl
  resistive := by
    intro e he
    simp [reactiveNet, Network.factor, Element.factor] at he
    rcases he with rfl | rfl | rfl <;> simp [Element.Resistive]
  held := by
    have h0 : Held (reactiveNet.factor 0 0).elements (some 0) :=
      .forth (e := .slack 0 1 0) (a := none) (by simp [reactiveNet, Network.factor, Element.factor]) ⟨rfl, rfl⟩ .ground
    have h1 : Held (reactiveNet.factor 0 0).elements (some 1) :=
      .forth (e := .line (some 0) (some 1) 1 0 0) (by simp [reactiveNet, Network.factor, Element.factor]) ⟨rfl, rfl⟩ h0
    intro k hk
    have hk : k < 2 := hk
    interval_cases k <;> assumption
  loopless := by
    show Loopless ([(some 0, none)] : List (Ref × Ref))
    exact .leaf (l₁ := []) 0 .nil (by simp) (by simp)

/-- One volt at both buses and no current. -/
noncomputable def idleSol : ℕ → ℝ := fun i => if i = 0 ∨ i = 2 then 1 else 0

theorem idle_solution (hL : L.Loaded) : Kirchhoff 2 0 (((reactiveNet.factor 0 0).assign L).voltages idleSol)
    (((reactiveNet.factor 0 0).assign L).owned L (reactiveNet.factor 0 0) idleSol) := by
  have e : reactiveNet.factor 0 0 = feeder 0 := by simp [reactiveNet, feeder, Network.factor, Element.factor]
  rw [e]
  refine (C67_equations_are_kirchhoff hL (feeder 0) rfl 0 idleSol).1 fun i => ?_
  rw [feeder_rows hL]
  match i with
  | 0 => norm_num [feederEq, idleSol]
  | 1 => norm_num [feederEq, idleSol]
  | 2 => norm_num [feederEq, idleSol]
  | 3 => norm_num [feederEq, idleSol]
  | 4 => norm_num [feederEq, idleSol]
  | 5 => norm_num [feederEq, idleSol]
  | k + 6 => rfl

theorem idle_steady : ∀ e ∈ reactiveNet.elements, e.SteadyAt ((reactiveNet.assign L).voltages idleSol) [] := by
  obtain ⟨v0, v1, vg⟩ := reactive_volt (L := L) idleSol
  intro e he
  simp [reactiveNet] at he
  rcases he with rfl | rfl | rfl
  · trivial
  · trivial
  · right
    rw [v1, vg]
    norm_num [idleSol, pow_two]

theorem idle_regular : ∀ e ∈ reactiveNet.elements, e.RegularAt 0 ((reactiveNet.assign L).voltages fun _ => 1) := by
  obtain ⟨v0, v1, vg⟩ := reactive_volt (L := L) fun _ => 1
  intro e he
  simp [reactiveNet] at he
  rcases he with rfl | rfl | rfl
  · trivial
  · trivial
  · right
    rw [v1, vg]
    intro h
    exact one_ne_zero (congrArg Complex.re h)

/-- The feeder has a solution within a thousandth of the voltages without load. -/
example (hL : L.Loaded) : ∃ s0 > 0, ∀ s : ℝ, |s| ≤ s0 → ∃ x, Within (reactiveNet.assign L).size (1 / 1000) x idleSol ∧
    Kirchhoff 2 0 (((reactiveNet.factor s s).assign L).voltages x) (((reactiveNet.factor s s).assign L).owned L (reactiveNet.factor s s) x) := by
  obtain ⟨δ, _, h⟩ := C130_solution_partial hL reactiveNet reactive_valid reactive_sturdy idleSol (idle_solution hL)
    fun e he => steady_regular (reactive_sturdy.resistive _ (List.mem_map_of_mem he)) (idle_steady e he)
  obtain ⟨s0, hs0, h⟩ := h (1 / 1000) (by norm_num)
  exact ⟨s0, hs0, fun s hs => by obtain ⟨x, h1, h2, _⟩ := h s hs; exact ⟨x, h1, h2⟩⟩

/-- With light load the feeder is solved from all ones, with the default settings. -/
example (hL : L.Loaded) : ∃ s0 > 0, ∀ s : ℝ, s ≠ 0 → |s| ≤ s0 → ∃ m r, Stamper.build false ((reactiveNet.factor s s).assign L).all = .ok m ∧
    homotopyRun (solverRun (plainCtx ((reactiveNet.factor s s).assign L).size)) true m (fun _ => 1) = .ok r ∧ r.success = true ∧ |r.v 2 - 1| ≤ 1 / 1000 := by
  have hsz := fun s => factor_size (L := L) (N := reactiveNet) rfl hL s
  have h6 : (reactiveNet.assign L).size = 6 := by
    rw [← hsz 0, show reactiveNet.factor 0 0 = feeder 0 by simp [reactiveNet, feeder, Network.factor, Element.factor], feeder_size hL]
  obtain ⟨s0, hs0, h⟩ := C130_light_partial hL reactiveNet reactive_valid reactive_sturdy (by rw [h6]; omega) idleSol (idle_solution hL) idle_steady
    (fun _ => 1) idle_regular (1 / 1000) (1 / 100000) (by norm_num) (by norm_num)
  refine ⟨s0, hs0, fun s h1 h2 => ?_⟩
  obtain ⟨m, hm, _⟩ := build_ready false ((reactiveNet.factor s s).assign L).all (network_wellPlaced hL _ (factor_valid reactive_valid s))
  obtain ⟨r, g1, g2, _, _, _, g3⟩ := h s h1 h2 m (plainCtx ((reactiveNet.factor s s).assign L).size) true hm rfl rfl rfl le_rfl (by norm_num [plainCtx])
  refine ⟨m, r, hm, g1, g2, ?_⟩
  have := g3 2 (by show 2 < ((reactiveNet.factor s s).assign L).size; rw [hsz s, h6]; omega)
  simpa [idleSol] using this

/-- The feeder with half a watt has no solution. -/
example (hL : L.Loaded) (v : ℕ → ℝ) : ¬ Kirchhoff 2 0 (((feeder (1 / 2)).assign L).voltages v) (((feeder (1 / 2)).assign L).owned L (feeder (1 / 2)) v) := by
  rw [← feeder_factor]
  exact C130_overload hL (1 / 2) (by norm_num) v

/-- Without load the feeder is solved in debug mode. -/
example (hL : L.Loaded) (vInit : ℕ → ℝ) : ∃ m r, Stamper.build false ((reactiveNet.factor 0 0).assign L).all = .ok m ∧
    homotopyRun (solverRun ⟨50, 1 / 100000, true, ((reactiveNet.factor 0 0).assign L).size, idealSolve ((reactiveNet.factor 0 0).assign L).size, none⟩) true m vInit
      = .ok r ∧ r.v 2 = 1 := by
  obtain ⟨m, hm, _⟩ := build_ready false ((reactiveNet.factor 0 0).assign L).all (network_wellPlaced hL _ (factor_valid reactive_valid 0))
  have h6 : ((reactiveNet.factor 0 0).assign L).size = 6 := by
    rw [show reactiveNet.factor 0 0 = feeder 0 by simp [reactiveNet, feeder, Network.factor, Element.factor], feeder_size hL]
  obtain ⟨r, g1, _, _, _, _, g2⟩ := C125_debug_partial hL (reactiveNet.factor 0 0) (factor_valid reactive_valid 0) reactive_sturdy (by rw [h6]; omega) m hm
    ⟨50, 1 / 100000, true, ((reactiveNet.factor 0 0).assign L).size, idealSolve ((reactiveNet.factor 0 0).assign L).size, none⟩ rfl rfl rfl
    (by norm_num) (by norm_num) true vInit
  refine ⟨m, r, hm, g1, ?_⟩
  rw [← g2 idleSol (idle_solution hL) 2 (by rw [h6]; omega)]
  simp [idleSol]

end Verif
