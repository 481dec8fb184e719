import Verif.Lemmas.Margin
import Verif.Props.Light
import Mathlib.Topology.MetricSpace.Contracting

/-!
# C135: loads within a simple bound leave the network with a solution

Missing in the theorems: generators, and equipment that is not resistive (see C125).
-/

namespace Verif

open Ex Devices ComplexConjugate

variable {L : Library}

/-- **C135, the bound.** Let `x0` be the solution of a network without its constant powers, and let `Z k j` bound how much the voltage across load `k` moves
with the current of load `j`. If the powers satisfy `∑ j, Z k j * |S j| / |V0 j| ≤ r * |V0 k|` with `r < 1/4` for every load `k`, then the network has a
solution in which no load has lost more than the part `2 r` of its voltage. There is no other solution in which every load
keeps at least half of its voltage. -/
theorem C135_bound_partial (hL : L.Loaded) (N : Network) (hv : N.Valid) (hN : (N.factor 0 0).Sturdy) (Z : ℕ → ℕ → ℝ) (hZ0 : ∀ k j, 0 ≤ Z k j)
    (hZ : N.Responds L Z) (x0 : ℕ → ℝ) (hx0 : (N.factor 0 0).SolvedBy L x0) (r : ℝ) (hr0 : 0 ≤ r) (hr : r < 1 / 4)
    (hb : ∀ k, N.power k ≠ 0 → N.across ((N.assign L).voltages x0) k ≠ 0 ∧
      ∑ j ∈ Finset.range N.elements.length, Z k j * (‖N.power j‖ / ‖N.across ((N.assign L).voltages x0) j‖) ≤ r * ‖N.across ((N.assign L).voltages x0) k‖) :
    ∃ x, N.SolvedBy L x ∧
      (∀ k, N.power k ≠ 0 → ‖N.across ((N.assign L).voltages x) k - N.across ((N.assign L).voltages x0) k‖ ≤ 2 * r * ‖N.across ((N.assign L).voltages x0) k‖) ∧
      ∀ y, N.SolvedBy L y → (∀ k, N.power k ≠ 0 → ‖N.across ((N.assign L).voltages x0) k‖ / 2 ≤ ‖N.across ((N.assign L).voltages y) k‖) →
        ∀ i < (N.assign L).size, y i = x i := by
  classical
  have ho : N.optimization = none := hN.plain
  set D := N.across ((N.assign L).voltages x0) with hD
  rw [← withCurrents_zero] at hx0
  have hsol : ∀ c, ∃ x, (N.withCurrents c).SolvedBy L x := fun c =>
    (C125_unique_partial hL _ (withCurrents_valid hv c) (withCurrents_sturdy hN c)).1
  choose sol hsol using hsol
  -- voltages as parts of those without load
  let part : (ℕ → ℝ) → ℕ → ℂ := fun x k => if N.power k = 0 then 1 else N.across ((N.assign L).voltages x) k / D k
  have hpart : ∀ x k, N.power k ≠ 0 → N.across ((N.assign L).voltages x) k = part x k * D k := fun x k hk => by
    simp only [part, if_neg hk]
    rw [div_mul_cancel₀ _ (hb k hk).1]
  have hself : ∀ x, N.SolvedBy L x → (N.withCurrents (N.drawn D (part x))).SolvedBy L x := fun x hx =>
    (solved_currents hL ho fun k => by
      by_cases hk : N.power k = 0
      · simp [Network.drawn, hk]
      · rw [Network.drawn, ← hpart x k hk]).2 hx
  let n := N.elements.length
  let ext : (Fin n → ℂ) → ℕ → ℂ := fun u k => if h : k < n then u ⟨k, h⟩ else 1
  let T : (Fin n → ℂ) → Fin n → ℂ := fun u k => part (sol (N.drawn D (ext u))) k
  let s : Set (Fin n → ℂ) := Metric.closedBall 1 (2 * r)
  have hext : ∀ u ∈ s, ∀ k, 1 / 2 ≤ ‖ext u k‖ := fun u hu k => by
    by_cases h : k < n
    · have e : ext u k = u ⟨k, h⟩ := dif_pos h
      have h1 : ‖u ⟨k, h⟩ - 1‖ ≤ 2 * r := (norm_le_pi_norm (u - 1) ⟨k, h⟩).trans (by rw [← dist_eq_norm]; exact hu)
      have h2 := norm_sub_norm_le (1 : ℂ) (u ⟨k, h⟩)
      rw [norm_sub_rev, norm_one] at h2
      rw [e]; linarith
    · have e : ext u k = 1 := dif_neg h
      rw [e, norm_one]; norm_num
  have hscale : ∀ {x y : ℕ → ℝ} {k : ℕ} {a : ℝ}, 0 ≤ a → (N.power k ≠ 0 → ‖N.across ((N.assign L).voltages x) k - N.across ((N.assign L).voltages y) k‖ ≤ a * ‖D k‖) →
      ‖part x k - part y k‖ ≤ a := fun {x y k a} ha h => by
    by_cases hk : N.power k = 0
    · simpa [part, hk] using ha
    · have h := h hk
      have hDk := norm_pos_iff.2 (hb k hk).1
      rw [hpart x k hk, hpart y k hk, ← sub_mul, norm_mul] at h
      exact le_of_mul_le_mul_right h hDk
  have hmaps : Set.MapsTo T s s := fun u hu => by
    rw [Metric.mem_closedBall, dist_eq_norm]
    refine (pi_norm_le_iff_of_nonneg (by positivity)).2 fun k => ?_
    have h0 : part x0 k = 1 := by
      by_cases hk : N.power k = 0
      · simp [part, hk]
      · simp only [part, if_neg hk]
        exact div_self (hb k hk).1
    show ‖part _ k - 1‖ ≤ _
    rw [← h0]
    refine hscale (by positivity) fun hk => ?_
    have := response_start hZ hZ0 hb (by norm_num) (hext u hu) (hsol _) hx0 hk
    linarith
  have hlip : ∀ u ∈ s, ∀ u' ∈ s, ‖T u - T u'‖ ≤ 4 * r * ‖u - u'‖ := fun u hu u' hu' => by
    refine (pi_norm_le_iff_of_nonneg (by positivity)).2 fun k => ?_
    show ‖part _ k - part _ k‖ ≤ _
    refine hscale (by positivity) fun hk => ?_
    have := response_step (d := ‖u - u'‖) hZ hZ0 hb (by norm_num) (hext u hu) (hext u' hu') (fun j => by
      by_cases h : j < n
      · have e : ∀ u, ext u j = u ⟨j, h⟩ := fun u => dif_pos h
        rw [e, e]
        exact norm_le_pi_norm (u - u') ⟨j, h⟩
      · have e : ∀ u, ext u j = 1 := fun u => dif_neg h
        rw [e, e, sub_self, norm_zero]; exact norm_nonneg _) (hsol _) (hsol _) hk
    refine this.trans (le_of_eq ?_)
    ring
  obtain ⟨K, hK⟩ : ∃ K : NNReal, (K : ℝ) = 4 * r := ⟨Real.toNNReal (4 * r), Real.coe_toNNReal _ (by positivity)⟩
  have hcontr : ContractingWith K (hmaps.restrict T s s) := by
    refine ⟨?_, LipschitzWith.of_dist_le_mul fun u u' => ?_⟩
    · rw [← NNReal.coe_lt_coe, hK, NNReal.coe_one]
      linarith
    · show dist (T u) (T u') ≤ K * dist (u : Fin n → ℂ) u'
      rw [hK, dist_eq_norm, dist_eq_norm]
      exact hlip u u.2 u' u'.2
  have h1s : (1 : Fin n → ℂ) ∈ s := Metric.mem_closedBall_self (by positivity)
  obtain ⟨u, hu, hfix, -⟩ := hcontr.exists_fixedPoint' (Metric.isClosed_closedBall.isComplete) hmaps h1s (edist_ne_top _ _)
  set x := sol (N.drawn D (ext u)) with hx
  have hpx : ∀ k, N.power k ≠ 0 → part x k = ext u k := fun k hk => by
    have hlen : k < n := by
      by_contra h
      exact hk (by simp [Network.power, List.getElem?_eq_none (not_lt.1 h)])
    have e : ext u k = u ⟨k, hlen⟩ := dif_pos hlen
    rw [e]
    exact congrFun hfix ⟨k, hlen⟩
  have hxN : N.SolvedBy L x := (solved_currents hL ho fun k => by
    by_cases hk : N.power k = 0
    · simp [Network.drawn, hk]
    · rw [Network.drawn, hpart x k hk, hpx k hk]).1 (hsol (N.drawn D (ext u)))
  have hxhalf : ∀ k, 1 / 2 ≤ ‖part x k‖ := fun k => by
    by_cases hk : N.power k = 0
    · simp only [part, if_pos hk, norm_one]; norm_num
    · rw [hpx k hk]; exact hext u hu k
  refine ⟨x, hxN, fun k hk => ?_, fun y hy hyb => ?_⟩
  · have := response_start hZ hZ0 hb (by norm_num) (hext u hu) (hsol _) hx0 hk
    linarith
  · have hyhalf : ∀ k, 1 / 2 ≤ ‖part y k‖ := fun k => by
      by_cases hk : N.power k = 0
      · simp only [part, if_pos hk, norm_one]; norm_num
      · have hDk := norm_pos_iff.2 (hb k hk).1
        have := hyb k hk
        rw [hpart y k hk, norm_mul] at this
        exact le_of_mul_le_mul_right (by linarith) hDk
    -- the largest difference is at most `4 r` times itself
    have hstep : ∀ d, (∀ k, ‖part y k - part x k‖ ≤ d) → ∀ k, ‖part y k - part x k‖ ≤ 4 * r * d := fun d hd k =>
      hscale (mul_nonneg (by positivity) ((norm_nonneg _).trans (hd 0))) fun hk => by
        have := response_step hZ hZ0 hb (by norm_num) hyhalf hxhalf hd (hself y hy) (hself x hxN) hk
        refine this.trans (le_of_eq ?_)
        ring
    have hone : ∀ x k, n ≤ k → part x k = 1 := fun x k hk => by
      have : N.power k = 0 := by simp [Network.power, List.getElem?_eq_none hk]
      simp [part, this]
    have heq : ∀ k, part y k = part x k := by
      set d := ‖(fun k : Fin n => part y k - part x k)‖ with hd
      have hle : ∀ k, ‖part y k - part x k‖ ≤ d := fun k => by
        by_cases hk : k < n
        · exact norm_le_pi_norm (fun k : Fin n => part y k - part x k) ⟨k, hk⟩
        · rw [hone y k (not_lt.1 hk), hone x k (not_lt.1 hk), sub_self, norm_zero]; exact norm_nonneg _
      have h2 := hstep d hle
      have h3 : d ≤ 4 * r * d := (pi_norm_le_iff_of_nonneg (mul_nonneg (by positivity) (norm_nonneg _))).2 fun k => h2 k
      have hd0 : d = 0 := by
        have := norm_nonneg (fun k : Fin n => part y k - part x k)
        nlinarith
      intro k
      have := hle k
      rw [hd0] at this
      exact sub_eq_zero.1 (norm_le_zero_iff.1 this)
    have hy' := hself y hy
    rw [show part y = part x from funext heq] at hy'
    intro i hi
    exact (C125_unique_partial hL _ (withCurrents_valid hv _) (withCurrents_sturdy hN (N.drawn D (part x)))).2 y x hy' (hself x hxN) i
      (by rw [withCurrents_size ho hL]; exact hi)

/-- **C135, the response is finite.** Every network that is sturdy without its constant powers has bounds `Z` as in `C135_bound_partial`, so
all small enough powers meet its condition. -/
theorem C135_responds_partial (hL : L.Loaded) (N : Network) (hv : N.Valid) (hN : (N.factor 0 0).Sturdy) :
    ∃ Z, (∀ k j, 0 ≤ Z k j) ∧ N.Responds L Z := by
  obtain ⟨B, hB, h⟩ := exists_responds hL hv hN
  exact ⟨fun _ _ => B, fun _ _ => hB, h⟩

/-! ### A feeder

A slack of one volt, a line of one siemens and a load: the constant 1/4 of the bound is the largest there is. -/

theorem feeder_sturdy (s : ℝ) : ((feeder s).factor 0 0).Sturdy := by
  have : (feeder s).factor 0 0 = reactiveNet.factor 0 0 := by simp [feeder, reactiveNet, Network.factor, Element.factor]
  rw [this]; exact reactive_sturdy

theorem feeder_idle (hL : L.Loaded) (s : ℝ) : ((feeder s).factor 0 0).SolvedBy L idleSol := by
  have : (feeder s).factor 0 0 = reactiveNet.factor 0 0 := by simp [feeder, reactiveNet, Network.factor, Element.factor]
  rw [this]; exact idle_solution hL

theorem feeder_currents (hL : L.Loaded) (s : ℝ) {c : ℕ → ℂ} {x : ℕ → ℝ} (h : ((feeder s).withCurrents c).SolvedBy L x) :
    ((feeder s).assign L).voltages x (some 1) = 1 - c 2 := by
  have e : (feeder s).withCurrents c = (feeder 0).withCurrents c := rfl
  rw [e] at h
  have h := (C67_equations_are_kirchhoff hL ((feeder 0).withCurrents c) rfl 0 x).2 h
  have hr : ∀ i, feederEq 0 x i + nodeRow (plainNode 1) (c 2) i = 0 := fun i => by
    have h1 := withCurrents_equations (N := feeder 0) rfl hL c x i
    rw [h i, feeder_rows hL] at h1
    refine Eq.trans ?_ h1.symm
    congr 1
    have hz : ∀ z : ℕ → ℂ, injections ((feeder 0).assign L).nodes (feeder 0).elements z i = nodeRow (plainNode 1) (z 2) i - nodeRow Node.ground (z 2) i := fun z => by
      show 0 + (0 + ((nodeRow (plainNode 1) (z 2) i - nodeRow Node.ground (z 2) i) + 0)) = _
      ring
    rw [hz]
    have hp : (feeder 0).power 2 = 0 := rfl
    rw [hp, zero_div, map_zero, sub_zero]
    simp [nodeRow, Node.ground]
  have h2 := hr 2
  have h3 := hr 3
  have h4 := hr 4
  have h5 := hr 5
  simp [plainNode, nodeRow, feederEq] at h2 h3 h4 h5
  rw [(feeder_volt (L := L) s x).2.1]
  apply Complex.ext
  · simp; linarith
  · simp; linarith

theorem feeder_responds (hL : L.Loaded) (s : ℝ) : (feeder s).Responds L fun _ j => if j = 2 then 1 else 0 := by
  intro c c' x x' hx hx' k hk
  have hk : k < 3 := hk
  have hs : ∑ j ∈ Finset.range (feeder s).elements.length, (if j = 2 then (1 : ℝ) else 0) * ‖c j - c' j‖ = ‖c 2 - c' 2‖ := by
    show ∑ j ∈ Finset.range 3, _ = _
    simp [Finset.sum_range_succ]
  rw [hs]
  have h1 := feeder_currents hL s hx
  have h2 := feeder_currents hL s hx'
  interval_cases k
  · simp [Network.across, feeder, Element.across]
  · simp [Network.across, feeder, Element.across]
  · have e : ∀ V : Ref → ℂ, (feeder s).across V 2 = V (some 1) - V none := fun V => rfl
    rw [e, e, h1, h2, (feeder_volt (L := L) s x).2.2, (feeder_volt (L := L) s x').2.2]
    refine le_of_eq ?_
    rw [norm_sub_rev]
    congr 1
    ring

/-- **C135, the constant.** The feeder meets the bound for every load below a quarter of a watt, and above it there is no solution. -/
theorem C135_sharp (hL : L.Loaded) (s : ℝ) :
    (|s| < 1 / 4 → ∃ x, (feeder s).SolvedBy L x ∧ ‖((feeder s).assign L).voltages x (some 1) - 1‖ ≤ 2 * |s| ∧
      ∀ y, (feeder s).SolvedBy L y → 1 / 2 ≤ ‖((feeder s).assign L).voltages y (some 1)‖ → ∀ i < ((feeder s).assign L).size, y i = x i) ∧
    (1 / 4 < s → ∀ x, ¬ (feeder s).SolvedBy L x) := by
  constructor
  · intro hs
    have hA : ∀ x, (feeder s).across (((feeder s).assign L).voltages x) 2 = ((feeder s).assign L).voltages x (some 1) := fun x => by
      show _ - ((feeder s).assign L).voltages x none = _
      rw [(feeder_volt (L := L) s x).2.2, sub_zero]
    have hI : ((feeder s).assign L).voltages idleSol (some 1) = 1 := by
      rw [(feeder_volt (L := L) s idleSol).2.1]
      apply Complex.ext <;> simp [idleSol]
    have hp2 : ‖(feeder s).power 2‖ = |s| := by
      have : (feeder s).power 2 = ((s : ℝ) : ℂ) := rfl
      rw [this, Complex.norm_real, Real.norm_eq_abs]
    have honly : ∀ k, (feeder s).power k ≠ 0 → k = 2 := fun k hk => by
      match k with
      | 0 => exact absurd rfl hk
      | 1 => exact absurd rfl hk
      | 2 => rfl
      | k + 3 => exact absurd rfl hk
    obtain ⟨x, h1, h2, h3⟩ := C135_bound_partial hL (feeder s) (feeder_valid s) (feeder_sturdy s) _ (fun _ j => by split_ifs <;> norm_num)
      (feeder_responds hL s) idleSol (feeder_idle hL s) |s| (abs_nonneg s) hs (fun k hk => by
        rw [honly k hk, hA, hI]
        refine ⟨one_ne_zero, ?_⟩
        show ∑ j ∈ Finset.range 3, _ ≤ _
        rw [Finset.sum_range_succ, Finset.sum_range_succ, Finset.sum_range_succ, hA, hI, hp2]
        simp)
    refine ⟨x, h1, ?_, fun y hy hy2 => h3 y hy fun k hk => ?_⟩
    · by_cases h0 : (feeder s).power 2 = 0
      · have hz : s = 0 := by
          rw [h0, norm_zero] at hp2
          exact abs_eq_zero.1 hp2.symm
        subst hz
        have hc : ((feeder 0).withCurrents fun _ => 0).SolvedBy L x := (solved_currents hL rfl fun k => by
          have : (feeder 0).power k = 0 := by
            by_contra hk
            exact hk (by rw [honly k hk]; exact h0)
          rw [this]; simp).2 h1
        rw [feeder_currents hL 0 hc]; simp
      · have := h2 2 h0
        rw [hA, hA, hI, norm_one, mul_one] at this
        exact this
    · rw [honly k hk, hA, hA, hI, norm_one]
      exact hy2
  · intro hs x hx
    have := C130_overload hL s hs x
    rw [feeder_factor] at this
    exact this hx

/-- A load of a fifth of a watt. -/
example (hL : L.Loaded) : ∃ x, (feeder (1 / 5)).SolvedBy L x :=
  ((C135_sharp hL (1 / 5)).1 (by norm_num [abs_lt])).imp fun _ h => h.1

example (hL : L.Loaded) := C135_responds_partial hL (feeder (1 / 5)) (feeder_valid _) (feeder_sturdy _)

end Verif
