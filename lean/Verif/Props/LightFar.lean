import Verif.Props.Margin

/-!
# C130: light loads leave one solution with healthy voltages
-/

namespace Verif

open Ex Devices

variable {L : Library}

theorem factor_power (N : Network) (s : ℝ) (k : ℕ) : (N.factor s s).power k = s * N.power k := by
  simp only [Network.power, Network.factor, List.getElem?_map]
  cases N.elements[k]? with
  | none => simp
  | some e =>
    cases e with
    | load f u l =>
      apply Complex.ext <;> simp [Element.factor, Element.power, mul_comm]
    | _ => simp [Element.factor, Element.power]

theorem factor_across (N : Network) (s : ℝ) (V : Ref → ℂ) (k : ℕ) : (N.factor s s).across V k = N.across V k := by
  simp only [Network.across, Network.factor, List.getElem?_map]
  cases N.elements[k]? with
  | none => rfl
  | some e => cases e <;> rfl

theorem factor_twice (N : Network) (s : ℝ) : (N.factor s s).factor 0 0 = N.factor 0 0 := by
  simp only [Network.factor, List.map_map]
  congr 1
  refine List.map_congr_left fun e _ => ?_
  cases e <;> simp [Element.factor]

theorem factor_withCurrents (N : Network) (s : ℝ) (c : ℕ → ℂ) : (N.factor s s).withCurrents c = N.withCurrents c := by
  simp only [Network.withCurrents, Network.factor]
  congr 1
  refine List.ext_getElem (by simp) fun k h1 h2 => ?_
  simp only [List.getElem_mapIdx, List.getElem_map]
  cases N.elements[k]'(by simpa using h2) <;> rfl

theorem factor_responds {N : Network} {Z : ℕ → ℕ → ℝ} (h : N.Responds L Z) (s : ℝ) : (N.factor s s).Responds L Z := by
  intro c c' x x' hx hx' k hk
  rw [factor_withCurrents] at hx hx'
  have hl : (N.factor s s).elements.length = N.elements.length := List.length_map _
  rw [hl] at hk ⊢
  rw [factor_voltages, factor_voltages, factor_across, factor_across]
  exact h c c' x x' hx hx' k hk

/-- Finitely many positive numbers have a positive lower bound. -/
theorem positive_floor (f : ℕ → ℝ) (n : ℕ) : ∃ m > 0, ∀ k < n, 0 < f k → m ≤ f k := by
  induction n with
  | zero => exact ⟨1, one_pos, fun k hk => absurd hk (Nat.not_lt_zero k)⟩
  | succ n ih =>
    obtain ⟨m, hm, h⟩ := ih
    by_cases hf : 0 < f n
    · refine ⟨min m (f n), lt_min hm hf, fun k hk hk0 => ?_⟩
      rcases Nat.lt_succ_iff_lt_or_eq.1 hk with h1 | rfl
      · exact (min_le_left _ _).trans (h k h1 hk0)
      · exact min_le_right _ _
    · refine ⟨m, hm, fun k hk hk0 => ?_⟩
      rcases Nat.lt_succ_iff_lt_or_eq.1 hk with h1 | rfl
      · exact h k h1 hk0
      · exact absurd hk0 hf

/-- **C130, healthy voltages.** On the networks of C130 there is a load factor up to which the network has one and only one solution in which every load has
at least half of its voltage without load. -/
theorem C130_healthy_partial (hL : L.Loaded) (N : Network) (hv : N.Valid) (hN : (N.factor 0 0).Sturdy) (x0 : ℕ → ℝ) (hx0 : (N.factor 0 0).SolvedBy L x0)
    (hD : ∀ k, N.power k ≠ 0 → N.across ((N.assign L).voltages x0) k ≠ 0) :
    ∃ s0 > 0, ∀ s : ℝ, |s| ≤ s0 →
      ∃ x, (N.factor s s).SolvedBy L x ∧
        (∀ k, N.power k ≠ 0 → ‖N.across ((N.assign L).voltages x0) k‖ / 2 ≤ ‖N.across ((N.assign L).voltages x) k‖) ∧
        ∀ y, (N.factor s s).SolvedBy L y →
          (∀ k, N.power k ≠ 0 → ‖N.across ((N.assign L).voltages x0) k‖ / 2 ≤ ‖N.across ((N.assign L).voltages y) k‖) →
          ∀ i < (N.assign L).size, y i = x i := by
  obtain ⟨Z, hZ0, hZ⟩ := C135_responds_partial hL N hv hN
  set D := N.across ((N.assign L).voltages x0) with hDdef
  set n := N.elements.length with hn
  obtain ⟨m, hm, hfl⟩ := positive_floor (fun k => ‖D k‖) n
  set M : ℝ := ∑ k ∈ Finset.range n, ∑ j ∈ Finset.range n, Z k j * (‖N.power j‖ / ‖D j‖) with hM
  have hterm : ∀ k, 0 ≤ ∑ j ∈ Finset.range n, Z k j * (‖N.power j‖ / ‖D j‖) := fun k =>
    Finset.sum_nonneg fun j _ => mul_nonneg (hZ0 k j) (by positivity)
  have hM0 : 0 ≤ M := Finset.sum_nonneg fun k _ => hterm k
  have hplace : ∀ k, N.power k ≠ 0 → k < n := by
    intro k hk
    by_contra hlt
    refine hk ?_
    rw [Network.power, List.getElem?_eq_none (not_lt.1 hlt)]
    rfl
  refine ⟨m / (5 * (M + 1)), by positivity, fun s hs => ?_⟩
  have hv' := factor_valid hv s
  have hN' : ((N.factor s s).factor 0 0).Sturdy := by rw [factor_twice]; exact hN
  have hx0' : ((N.factor s s).factor 0 0).SolvedBy L x0 := by rw [factor_twice]; exact hx0
  have hl : (N.factor s s).elements.length = n := List.length_map _
  have hacr : ∀ x k, (N.factor s s).across (((N.factor s s).assign L).voltages x) k = N.across ((N.assign L).voltages x) k := fun x k => by
    rw [factor_voltages, factor_across]
  have hsz := factor_size (N := N) (L := L) hN.plain hL s
  obtain ⟨x, h1, h2, h3⟩ := C135_bound_partial hL (N.factor s s) hv' hN' Z hZ0 (factor_responds hZ s) x0 hx0' (1 / 5) (by norm_num) (by norm_num) (by
    intro k hk
    rw [factor_power] at hk
    have hk' : N.power k ≠ 0 := fun e => hk (by rw [e, mul_zero])
    refine ⟨by rw [hacr]; exact hD k hk', ?_⟩
    rw [hl]
    simp only [hacr, factor_power, norm_mul, Complex.norm_real, Real.norm_eq_abs]
    have e : ∑ j ∈ Finset.range n, Z k j * (|s| * ‖N.power j‖ / ‖D j‖) = |s| * ∑ j ∈ Finset.range n, Z k j * (‖N.power j‖ / ‖D j‖) := by
      rw [Finset.mul_sum]
      exact Finset.sum_congr rfl fun j _ => by ring
    rw [e]
    have hle : ∑ j ∈ Finset.range n, Z k j * (‖N.power j‖ / ‖D j‖) ≤ M :=
      Finset.single_le_sum (f := fun k => ∑ j ∈ Finset.range n, Z k j * (‖N.power j‖ / ‖D j‖)) (fun k _ => hterm k) (Finset.mem_range.2 (hplace k hk'))
    have hmk : m ≤ ‖D k‖ := hfl k (hplace k hk') (norm_pos_iff.2 (hD k hk'))
    calc |s| * ∑ j ∈ Finset.range n, Z k j * (‖N.power j‖ / ‖D j‖) ≤ m / (5 * (M + 1)) * M := mul_le_mul hs hle (hterm k) (by positivity)
      _ = 1 / 5 * m * (M / (M + 1)) := by field_simp
      _ ≤ 1 / 5 * m * 1 := by
        refine mul_le_mul_of_nonneg_left ?_ (by positivity)
        rw [div_le_one (by positivity)]
        linarith
      _ ≤ 1 / 5 * ‖D k‖ := by linarith)
  simp only [hacr, factor_power, hsz] at h2 h3
  by_cases h0 : s = 0
  · subst h0
    refine ⟨x0, hx0, fun k _ => ?_, fun y hy _ => ?_⟩
    · linarith [norm_nonneg (D k)]
    · have := (C125_unique_partial hL _ (factor_valid hv 0) hN).2 y x0 hy hx0
      rwa [hsz] at this
  · have hne : ∀ k, N.power k ≠ 0 → (s : ℂ) * N.power k ≠ 0 := fun k hk => mul_ne_zero (by exact_mod_cast h0) hk
    refine ⟨x, h1, fun k hk => ?_, fun y hy hyk => h3 y hy fun k hk => hyk k fun e => hk (by rw [e, mul_zero])⟩
    have := h2 k (hne k hk)
    have h4 := norm_sub_norm_le (D k) (D k - N.across ((N.assign L).voltages x) k)
    rw [sub_sub_cancel] at h4
    rw [← norm_sub_rev] at this
    linarith [norm_nonneg (D k)]

/-- The hypotheses hold for a feeder of one siemens: at small loads it has one solution at half voltage or more. -/
example (hL : L.Loaded) : ∃ s0 > 0, ∀ s : ℝ, |s| ≤ s0 →
      ∃ x, ((feeder 1).factor s s).SolvedBy L x ∧
        (∀ k, (feeder 1).power k ≠ 0 → ‖(feeder 1).across (((feeder 1).assign L).voltages idleSol) k‖ / 2 ≤ ‖(feeder 1).across (((feeder 1).assign L).voltages x) k‖) ∧
        ∀ y, ((feeder 1).factor s s).SolvedBy L y →
          (∀ k, (feeder 1).power k ≠ 0 → ‖(feeder 1).across (((feeder 1).assign L).voltages idleSol) k‖ / 2 ≤ ‖(feeder 1).across (((feeder 1).assign L).voltages y) k‖) →
          ∀ i < ((feeder 1).assign L).size, y i = x i :=
  C130_healthy_partial hL (feeder 1) (feeder_valid 1) (feeder_sturdy 1) idleSol (feeder_idle hL 1) (by
    intro k hk
    match k with
    | 0 => exact absurd rfl hk
    | 1 => exact absurd rfl hk
    | 2 =>
      have hI : ((feeder 1).assign L).voltages idleSol (some 1) = 1 := by
        rw [(feeder_volt (L := L) 1 idleSol).2.1]
        apply Complex.ext <;> simp [idleSol]
      show ((feeder 1).assign L).voltages idleSol (some 1) - ((feeder 1).assign L).voltages idleSol none ≠ 0
      rw [hI, (feeder_volt (L := L) 1 idleSol).2.2]
      simp
    | k + 3 => exact absurd rfl hk)

end Verif
