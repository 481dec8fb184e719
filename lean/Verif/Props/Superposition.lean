import Verif.Lemmas.Reciprocity
import Verif.Lemmas.Light
import Verif.Props.Exchange

/-!
# C141: superposition
# C142: reciprocity
-/

namespace Verif

open Ex Devices

variable {L : Library}

/-- **C141.** Solutions of linear networks may be put on top of each other: if `x₁` and `x₂` solve two networks that differ only in their sources, the network with the sources
`a` times the first plus `b` times the second has a solution with the voltages `a` times the first plus `b` times the second. -/
theorem C141_superposition (hL : L.Loaded) (a b : ℂ) (N₁ N₂ N : Network) (h : Superposed a b N₁ N₂ N) (t : ℝ) (x₁ x₂ : ℕ → ℝ)
    (h₁ : ∀ i, networkEq (N₁.assign L).all t x₁ i = 0) (h₂ : ∀ i, networkEq (N₂.assign L).all t x₂ i = 0) :
    ∃ x, (∀ i, networkEq (N.assign L).all t x i = 0) ∧ ∀ r, (N.assign L).voltages x r = a * (N₁.assign L).voltages x₁ r + b * (N₂.assign L).voltages x₂ r := by
  obtain ⟨es, hes, e₁, e₂, e⟩ := h.elements
  have k₁ := (C67_equations_are_kirchhoff hL N₁ h.plain₁ t x₁).1 h₁
  have k₂ := (C67_equations_are_kirchhoff hL N₂ h.plain₂ t x₂).1 h₂
  obtain ⟨ys, g1, g2, g3, g4⟩ := kirchhoff_mix (t := t) (W := fun r => a * (N₁.assign L).voltages x₁ r + b * (N₂.assign L).voltages x₂ r) (fun r => rfl) es hes
    ((N₁.assign L).owned L N₁ x₁) ((N₂.assign L).owned L N₂ x₂) ((owned_fst N₁ x₁).trans e₁) ((owned_fst N₂ x₂).trans e₂)
    (owned_widths (L := L) N₁ h.plain₁ x₁) k₁.2 k₂.2
  obtain ⟨x, i1, i2⟩ := exists_values hL N h.plain (fun j => a * (N₁.assign L).voltages x₁ (some j) + b * (N₂.assign L).voltages x₂ (some j)) ys (by rw [g1, e]) g2
  have hV : (N.assign L).voltages x = fun r => a * (N₁.assign L).voltages x₁ r + b * (N₂.assign L).voltages x₂ r := by
    funext r
    cases r with
    | none => exact (by simp : (0 : ℂ) = a * 0 + b * 0)
    | some j =>
      by_cases hj : j < N.buses
      · exact i1 j hj
      · rw [voltages_out N x (not_lt.1 hj), voltages_out N₁ x₁ (by rw [h.buses₁]; exact not_lt.1 hj), voltages_out N₂ x₂ (by rw [h.buses₂]; exact not_lt.1 hj)]
        simp
  refine ⟨x, (C67_equations_are_kirchhoff hL N h.plain t x).2 ?_, fun r => by rw [hV]⟩
  rw [hV, i2]
  refine ⟨fun k hk => (g4 k).trans ?_, g3⟩
  have s₁ : busSum k _ = 0 := k₁.1 k (by rw [h.buses₁]; exact hk)
  have s₂ : busSum k _ = 0 := k₂.1 k (by rw [h.buses₂]; exact hk)
  rw [s₁, s₂]; ring

/-- **C141, the run.** If the networks are resistive, connected and without loops of ideal conductors, the voltages returned by runs add up. -/
theorem C141_solved (hL : L.Loaded) (a b : ℂ) (N₁ N₂ N : Network) (h : Superposed a b N₁ N₂ N) (v₁ : N₁.Valid) (v₂ : N₂.Valid) (v : N.Valid)
    (s₁ : N₁.Sturdy) (s₂ : N₂.Sturdy) (s : N.Sturdy) (hb : 0 < N.buses) (m₁ m₂ m : Stamper) (v01 v02 v0 : ℕ → ℝ) (it1 it2 it : ℤ)
    (hr₁ : Ready N₁.opt (N₁.assign L).all m₁ v01 it1) (hr₂ : Ready N₂.opt (N₂.assign L).all m₂ v02 it2) (hr : Ready N.opt (N.assign L).all m v0 it)
    (tx : Bool) (i₁ i₂ i : ℕ → ℝ) :
    ∃ r₁ r₂ r, homotopyRun (solverRun (plainCtx (N₁.assign L).size)) tx m₁ i₁ = .ok r₁ ∧ homotopyRun (solverRun (plainCtx (N₂.assign L).size)) tx m₂ i₂ = .ok r₂ ∧
      homotopyRun (solverRun (plainCtx (N.assign L).size)) tx m i = .ok r ∧ r₁.success = true ∧ r₂.success = true ∧ r.success = true ∧
      ∀ k, (N.assign L).voltages r.v k = a * (N₁.assign L).voltages r₁.v k + b * (N₂.assign L).voltages r₂.v k := by
  obtain ⟨r₁, a1, a2, _, _, _, a3, _⟩ := C125_solved_partial hL N₁ v₁ s₁ (size_of_bus hL h.plain₁ (by rw [h.buses₁]; exact hb)) m₁ v01 it1 hr₁ (plainCtx _) rfl rfl rfl rfl
    (by norm_num [plainCtx]) (by norm_num [plainCtx]) tx i₁
  obtain ⟨r₂, b1, b2, _, _, _, b3, _⟩ := C125_solved_partial hL N₂ v₂ s₂ (size_of_bus hL h.plain₂ (by rw [h.buses₂]; exact hb)) m₂ v02 it2 hr₂ (plainCtx _) rfl rfl rfl rfl
    (by norm_num [plainCtx]) (by norm_num [plainCtx]) tx i₂
  obtain ⟨r, c1, c2, _, _, _, _, c4⟩ := C125_solved_partial hL N v s (size_of_bus hL h.plain hb) m v0 it hr (plainCtx _) rfl rfl rfl rfl
    (by norm_num [plainCtx]) (by norm_num [plainCtx]) tx i
  obtain ⟨x, d1, d2⟩ := C141_superposition hL a b N₁ N₂ N h 0 r₁.v r₂.v ((C67_equations_are_kirchhoff hL N₁ h.plain₁ 0 r₁.v).2 a3)
    ((C67_equations_are_kirchhoff hL N₂ h.plain₂ 0 r₂.v).2 b3)
  have hx := c4 x ((C67_equations_are_kirchhoff hL N h.plain 0 x).1 d1)
  refine ⟨r₁, r₂, r, a1, b1, c1, a2, b2, c2, fun k => ?_⟩
  rw [← volt_agree hL h.plain hx]
  exact d2 k

/-- **C142.** In a linear network without phase shifts, the change of voltage between two points `f₂` and `u₂` that a current drawn between `f₁` and `u₁` causes is the change of voltage
between `f₁` and `u₁` that the same current drawn between `f₂` and `u₂` causes. More generally the changes are as the currents. -/
theorem C142_reciprocity (hL : L.Loaded) (N : Network) (ho : N.optimization = none) (he : ∀ e ∈ N.elements, e.TwoWay) (f₁ u₁ f₂ u₂ : Ref) (J₁ J₂ : ℂ) (t : ℝ)
    (x x₁ x₂ : ℕ → ℝ) (hx : ∀ i, networkEq (N.assign L).all t x i = 0) (h₁ : ∀ i, networkEq ((N.loaded f₁ u₁ J₁).assign L).all t x₁ i = 0)
    (h₂ : ∀ i, networkEq ((N.loaded f₂ u₂ J₂).assign L).all t x₂ i = 0) :
    let V := (N.assign L).voltages x
    let V₁ := ((N.loaded f₁ u₁ J₁).assign L).voltages x₁
    let V₂ := ((N.loaded f₂ u₂ J₂).assign L).voltages x₂
    J₁ * ((V₂ f₁ - V f₁) - (V₂ u₁ - V u₁)) = J₂ * ((V₁ f₂ - V f₂) - (V₁ u₂ - V u₂)) := by
  intro V V₁ V₂
  have k := (C67_equations_are_kirchhoff hL N ho t x).1 hx
  have main : ∀ (f u : Ref) (J : ℂ) (y : ℕ → ℝ), (∀ i, networkEq ((N.loaded f u J).assign L).all t y i = 0) →
      ∃ ys : List (Element × List ℝ), ys.map Prod.fst = N.elements.map Element.quiet ∧
        (∀ z ∈ ys, ∀ q ∈ z.1.laws t (fun r => ((N.loaded f u J).assign L).voltages y r - V r) z.2, q = 0) ∧
        ∀ k < N.buses, busSum k (ys.flatMap fun z => z.1.draws t (fun r => ((N.loaded f u J).assign L).voltages y r - V r) z.2) = -busSum k (branch f u J) := by
    intro f u J y hy
    have k' := (C67_equations_are_kirchhoff hL (N.loaded f u J) ho t y).1 hy
    have hw := owned_widths (L := L) (N.loaded f u J) ho y
    obtain ⟨⟨_, w⟩, ys', hown, hs, hys⟩ := List.map_eq_cons_iff.1 (owned_fst (L := L) (N.loaded f u J) y)
    cases hs
    rw [hown] at k' hw
    obtain ⟨zs, g1, _, g3, g4⟩ := kirchhoff_mix (a := 1) (b := -1) (t := t) (V := ((N.loaded f u J).assign L).voltages y) (V' := V)
      (W := fun r => ((N.loaded f u J).assign L).voltages y r - V r) (fun r => by ring)
      (N.elements.map fun e => (e, e, e.quiet)) (fun e h => by
        obtain ⟨e', h', rfl⟩ := List.mem_map.1 h
        exact mixes_quiet (he e' h'))
      ys' ((N.assign L).owned L N x) (by rw [hys, List.map_map]; exact (List.map_id _).symm) (by rw [owned_fst, List.map_map]; exact (List.map_id _).symm)
      (fun z hz => hw z (List.mem_cons_of_mem _ hz)) (fun z hz => k'.2 z (List.mem_cons_of_mem _ hz)) k.2
    refine ⟨zs, by rw [g1, List.map_map]; rfl, g3, fun j hj => ?_⟩
    have s : busSum j _ = 0 := k'.1 j hj
    have s0 : busSum j _ = 0 := k.1 j hj
    rw [List.flatMap_cons, Raw.busSum_append] at s
    have hd : (Element.load f u ⟨0, 0, 0, J.re, J.im⟩).draws t (((N.loaded f u J).assign L).voltages y) w = branch f u J := by
      have z0 : (⟨0, 0⟩ : ℂ) = 0 := rfl
      have eJ : (⟨J.re, J.im⟩ : ℂ) = J := rfl
      simp only [Element.draws, z0, eJ, zero_div, map_zero, inv_zero, mul_zero, zero_mul, zero_add, add_zero]
    dsimp only at s
    rw [hd] at s
    rw [g4 j, s0]
    linear_combination s
  obtain ⟨ys₁, a1, a2, a3⟩ := main f₁ u₁ J₁ x₁ h₁
  obtain ⟨ys₂, b1, b2, b3⟩ := main f₂ u₂ J₂ x₂ h₂
  have hpair := list_twoWay N.elements he ys₁ ys₂ a1 b1 a2 b2
  have van : ∀ (f u : Ref) (J : ℂ) (y : ℕ → ℝ), (fun r => ((N.loaded f u J).assign L).voltages y r - V r) none = 0 ∧
      ∀ j, N.buses ≤ j → (fun r => ((N.loaded f u J).assign L).voltages y r - V r) (some j) = 0 := fun f u J y =>
    ⟨sub_self _, fun j hj => by
      show ((N.loaded f u J).assign L).voltages y (some j) - (N.assign L).voltages x (some j) = 0
      rw [voltages_out (N.loaded f u J) y hj, voltages_out N x hj, sub_self]⟩
  have val : ∀ (W : Ref → ℂ), W none = 0 → (∀ j, N.buses ≤ j → W (some j) = 0) → ∀ (ds : List (Ref × ℂ)) (f u : Ref) (J : ℂ),
      (∀ k < N.buses, busSum k ds = -busSum k (branch f u J)) → paired W ds = -(J * (W f - W u)) := by
    intro W w0 wn ds f u J h
    have e := paired_sum w0 wn (branch f u J)
    rw [paired_sum w0 wn ds, Finset.sum_congr rfl fun k hk => by rw [h k (Finset.mem_range.1 hk), neg_mul], Finset.sum_neg_distrib, ← e]
    simp only [branch, paired_cons, paired_nil]; ring
  rw [val _ (van f₂ u₂ J₂ x₂).1 (van f₂ u₂ J₂ x₂).2 _ f₁ u₁ J₁ a3, val _ (van f₁ u₁ J₁ x₁).1 (van f₁ u₁ J₁ x₁).2 _ f₂ u₂ J₂ b3] at hpair
  linear_combination -hpair

theorem held_mono {es es' : List Element} (h : ∀ e ∈ es, e ∈ es') {r : Ref} (hr : Held es r) : Held es' r := by
  induction hr with
  | ground => exact .ground
  | forth he hj _ ih => exact .forth (h _ he) hj ih
  | back he hj _ ih => exact .back (h _ he) hj ih
  | primary he _ _ _ i1 i2 i3 => exact .primary (h _ he) i1 i2 i3
  | primaryNeg he _ _ _ i1 i2 i3 => exact .primaryNeg (h _ he) i1 i2 i3
  | secondary he _ _ _ i1 i2 i3 => exact .secondary (h _ he) i1 i2 i3
  | secondaryNeg he _ _ _ i1 i2 i3 => exact .secondaryNeg (h _ he) i1 i2 i3

theorem loaded_sturdy {N : Network} (h : N.Sturdy) (f u : Ref) (J : ℂ) : (N.loaded f u J).Sturdy where
  plain := h.plain
  resistive := by
    intro e he
    rcases List.mem_cons.1 he with rfl | he
    · exact ⟨rfl, rfl, le_refl _⟩
    · exact h.resistive e he
  held := fun k hk => held_mono (fun e he => List.mem_cons_of_mem _ he) (h.held k hk)
  loopless := h.loopless

theorem loaded_valid {N : Network} (h : N.Valid) {f u : Ref} (hf : Ref.Valid N.buses f) (hu : Ref.Valid N.buses u) (J : ℂ) : (N.loaded f u J).Valid := by
  intro e he
  rcases List.mem_cons.1 he with rfl | he
  · exact ⟨hf, hu⟩
  · exact h e he

/-- **C142, the run.** On resistive connected networks without phase shifts and loops of ideal conductors, the voltages returned by runs obey reciprocity. -/
theorem C142_solved (hL : L.Loaded) (N : Network) (hv : N.Valid) (hN : N.Sturdy) (hb : 0 < N.buses) (he : ∀ e ∈ N.elements, e.TwoWay) (f₁ u₁ f₂ u₂ : Ref)
    (hf₁ : Ref.Valid N.buses f₁) (hu₁ : Ref.Valid N.buses u₁) (hf₂ : Ref.Valid N.buses f₂) (hu₂ : Ref.Valid N.buses u₂) (J : ℂ) (hJ : J ≠ 0) (m m₁ m₂ : Stamper)
    (v0 v01 v02 : ℕ → ℝ) (it it1 it2 : ℤ) (hr : Ready N.opt (N.assign L).all m v0 it)
    (hr₁ : Ready (N.loaded f₁ u₁ J).opt ((N.loaded f₁ u₁ J).assign L).all m₁ v01 it1) (hr₂ : Ready (N.loaded f₂ u₂ J).opt ((N.loaded f₂ u₂ J).assign L).all m₂ v02 it2)
    (tx : Bool) (i i₁ i₂ : ℕ → ℝ) :
    ∃ r r₁ r₂, homotopyRun (solverRun (plainCtx (N.assign L).size)) tx m i = .ok r ∧
      homotopyRun (solverRun (plainCtx ((N.loaded f₁ u₁ J).assign L).size)) tx m₁ i₁ = .ok r₁ ∧
      homotopyRun (solverRun (plainCtx ((N.loaded f₂ u₂ J).assign L).size)) tx m₂ i₂ = .ok r₂ ∧ r.success = true ∧ r₁.success = true ∧ r₂.success = true ∧
      (((N.loaded f₂ u₂ J).assign L).voltages r₂.v f₁ - (N.assign L).voltages r.v f₁) - (((N.loaded f₂ u₂ J).assign L).voltages r₂.v u₁ - (N.assign L).voltages r.v u₁) =
        (((N.loaded f₁ u₁ J).assign L).voltages r₁.v f₂ - (N.assign L).voltages r.v f₂) - (((N.loaded f₁ u₁ J).assign L).voltages r₁.v u₂ - (N.assign L).voltages r.v u₂) := by
  obtain ⟨r, a1, a2, _, _, _, a3, _⟩ := C125_solved_partial hL N hv hN (size_of_bus hL hN.plain hb) m v0 it hr (plainCtx _) rfl rfl rfl rfl
    (by norm_num [plainCtx]) (by norm_num [plainCtx]) tx i
  obtain ⟨r₁, b1, b2, _, _, _, b3, _⟩ := C125_solved_partial hL (N.loaded f₁ u₁ J) (loaded_valid hv hf₁ hu₁ J) (loaded_sturdy hN f₁ u₁ J)
    (size_of_bus hL hN.plain hb) m₁ v01 it1 hr₁ (plainCtx _) rfl rfl rfl rfl (by norm_num [plainCtx]) (by norm_num [plainCtx]) tx i₁
  obtain ⟨r₂, c1, c2, _, _, _, c3, _⟩ := C125_solved_partial hL (N.loaded f₂ u₂ J) (loaded_valid hv hf₂ hu₂ J) (loaded_sturdy hN f₂ u₂ J)
    (size_of_bus hL hN.plain hb) m₂ v02 it2 hr₂ (plainCtx _) rfl rfl rfl rfl (by norm_num [plainCtx]) (by norm_num [plainCtx]) tx i₂
  have := C142_reciprocity hL N hN.plain he f₁ u₁ f₂ u₂ J J 0 r.v r₁.v r₂.v ((C67_equations_are_kirchhoff hL N hN.plain 0 r.v).2 a3)
    ((C67_equations_are_kirchhoff hL (N.loaded f₁ u₁ J) hN.plain 0 r₁.v).2 b3) ((C67_equations_are_kirchhoff hL (N.loaded f₂ u₂ J) hN.plain 0 r₂.v).2 c3)
  exact ⟨r, r₁, r₂, a1, b1, c1, a2, b2, c2, mul_left_cancel₀ hJ this⟩

/-! ### The single line with two sources -/

/-- The single line fed by a slack of voltage `E`, with a current `J` drawn at its end. -/
noncomputable def drivenLine (E J : ℂ) : Network := ⟨2, [.line (some 0) (some 1) 1 0 0, .slack 0 E.re E.im, .shunt 1 1 0, currentLoad (some 1) none J], none⟩

theorem driven_superposed (E J : ℂ) : Superposed E J (drivenLine 1 0) (drivenLine 0 1) (drivenLine E J) where
  plain₁ := rfl
  plain₂ := rfl
  plain := rfl
  buses₁ := rfl
  buses₂ := rfl
  elements := by
    refine ⟨[(.line (some 0) (some 1) 1 0 0, .line (some 0) (some 1) 1 0 0, .line (some 0) (some 1) 1 0 0),
      (.slack 0 (1 : ℂ).re (1 : ℂ).im, .slack 0 (0 : ℂ).re (0 : ℂ).im, .slack 0 (E * 1 + J * 0).re (E * 1 + J * 0).im), (.shunt 1 1 0, .shunt 1 1 0, .shunt 1 1 0),
      (currentLoad (some 1) none 0, currentLoad (some 1) none 1, currentLoad (some 1) none (E * 0 + J * 1))], ?_, rfl, rfl, ?_⟩
    · intro x hx
      simp only [List.mem_cons, List.not_mem_nil, or_false] at hx
      rcases hx with rfl | rfl | rfl | rfl
      · exact .same _ trivial
      · exact .slack 0 1 0
      · exact .same _ trivial
      · exact .load (some 1) none 0 0 1
    · simp [drivenLine]

theorem driven_valid (E J : ℂ) : (drivenLine E J).Valid := by
  intro e he
  simp [drivenLine] at he
  rcases he with rfl | rfl | rfl | rfl <;> simp [Element.Valid, Ref.Valid, drivenLine, currentLoad]

theorem driven_sturdy (E J : ℂ) : (drivenLine E J).Sturdy where
  plain := rfl
  resistive := by
    intro e he
    simp [drivenLine] at he
    rcases he with rfl | rfl | rfl | rfl <;> simp [Element.Resistive, currentLoad]
  held := by
    have h0 : Held (drivenLine E J).elements (some 0) := .forth (e := .slack 0 E.re E.im) (a := none) (by simp [drivenLine]) ⟨rfl, rfl⟩ .ground
    have h1 : Held (drivenLine E J).elements (some 1) := .forth (e := .line (some 0) (some 1) 1 0 0) (by simp [drivenLine]) ⟨rfl, rfl⟩ h0
    intro k hk
    have hk : k < 2 := hk
    interval_cases k <;> assumption
  loopless := .leaf (l₁ := []) (l₂ := []) 0 .nil (by simp) (Or.inl ⟨rfl, by simp⟩)

/-- Beside `C141_superposition`: one volt and one ampere give the state for any voltage and current. -/
example (hL : L.Loaded) (E J : ℂ) : ∃ x₁ x₂ x, (∀ i, networkEq ((drivenLine 1 0).assign L).all 0 x₁ i = 0) ∧ (∀ i, networkEq ((drivenLine 0 1).assign L).all 0 x₂ i = 0) ∧
    (∀ i, networkEq ((drivenLine E J).assign L).all 0 x i = 0) ∧
    ((drivenLine E J).assign L).voltages x (some 1) = E * ((drivenLine 1 0).assign L).voltages x₁ (some 1) + J * ((drivenLine 0 1).assign L).voltages x₂ (some 1) := by
  obtain ⟨x₁, h₁⟩ := (C125_unique_partial hL _ (driven_valid 1 0) (driven_sturdy 1 0)).1
  obtain ⟨x₂, h₂⟩ := (C125_unique_partial hL _ (driven_valid 0 1) (driven_sturdy 0 1)).1
  have h₁ := (C67_equations_are_kirchhoff hL (drivenLine 1 0) rfl 0 x₁).2 h₁
  have h₂ := (C67_equations_are_kirchhoff hL (drivenLine 0 1) rfl 0 x₂).2 h₂
  obtain ⟨x, h, hV⟩ := C141_superposition hL E J _ _ _ (driven_superposed E J) 0 x₁ x₂ h₁ h₂
  exact ⟨x₁, x₂, x, h₁, h₂, h, hV _⟩

/-- Beside `C141_solved`. -/
example (hL : L.Loaded) (E J : ℂ) (i₁ i₂ i : ℕ → ℝ) : ∃ m₁ m₂ m r₁ r₂ r, homotopyRun (solverRun (plainCtx ((drivenLine 1 0).assign L).size)) true m₁ i₁ = .ok r₁ ∧
    homotopyRun (solverRun (plainCtx ((drivenLine 0 1).assign L).size)) true m₂ i₂ = .ok r₂ ∧
    homotopyRun (solverRun (plainCtx ((drivenLine E J).assign L).size)) true m i = .ok r ∧
    ((drivenLine E J).assign L).voltages r.v (some 1) = E * ((drivenLine 1 0).assign L).voltages r₁.v (some 1) + J * ((drivenLine 0 1).assign L).voltages r₂.v (some 1) := by
  obtain ⟨m₁, _, hr₁⟩ := build_ready (drivenLine 1 0).opt ((drivenLine 1 0).assign L).all (network_wellPlaced hL _ (driven_valid 1 0))
  obtain ⟨m₂, _, hr₂⟩ := build_ready (drivenLine 0 1).opt ((drivenLine 0 1).assign L).all (network_wellPlaced hL _ (driven_valid 0 1))
  obtain ⟨m, _, hr⟩ := build_ready (drivenLine E J).opt ((drivenLine E J).assign L).all (network_wellPlaced hL _ (driven_valid E J))
  obtain ⟨r₁, r₂, r, h1, h2, h3, _, _, _, h4⟩ := C141_solved hL E J _ _ _ (driven_superposed E J) (driven_valid 1 0) (driven_valid 0 1) (driven_valid E J)
    (driven_sturdy 1 0) (driven_sturdy 0 1) (driven_sturdy E J) (by norm_num [drivenLine]) m₁ m₂ m _ _ _ _ _ _ hr₁ hr₂ hr true i₁ i₂ i
  exact ⟨m₁, m₂, m, r₁, r₂, r, h1, h2, h3, h4 _⟩

/-- A line of three buses: fed at one end, with resistances at the other two. -/
noncomputable def chainLine : Network := ⟨3, [.line (some 0) (some 1) 1 0 0, .line (some 1) (some 2) 2 0 0, .slack 0 1 0, .shunt 1 1 0], none⟩

theorem chain_valid : chainLine.Valid := by
  intro e he
  simp [chainLine] at he
  rcases he with rfl | rfl | rfl | rfl <;> simp [Element.Valid, Ref.Valid, chainLine]

theorem chain_twoWay : ∀ e ∈ chainLine.elements, e.TwoWay := by
  intro e he
  simp [chainLine] at he
  rcases he with rfl | rfl | rfl | rfl <;> trivial

theorem chain_sturdy : chainLine.Sturdy where
  plain := rfl
  resistive := by
    intro e he
    simp [chainLine] at he
    rcases he with rfl | rfl | rfl | rfl <;> simp [Element.Resistive]
  held := by
    have h0 : Held chainLine.elements (some 0) := .forth (e := .slack 0 1 0) (a := none) (by simp [chainLine]) ⟨rfl, rfl⟩ .ground
    have h1 : Held chainLine.elements (some 1) := .forth (e := .line (some 0) (some 1) 1 0 0) (by simp [chainLine]) ⟨rfl, rfl⟩ h0
    have h2 : Held chainLine.elements (some 2) := .forth (e := .line (some 1) (some 2) 2 0 0) (by simp [chainLine]) ⟨rfl, rfl⟩ h1
    intro k hk
    have hk : k < 3 := hk
    interval_cases k <;> assumption
  loopless := .leaf (l₁ := []) (l₂ := []) 0 .nil (by simp) (Or.inl ⟨rfl, by simp⟩)

/-- Beside `C142_reciprocity`: the drop at bus 1 from a current at bus 2 is the drop at bus 2 from that current at bus 1. -/
example (hL : L.Loaded) : ∃ x x₁ x₂, (∀ i, networkEq ((chainLine.loaded (some 1) none 1).assign L).all 0 x₁ i = 0) ∧
    (∀ i, networkEq ((chainLine.loaded (some 2) none 1).assign L).all 0 x₂ i = 0) ∧
    ((chainLine.loaded (some 2) none 1).assign L).voltages x₂ (some 1) - (chainLine.assign L).voltages x (some 1) =
      ((chainLine.loaded (some 1) none 1).assign L).voltages x₁ (some 2) - (chainLine.assign L).voltages x (some 2) := by
  have v1 : ∀ k < 3, (chainLine.loaded (some k) none 1).Valid := fun k hk => loaded_valid chain_valid (by simpa [Ref.Valid, chainLine] using hk) (by simp [Ref.Valid]) 1
  obtain ⟨x, h⟩ := (C125_unique_partial hL _ chain_valid chain_sturdy).1
  obtain ⟨x₁, h₁⟩ := (C125_unique_partial hL _ (v1 1 (by norm_num)) (loaded_sturdy chain_sturdy (some 1) none 1)).1
  obtain ⟨x₂, h₂⟩ := (C125_unique_partial hL _ (v1 2 (by norm_num)) (loaded_sturdy chain_sturdy (some 2) none 1)).1
  have h := (C67_equations_are_kirchhoff hL chainLine rfl 0 x).2 h
  have h₁ := (C67_equations_are_kirchhoff hL (chainLine.loaded (some 1) none 1) rfl 0 x₁).2 h₁
  have h₂ := (C67_equations_are_kirchhoff hL (chainLine.loaded (some 2) none 1) rfl 0 x₂).2 h₂
  refine ⟨x, x₁, x₂, h₁, h₂, ?_⟩
  have := C142_reciprocity hL chainLine rfl chain_twoWay (some 1) none (some 2) none 1 1 0 x x₁ x₂ h h₁ h₂
  have g : ∀ (N : Network) (v : ℕ → ℝ), (N.assign L).voltages v none = 0 := fun N v => rfl
  dsimp only at this
  rw [g, g, g] at this
  linear_combination this

/-- Beside `C142_solved`. -/
example (hL : L.Loaded) (i : ℕ → ℝ) : ∃ m m₁ m₂ r r₁ r₂, homotopyRun (solverRun (plainCtx (chainLine.assign L).size)) true m i = .ok r ∧
    homotopyRun (solverRun (plainCtx ((chainLine.loaded (some 1) none 1).assign L).size)) true m₁ i = .ok r₁ ∧
    homotopyRun (solverRun (plainCtx ((chainLine.loaded (some 2) none 1).assign L).size)) true m₂ i = .ok r₂ := by
  have v1 : ∀ k < 3, (chainLine.loaded (some k) none 1).Valid := fun k hk => loaded_valid chain_valid (by simpa [Ref.Valid, chainLine] using hk) (by simp [Ref.Valid]) 1
  obtain ⟨m, _, hr⟩ := build_ready chainLine.opt (chainLine.assign L).all (network_wellPlaced hL _ chain_valid)
  obtain ⟨m₁, _, hr₁⟩ := build_ready (chainLine.loaded (some 1) none 1).opt ((chainLine.loaded (some 1) none 1).assign L).all (network_wellPlaced hL _ (v1 1 (by norm_num)))
  obtain ⟨m₂, _, hr₂⟩ := build_ready (chainLine.loaded (some 2) none 1).opt ((chainLine.loaded (some 2) none 1).assign L).all (network_wellPlaced hL _ (v1 2 (by norm_num)))
  obtain ⟨r, r₁, r₂, h1, h2, h3, _⟩ := C142_solved hL chainLine chain_valid chain_sturdy (by norm_num [chainLine]) chain_twoWay (some 1) none (some 2) none
    (by simp [Ref.Valid, chainLine]) (by simp [Ref.Valid]) (by simp [Ref.Valid, chainLine]) (by simp [Ref.Valid]) 1 one_ne_zero m m₁ m₂ _ _ _ _ _ _ hr hr₁ hr₂ true i i i
  exact ⟨m, m₁, m₂, r, r₁, r₂, h1, h2, h3⟩

end Verif
