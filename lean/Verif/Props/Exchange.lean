import Verif.Lemmas.Exchange
import Verif.Lemmas.Light
import Verif.Props.Unique

/-!
# C138: equipment may be exchanged for equivalent equipment
-/

namespace Verif

open Ex Devices

variable {L : Library}

/-- **C138.** Exchanging equipment for equivalent equipment, at any number of places, changes no voltage: every solution of one network is a solution of the other
with the same voltages, at every homotopy factor. -/
theorem C138_solutions (hL : L.Loaded) (N M : Network) (h : Exchanged N M) (t : ℝ) (x : ℕ → ℝ) (hx : ∀ i, networkEq (N.assign L).all t x i = 0) :
    ∃ y, (∀ i, networkEq (M.assign L).all t y i = 0) ∧ ∀ r, (M.assign L).voltages y r = (N.assign L).voltages x r := by
  have hk := (C67_equations_are_kirchhoff hL N h.plain t x).1 hx
  obtain ⟨ys, h1, h2, h3⟩ := exchanged_serves h t ((N.assign L).voltages x) rfl ((N.assign L).owned L N x) (owned_fst N x)
    (fun z hz => ⟨owned_widths (L := L) N h.plain x z hz, hk.2 z hz⟩)
  obtain ⟨y, g1, g2⟩ := exists_values hL M h.plain' (fun j => (N.assign L).voltages x (some j)) ys h1 fun z hz => (h2 z hz).1
  have hV : (M.assign L).voltages y = (N.assign L).voltages x := by
    funext r
    cases r with
    | none => rfl
    | some j =>
      by_cases hj : j < M.buses
      · exact g1 j hj
      · rw [voltages_out M y (not_lt.1 hj), voltages_out N x (by rw [← h.buses]; exact not_lt.1 hj)]
  refine ⟨y, (C67_equations_are_kirchhoff hL M h.plain' t y).2 ?_, fun r => by rw [hV]⟩
  rw [hV, g2, h.buses]
  exact ⟨fun k hk' => (h3 k).trans (hk.1 k hk'), fun z hz => (h2 z hz).2⟩

/-- **C138, the run.** If both networks are resistive, connected and without loops of ideal conductors, runs on them from any start return the same voltages. -/
theorem C138_solved (hL : L.Loaded) (N M : Network) (h : Exchanged N M) (hv : N.Valid) (hv' : M.Valid) (hN : N.Sturdy) (hM : M.Sturdy)
    (hne : (N.assign L).size ≠ 0) (hne' : (M.assign L).size ≠ 0) (m m' : Stamper) (v0 v0' : ℕ → ℝ) (it0 it0' : ℤ)
    (hr : Ready N.opt (N.assign L).all m v0 it0) (hr' : Ready M.opt (M.assign L).all m' v0' it0') (txStepping txStepping' : Bool) (vInit vInit' : ℕ → ℝ) :
    ∃ r r', homotopyRun (solverRun (plainCtx (N.assign L).size)) txStepping m vInit = .ok r ∧
      homotopyRun (solverRun (plainCtx (M.assign L).size)) txStepping' m' vInit' = .ok r' ∧ r.success = true ∧ r'.success = true ∧
      ∀ k, (M.assign L).voltages r'.v k = (N.assign L).voltages r.v k := by
  obtain ⟨r, a1, a2, _, _, _, a3, _⟩ := C125_solved_partial hL N hv hN hne m v0 it0 hr (plainCtx _) rfl rfl rfl rfl
    (by norm_num [plainCtx]) (by norm_num [plainCtx]) txStepping vInit
  obtain ⟨r', b1, b2, _, _, _, _, b4⟩ := C125_solved_partial hL M hv' hM hne' m' v0' it0' hr' (plainCtx _) rfl rfl rfl rfl
    (by norm_num [plainCtx]) (by norm_num [plainCtx]) txStepping' vInit'
  obtain ⟨y, c1, c2⟩ := C138_solutions hL N M h 0 r.v ((C67_equations_are_kirchhoff hL N h.plain 0 r.v).2 a3)
  have hy := b4 y ((C67_equations_are_kirchhoff hL M h.plain' 0 y).1 c1)
  refine ⟨r, r', a1, b1, a2, b2, fun k => ?_⟩
  rw [← volt_agree hL h.plain' hy]
  exact c2 k

/-! ### One circuit written twice -/

/-- A slack, a line and a resistance. -/
noncomputable def singleLine : Network := ⟨2, [.line (some 0) (some 1) 1 0 0, .slack 0 1 0, .shunt 1 1 0], none⟩

/-- A voltage source, two lines side by side, a resistance and an open switch. -/
noncomputable def twinLine : Network :=
  ⟨2, [.line (some 0) (some 1) (1 / 2) 0 0, .voltageSource (some 0) none 1 0, .switch (some 0) (some 1) .opened, .line (some 0) (some 1) (1 / 2) 0 0, .shunt 1 1 0], none⟩

theorem twin_exchanged : Exchanged singleLine twinLine where
  plain := rfl
  plain' := rfl
  buses := rfl
  elements := by
    refine ⟨[[.line (some 0) (some 1) 1 0 0], [.slack 0 1 0], [.shunt 1 1 0], []],
      [[.line (some 0) (some 1) (1 / 2) 0 0, .line (some 0) (some 1) (1 / 2) 0 0], [.voltageSource (some 0) none 1 0], [.shunt 1 1 0], [.switch (some 0) (some 1) .opened]],
      .cons (Or.inr (Or.inr ?_)) (.cons (Or.inr (Or.inl (.slack 0 1 0))) (.cons (Or.inl rfl) (.cons (Or.inr (Or.inr (.openSwitch _ _))) .nil))), .refl _, ?_⟩
    · have := Exchange.lines (some 0) (some 1) (1 / 2) 0 0 (1 / 2) 0 0
      rwa [show (1 / 2 : ℝ) + 1 / 2 = 1 by norm_num, add_zero] at this
    · refine .cons _ ?_
      exact (List.perm_middle (l₁ := [Element.voltageSource (some 0) none 1 0, Element.switch (some 0) (some 1) .opened]) (l₂ := [Element.shunt 1 1 0])).trans
        (.cons _ (.cons _ (.swap _ _ _)))

theorem single_valid : singleLine.Valid := by
  intro e he
  simp [singleLine] at he
  rcases he with rfl | rfl | rfl <;> simp [Element.Valid, Ref.Valid, singleLine]

theorem single_sturdy : singleLine.Sturdy where
  plain := rfl
  resistive := by
    intro e he
    simp [singleLine] at he
    rcases he with rfl | rfl | rfl <;> simp [Element.Resistive]
  held := by
    have h0 : Held singleLine.elements (some 0) := .forth (e := .slack 0 1 0) (a := none) (by simp [singleLine]) ⟨rfl, rfl⟩ .ground
    have h1 : Held singleLine.elements (some 1) := .forth (e := .line (some 0) (some 1) 1 0 0) (by simp [singleLine]) ⟨rfl, rfl⟩ h0
    intro k hk
    have hk : k < 2 := hk
    interval_cases k <;> assumption
  loopless := .leaf (l₁ := []) (l₂ := []) 0 .nil (by simp) (Or.inl ⟨rfl, by simp⟩)

theorem twins_valid : twinLine.Valid := by
  intro e he
  simp [twinLine] at he
  rcases he with rfl | rfl | rfl | rfl | rfl <;> simp [Element.Valid, Ref.Valid, twinLine]

theorem twins_sturdy : twinLine.Sturdy where
  plain := rfl
  resistive := by
    intro e he
    simp [twinLine] at he
    rcases he with rfl | rfl | rfl | rfl | rfl <;> simp [Element.Resistive]
  held := by
    have h0 : Held twinLine.elements (some 0) := .back (e := .voltageSource (some 0) none 1 0) (b := none) (by simp [twinLine]) ⟨rfl, rfl⟩ .ground
    have h1 : Held twinLine.elements (some 1) := .forth (e := .line (some 0) (some 1) (1 / 2) 0 0) (by simp [twinLine]) ⟨rfl, rfl⟩ h0
    intro k hk
    have hk : k < 2 := hk
    interval_cases k <;> assumption
  loopless := .leaf (l₁ := []) (l₂ := []) 0 .nil (by simp) (Or.inl ⟨rfl, by simp⟩)

/-- Beside `C138_solutions`: two lines side by side and a voltage source to ground for a line and a slack. -/
example (hL : L.Loaded) : ∃ x y, (∀ i, networkEq (singleLine.assign L).all 0 x i = 0) ∧ (∀ i, networkEq (twinLine.assign L).all 0 y i = 0) ∧
    (twinLine.assign L).voltages y (some 1) = (singleLine.assign L).voltages x (some 1) := by
  obtain ⟨x, hx⟩ := (C125_unique_partial hL singleLine single_valid single_sturdy).1
  have hx := (C67_equations_are_kirchhoff hL singleLine rfl 0 x).2 hx
  obtain ⟨y, h1, h2⟩ := C138_solutions hL singleLine twinLine twin_exchanged 0 x hx
  exact ⟨x, y, hx, h1, h2 _⟩

theorem size_of_bus (hL : L.Loaded) {N : Network} (ho : N.optimization = none) (hb : 0 < N.buses) : (N.assign L).size ≠ 0 := by
  obtain ⟨n, es, o⟩ := N
  cases ho
  obtain ⟨k, rfl⟩ : ∃ k, n = k + 1 := ⟨n - 1, by simp at hb; omega⟩
  have h : some 0 ∈ ((⟨k + 1, es, none⟩ : Network).assign L).unknowns L ⟨k + 1, es, none⟩ := by
    unfold Assignment.unknowns
    exact List.mem_append_left _ (List.mem_append_left _ (List.mem_flatMap.2 ⟨plainNode 0, List.mem_cons_self, by simp [Node.unknowns, plainNode]⟩))
  have := ((C07_distinct_and_dense hL ⟨k + 1, es, none⟩).2 0).2 h
  omega

/-- Beside `C138_solved`. -/
example (hL : L.Loaded) (vInit vInit' : ℕ → ℝ) : ∃ m m' r r', homotopyRun (solverRun (plainCtx (singleLine.assign L).size)) false m vInit = .ok r ∧
    homotopyRun (solverRun (plainCtx (twinLine.assign L).size)) true m' vInit' = .ok r' ∧
    (twinLine.assign L).voltages r'.v (some 1) = (singleLine.assign L).voltages r.v (some 1) := by
  obtain ⟨m, _, hr⟩ := build_ready singleLine.opt (singleLine.assign L).all (network_wellPlaced hL singleLine single_valid)
  obtain ⟨m', _, hr'⟩ := build_ready twinLine.opt (twinLine.assign L).all (network_wellPlaced hL twinLine twins_valid)
  obtain ⟨r, r', h1, h2, _, _, h3⟩ := C138_solved hL singleLine twinLine twin_exchanged single_valid twins_valid single_sturdy twins_sturdy
    (size_of_bus hL rfl (by norm_num [singleLine])) (size_of_bus hL rfl (by norm_num [twinLine])) m m' _ _ _ _ hr hr' false true vInit vInit'
  exact ⟨m, m', r, r', h1, h2, h3 _⟩

end Verif
