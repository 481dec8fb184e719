import Verif.Props.Stamps
import Verif.Lemmas.Diff
import Verif.Lemmas.Physics

/-!
# C01 for every device segment of the code base, plain and optimization mode
-/

namespace Verif

open Ex Devices

/-- All Lagrangian segments of `/repo/src/models` (components and optimization). -/
def Library.segments (L : Library) : List Segment :=
  [L.line, L.shunt, L.pq, L.ic, L.gen, L.slack, L.vs, xfmr, centerTap, l2, l1]

theorem nodup_lam {vars : List Sym} {n : ℕ} {k : ℕ} (h : vars.Nodup) (hl : ∀ s ∈ vars, ∀ m, s ≠ .lam m) :
    (vars ++ (List.range k).map fun i => Sym.lam (n + i)).Nodup := by
  rw [List.nodup_append]
  refine ⟨h, ?_, ?_⟩
  · refine List.Nodup.map ?_ List.nodup_range
    intro a b hab; simpa using hab
  · intro a ha b hb hab
    obtain ⟨i, _, rfl⟩ := List.mem_map.1 hb
    exact hl a ha _ hab

theorem twoTerminal_vars_nodup {n : ℕ} {a : TwoTerminalArgs} {s : Segment} (h : twoTerminal n a = .ok s)
    (hn : (a.vars ++ [Sym.LrFrom, .LiFrom, .LrTo, .LiTo]).Nodup) (hl : ∀ s ∈ a.vars, ∀ m, s ≠ .lam m) :
    s.vars.Nodup := by
  rw [Segment.vars, seg_primals h, seg_duals h, ← List.append_assoc]
  apply nodup_lam hn
  intro s hs m
  rcases List.mem_append.1 hs with hs | hs
  · exact hl s hs m
  · simp at hs; rcases hs with rfl | rfl | rfl | rfl <;> simp

/-- Every segment has distinct variables and keeps them out of `sin`/`cos`. -/
theorem segments_wellformed {L : Library} (hL : L.Loaded) :
    ∀ s ∈ L.segments, s.vars.Nodup ∧ ∀ vars, (∀ x ∈ vars, x ∈ s.vars) → TrigFree vars s.lagrange := by
  intro s hs
  have tt : ∀ (vars : List Sym) (e : Ex), e.hasTrig = false → TrigFree vars e := fun vars e he =>
    trigFree_of_hasTrig he
  simp only [Library.segments, List.mem_cons, List.not_mem_nil, or_false] at hs
  rcases hs with rfl | rfl | rfl | rfl | rfl | rfl | rfl | rfl | rfl | rfl | rfl
  · obtain ⟨n, h⟩ := hL.line
    exact ⟨twoTerminal_vars_nodup h (by decide) (by simp [lineArgs, terminals]), fun vars _ =>
      trigFree_twoTerminal h rfl rfl rfl rfl (tt _ _ rfl) (tt _ _ rfl) (by simp [lineArgs])⟩
  · obtain ⟨n, h⟩ := hL.shunt
    exact ⟨twoTerminal_vars_nodup h (by decide) (by simp [shuntArgs, terminals]), fun vars _ =>
      trigFree_twoTerminal h rfl rfl rfl rfl (tt _ _ rfl) (tt _ _ rfl) (by simp [shuntArgs])⟩
  · obtain ⟨n, h⟩ := hL.pq
    exact ⟨twoTerminal_vars_nodup h (by decide) (by simp [pqArgs, terminals]), fun vars _ =>
      trigFree_twoTerminal h rfl rfl rfl rfl (tt _ _ rfl) (tt _ _ rfl) (by simp [pqArgs])⟩
  · obtain ⟨n, h⟩ := hL.ic
    exact ⟨twoTerminal_vars_nodup h (by decide) (by simp [icArgs, terminals]), fun vars _ =>
      trigFree_twoTerminal h rfl rfl rfl rfl (tt _ _ rfl) (tt _ _ rfl) (by simp [icArgs])⟩
  · obtain ⟨n, h⟩ := hL.gen
    exact ⟨twoTerminal_vars_nodup h (by decide) (by simp [genArgs, terminals]), fun vars _ =>
      trigFree_twoTerminal h rfl rfl rfl rfl (tt _ _ rfl) (tt _ _ rfl) (by
        intro e he; simp [genArgs] at he; subst he; exact tt _ _ rfl)⟩
  · obtain ⟨n, h⟩ := hL.slack
    exact ⟨twoTerminal_vars_nodup h (by decide) (by simp [slackArgs, terminals]), fun vars _ =>
      trigFree_twoTerminal h rfl rfl rfl rfl (tt _ _ rfl) (tt _ _ rfl) (by
        intro e he; simp [slackArgs] at he; rcases he with rfl | rfl <;> exact tt _ _ rfl)⟩
  · obtain ⟨n, h⟩ := hL.vs
    exact ⟨twoTerminal_vars_nodup h (by decide) (by simp [vsArgs, terminals]), fun vars _ =>
      trigFree_twoTerminal h rfl rfl rfl rfl (tt _ _ rfl) (tt _ _ rfl) (by
        intro e he; simp [vsArgs] at he; rcases he with rfl | rfl <;> exact tt _ _ rfl)⟩
  · refine ⟨by decide, fun vars hv => ?_⟩
    have hc : ∀ x ∈ vars, scaledAngle.has x = false := fun x hx =>
      (by decide : ∀ x ∈ xfmr.vars, scaledAngle.has x = false) x (hv x hx)
    simp only [xfmr, dot, xfmrDuals, xfmrEqns]
    simp only [trigFree_add, trigFree_mul, trigFree_sub, trigFree_neg_iff, trigFree_sym, trigFree_num, secR, secI,
      trCos, trSin, scaledTr, trigFree_cos, trigFree_sin, and_self]
    simp only [true_and, and_true, and_self]
    exact hc
  · exact ⟨by decide, fun vars _ => tt _ _ rfl⟩
  · exact ⟨by decide, fun vars _ => tt _ _ rfl⟩
  · exact ⟨by decide, fun vars _ => tt _ _ rfl⟩

/-- **C01, all devices.** For every segment of the code base, every first-order variable `x` (multiplier: network
equation; primal: stationarity row of optimization mode) and every point where the segment's Lagrangian has no
division by zero, the stamped entries are a Newton row of the equation `∂L/∂x`. -/
theorem C01_every_device_row {L : Library} (hL : L.Loaded) (s : Segment) (hs : s ∈ L.segments) (x : Sym) (v : Env)
    (hd : Defined v s.lagrange) :
    IsNewtonRow s.vars (fun w => eval w (s.derivative x)) v
      (fun y => entrySum v (s.entries x) (some y)) (entrySum v (s.entries x) none) := by
  obtain ⟨hn, ht⟩ := segments_wellformed hL s hs
  exact C01_stamps_are_newton_row s.vars hn (s.derivative x) v (defined_diff x hd)
    (trigFree_diff x (ht s.vars fun _ h => h))

/-- The generator's Lagrangian is defined at a non-zero voltage. -/
example {L : Library} (hL : L.Loaded) : L.gen ∈ L.segments ∧
    Defined (fun s => if s = .VrFrom then 1 else 0) L.gen.lagrange := by
  refine ⟨by simp [Library.segments], ?_⟩
  obtain ⟨n, h⟩ := hL.gen
  have e1 : eval (fun s => if s = .VrFrom then 1 else 0) (Ex.pow Vr 2 + Ex.pow Vi 2) ≠ 0 := by simp [Vr, Vi]
  refine defined_twoTerminal h rfl rfl rfl rfl ?_ ?_ ?_
  · exact ⟨⟨⟨trivial, trivial, trivial, trivial⟩, trivial, trivial, trivial, trivial⟩,
      ⟨⟨⟨trivial, trivial, trivial⟩, Or.inl (by norm_num)⟩, ⟨trivial, trivial, trivial⟩, Or.inl (by norm_num)⟩,
      Or.inr e1⟩
  · exact ⟨⟨⟨trivial, trivial, trivial, trivial⟩, trivial, trivial, trivial, trivial, trivial⟩,
      ⟨⟨⟨trivial, trivial, trivial⟩, Or.inl (by norm_num)⟩, ⟨trivial, trivial, trivial⟩, Or.inl (by norm_num)⟩,
      Or.inr e1⟩
  · intro e he
    simp [genArgs] at he; subst he
    exact ⟨⟨⟨trivial, Or.inl (by norm_num)⟩, trivial, ⟨trivial, trivial, trivial⟩, Or.inl (by norm_num)⟩, trivial,
      ⟨trivial, trivial, trivial⟩, Or.inl (by norm_num)⟩

end Verif
