import Verif.Lemmas.OptimizationRows

/-! A coupled line whose admittance matrix is not symmetric. -/

namespace Verif

open Ex Devices

variable {L : Library}

/-- Two phases, from buses 0 and 1 to buses 2 and 3; only the voltage of phase 1 drives a current, in phase 0. -/
noncomputable def skewNet : Network :=
  ⟨4, [.unbalanced [(0, 2), (1, 3)] (fun i j => if i = 0 ∧ j = 1 then 1 else 0) fun _ _ => 0], some .L2⟩

theorem skew_valid : skewNet.Valid := by
  intro e he
  simp [skewNet] at he
  subst he
  simp [Element.Valid, skewNet]

instance decidableFreeOf (ds : List Sym) (e : Ex) : Decidable (FreeOf ds e) :=
  inferInstanceAs (Decidable (∀ d ∈ ds, e.has d = false))

instance decidableLinearIn (ds : List Sym) : (e : Ex) → Decidable (LinearIn ds e)
  | .num q => inferInstanceAs (Decidable (q = 0))
  | .sym s => inferInstanceAs (Decidable (s ∈ ds))
  | .add a b => @instDecidableAnd _ _ (decidableLinearIn ds a) (decidableLinearIn ds b)
  | .mul a b => @instDecidableOr _ _ (@instDecidableAnd _ _ (decidableLinearIn ds a) _) (@instDecidableAnd _ _ _ (decidableLinearIn ds b))
  | .pow _ _ => isFalse id
  | .sin _ => isFalse id
  | .cos _ => isFalse id

/-- Every derivative of an admittance's Lagrangian is linear in its conductance and susceptance. -/
def AdmLinear (seg : Segment) : Prop :=
  seg.constants = [.G, .B, .txFactor] ∧ ∀ x ∈ seg.vars, LinearIn [.G, .B] (diff x seg.lagrange)

theorem line_admLinear (hL : L.Loaded) : AdmLinear L.line := by
  obtain ⟨n, h⟩ := hL.line
  obtain ⟨kr, ki, hr, hi, _, _, hs⟩ := twoTerminal_ok h
  cases hr; cases hi
  rw [hs]
  unfold AdmLinear Segment.vars
  simp only [lineArgs, TwoTerminalArgs.toSide, equalityDuals, twoTerminalLagrange, addEqualities, List.length_nil, List.range_zero, List.map_nil, List.append_nil]
  decide +kernel

theorem shunt_admLinear (hL : L.Loaded) : AdmLinear L.shunt := by
  obtain ⟨n, h⟩ := hL.shunt
  obtain ⟨kr, ki, hr, hi, _, _, hs⟩ := twoTerminal_ok h
  cases hr; cases hi
  rw [hs]
  unfold AdmLinear Segment.vars
  simp only [shuntArgs, TwoTerminalArgs.toSide, equalityDuals, twoTerminalLagrange, addEqualities, List.length_nil, List.range_zero, List.map_nil, List.append_nil]
  decide +kernel

/-- An admittance of value zero contributes nothing. -/
theorem zero_admittance {p : Placed} (h : AdmLinear p.details.seg) (hc : p.consts = [0, 0, 0]) (t : ℝ) (v : ℕ → ℝ) {x : Sym}
    (hx : x ∈ p.details.seg.vars) : eval (p.env t v) (p.details.seg.derivative x) = 0 := by
  unfold Segment.derivative
  rw [(h.2 x hx).eval (by simp) (p.env t v)]
  have e : ∀ s, s = .G ∨ s = .B → p.env t v s = 0 := by
    intro s hs
    unfold Placed.env Part.env Placed.part
    simp only [h.1, hc]
    rcases hs with rfl | rfl
    · rfl
    · rfl
  simp [e]

/-- The row of the voltage of bus 1 is empty. -/
theorem skew_row_primal (hL : L.Loaded) (t : ℝ) (v : ℕ → ℝ) : networkEq (skewNet.assign L).all t v 4 = 0 := by
  have h4 : (4 : ℕ) = (skewNet.twin 2).1 := rfl
  have hU : skewNet.unknowns = 8 := rfl
  rw [h4, opt_row_primal hL skewNet .L2 rfl t v (by rw [hU]; omega), ← h4]
  have hopt : ∀ q ∈ (skewNet.assign L).parts.flatten, q.details.opt = true := by
    intro q hq
    have := (network_wellPlaced hL skewNet skew_valid q (List.mem_append_left _ hq)).mode
    exact this
  rw [networkEq_rowDir hopt]
  apply List.sum_eq_zero
  intro z hz
  obtain ⟨q, hq, rfl⟩ := List.mem_map.1 hz
  unfold Placed.rowDir
  apply List.sum_eq_zero
  intro z hz
  obtain ⟨x, hx, rfl⟩ := List.mem_map.1 hz
  rw [readIdx_unit]
  have hq' : q ∈ placeUnbalanced L true (fun k => nodeAt [optNode 0, optNode 1, optNode 2, optNode 3] (some k)) [(0, 2), (1, 3)]
      (fun i j => if i = 0 ∧ j = 1 then 1 else 0) fun _ _ => 0 := by
    have e : (skewNet.assign L).parts.flatten = placeUnbalanced L true (fun k => nodeAt [optNode 0, optNode 1, optNode 2, optNode 3] (some k))
      [(0, 2), (1, 3)] (fun i j => if i = 0 ∧ j = 1 then 1 else 0) (fun _ _ => 0) ++ [] := rfl
    rw [e, List.append_nil] at hq
    exact hq
  simp only [placeUnbalanced, List.mem_flatMap, List.mem_range, List.length_cons, List.length_nil, placePair, List.mem_cons, List.not_mem_nil, or_false] at hq'
  obtain ⟨i, hi, j, hj, hq'⟩ := hq'
  have hi' : i = 0 ∨ i = 1 := by omega
  rcases hi' with rfl | rfl
  · -- rows of buses 0 and 2
    have hne : q.details.eqnMap x ≠ some 4 := by
      rcases hq' with rfl | rfl | rfl <;> simp only <;> cases x <;> simp [terminalDict, nodeAt, optNode, Node.ground]
    rw [if_neg hne, zero_mul]
  · -- zero admittances
    have hz : eval (q.env t v) (q.details.seg.derivative x) = 0 := by
      rcases hq' with rfl | rfl | rfl
      · refine zero_admittance ?_ ?_ t v hx
        · simp only
          by_cases h : 1 = j
          · rw [if_pos h]; exact line_admLinear hL
          · rw [if_neg h]; exact shunt_admLinear hL
        · simp
      · exact zero_admittance (shunt_admLinear hL) (by simp) t v hx
      · exact zero_admittance (shunt_admLinear hL) (by simp) t v hx
    rw [hz, mul_zero]

/-- The balance of bus 0 depends on the voltage of bus 1. -/
theorem skew_row_multiplier (hL : L.Loaded) (v : ℕ → ℝ) : networkEq (skewNet.assign L).all 0 v 2 = v 4 - v 12 + v 16 := by
  have h2 : (2 : ℕ) = (skewNet.twin 0).2 := rfl
  have hU : skewNet.unknowns = 8 := rfl
  rw [h2, opt_row_multiplier hL skewNet .L2 rfl 0 v (by rw [hU]; omega)]
  have h := network_total hL skewNet.plain rfl 0 (skewNet.primal v) 0
  simp only at h
  rw [h]
  have hb : skewNet.plain.buses = 4 := rfl
  have hown : (skewNet.plain.assign L).owned L skewNet.plain (skewNet.primal v) =
      [(.unbalanced [(0, 2), (1, 3)] (fun i j => if i = 0 ∧ j = 1 then 1 else 0) (fun _ _ => 0), [])] := rfl
  have v1 : (skewNet.plain.assign L).voltages (skewNet.primal v) (some 1) = ⟨v 4, v 5⟩ := rfl
  have v3 : (skewNet.plain.assign L).voltages (skewNet.primal v) (some 3) = ⟨v 12, v 13⟩ := rfl
  have hi : skewNet.injection .L2 v 0 = v 16 := rfl
  rw [hown, hb, hi]
  simp only [List.flatMap_cons, List.flatMap_nil, Element.draws, Element.laws, lawRow_nil, add_zero, List.append_nil]
  rw [show (0 : ℕ) = 2 * 0 from rfl, (drawRow_bus 4 0 (by omega) _).1]
  simp [List.range_succ, branch, busSum, v1, v3, stiff, faded]

end Verif
