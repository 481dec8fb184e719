import Verif.Props.Optimization

/-!
# C35, C70: what infeasibility analysis reports
-/

namespace Verif

open Ex Devices

variable {L : Library}

/-! ### C70: the L1 option -/

/-- A vector with given plain unknowns, multipliers and infeasibility currents. -/
theorem exists_vector (N : Network) (f g h : ℕ → ℝ) : ∃ v : ℕ → ℝ, (∀ r < N.unknowns, N.primal v r = f r) ∧
    (∀ r < N.unknowns, N.multiplier v r = g r) ∧ ∀ i, 2 * N.unknowns ≤ i → v i = h i := by
  classical
  refine ⟨fun i => if 2 * N.unknowns ≤ i then h i else if hp : ∃ r < N.unknowns, i = (N.twin r).1 then f hp.choose
    else if hd : ∃ r < N.unknowns, i = (N.twin r).2 then g hd.choose else 0, ?_, ?_, ?_⟩
  · intro r hr
    have hlt := (twin_lt N hr).1
    have hp : ∃ s < N.unknowns, (N.twin r).1 = (N.twin s).1 := ⟨r, hr, rfl⟩
    unfold Network.primal
    beta_reduce
    rw [if_neg (by omega), dif_pos hp]
    exact congrArg f ((twin_inj N r hp.choose).1 hp.choose_spec.2).symm
  · intro r hr
    have hlt := (twin_lt N hr).2
    have hd : ∃ s < N.unknowns, (N.twin r).2 = (N.twin s).2 := ⟨r, hr, rfl⟩
    have hp : ¬ ∃ s < N.unknowns, (N.twin r).2 = (N.twin s).1 := by
      rintro ⟨s, _, hs⟩; exact (twin_inj N s r).2.2 hs.symm
    unfold Network.multiplier
    beta_reduce
    rw [if_neg (by omega), dif_neg hp, dif_pos hd]
    exact congrArg g ((twin_inj N r hd.choose).2.1 hd.choose_spec.2).symm
  · intro i hi; exact if_pos hi

/-- The network with infeasibility analysis of kind `o`. -/
def Network.withOpt (N : Network) (o : OptKind) : Network := { N with optimization := some o }

/-- **C70, the cost of the L1 option.** The operating points and infeasibility currents the `L1` option solves for are exactly those
of the `L2` option: its bound multipliers share the indices of the currents, so the two parts enter squared. -/
theorem C70_L1_is_L2 (hL : L.Loaded) (N : Network) (hv : N.Valid) (t : ℝ) (u inj : ℕ → ℝ) :
    (∃ v, (N.withOpt .L1).Solved L t v ∧ (∀ r < N.unknowns, N.primal v r = u r) ∧ ∀ r, (N.withOpt .L1).injection .L1 v r = inj r) ↔
    (∃ v, (N.withOpt .L2).Solved L t v ∧ (∀ r < N.unknowns, N.primal v r = u r) ∧ ∀ r, (N.withOpt .L2).injection .L2 v r = inj r) := by
  have hb := buses_unknowns N
  have i1 : ∀ v r, (N.withOpt .L1).injection .L1 v r = if r < 2 * N.buses then
      v (2 * N.unknowns + 4 * (r / 2) + 2 + r % 2) - v (2 * N.unknowns + 4 * (r / 2) + r % 2) else 0 := fun _ _ => rfl
  have i2 : ∀ v r, (N.withOpt .L2).injection .L2 v r = if r < 2 * N.buses then v (2 * N.unknowns + r) else 0 := fun _ _ => rfl
  have s1 := fun v => solved_iff hL (N.withOpt .L1) .L1 rfl t v
  have s2 := fun v => solved_iff hL (N.withOpt .L2) .L2 rfl t v
  constructor
  · rintro ⟨v, hs, hp, hi⟩
    obtain ⟨a1, a2, a3⟩ := (s1 v).1 hs
    obtain ⟨v', p', d', h'⟩ := exists_vector N (N.primal v) (fun r => 2 * N.multiplier v r) (fun i => -N.multiplier v (i - 2 * N.unknowns))
    have hinj : ∀ r, (N.withOpt .L2).injection .L2 v' r = (N.withOpt .L1).injection .L1 v r := by
      intro r
      rw [i1, i2]
      by_cases hr : r < 2 * N.buses
      · rw [if_pos hr, if_pos hr, h' _ (by omega), Nat.add_sub_cancel_left]
        obtain ⟨c1, c2⟩ := a3 r hr
        have e : (N.withOpt .L1).multiplier v r = N.multiplier v r := rfl
        have e' : (N.withOpt .L1).unknowns = N.unknowns := rfl
        rw [e, e'] at c1 c2
        linarith
      · rw [if_neg hr, if_neg hr]
    refine ⟨v', (s2 v').2 ⟨?_, ?_, ?_⟩, fun r hr => (p' r hr).trans (hp r hr), fun r => (hinj r).trans (hi r)⟩
    · intro r hr
      rw [hinj r]
      have := a1 r hr
      rw [← this]
      congr 1
      exact plain_congr hL (N.withOpt .L2) .L2 rfl t p' r
    · intro r hr
      have e := parts_primal_scale hL (N.withOpt .L2) hv .L2 rfl t 2 v v' p' d' (r := r)
      have := a2 r hr
      rw [e]
      exact (congrArg (2 * ·) this).trans (mul_zero _)
    · intro r hr
      have hr' : r < 2 * N.buses := hr
      have e : (N.withOpt .L2).multiplier v' r = 2 * N.multiplier v r := d' r (by omega)
      have e2 : v' (2 * (N.withOpt .L2).unknowns + r) = -N.multiplier v r := by
        have := h' (2 * N.unknowns + r) (by omega)
        rw [Nat.add_sub_cancel_left] at this; exact this
      simp only
      rw [e, e2]; ring
  · rintro ⟨v, hs, hp, hi⟩
    obtain ⟨a1, a2, a3⟩ := (s2 v).1 hs
    obtain ⟨v', p', d', h'⟩ := exists_vector N (N.primal v) (fun r => 1 / 2 * N.multiplier v r) (fun i =>
      let j := i - 2 * N.unknowns
      if j % 4 < 2 then (N.multiplier v (2 * (j / 4) + j % 4) / 2 - 1) / 2 else -(1 + N.multiplier v (2 * (j / 4) + j % 4 - 2) / 2) / 2)
    have hA : ∀ r, v' (2 * N.unknowns + 4 * (r / 2) + r % 2) = (N.multiplier v r / 2 - 1) / 2 := by
      intro r
      rw [h' _ (by omega)]
      simp only
      rw [show 2 * N.unknowns + 4 * (r / 2) + r % 2 - 2 * N.unknowns = 4 * (r / 2) + r % 2 by omega, if_pos (by omega),
        show 2 * ((4 * (r / 2) + r % 2) / 4) + (4 * (r / 2) + r % 2) % 4 = r by omega]
    have hB : ∀ r, v' (2 * N.unknowns + 4 * (r / 2) + 2 + r % 2) = -(1 + N.multiplier v r / 2) / 2 := by
      intro r
      rw [h' _ (by omega)]
      simp only
      rw [show 2 * N.unknowns + 4 * (r / 2) + 2 + r % 2 - 2 * N.unknowns = 4 * (r / 2) + 2 + r % 2 by omega, if_neg (by omega),
        show 2 * ((4 * (r / 2) + 2 + r % 2) / 4) + (4 * (r / 2) + 2 + r % 2) % 4 - 2 = r by omega]
    have hinj : ∀ r, (N.withOpt .L1).injection .L1 v' r = (N.withOpt .L2).injection .L2 v r := by
      intro r
      rw [i1, i2]
      by_cases hr : r < 2 * N.buses
      · rw [if_pos hr, if_pos hr, hA, hB]
        have c := a3 r hr
        have c' : 2 * v (2 * N.unknowns + r) + N.multiplier v r = 0 := c
        linarith
      · rw [if_neg hr, if_neg hr]
    refine ⟨v', (s1 v').2 ⟨?_, ?_, ?_⟩, fun r hr => (p' r hr).trans (hp r hr), fun r => (hinj r).trans (hi r)⟩
    · intro r hr
      rw [hinj r]
      have := a1 r hr
      rw [← this]
      congr 1
      exact plain_congr hL (N.withOpt .L1) .L1 rfl t p' r
    · intro r hr
      have e := parts_primal_scale hL (N.withOpt .L1) hv .L1 rfl t (1 / 2) v v' p' d' (r := r)
      have := a2 r hr
      rw [e]
      exact (congrArg (1 / 2 * ·) this).trans (mul_zero _)
    · intro r hr
      have hr' : r < 2 * N.buses := hr
      have e : (N.withOpt .L1).multiplier v' r = 1 / 2 * N.multiplier v r := d' r (by omega)
      have eA : v' (2 * (N.withOpt .L1).unknowns + 4 * (r / 2) + r % 2) = _ := hA r
      have eB : v' (2 * (N.withOpt .L1).unknowns + 4 * (r / 2) + 2 + r % 2) = _ := hB r
      simp only
      rw [e, eA, eB]
      constructor <;> ring

/-- The two parts of the `L1` current of a bus equation always sum to minus one. -/
theorem C70_L1_parts_sum (hL : L.Loaded) (N : Network) (ho : N.optimization = some .L1) (t : ℝ) (v : ℕ → ℝ) (h : N.Solved L t v) (r : ℕ)
    (hr : r < 2 * N.buses) :
    v (2 * N.unknowns + 4 * (r / 2) + r % 2) + v (2 * N.unknowns + 4 * (r / 2) + 2 + r % 2) = -1 := by
  obtain ⟨c1, c2⟩ := ((solved_iff hL N .L1 ho t v).1 h).2.2 r hr
  linarith

/-- **C70 fails.** The parts of an `L1` current should be nonnegative; at no solution of any network with a bus are they. -/
theorem C70_L1_nonnegative_fails (hL : L.Loaded) (N : Network) (ho : N.optimization = some .L1) (hb : 0 < N.buses) (t : ℝ) (v : ℕ → ℝ)
    (h : N.Solved L t v) : ¬ ∀ i, 2 * N.unknowns ≤ i → i < (N.assign L).size → 0 ≤ v i := by
  intro hn
  have hs : 2 * N.unknowns + 4 ≤ (N.assign L).size := by
    unfold Network.assign
    rw [opt_of_some ho, ho]
    simp only
    rw [placeElements_end hL N]
    have : ∀ (nodes : List Node) n, (placeInfeasibility .L1 n nodes).2 = n + 4 * nodes.length := by
      intro nodes
      induction nodes with
      | nil => intro n; rfl
      | cons b nodes ih => intro n; simp only [placeInfeasibility, ih]; simp [placeL1]; ring
    have hb' : (assignBuses true N.buses 0).1 = (List.range' 0 N.buses).map optNode := by
      have := assignBuses_opt N.buses 0; rw [show (0 : ℕ) = 4 * 0 from rfl, this]
    rw [this, hb', List.length_map, List.length_range']; omega
  have := C70_L1_parts_sum hL N ho t v h 0 (by omega)
  have h1 := hn (2 * N.unknowns) (by omega) (by omega)
  have h2 := hn (2 * N.unknowns + 2) (by omega) (by omega)
  norm_num at this
  linarith

/-! ### C35: the reported totals -/

theorem zip_infeasibility (o : OptKind) (base : ℕ) (K k0 : ℕ) :
    ((List.range' k0 K).map optNode).zip (placeInfeasibility o (base + o.width * k0) ((List.range' k0 K).map optNode)).1 =
      (List.range' k0 K).map fun k => (optNode k, match o with
        | .L1 => (placeL1 (optNode k) (base + 4 * k)).1
        | .L2 => (placeL2 (optNode k) (base + 2 * k)).1) := by
  induction K generalizing k0 with
  | zero => rfl
  | succ K ih =>
    rw [List.range'_succ, List.map_cons, List.map_cons]
    cases o with
    | L1 =>
      have e1 : (placeInfeasibility .L1 (base + OptKind.width .L1 * k0) (optNode k0 :: (List.range' (k0 + 1) K).map optNode)).1 =
        (placeL1 (optNode k0) (base + 4 * k0)).1 :: (placeInfeasibility .L1 (base + OptKind.width .L1 * (k0 + 1)) ((List.range' (k0 + 1) K).map optNode)).1 := rfl
      rw [e1, List.zip_cons_cons, ih]
    | L2 =>
      have e1 : (placeInfeasibility .L2 (base + OptKind.width .L2 * k0) (optNode k0 :: (List.range' (k0 + 1) K).map optNode)).1 =
        (placeL2 (optNode k0) (base + 2 * k0)).1 :: (placeInfeasibility .L2 (base + OptKind.width .L2 * (k0 + 1)) ((List.range' (k0 + 1) K).map optNode)).1 := rfl
      rw [e1, List.zip_cons_cons, ih]

/-- Sign with which the infeasibility current is reported. -/
def OptKind.reportedSign : OptKind → ℝ
  | .L1 => -1
  | .L2 => 1

/-- **C35, what the totals are.** The two reported totals are the sums over the buses of `Re V · Re I` and of `Im V · Im I`, with
the terms below `1e-5` (in particular all negative ones) replaced by zero and, for `L1`, the sign of `I` reversed. This is
the claim's `V · conj I` only in the terms it keeps: the cross terms are missing from the active power, and the reactive
power is not computed at all. -/
theorem C35_totals_formula_partial (hL : L.Loaded) (N : Network) (o : OptKind) (ho : N.optimization = some o) (v : ℕ → ℝ) :
    infTotals N (N.assign L) v = some
      (((List.range N.buses).map fun k => cutSmall (((N.assign L).voltages v (some k)).re * (o.reportedSign * N.injection o v (2 * k)))).sum,
       ((List.range N.buses).map fun k => cutSmall (((N.assign L).voltages v (some k)).im * (o.reportedSign * N.injection o v (2 * k + 1)))).sum) := by
  obtain ⟨_, _, _, _, h5, h6⟩ := network_twin hL N o ho
  have hb : (assignBuses true N.buses 0).1 = (List.range' 0 N.buses).map optNode := by
    have := assignBuses_opt N.buses 0; rw [show (0 : ℕ) = 4 * 0 from rfl, this]
  have hz := zip_infeasibility o (2 * N.unknowns) N.buses 0
  rw [Nat.mul_zero, Nat.add_zero] at hz
  have hres : infResults o (N.assign L) v = (List.range N.buses).map fun k =>
      ⟨k, cutSmall (((N.assign L).voltages v (some k)).re * (o.reportedSign * N.injection o v (2 * k))),
        cutSmall (((N.assign L).voltages v (some k)).im * (o.reportedSign * N.injection o v (2 * k + 1))), .Inf⟩ := by
    unfold infResults
    rw [h5, h6, hb, hz, ← List.range_eq_range']
    apply List.ext_getElem
    · simp
    · intro k h1 h2
      have hk : k < N.buses := by simpa using h2
      simp only [List.getElem_map, List.getElem_zipIdx, List.getElem_range, Nat.zero_add]
      have hnode : nodeAt ((List.range N.buses).map optNode) (some k) = optNode k := by
        simp [nodeAt, hk]
      have hvolt : (N.assign L).voltages v (some k) = ⟨v (4 * k), v (4 * k + 1)⟩ := by
        unfold Assignment.voltages
        rw [h6, hb, ← List.range_eq_range', hnode]; rfl
      have j1 : N.injection o v (2 * k) = match o with
          | .L2 => v (2 * N.unknowns + 2 * k)
          | .L1 => v (2 * N.unknowns + 4 * k + 2) - v (2 * N.unknowns + 4 * k) := by
        unfold Network.injection
        rw [if_pos (by omega), show 2 * k / 2 = k by omega, show 2 * k % 2 = 0 by omega]
        cases o <;> rfl
      have j2 : N.injection o v (2 * k + 1) = match o with
          | .L2 => v (2 * N.unknowns + 2 * k + 1)
          | .L1 => v (2 * N.unknowns + 4 * k + 3) - v (2 * N.unknowns + 4 * k + 1) := by
        unfold Network.injection
        rw [if_pos (by omega), show (2 * k + 1) / 2 = k by omega, show (2 * k + 1) % 2 = 1 by omega]
        cases o <;> rfl
      rw [hvolt, j1, j2]
      cases o with
      | L1 =>
        have c : infeasCurrent .L1 (placeL1 (optNode k) (2 * N.unknowns + 4 * k)).1 v =
          (v (2 * N.unknowns + 4 * k) - v (2 * N.unknowns + 4 * k + 2), v (2 * N.unknowns + 4 * k + 1) - v (2 * N.unknowns + 4 * k + 3)) := rfl
        simp only [c, OptKind.reportedSign]
        congr 2
        · show v (4 * k) * _ = _; ring
        · show v (4 * k + 1) * _ = _; ring
      | L2 =>
        have c : infeasCurrent .L2 (placeL2 (optNode k) (2 * N.unknowns + 2 * k)).1 v =
          (v (2 * N.unknowns + 2 * k), v (2 * N.unknowns + 2 * k + 1)) := rfl
        simp only [c, OptKind.reportedSign, one_mul]
        rfl
  unfold infTotals
  rw [ho, Option.map_some, hres, List.map_map, List.map_map]
  rfl

/-- **C35, the direction that holds.** When every infeasibility current is zero both totals are zero. -/
theorem C35_zero_partial (hL : L.Loaded) (N : Network) (o : OptKind) (ho : N.optimization = some o) (v : ℕ → ℝ)
    (h : ∀ r < 2 * N.buses, N.injection o v r = 0) : infTotals N (N.assign L) v = some (0, 0) := by
  rw [C35_totals_formula_partial hL N o ho v]
  have hc : cutSmall 0 = 0 := by unfold cutSmall; split_ifs <;> rfl
  congr 2
  · apply List.sum_eq_zero
    intro z hz
    obtain ⟨k, hk, rfl⟩ := List.mem_map.1 hz
    rw [h (2 * k) (by have := List.mem_range.1 hk; omega), mul_zero, mul_zero, hc]
  · apply List.sum_eq_zero
    intro z hz
    obtain ⟨k, hk, rfl⟩ := List.mem_map.1 hz
    rw [h (2 * k + 1) (by have := List.mem_range.1 hk; omega), mul_zero, mul_zero, hc]

/-- One bus with a constant current load and no source. -/
noncomputable def loadOnly (o : Option OptKind) : Network := ⟨1, [.load (some 0) none ⟨0, 0, 0, 1, 0⟩], o⟩

theorem loadOnly_valid (o : Option OptKind) : (loadOnly o).Valid := by
  intro e he
  simp [loadOnly] at he
  subst he; simp [Element.Valid, Ref.Valid, loadOnly]

/-- The plain equations: the load draws one ampere. -/
theorem loadOnly_rows (hL : L.Loaded) (t : ℝ) (u : ℕ → ℝ) (r : ℕ) :
    networkEq ((loadOnly none).assign L).all t u r = if r = 0 then 1 else 0 := by
  have h := network_total hL (loadOnly none) rfl t u r
  simp only at h
  have ho : ((loadOnly none).assign L).owned L (loadOnly none) u = [(.load (some 0) none ⟨0, 0, 0, 1, 0⟩, [])] := rfl
  rw [h, ho]
  have hz : (⟨0, 0⟩ : ℂ) = 0 := rfl
  simp only [List.flatMap_cons, List.flatMap_nil, Element.draws, Element.laws, lawRow_nil, add_zero, List.append_nil, hz, zero_div, map_zero,
    zero_add, inv_zero, mul_zero, zero_mul]
  have hb : (loadOnly none).buses = 1 := rfl
  rw [hb]
  match r with
  | 0 =>
    rw [show (0 : ℕ) = 2 * 0 from rfl, (drawRow_bus 1 0 (by omega) _).1]
    simp [branch, busSum]
  | 1 =>
    rw [show (1 : ℕ) = 2 * 0 + 1 from rfl, (drawRow_bus 1 0 (by omega) _).2]
    simp [branch, busSum]
  | r + 2 => rw [drawRow_high 1 (r + 2) (by omega)]; simp

/-- The witness: voltage 1, multiplier 2, infeasibility current -1. -/
def loadOnlyVec : ℕ → ℝ
  | 0 => 1
  | 2 => 2
  | 4 => -1
  | _ => 0

theorem loadOnly_solved (hL : L.Loaded) (t : ℝ) : (loadOnly (some .L2)).Solved L t loadOnlyVec := by
  have hU : (loadOnly (some .L2)).unknowns = 2 := rfl
  have hB : (loadOnly (some .L2)).buses = 1 := rfl
  rw [solved_iff hL _ .L2 rfl]
  rw [hU, hB]
  refine ⟨?_, ?_, ?_⟩
  · intro r hr
    have := loadOnly_rows hL t ((loadOnly (some .L2)).primal loadOnlyVec) r
    rw [show (loadOnly (some .L2)).plain = loadOnly none from rfl, this]
    unfold Network.injection
    rw [hU, hB, if_pos hr]
    match r, hr with
    | 0, _ => simp [loadOnlyVec]
    | 1, _ => simp [loadOnlyVec]
  · intro r hr
    have hg := C19_gradient hL (loadOnly (some .L2)) (loadOnly_valid _) .L2 rfl (by
      intro e he; simp [loadOnly] at he; subst he; trivial) t loadOnlyVec (by
      intro e he; simp [loadOnly] at he; subst he; exact Or.inl ⟨rfl, rfl⟩) ((loadOnly (some .L2)).twin r).1
    rw [opt_row_primal hL _ .L2 rfl t _ (by rw [hU]; exact hr)] at hg
    refine hg.unique ?_
    refine (hasDerivAt_const _ ((loadOnly (some .L2)).lagrangian L .L2 t loadOnlyVec)).congr_of_eventuallyEq
      (Filter.Eventually.of_forall fun s => ?_)
    beta_reduce
    unfold Network.lagrangian
    rw [hU, hB, show (loadOnly (some .L2)).plain = loadOnly none from rfl]
    simp only [loadOnly_rows hL]
    have t1 : ((loadOnly (some .L2)).twin r).1 = r := by
      match r, hr with
      | 0, _ => rfl
      | 1, _ => rfl
    have m : ∀ q < 2, (loadOnly (some .L2)).multiplier (Function.update loadOnlyVec ((loadOnly (some .L2)).twin r).1 s) q =
        (loadOnly (some .L2)).multiplier loadOnlyVec q := by
      intro q hq
      unfold Network.multiplier
      rw [Function.update_of_ne]
      exact fun h => (twin_inj _ r q).2.2 h.symm
    have m0 := m 0 (by omega)
    have m1 := m 1 (by omega)
    rw [t1] at m0 m1 ⊢
    have n4 : (Function.update loadOnlyVec r s) 4 = loadOnlyVec 4 := Function.update_of_ne (by omega) _ _
    have n5 : (Function.update loadOnlyVec r s) 5 = loadOnlyVec 5 := Function.update_of_ne (by omega) _ _
    simp [List.range_succ, infTerm, m0, m1, n4, n5]
  · intro r hr
    match r, hr with
    | 0, _ => show 2 * loadOnlyVec 4 + loadOnlyVec 2 = 0; simp [loadOnlyVec]
    | 1, _ => show 2 * loadOnlyVec 5 + loadOnlyVec 3 = 0; simp [loadOnlyVec]

/-- **C35 fails.** A solved network whose infeasibility current is not zero reports totals of zero. -/
theorem C35_totals_fails (hL : L.Loaded) :
    ∃ N : Network, N.Valid ∧ N.optimization = some .L2 ∧ ∃ v, N.Solved L 0 v ∧ infTotals N (N.assign L) v = some (0, 0) ∧
      N.injection .L2 v 0 = -1 ∧ (N.assign L).voltages v (some 0) = 1 := by
  have hV : ((loadOnly (some .L2)).assign L).voltages loadOnlyVec (some 0) = 1 := rfl
  have hI : (loadOnly (some .L2)).injection .L2 loadOnlyVec 0 = -1 := rfl
  have hI1 : (loadOnly (some .L2)).injection .L2 loadOnlyVec 1 = 0 := rfl
  refine ⟨loadOnly (some .L2), loadOnly_valid _, rfl, loadOnlyVec, loadOnly_solved hL 0, ?_, hI, hV⟩
  rw [C35_totals_formula_partial hL _ .L2 rfl]
  have hB : (loadOnly (some .L2)).buses = 1 := rfl
  have c1 : cutSmall (-1) = 0 := by unfold cutSmall; rw [if_pos (by norm_num)]
  have c0 : cutSmall 0 = 0 := by unfold cutSmall; rw [if_pos (by norm_num)]
  simp [hB, hV, hI, hI1, OptKind.reportedSign, c1, c0]

/-- The solved network above meets the hypotheses of `C20_least_squares`: no operating point needs less than one ampere. -/
example (hL : L.Loaded) (u : ℕ → ℝ) :
    ((List.range 2).map fun r => (loadOnly (some .L2)).injection .L2 loadOnlyVec r ^ 2).sum ≤
      ((List.range 2).map fun r => networkEq ((loadOnly none).assign L).all 0 u r ^ 2).sum :=
  C20_least_squares hL (loadOnly (some .L2)) (loadOnly_valid _) rfl (by intro e he; simp [loadOnly] at he; subst he; exact ⟨rfl, rfl⟩)
    (by intro e he; simp [loadOnly] at he; subst he; trivial) 0 (by intro e he; simp [loadOnly] at he; subst he; trivial) loadOnlyVec
    (loadOnly_solved hL 0) u (by
      intro r hr
      have : networkEq ((loadOnly none).assign L).all 0 u r = 0 := by
        rw [loadOnly_rows hL, if_neg (by have : 2 ≤ r := hr; omega)]
      exact this)

/-- The `L1` option has solutions on the same network, so `C70_L1_parts_sum` and `C70_L1_nonnegative_fails` are not vacuous. -/
example (hL : L.Loaded) : ∃ v, (loadOnly (some .L1)).Solved L 0 v := by
  have := (C70_L1_is_L2 hL (loadOnly none) (loadOnly_valid _) 0 ((loadOnly none).primal loadOnlyVec)
    ((loadOnly (some .L2)).injection .L2 loadOnlyVec)).2 ⟨loadOnlyVec, loadOnly_solved hL 0, fun _ _ => rfl, fun _ => rfl⟩
  obtain ⟨v, hv, -⟩ := this
  exact ⟨v, hv⟩

/-- In that network the two parts of the current of the one bus sum to minus one. -/
example (hL : L.Loaded) : ∃ v, (loadOnly (some .L1)).Solved L 0 v ∧ v 4 + v 6 = -1 := by
  obtain ⟨v, hv, -⟩ := (C70_L1_is_L2 hL (loadOnly none) (loadOnly_valid _) 0 ((loadOnly none).primal loadOnlyVec)
    ((loadOnly (some .L2)).injection .L2 loadOnlyVec)).2 ⟨loadOnlyVec, loadOnly_solved hL 0, fun _ _ => rfl, fun _ => rfl⟩
  exact ⟨v, hv, C70_L1_parts_sum hL (loadOnly (some .L1)) rfl 0 v hv 0 (by show 0 < 2; omega)⟩

/-- A feasible feeder: all infeasibility currents are zero and so are the totals. -/
example (hL : L.Loaded) : infTotals easyNet (easyNet.assign L) (easyNet.lift easySol) = some (0, 0) :=
  C35_zero_partial hL easyNet .L2 rfl _ <|
    (C20_zero_iff hL easyNet rfl 0 _ (easyNet_solved hL)).1.2 fun r _ => lift_multiplier easyNet easySol r

/-- At 2 volts and an infeasibility current of 3 amperes in phase the totals are 6 and 0. -/
example (hL : L.Loaded) : infTotals (loadOnly (some .L2)) ((loadOnly (some .L2)).assign L) (fun i => if i = 0 then 2 else if i = 4 then 3 else 0)
    = some (6, 0) := by
  rw [C35_totals_formula_partial hL (loadOnly (some .L2)) .L2 rfl]
  have hB : (loadOnly (some .L2)).buses = 1 := rfl
  have hV : ((loadOnly (some .L2)).assign L).voltages (fun i => if i = 0 then 2 else if i = 4 then 3 else 0) (some 0) = ⟨2, 0⟩ := rfl
  have hI : (loadOnly (some .L2)).injection .L2 (fun i => if i = 0 then 2 else if i = 4 then 3 else 0) 0 = 3 := rfl
  have hI1 : (loadOnly (some .L2)).injection .L2 (fun i => if i = 0 then 2 else if i = 4 then 3 else 0) 1 = 0 := rfl
  have c1 : cutSmall (2 * 3) = 6 := by unfold cutSmall; norm_num
  have c0 : cutSmall 0 = 0 := by unfold cutSmall; rw [if_pos (by norm_num)]
  simp [hB, hV, hI, hI1, OptKind.reportedSign, c1, c0]

end Verif
