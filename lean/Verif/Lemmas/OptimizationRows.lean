import Verif.Lemmas.Optimization

/-! The rows of the system in optimization mode. -/

namespace Verif

open Ex Devices

variable {L : Library}

theorem twin_inj (N : Network) (r s : ℕ) :
    ((N.twin r).1 = (N.twin s).1 → r = s) ∧ ((N.twin r).2 = (N.twin s).2 → r = s) ∧ (N.twin r).1 ≠ (N.twin s).2 := twinOf_inj 0 N.blocks r s

theorem twin_lt (N : Network) {r : ℕ} (hr : r < N.unknowns) : (N.twin r).1 < 2 * N.unknowns ∧ (N.twin r).2 < 2 * N.unknowns := by
  have := twinOf_lt 0 N.blocks r hr
  rw [Nat.zero_add] at this
  exact this

theorem buses_unknowns (N : Network) : 2 * N.buses ≤ N.unknowns := by have := buses_le N; omega

/-- Index of the multiplier of a bus equation. -/
theorem twin_bus' (N : Network) {r : ℕ} (hr : r < 2 * N.buses) : (N.twin r).2 = 4 * (r / 2) + 2 + r % 2 := by
  obtain ⟨a, b⟩ := twin_bus N (k := r / 2) (by omega)
  rcases Nat.mod_two_eq_zero_or_one r with h | h
  · have : r = 2 * (r / 2) := by omega
    rw [this, a]; simp only; omega
  · have : r = 2 * (r / 2) + 1 := by omega
    rw [this, b]; simp only; omega

/-- **Rows of the multipliers**: the plain equation plus the infeasibility current. -/
theorem opt_row_multiplier (hL : L.Loaded) (N : Network) (o : OptKind) (ho : N.optimization = some o) (t : ℝ) (v : ℕ → ℝ) {r : ℕ}
    (hr : r < N.unknowns) :
    networkEq (N.assign L).all t v (N.twin r).2 = networkEq (N.plain.assign L).all t (N.primal v) r + N.injection o v r := by
  unfold Assignment.all
  rw [networkEq_append, parts_row hL N o ho, network_infeasibility_rows hL N o ho]
  unfold Network.injection Assignment.all
  congr 1
  have hlt := (twin_lt N hr).2
  by_cases hb : r < 2 * N.buses
  · rw [if_pos hb, twin_bus' N hb, inf_row_bus (k := r / 2) (buses_le N) (by omega) (by omega)]
    have hle := buses_le N
    have hm : r % 2 < 2 := Nat.mod_lt _ (by omega)
    rcases Nat.mod_two_eq_zero_or_one r with h | h
    · cases o with
      | L1 =>
        simp only [infRows, l1Rows, rowTotal_cons]
        rw [if_neg (by omega), if_neg (by omega), if_neg (by omega), if_neg (by omega), if_pos (by omega), if_neg (by omega), h]
        simp [rowTotal]
      | L2 =>
        simp only [infRows, l2Rows, rowTotal_cons]
        rw [if_neg (by omega), if_neg (by omega), if_pos (by omega), if_neg (by omega), show 2 * (r / 2) = r by omega]
        simp [rowTotal]
    · cases o with
      | L1 =>
        simp only [infRows, l1Rows, rowTotal_cons]
        rw [if_neg (by omega), if_neg (by omega), if_neg (by omega), if_neg (by omega), if_neg (by omega), if_pos (by omega), h]
        simp [rowTotal]
      | L2 =>
        simp only [infRows, l2Rows, rowTotal_cons]
        rw [if_neg (by omega), if_neg (by omega), if_neg (by omega), if_pos (by omega),
          show 2 * N.unknowns + 2 * (r / 2) + 1 = 2 * N.unknowns + r by omega]
        simp [rowTotal]
  · rw [if_neg hb]
    refine inf_row_none hlt fun k hk => ?_
    obtain ⟨a, b⟩ := twin_bus N hk
    constructor
    · intro h
      have := (twin_inj N r (2 * k)).2.1 (by rw [h, a])
      omega
    · intro h
      have := (twin_inj N r (2 * k + 1)).2.1 (by rw [h, b])
      omega

/-- **Rows of the infeasibility currents**, `L2`. -/
theorem opt_row_own_L2 (hL : L.Loaded) (N : Network) (ho : N.optimization = some .L2) (t : ℝ) (v : ℕ → ℝ) {r : ℕ} (hr : r < 2 * N.buses) :
    networkEq (N.assign L).all t v (2 * N.unknowns + r) = 2 * v (2 * N.unknowns + r) + N.multiplier v r := by
  unfold Assignment.all
  rw [networkEq_append, parts_high hL N .L2 ho t v _ (by omega), network_infeasibility_rows hL N .L2 ho, zero_add,
    inf_row_own (k := r / 2) (buses_le N) (by omega) (by simp only [OptKind.width]; omega)]
  have hle := buses_le N
  unfold Network.multiplier
  rw [twin_bus' N hr]
  simp only [infRows, l2Rows, rowTotal_cons]
  rcases Nat.mod_two_eq_zero_or_one r with h | h
  · rw [if_pos (by omega), if_neg (by omega), if_neg (by omega), if_neg (by omega), h, show 2 * (r / 2) = r by omega]
    simp [rowTotal]
  · rw [if_neg (by omega), if_pos (by omega), if_neg (by omega), if_neg (by omega), h,
      show 2 * N.unknowns + 2 * (r / 2) + 1 = 2 * N.unknowns + r by omega]
    simp [rowTotal]

/-- **Rows of the infeasibility currents**, `L1`. -/
theorem opt_row_own_L1 (hL : L.Loaded) (N : Network) (ho : N.optimization = some .L1) (t : ℝ) (v : ℕ → ℝ) {r : ℕ} (hr : r < 2 * N.buses) :
    networkEq (N.assign L).all t v (2 * N.unknowns + 4 * (r / 2) + r % 2) =
      1 + 2 * v (2 * N.unknowns + 4 * (r / 2) + r % 2) - N.multiplier v r ∧
    networkEq (N.assign L).all t v (2 * N.unknowns + 4 * (r / 2) + 2 + r % 2) =
      1 + 2 * v (2 * N.unknowns + 4 * (r / 2) + 2 + r % 2) + N.multiplier v r := by
  have hle := buses_le N
  have hm : r % 2 < 2 := Nat.mod_lt _ (by omega)
  unfold Assignment.all Network.multiplier
  rw [networkEq_append, networkEq_append, parts_high hL N .L1 ho t v _ (by omega), parts_high hL N .L1 ho t v _ (by omega),
    network_infeasibility_rows hL N .L1 ho, network_infeasibility_rows hL N .L1 ho, zero_add, zero_add,
    inf_row_own (k := r / 2) (buses_le N) (by omega) (by simp only [OptKind.width]; omega),
    inf_row_own (k := r / 2) (buses_le N) (by omega) (by simp only [OptKind.width]; omega), twin_bus' N hr]
  simp only [infRows, l1Rows, rowTotal_cons]
  rcases Nat.mod_two_eq_zero_or_one r with h | h
  · constructor
    · rw [if_pos (by omega), if_neg (by omega), if_neg (by omega), if_neg (by omega), if_neg (by omega), if_neg (by omega), h]
      simp [rowTotal]
    · rw [if_neg (by omega), if_neg (by omega), if_pos (by omega), if_neg (by omega), if_neg (by omega), if_neg (by omega), h]
      simp [rowTotal]
  · constructor
    · rw [if_neg (by omega), if_pos (by omega), if_neg (by omega), if_neg (by omega), if_neg (by omega), if_neg (by omega), h]
      simp [rowTotal]
    · rw [if_neg (by omega), if_neg (by omega), if_neg (by omega), if_pos (by omega), if_neg (by omega), if_neg (by omega), h]
      simp [rowTotal]

/-- **Rows of the unknowns**: only the parts. -/
theorem opt_row_primal (hL : L.Loaded) (N : Network) (o : OptKind) (ho : N.optimization = some o) (t : ℝ) (v : ℕ → ℝ) {r : ℕ}
    (hr : r < N.unknowns) : networkEq (N.assign L).all t v (N.twin r).1 = networkEq (N.assign L).parts.flatten t v (N.twin r).1 := by
  unfold Assignment.all
  rw [networkEq_append, network_infeasibility_rows hL N o ho, inf_row_none (twin_lt N hr).1, add_zero]
  intro k hk
  obtain ⟨a, b⟩ := twin_bus N hk
  constructor
  · intro h; exact (twin_inj N r (2 * k)).2.2 (by rw [h, a])
  · intro h; exact (twin_inj N r (2 * k + 1)).2.2 (by rw [h, b])

/-- Rows of indices beyond all infeasibility currents. -/
theorem opt_row_high (hL : L.Loaded) (N : Network) (o : OptKind) (ho : N.optimization = some o) (t : ℝ) (v : ℕ → ℝ) {i : ℕ}
    (hi : 2 * N.unknowns + o.width * N.buses ≤ i) : networkEq (N.assign L).all t v i = 0 := by
  unfold Assignment.all
  have hle := buses_le N
  have hw : 2 * N.unknowns ≤ 2 * N.unknowns + o.width * N.buses := Nat.le_add_right _ _
  rw [networkEq_append, parts_high hL N o ho t v _ (by omega), network_infeasibility_rows hL N o ho, zero_add]
  apply List.sum_eq_zero
  intro z hz
  obtain ⟨k, hk, rfl⟩ := List.mem_map.1 hz
  have hk := List.mem_range.1 hk
  refine rowTotal_zero fun e he => ?_
  rcases infRows_rows he with h' | h' | h'
  · omega
  · omega
  · cases o <;> simp only [OptKind.width] at * <;> omega

/-! ### Multipliers enter the rows of the unknowns linearly -/

theorem twin_primal_scale {S : ℕ → ℕ × ℕ} {p q : Placed} (h : Twin S p q) (hn : q.details.seg.vars.Nodup)
    (hdisj : ∀ x ∈ q.details.seg.vars, x ∉ q.details.seg.constants) (hl : LinearIn p.details.seg.duals p.details.seg.lagrange)
    (t c : ℝ) (v v' : ℕ → ℝ) (hp : ∀ x ∈ p.details.seg.primals, readIdx v' (q.details.varMap x) = readIdx v (q.details.varMap x))
    (hd : ∀ d ∈ p.details.seg.duals, readIdx v' (q.details.varMap d) = c * readIdx v (q.details.varMap d)) (i : ℕ) (hi : ∀ r, (S r).2 ≠ i) :
    rowTotal (q.equations t v') i = c * rowTotal (q.equations t v) i := by
  rw [equations_rowDir h.opt, equations_rowDir h.opt]
  unfold Placed.rowDir
  have hn' := hn
  have hdisj' := hdisj
  rw [h.seg] at hn'
  rw [show q.details.seg.vars = q.details.seg.primals ++ q.details.seg.duals from rfl, h.seg, List.map_append, List.sum_append,
    List.map_append, List.sum_append]
  have h1 : ∀ w, (p.details.seg.duals.map fun x => readIdx (unit i) (q.details.eqnMap x) * eval (q.env t w) (p.details.seg.derivative x)).sum = 0 := by
    intro w
    apply List.sum_eq_zero
    intro z hz'
    obtain ⟨d, hd, rfl⟩ := List.mem_map.1 hz'
    rw [readIdx_unit, h.duals d hd]
    cases p.details.row d with
    | none => simp
    | some k => simp [hi k]
  rw [h1, h1, add_zero, add_zero, ← List.sum_map_mul_left]
  congr 1
  apply List.map_congr_left
  intro x hx
  have hxd : x ∉ p.details.seg.duals := fun hd => (List.nodup_append.1 hn').2.2 x hx x hd rfl
  have hdn := (List.nodup_append.1 hn').2.1
  have hlx := hl.diff hxd
  have e : ∀ w, eval (q.env t w) (p.details.seg.derivative x) = _ := fun w => hlx.eval hdn (q.env t w)
  rw [e v', e v, mul_left_comm]
  congr 1
  rw [← List.sum_map_mul_left]
  congr 1
  apply List.map_congr_left
  intro d hdm
  have hdv : d ∈ q.details.seg.vars := by rw [h.seg]; exact List.mem_append_right _ hdm
  have e2 : eval (q.env t v') (diff d (diff x p.details.seg.lagrange)) = eval (q.env t v) (diff d (diff x p.details.seg.lagrange)) := by
    apply eval_congr
    intro s hs
    have hsd : s ∉ p.details.seg.duals := by
      intro hm
      have := hlx.diff_free hdm s hm
      rw [hs] at this
      exact absurd this (by simp)
    unfold Placed.env Part.env Placed.part Placed.point
    simp only [h.seg]
    by_cases hc : s ∈ p.details.seg.constants
    · simp only [hc, if_true]
    · simp only [hc, if_false]
      by_cases hv : s ∈ p.details.seg.vars
      · simp only [hv, if_true]
        exact hp s ((List.mem_append.1 hv).resolve_right hsd)
      · simp only [hv, if_false]
  rw [Placed.env_var hdisj hdv, Placed.env_var hdisj hdv, hd d hdm, e2, mul_assoc]

/-- Scaling all multipliers scales the rows of the unknowns. -/
theorem parts_primal_scale (hL : L.Loaded) (N : Network) (hv : N.Valid) (o : OptKind) (ho : N.optimization = some o) (t c : ℝ) (v v' : ℕ → ℝ)
    (hp : ∀ r < N.unknowns, N.primal v' r = N.primal v r) (hd : ∀ r < N.unknowns, N.multiplier v' r = c * N.multiplier v r) {r : ℕ} :
    networkEq (N.assign L).parts.flatten t v' (N.twin r).1 = c * networkEq (N.assign L).parts.flatten t v (N.twin r).1 := by
  obtain ⟨_, h2, _⟩ := network_twin hL N o ho
  have hf := forall₂_flatten h2
  have hlin := parts_linear hL N.plain
  have hwell := network_wellPlaced hL N hv
  have hbel : ∀ q ∈ (N.assign L).parts.flatten, q.Below (2 * N.unknowns) := by
    have hb := (placeElements_below hL (opt := true) N.elements (assignBuses_below true N.buses 0).2).2
    rw [placeElements_end hL N] at hb
    have hparts : (N.assign L).parts = (placeElements L true (assignBuses true N.buses 0).1 (assignBuses true N.buses 0).2 N.elements).1 := by
      unfold Network.assign; rw [opt_of_some ho]
    rw [hparts]; exact hb
  have hw' : ∀ q ∈ (N.assign L).parts.flatten, q.WellPlaced N.opt := fun q hq => hwell q (List.mem_append_left _ hq)
  unfold networkEq
  have : ∀ {ps qs : List Placed}, List.Forall₂ (Twin N.twin) ps qs → (∀ p ∈ ps, LinearIn p.details.seg.duals p.details.seg.lagrange) →
      (∀ q ∈ qs, q.Below (2 * N.unknowns)) → (∀ q ∈ qs, q.WellPlaced N.opt) →
      rowTotal (qs.flatMap fun q => q.equations t v') (N.twin r).1 = c * rowTotal (qs.flatMap fun q => q.equations t v) (N.twin r).1 := by
    intro ps qs h hl hb hw
    induction h with
    | nil => simp [rowTotal]
    | @cons p q ps qs h _ ih =>
      rw [List.flatMap_cons, List.flatMap_cons, rowTotal_append, rowTotal_append,
        ih (fun p hp => hl p (by simp [hp])) (fun q hq => hb q (by simp [hq])) (fun q hq => hw q (by simp [hq])), mul_add]
      congr 1
      have hq := hb q (by simp)
      have hwq := hw q (by simp)
      refine twin_primal_scale h (List.nodup_append.1 hwq.params).2.1
        (fun x hx hc => (List.nodup_append.1 hwq.params).2.2 x hc x hx rfl) (hl p (by simp)) t c v v' ?_ ?_ _ ?_
      · intro x hx
        have hxv : x ∈ q.details.seg.vars := by rw [h.seg]; exact List.mem_append_left _ hx
        have hb' := hq x hxv
        rw [h.primals x hx] at hb' ⊢
        cases hm : p.details.varMap x with
        | none => rfl
        | some k =>
          rw [hm] at hb'
          have hlt := hb' _ rfl
          obtain ⟨s, hs, he | he⟩ := twin_cases N _ hlt
          · have := (twin_inj N k s).1 he
            subst this; exact hp _ hs
          · exact absurd he (twin_inj N k s).2.2
      · intro x hx
        have hxv : x ∈ q.details.seg.vars := by rw [h.seg]; exact List.mem_append_right _ hx
        have hb' := hq x hxv
        obtain ⟨k, hk⟩ := h.vals x hx
        rw [hk] at hb' ⊢
        cases k with
        | none => simp [readIdx]
        | some k =>
          have hlt := hb' _ rfl
          obtain ⟨s, hs, he | he⟩ := twin_cases N _ hlt
          · exact absurd he.symm (twin_inj N s k).2.2
          · have := (twin_inj N k s).2.1 he
            subst this; exact hd _ hs
      · exact fun s => ((twin_inj N r s).2.2).symm
  exact this hf hlin hbel hw'

/-- A solution in optimization mode, row by row. -/
theorem solved_iff (hL : L.Loaded) (N : Network) (o : OptKind) (ho : N.optimization = some o) (t : ℝ) (v : ℕ → ℝ) :
    N.Solved L t v ↔
      (∀ r < N.unknowns, networkEq (N.plain.assign L).all t (N.primal v) r + N.injection o v r = 0) ∧
      (∀ r < N.unknowns, networkEq (N.assign L).parts.flatten t v (N.twin r).1 = 0) ∧
      (∀ r < 2 * N.buses, match o with
        | .L2 => 2 * v (2 * N.unknowns + r) + N.multiplier v r = 0
        | .L1 => 1 + 2 * v (2 * N.unknowns + 4 * (r / 2) + r % 2) - N.multiplier v r = 0 ∧
            1 + 2 * v (2 * N.unknowns + 4 * (r / 2) + 2 + r % 2) + N.multiplier v r = 0) := by
  unfold Network.Solved
  constructor
  · intro h
    refine ⟨fun r hr => ?_, fun r hr => ?_, fun r hr => ?_⟩
    · rw [← opt_row_multiplier hL N o ho t v hr]; exact h _
    · rw [← opt_row_primal hL N o ho t v hr]; exact h _
    · cases o with
      | L2 => rw [← opt_row_own_L2 hL N ho t v hr]; exact h _
      | L1 =>
        obtain ⟨a, b⟩ := opt_row_own_L1 hL N ho t v hr
        exact ⟨by rw [← a]; exact h _, by rw [← b]; exact h _⟩
  · rintro ⟨h1, h2, h3⟩ i
    by_cases hi : i < 2 * N.unknowns
    · obtain ⟨r, hr, rfl | rfl⟩ := twin_cases N i hi
      · rw [opt_row_primal hL N o ho t v hr]; exact h2 r hr
      · rw [opt_row_multiplier hL N o ho t v hr]; exact h1 r hr
    · by_cases hi2 : 2 * N.unknowns + o.width * N.buses ≤ i
      · exact opt_row_high hL N o ho t v hi2
      · cases o with
        | L2 =>
          simp only [OptKind.width] at hi2
          obtain ⟨r, rfl⟩ := Nat.exists_eq_add_of_le (not_lt.1 hi)
          have hr : r < 2 * N.buses := by omega
          rw [opt_row_own_L2 hL N ho t v hr]; exact h3 r hr
        | L1 =>
          simp only [OptKind.width] at hi2
          obtain ⟨j, rfl⟩ := Nat.exists_eq_add_of_le (not_lt.1 hi)
          by_cases hj : j % 4 < 2
          · have hr : 2 * (j / 4) + j % 4 < 2 * N.buses := by omega
            obtain ⟨a, b⟩ := opt_row_own_L1 hL N ho t v hr
            have e : 2 * N.unknowns + 4 * ((2 * (j / 4) + j % 4) / 2) + (2 * (j / 4) + j % 4) % 2 = 2 * N.unknowns + j := by omega
            rw [e] at a
            have := (h3 _ hr).1
            rw [e] at this
            rw [a]; exact this
          · have hr : 2 * (j / 4) + (j % 4 - 2) < 2 * N.buses := by omega
            obtain ⟨a, b⟩ := opt_row_own_L1 hL N ho t v hr
            have e : 2 * N.unknowns + 4 * ((2 * (j / 4) + (j % 4 - 2)) / 2) + 2 + (2 * (j / 4) + (j % 4 - 2)) % 2 = 2 * N.unknowns + j := by omega
            rw [e] at b
            have := (h3 _ hr).2
            rw [e] at this
            rw [b]; exact this

/-! ### Completing a plain solution -/

theorem lift_primal (N : Network) (u : ℕ → ℝ) {r : ℕ} (hr : r < N.unknowns) : N.primal (N.lift u) r = u r := by
  unfold Network.primal Network.lift
  have h : ∃ s < N.unknowns, (N.twin r).1 = (N.twin s).1 := ⟨r, hr, rfl⟩
  rw [dif_pos h]
  exact congrArg u ((twin_inj N r h.choose).1 h.choose_spec.2).symm

theorem lift_multiplier (N : Network) (u : ℕ → ℝ) (r : ℕ) : N.multiplier (N.lift u) r = 0 := by
  unfold Network.multiplier Network.lift
  rw [dif_neg]
  rintro ⟨s, _, h⟩
  exact (twin_inj N s r).2.2 h.symm

theorem lift_high (N : Network) (u : ℕ → ℝ) {i : ℕ} (hi : 2 * N.unknowns ≤ i) : N.lift u i = 0 := by
  unfold Network.lift
  rw [dif_neg]
  rintro ⟨s, hs, h⟩
  have := (twin_lt N hs).1
  omega

/-- Rows of the plain network only read its unknowns. -/
theorem plain_congr (hL : L.Loaded) (N : Network) (o : OptKind) (ho : N.optimization = some o) (t : ℝ) {u u' : ℕ → ℝ}
    (h : ∀ r < N.unknowns, u r = u' r) (i : ℕ) : networkEq (N.plain.assign L).all t u i = networkEq (N.plain.assign L).all t u' i := by
  obtain ⟨_, _, _, h4, _⟩ := network_twin hL N o ho
  have hb := network_below hL N.plain
  rw [h4] at hb
  unfold networkEq
  congr 1
  refine List.flatMap_congr fun p hp => ?_
  unfold Placed.equations
  congr 1
  funext x
  congr 1
  funext r
  congr 1
  apply eval_congr
  intro s _
  unfold Placed.env Part.env Placed.part Placed.point
  by_cases hc : s ∈ p.details.seg.constants
  · simp only [hc, if_true]
  · simp only [hc, if_false]
    by_cases hv : s ∈ p.details.seg.vars
    · simp only [hv, if_true]
      have := hb p hp s hv
      cases hm : p.details.varMap s with
      | none => rfl
      | some k => exact h k (this k hm)
    · simp only [hv, if_false]

/-! ### Rows along a direction -/

theorem rowDir_equations {p : Placed} (ho : p.details.opt = true) (t : ℝ) (v w : ℕ → ℝ) :
    p.rowDir t v w = ((p.equations t v).map fun e => w e.1 * e.2).sum := by
  unfold Placed.rowDir Placed.equations Details.firstOrder Details.row
  rw [ho]
  simp only [if_true]
  generalize p.details.seg.vars = xs
  induction xs with
  | nil => rfl
  | cons x xs ih =>
    rw [List.map_cons, List.sum_cons, ih, List.filterMap_cons]
    cases p.details.eqnMap x with
    | none => simp [readIdx]
    | some k => simp [readIdx]

theorem rowDir_solved {ps : List Placed} (ho : ∀ p ∈ ps, p.details.opt = true) {t : ℝ} {v : ℕ → ℝ} (h : ∀ i, networkEq ps t v i = 0)
    (w : ℕ → ℝ) : (ps.map fun p => p.rowDir t v w).sum = 0 := by
  have e : (ps.map fun p => p.rowDir t v w).sum = ((ps.flatMap fun p => p.equations t v).map fun e => w e.1 * e.2).sum := by
    rw [sum_map_flatMap]
    congr 1
    exact List.map_congr_left fun p hp => rowDir_equations (ho p hp) t v w
  rw [e]
  obtain ⟨B, hB⟩ := exists_bound (ps.flatMap fun p => p.equations t v)
  rw [← sum_rows _ w B hB]
  apply List.sum_eq_zero
  intro z hz
  obtain ⟨r, _, rfl⟩ := List.mem_map.1 hz
  have := h r
  unfold networkEq at this
  rw [this, mul_zero]

theorem linRow_affine (l : List (ℕ × Option ℕ × ℝ)) (x w : ℕ → ℝ) (s : ℝ) (i : ℕ) :
    linRow (along x w s) l i = linRow x l i + s * (linRow (along x w 1) l i - linRow x l i) := by
  induction l with
  | nil => simp [linRow]
  | cons e l ih =>
    rw [linRow_cons, linRow_cons, linRow_cons, ih]
    obtain ⟨r, c, z⟩ := e
    by_cases hr : r = i
    · simp only [hr, if_true]
      cases c with
      | none => simp only [linVal]; ring
      | some c => simp only [linVal, along]; ring
    · simp only [hr, if_false]; ring

end Verif
