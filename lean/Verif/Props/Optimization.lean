import Verif.Lemmas.OptimizationRows
import Verif.Lemmas.Skew
import Verif.Props.Newton
import Verif.Model.Results
import Mathlib.Algebra.Order.BigOperators.Group.List

/-!
# C19, C20, C35, C70: infeasibility analysis
-/

namespace Verif

open Ex Devices

variable {L : Library}

/-! ### C19: one Lagrangian -/

/-- **C19.** In optimization mode every row is the partial derivative of one function, the Lagrangian of the network: multipliers
times the equations of the network without optimization, plus the terms of the infeasibility currents. Lines must be
reciprocal; see `C19_reciprocity_needed`. -/
theorem C19_gradient (hL : L.Loaded) (N : Network) (hv : N.Valid) (o : OptKind) (ho : N.optimization = some o)
    (hrec : ∀ e ∈ N.elements, e.Reciprocal) (t : ℝ) (v : ℕ → ℝ) (hr : ∀ e ∈ N.elements, e.RegularAt t ((N.assign L).voltages v)) (i : ℕ) :
    HasDerivAt (fun s => N.lagrangian L o t (Function.update v i s)) (networkEq (N.assign L).all t v i) (v i) := by
  refine hasDerivAt_update (F := N.lagrangian L o t) ?_
  have ha : ∀ p ∈ (N.assign L).all, p.details.opt = true := fun p hp => by
    have := (network_wellPlaced hL N hv p hp).mode
    rw [opt_of_some ho] at this; exact this
  rw [networkEq_rowDir ha]
  exact lagrangian_along hL N hv o ho hrec t v hr (unit i)

/-- **C19, solutions.** The vectors solving the assembled equations are exactly the critical points of the Lagrangian. -/
theorem C19_critical_points (hL : L.Loaded) (N : Network) (hv : N.Valid) (o : OptKind) (ho : N.optimization = some o)
    (hrec : ∀ e ∈ N.elements, e.Reciprocal) (t : ℝ) (v : ℕ → ℝ) (hr : ∀ e ∈ N.elements, e.RegularAt t ((N.assign L).voltages v)) :
    N.Solved L t v ↔ ∀ i, HasDerivAt (fun s => N.lagrangian L o t (Function.update v i s)) 0 (v i) := by
  constructor
  · intro h i; have := C19_gradient hL N hv o ho hrec t v hr i; rwa [h i] at this
  · intro h i; exact (C19_gradient hL N hv o ho hrec t v hr i).unique (h i)

/-- **C19, matrix.** After any history of updates the assembled matrix is symmetric. -/
theorem C19_matrix_symmetric (hL : L.Loaded) (N : Network) (hv : N.Valid) (o : OptKind) (ho : N.optimization = some o)
    (hrec : ∀ e ∈ N.elements, e.Reciprocal) (t : ℝ) (us : List Upd)
    (hr : ∀ e ∈ N.elements, e.RegularAt (Clock.run t us).t ((N.assign L).voltages (Clock.run t us).v)) :
    ∃ m, Stamper.build N.opt (N.assign L).all = .ok m ∧
      let m' := us.foldl Stamper.update (m.updateTx t)
      let l := m'.emit true ++ m'.emit false
      ∀ i < (N.assign L).size, ∀ j < (N.assign L).size, Builder.matOf (tripsOf l) i j = Builder.matOf (tripsOf l) j i := by
  have hw := network_wellPlaced hL N hv
  obtain ⟨m, hm, h1, h2⟩ := follows_clock N.opt (N.assign L).all hw t us
  refine ⟨m, hm, ?_⟩
  intro m' l
  set c := Clock.run t us with hc
  have hreg := network_regular hL N hv c.t c.v hr
  have ha : ∀ p ∈ (N.assign L).all, p.details.opt = true := fun p hp => by
    have := (hw p hp).mode
    rw [opt_of_some ho] at this; exact this
  have hperm : l.Perm (((N.assign L).all.flatMap fun p => p.emitted c.t c.v true) ++ ((N.assign L).all.flatMap fun p => p.emitted c.t c.v false)) :=
    (emit_perm h1 h2 true).append (emit_perm h1 h2 false)
  have hcol : ∀ e ∈ l, ∀ k, e.2.1 = some k → k < (N.assign L).size := fun e he =>
    emitted_cols (N.assign L).all c.t c.v _ (fun p hp x hx k hk => network_below hL N p hp x hx k hk) e (hperm.mem_iff.1 he)
  have entry : ∀ i, ∀ j < (N.assign L).size, Builder.matOf (tripsOf l) i j =
      ((N.assign L).all.map fun p => p.form c.t c.v (fun _ _ k => readIdx (unit i) k) (fun _ _ k => readIdx (unit j) k)).sum := by
    intro i j hj
    rw [← dirRow_network ha hreg, ← dirRow_perm _ hperm, ← sum_matOf_dir (N.assign L).size _ l hcol]
    simp only [unit, mul_ite, mul_one, mul_zero, Finset.sum_ite_eq', Finset.mem_range, hj, if_true]
  intro i hi j hj
  rw [entry i j hj, entry j i hi]
  exact network_balanced hL N o ho hrec c.t c.v _ _

/-- **C19, reciprocity is needed.** A coupled line with an unsymmetric admittance matrix gives an unsymmetric matrix: the row of the
voltage is stamped with the line's own matrix instead of its transpose. -/
theorem C19_reciprocity_needed (hL : L.Loaded) :
    ∃ N : Network, N.Valid ∧ N.optimization = some .L2 ∧ ∃ m, Stamper.build N.opt (N.assign L).all = .ok m ∧
      let l := (m.updateTx 0).emit true ++ (m.updateTx 0).emit false
      ∃ i < (N.assign L).size, ∃ j < (N.assign L).size, Builder.matOf (tripsOf l) i j ≠ Builder.matOf (tripsOf l) j i := by
  refine ⟨skewNet, skew_valid, rfl, ?_⟩
  have hs : (skewNet.assign L).size = 24 := size_L2 hL skewNet rfl
  have hreg := network_regular hL skewNet skew_valid 0 (fun _ => 0) (by
    intro e he; simp [skewNet] at he; subst he; trivial)
  obtain ⟨m, hm, hj⟩ := C01_matrix_is_jacobian skewNet.opt (skewNet.assign L).all (network_wellPlaced hL skewNet skew_valid) 0 [] hreg
    (skewNet.assign L).size (fun p hp x hx c hc => network_below hL skewNet p hp x hx c hc)
  refine ⟨m, hm, ?_⟩
  intro l
  have hj' : ∀ i, ∀ j < (skewNet.assign L).size, HasDerivAt (fun s => networkEq (skewNet.assign L).all 0 (Function.update (fun _ => 0) j s) i)
    (Builder.matOf (tripsOf l) i j) 0 := hj
  refine ⟨2, by rw [hs]; omega, 4, by rw [hs]; omega, ?_⟩
  have h24 := hj' 2 4 (by rw [hs]; omega)
  have h42 := hj' 4 2 (by rw [hs]; omega)
  simp only [skew_row_primal hL] at h42
  have e42 := h42.unique (hasDerivAt_const _ _)
  have e24 : Builder.matOf (tripsOf l) 2 4 = 1 := by
    refine h24.unique ?_
    have : (fun s => networkEq (skewNet.assign L).all 0 (Function.update (fun _ => 0) 4 s) 2) = fun s : ℝ => s := by
      funext s; rw [skew_row_multiplier hL]; simp
    rw [this]; exact hasDerivAt_id _
  rw [e24, e42]; norm_num

/-- The feeder with infeasibility analysis meets the hypotheses of `C19_gradient` and `C19_matrix_symmetric` wherever the load
voltage is not zero. -/
example (hL : L.Loaded) (v : ℕ → ℝ) (hv : v 4 ≠ 0) (i : ℕ) :
    let N := { feeder 1 with optimization := some .L2 }
    HasDerivAt (fun s => N.lagrangian L .L2 0 (Function.update v i s)) (networkEq (N.assign L).all 0 v i) (v i) := by
  intro N
  refine C19_gradient hL N (feeder_valid 1) .L2 rfl ?_ 0 v ?_ i
  · intro e he
    have he' : e ∈ [Element.line (some 0) (some 1) 1 0 0, .slack 0 1 0, .load (some 1) none ⟨1, 0, 0, 0, 0⟩] := he
    simp at he'
    rcases he' with rfl | rfl | rfl <;> trivial
  · intro e he
    have he' : e ∈ [Element.line (some 0) (some 1) 1 0 0, .slack 0 1 0, .load (some 1) none ⟨1, 0, 0, 0, 0⟩] := he
    simp at he'
    have h1 : (N.assign L).voltages v (some 1) = ⟨v 4, v 5⟩ := rfl
    have hg : (N.assign L).voltages v none = 0 := rfl
    rcases he' with rfl | rfl | rfl
    · trivial
    · trivial
    · refine Or.inr ?_
      rw [h1, hg]
      intro h; exact hv (congrArg Complex.re h)

/-- A symmetric coupled line is reciprocal. -/
example : Element.Reciprocal (.unbalanced [(0, 2), (1, 3)] (fun i j => if i = j then 2 else 1) fun _ _ => 0) := by
  intro i j _ _
  refine ⟨?_, rfl⟩
  by_cases h : i = j
  · subst h; rfl
  · simp [h, Ne.symm h]

/-! ### C20: L2 infeasibility -/

/-- **C20.** At every solution the infeasibility current of each bus equation is minus half its multiplier. -/
theorem C20_stationary (hL : L.Loaded) (N : Network) (ho : N.optimization = some .L2) (t : ℝ) (v : ℕ → ℝ) (h : N.Solved L t v)
    (r : ℕ) (hr : r < 2 * N.buses) : N.injection .L2 v r = -(N.multiplier v r / 2) := by
  have := ((solved_iff hL N .L2 ho t v).1 h).2.2 r hr
  simp only at this
  unfold Network.injection
  rw [if_pos hr]
  simp only
  linarith

/-- **C20.** At every solution the equations of the network without optimization are violated by exactly the infeasibility
currents: at the buses the residual is minus the current, and every element's own laws hold. -/
theorem C20_residual (hL : L.Loaded) (N : Network) (o : OptKind) (ho : N.optimization = some o) (t : ℝ) (v : ℕ → ℝ) (h : N.Solved L t v)
    (r : ℕ) : networkEq (N.plain.assign L).all t (N.primal v) r = -N.injection o v r := by
  by_cases hr : r < N.unknowns
  · have := ((solved_iff hL N o ho t v).1 h).1 r hr
    linarith
  · obtain ⟨_, _, _, h4, _⟩ := network_twin hL N o ho
    have hb := buses_unknowns N
    rw [network_rows_high hL N.plain rfl t _ r (by rw [h4]; omega)]
    unfold Network.injection
    rw [if_neg (by omega), neg_zero]

/-- **C20.** All infeasibility currents vanish exactly when all bus multipliers vanish, exactly when Kirchhoff's laws hold in the
network without infeasibility currents. -/
theorem C20_zero_iff (hL : L.Loaded) (N : Network) (ho : N.optimization = some .L2) (t : ℝ) (v : ℕ → ℝ) (h : N.Solved L t v) :
    ((∀ r < 2 * N.buses, N.injection .L2 v r = 0) ↔ ∀ r < 2 * N.buses, N.multiplier v r = 0) ∧
    ((∀ r < 2 * N.buses, N.injection .L2 v r = 0) ↔
      Kirchhoff N.buses t ((N.plain.assign L).voltages (N.primal v)) ((N.plain.assign L).owned L N.plain (N.primal v))) := by
  constructor
  · constructor
    · intro hz r hr; have := C20_stationary hL N ho t v h r hr; rw [hz r hr] at this; linarith
    · intro hz r hr; have := C20_stationary hL N ho t v h r hr; rw [hz r hr] at this; linarith
  · have hk := C67_equations_are_kirchhoff hL N.plain rfl t (N.primal v)
    have hk' : (∀ i, networkEq (N.plain.assign L).all t (N.primal v) i = 0) ↔
      Kirchhoff N.buses t ((N.plain.assign L).voltages (N.primal v)) ((N.plain.assign L).owned L N.plain (N.primal v)) := hk
    rw [← hk']
    constructor
    · intro hz r
      rw [C20_residual hL N .L2 ho t v h r]
      by_cases hr : r < 2 * N.buses
      · rw [hz r hr, neg_zero]
      · unfold Network.injection; rw [if_neg hr, neg_zero]
    · intro hz r hr
      have := C20_residual hL N .L2 ho t v h r
      rw [hz r] at this; linarith

/-- **C20, feasible networks.** Any solution of the network without optimization, completed by zero multipliers and zero
infeasibility currents, solves the `L2` system: a feasible network is reported feasible by that solution. -/
theorem C20_feasible_solution (hL : L.Loaded) (N : Network) (hv : N.Valid) (ho : N.optimization = some .L2) (t : ℝ) (u : ℕ → ℝ)
    (h : N.plain.Solved L t u) : N.Solved L t (N.lift u) ∧ ∀ r, N.injection .L2 (N.lift u) r = 0 := by
  have hinj : ∀ r, N.injection .L2 (N.lift u) r = 0 := by
    intro r
    unfold Network.injection
    split_ifs
    · exact lift_high N u (by omega)
    · rfl
  refine ⟨(solved_iff hL N .L2 ho t _).2 ⟨?_, ?_, ?_⟩, hinj⟩
  · intro r hr
    rw [plain_congr hL N .L2 ho t (fun s hs => lift_primal N u hs) r, h r, hinj r, add_zero]
  · intro r hr
    rw [parts_primal_scale hL N hv .L2 ho t 0 (N.lift u) (N.lift u) (fun _ _ => rfl) (fun s _ => by rw [lift_multiplier]; simp), zero_mul]
  · intro r hr
    simp only
    rw [lift_high N u (by omega), lift_multiplier]; ring

/-! ### Linear networks: least squares -/

/-- **C20, linear networks.** If all elements are linear and reciprocal, the infeasibility currents of any solution have the least
sum of squares among all operating points: no choice `u` of the plain unknowns that obeys every element's own laws
needs smaller currents to balance the buses. -/
theorem C20_least_squares (hL : L.Loaded) (N : Network) (hv : N.Valid) (ho : N.optimization = some .L2)
    (hlin : ∀ e ∈ N.elements, e.Linear) (hrec : ∀ e ∈ N.elements, e.Reciprocal) (t : ℝ) (ht : N.RatiosNonzero t) (v : ℕ → ℝ)
    (h : N.Solved L t v) (u : ℕ → ℝ) (hu : ∀ r, 2 * N.buses ≤ r → networkEq (N.plain.assign L).all t u r = 0) :
    ((List.range (2 * N.buses)).map fun r => N.injection .L2 v r ^ 2).sum ≤
      ((List.range (2 * N.buses)).map fun r => networkEq (N.plain.assign L).all t u r ^ 2).sum := by
  have hreg : ∀ e ∈ N.elements, e.RegularAt t ((N.assign L).voltages v) := by
    intro e he
    have h1 := hlin e he
    have h2 := ht e he
    cases e <;> first | trivial | exact h1.elim | exact Or.inl h1 | exact h2
  have ha : ∀ p ∈ (N.assign L).all, p.details.opt = true := fun p hp => by
    have := (network_wellPlaced hL N hv p hp).mode
    rw [opt_of_some ho] at this; exact this
  -- direction towards `u`
  set w : ℕ → ℝ := N.lift fun r => u r - N.primal v r with hw
  have hd := lagrangian_along hL N hv .L2 ho hrec t v hreg w
  rw [rowDir_solved ha h w] at hd
  set F := networkEq (N.plain.assign L).all t with hF
  have hpl : N.plain.Linear := ⟨rfl, hlin⟩
  have hreg' : ∀ x, ∀ p ∈ (N.plain.assign L).all, p.Regular t x := network_linear_regular hL N.plain hv hpl t ht
  have hst := network_linearStamps hL N.plain hpl
  have hprim : ∀ s, ∀ r < N.unknowns, N.primal (along v w s) r = along (N.primal v) (fun r => u r - N.primal v r) s r := by
    intro s r hr
    show v (N.twin r).1 + s * w (N.twin r).1 = N.primal v r + s * (u r - N.primal v r)
    have : w (N.twin r).1 = u r - N.primal v r := lift_primal N _ hr
    rw [this]; rfl
  have haff : ∀ s, ∀ r, F (N.primal (along v w s)) r = F (N.primal v) r + s * (F u r - F (N.primal v) r) := by
    intro s r
    rw [hF, plain_congr hL N .L2 ho t (hprim s) r]
    have e := fun x => linear_row hst t hreg' x (N.primal v) r
    rw [← e, linRow_affine, e, e]
    have : along (N.primal v) (fun r => u r - N.primal v r) 1 = u := by funext r; simp [along]
    rw [this]
  have hmul : ∀ s r, N.multiplier (along v w s) r = N.multiplier v r := by
    intro s r
    show v (N.twin r).2 + s * w (N.twin r).2 = v (N.twin r).2
    have : w (N.twin r).2 = 0 := lift_multiplier N _ r
    rw [this]; ring
  have hinf : ∀ s, ∀ k, infTerm .L2 (2 * N.unknowns) k (N.multiplier (along v w s)) (along v w s) = infTerm .L2 (2 * N.unknowns) k (N.multiplier v) v := by
    intro s k
    have hz : ∀ i, 2 * N.unknowns ≤ i → along v w s i = v i := by
      intro i hi; unfold along; rw [hw, lift_high N _ hi]; ring
    unfold infTerm
    simp only [hmul]
    rw [hz _ (by omega), hz _ (by omega)]
  have hlag : (fun s => N.lagrangian L .L2 t (along v w s)) = fun s => N.lagrangian L .L2 t v +
      s * ((List.range N.unknowns).map fun r => N.multiplier v r * (F u r - F (N.primal v) r)).sum := by
    funext s
    unfold Network.lagrangian
    simp only [hmul, hinf]
    have : ((List.range N.unknowns).map fun r => N.multiplier v r * networkEq (N.plain.assign L).all t (N.primal (along v w s)) r).sum =
        ((List.range N.unknowns).map fun r => N.multiplier v r * networkEq (N.plain.assign L).all t (N.primal v) r).sum +
        s * ((List.range N.unknowns).map fun r => N.multiplier v r * (F u r - F (N.primal v) r)).sum := by
      rw [← List.sum_map_mul_left, ← List.sum_map_add]
      congr 1
      apply List.map_congr_left
      intro r _
      have := haff s r
      rw [hF] at this ⊢
      rw [this]; ring
    rw [this]
    ring
  rw [hlag] at hd
  have hd2 : HasDerivAt (fun s : ℝ => N.lagrangian L .L2 t v +
      s * ((List.range N.unknowns).map fun r => N.multiplier v r * (F u r - F (N.primal v) r)).sum)
      ((List.range N.unknowns).map fun r => N.multiplier v r * (F u r - F (N.primal v) r)).sum 0 := by
    have := ((hasDerivAt_id (0 : ℝ)).mul_const ((List.range N.unknowns).map fun r => N.multiplier v r * (F u r - F (N.primal v) r)).sum).const_add
      (N.lagrangian L .L2 t v)
    simpa using this
  have hzero := hd2.unique hd
  have hres := C20_residual hL N .L2 ho t v h
  have hb := buses_unknowns N
  rw [sum_range_cut (U := 2 * N.buses) (by omega)] at hzero
  swap
  · intro r hr
    have h1 := hres r
    have h2 : F (N.primal v) r = 0 := by rw [hF, h1]; unfold Network.injection; rw [if_neg (by omega), neg_zero]
    rw [h2, hu r hr]; ring
  have hsum : ((List.range (2 * N.buses)).map fun r => N.multiplier v r * (F u r - F (N.primal v) r)).sum =
      ((List.range (2 * N.buses)).map fun r => -2 * (N.injection .L2 v r * F u r) - 2 * N.injection .L2 v r ^ 2).sum := by
    congr 1
    apply List.map_congr_left
    intro r hr
    have h1 : F (N.primal v) r = -N.injection .L2 v r := hres r
    have h2 := C20_stationary hL N ho t v h r (List.mem_range.1 hr)
    rw [h1, show N.multiplier v r = -2 * N.injection .L2 v r by rw [h2]; ring]
    ring
  rw [hsum] at hzero
  have hle : ((List.range (2 * N.buses)).map fun r => N.injection .L2 v r ^ 2 - F u r ^ 2).sum ≤
      ((List.range (2 * N.buses)).map fun r => -(-2 * (N.injection .L2 v r * F u r) - 2 * N.injection .L2 v r ^ 2)).sum := by
    refine List.sum_le_sum fun r _ => ?_
    nlinarith [sq_nonneg (N.injection .L2 v r + F u r)]
  have hneg : ((List.range (2 * N.buses)).map fun r => -(-2 * (N.injection .L2 v r * F u r) - 2 * N.injection .L2 v r ^ 2)).sum = 0 := by
    have : ∀ (l : List ℕ) (f : ℕ → ℝ), (l.map fun r => -f r).sum = -(l.map f).sum := by
      intro l f; induction l with
      | nil => simp
      | cons a l ih => simp only [List.map_cons, List.sum_cons, ih]; ring
    rw [this, hzero, neg_zero]
  rw [hneg] at hle
  have hsub : ((List.range (2 * N.buses)).map fun r => N.injection .L2 v r ^ 2 - F u r ^ 2).sum =
      ((List.range (2 * N.buses)).map fun r => N.injection .L2 v r ^ 2).sum - ((List.range (2 * N.buses)).map fun r => F u r ^ 2).sum := by
    generalize List.range (2 * N.buses) = l
    induction l with
    | nil => simp
    | cons a l ih => simp only [List.map_cons, List.sum_cons, ih]; ring
  rw [hsub] at hle
  linarith

/-- The feeder with a load of 3/16 is feasible with 3/4 volts at the load: completed by zeros that is a solution of the `L2` system,
to which `C20_stationary`, `C20_residual` and `C20_zero_iff` apply. -/
example (hL : L.Loaded) :
    let N := { feeder (3 / 16) with optimization := some .L2 }
    let u : ℕ → ℝ := fun i => [1, 0, 3 / 4, 0, -1 / 4, 0].getD i 0
    N.Solved L 0 (N.lift u) := by
  intro N u
  refine (C20_feasible_solution hL N (feeder_valid _) rfl 0 u ?_).1
  intro i
  have := feeder_rows hL (3 / 16) u i
  rw [show networkEq (N.plain.assign L).all 0 u i = networkEq ((feeder (3 / 16)).assign L).all 0 u i from rfl, this]
  match i with
  | 0 => norm_num [feederEq, u]
  | 1 => norm_num [feederEq, u]
  | 2 => norm_num [feederEq, u]
  | 3 => norm_num [feederEq, u]
  | 4 => norm_num [feederEq, u]
  | 5 => norm_num [feederEq, u]
  | i + 6 => rfl

/-! ### Examples -/

/-- The feeder with a load of 3/16 and its solution with 3/4 volts at the load, completed by zeros. -/
noncomputable def easyNet : Network := { feeder (3 / 16) with optimization := some .L2 }

/-- The plain solution. -/
noncomputable def easySol : ℕ → ℝ := fun i => [1, 0, 3 / 4, 0, -1 / 4, 0].getD i 0

theorem easyNet_solved (hL : L.Loaded) : easyNet.Solved L 0 (easyNet.lift easySol) := by
  refine (C20_feasible_solution hL easyNet (feeder_valid _) rfl 0 easySol ?_).1
  intro i
  have := feeder_rows hL (3 / 16) easySol i
  rw [show networkEq (easyNet.plain.assign L).all 0 easySol i = networkEq ((feeder (3 / 16)).assign L).all 0 easySol i from rfl, this]
  match i with
  | 0 => norm_num [feederEq, easySol]
  | 1 => norm_num [feederEq, easySol]
  | 2 => norm_num [feederEq, easySol]
  | 3 => norm_num [feederEq, easySol]
  | 4 => norm_num [feederEq, easySol]
  | 5 => norm_num [feederEq, easySol]
  | i + 6 => rfl

theorem easyNet_reciprocal : ∀ e ∈ easyNet.elements, e.Reciprocal := by
  intro e he
  have he' : e ∈ [Element.line (some 0) (some 1) 1 0 0, .slack 0 1 0, .load (some 1) none ⟨3 / 16, 0, 0, 0, 0⟩] := he
  simp at he'
  rcases he' with rfl | rfl | rfl <;> trivial

theorem easyNet_regular (v : ℕ → ℝ) (hv : v 4 ≠ 0) : ∀ e ∈ easyNet.elements, e.RegularAt 0 ((easyNet.assign L).voltages v) := by
  intro e he
  have he' : e ∈ [Element.line (some 0) (some 1) 1 0 0, .slack 0 1 0, .load (some 1) none ⟨3 / 16, 0, 0, 0, 0⟩] := he
  simp at he'
  have h1 : (easyNet.assign L).voltages v (some 1) = ⟨v 4, v 5⟩ := rfl
  have hg : (easyNet.assign L).voltages v none = 0 := rfl
  rcases he' with rfl | rfl | rfl
  · trivial
  · trivial
  · refine Or.inr ?_
    rw [h1, hg]
    intro h; exact hv (congrArg Complex.re h)

/-- Its solution is a critical point of its Lagrangian. -/
example (hL : L.Loaded) (hv : easyNet.lift easySol 4 ≠ 0) (i : ℕ) :
    HasDerivAt (fun s => easyNet.lagrangian L .L2 0 (Function.update (easyNet.lift easySol) i s)) 0 (easyNet.lift easySol i) :=
  (C19_critical_points hL easyNet (feeder_valid _) .L2 rfl easyNet_reciprocal 0 _ (easyNet_regular _ hv)).1 (easyNet_solved hL) i

/-- Its matrix, assembled at 1 everywhere, is symmetric. -/
example (hL : L.Loaded) := C19_matrix_symmetric hL easyNet (feeder_valid _) .L2 rfl easyNet_reciprocal 0 [.v (fun _ => 1) 0]
  (by
    have hv : (Clock.run 0 [.v (fun _ => 1) 0]).v = fun _ => 1 := by simp [Clock.run, Clock.step]
    have ht : (Clock.run 0 [.v (fun _ => 1) 0]).t = 0 := by simp [Clock.run, Clock.step]
    rw [hv, ht]; exact easyNet_regular _ (by norm_num))

example (hL : L.Loaded) : easyNet.injection .L2 (easyNet.lift easySol) 2 = -(easyNet.multiplier (easyNet.lift easySol) 2 / 2) :=
  C20_stationary hL easyNet rfl 0 _ (easyNet_solved hL) 2 (by decide)

example (hL : L.Loaded) : networkEq (easyNet.plain.assign L).all 0 (easyNet.primal (easyNet.lift easySol)) 2 =
    -easyNet.injection .L2 (easyNet.lift easySol) 2 :=
  C20_residual hL easyNet .L2 rfl 0 _ (easyNet_solved hL) 2

/-- All its multipliers are zero, so it needs no infeasibility current. -/
example (hL : L.Loaded) : ∀ r < 4, easyNet.injection .L2 (easyNet.lift easySol) r = 0 :=
  (C20_zero_iff hL easyNet rfl 0 _ (easyNet_solved hL)).1.2 fun r _ => lift_multiplier easyNet easySol r

end Verif
