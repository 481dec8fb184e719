import Verif.Lemmas.LinearOpt
import Verif.Props.Infeasibility
import Verif.Props.Unique
import Mathlib.LinearAlgebra.Matrix.ToLin

/-! Infeasibility analysis of linear networks: its equations have one solution exactly when those of the network without it do. -/

namespace Verif

open Ex Devices

variable {L : Library}

/-! ### Square systems -/

/-- Only zero is mapped to zero. -/
def KernelZero (n : ℕ) (A : ℕ → ℕ → ℝ) : Prop := ∀ w : ℕ → ℝ, (∀ i < n, ∑ j ∈ Finset.range n, A i j * w j = 0) → ∀ i < n, w i = 0

theorem kernelZero_solves {n : ℕ} {A : ℕ → ℕ → ℝ} (h : KernelZero n A) (c : ℕ → ℝ) : ∃ x : ℕ → ℝ, ∀ i < n, ∑ j ∈ Finset.range n, A i j * x j = c i := by
  set M : Matrix (Fin n) (Fin n) ℝ := fun i j => A i j with hM
  have hsum : ∀ (u : Fin n → ℝ) (i : Fin n), ∑ j ∈ Finset.range n, A i j * stretch n u j = M.mulVec u i := fun u i => by
    rw [Finset.sum_range]
    simp only [Matrix.mulVec, dotProduct, hM]
    exact Finset.sum_congr rfl fun j _ => by rw [stretch_lt u j.2]
  have hinj : Function.Injective M.mulVecLin := by
    refine (injective_iff_map_eq_zero _).2 fun u hu => ?_
    have h1 := h (stretch n u) fun i hi => by
      have := congrFun hu ⟨i, hi⟩
      rw [Matrix.mulVecLin_apply] at this
      exact (hsum u ⟨i, hi⟩).trans this
    rw [← cutTo_stretch u]
    funext i
    exact h1 i i.2
  obtain ⟨u, hu⟩ := LinearMap.injective_iff_surjective.1 hinj fun i => c i
  refine ⟨stretch n u, fun i hi => ?_⟩
  have := congrFun hu ⟨i, hi⟩
  rw [Matrix.mulVecLin_apply] at this
  exact (hsum u ⟨i, hi⟩).trans this

/-- A network whose equations are a matrix and a constant has one solution exactly when only zero is mapped to zero. -/
theorem unique_iff_kernel {N : Network} {t : ℝ} {A : ℕ → ℕ → ℝ} {b : ℕ → ℝ}
    (hA : ∀ v i, networkEq (N.assign L).all t v i = (∑ j ∈ Finset.range (N.assign L).size, A i j * v j) - b i) :
    N.UniqueSolution L t ↔ KernelZero (N.assign L).size A := by
  constructor
  · rintro ⟨x, hx, hu⟩ w hw i hi
    have := hu (fun j => x j + w j) (fun k hk => by
      rw [hA]
      simp only [mul_add, Finset.sum_add_distrib, hw k hk, add_zero]
      rw [← hA]; exact hx k hk) i hi
    simpa using this
  · intro h
    obtain ⟨x, hx⟩ := kernelZero_solves h b
    refine ⟨x, fun i hi => by rw [hA, hx i hi, sub_self], fun y hy i hi => ?_⟩
    have := h (fun j => y j - x j) (fun k hk => by
      simp only [mul_sub, Finset.sum_sub_distrib, hx k hk]
      have := hy k hk
      rwa [hA] at this) i hi
    exact sub_eq_zero.1 this

/-! ### Solutions of the analysis -/

/-- How much of the multiplier of a bus equation its infeasibility current is. -/
noncomputable def OptKind.share : OptKind → ℝ
  | .L1 => 1
  | .L2 => 1 / 2

theorem injection_share (hL : L.Loaded) (N : Network) (o : OptKind) (ho : N.optimization = some o) (t : ℝ) (v : ℕ → ℝ) (h : N.Solved L t v)
    (r : ℕ) (hr : r < 2 * N.buses) : N.injection o v r = -(o.share * N.multiplier v r) := by
  have := ((solved_iff hL N o ho t v).1 h).2.2 r hr
  unfold Network.injection
  rw [if_pos hr]
  cases o with
  | L1 =>
    simp only [OptKind.share] at this ⊢
    linarith [this.1, this.2]
  | L2 =>
    simp only [OptKind.share] at this ⊢
    linarith

theorem size_opt (hL : L.Loaded) (N : Network) (o : OptKind) (ho : N.optimization = some o) :
    (N.assign L).size = 2 * N.unknowns + o.width * N.buses := by
  unfold Network.assign
  rw [opt_of_some ho, ho]
  simp only
  rw [placeElements_end hL N]
  have : ∀ (nodes : List Node) n, (placeInfeasibility o n nodes).2 = n + o.width * nodes.length := by
    intro nodes
    induction nodes with
    | nil => intro n; rfl
    | cons b bs ih =>
      intro n
      simp only [placeInfeasibility, ih, List.length_cons]
      cases o <;> simp only [placeL1, placeL2, OptKind.width] <;> ring
  rw [this]
  have hb : (assignBuses true N.buses 0).1.length = N.buses := by
    have := assignBuses_opt N.buses 0
    rw [show (0 : ℕ) = 4 * 0 from rfl, this]; simp
  rw [hb]

theorem solved_of_below (hL : L.Loaded) (N : Network) {t : ℝ} {v : ℕ → ℝ} (h : ∀ i < (N.assign L).size, networkEq (N.assign L).all t v i = 0) :
    N.Solved L t v := by
  intro i
  by_cases hi : i < (N.assign L).size
  · exact h i hi
  · exact networkEq_high (network_rows_below hL N) t v (not_lt.1 hi)

theorem linear_regularAt {N : Network} (hlin : ∀ e ∈ N.elements, e.Linear) {t : ℝ} (ht : N.RatiosNonzero t) (V : Ref → ℂ) :
    ∀ e ∈ N.elements, e.RegularAt t V := by
  intro e he
  have h1 := hlin e he
  have h2 := ht e he
  cases e <;> first | trivial | exact h1.elim | exact Or.inl h1 | exact h2

/-- The Lagrangian of a linear network at a vector shifted in the plain unknowns. -/
theorem lagrangian_shift (hL : L.Loaded) (N : Network) (o : OptKind) (ho : N.optimization = some o) {t : ℝ} {A : ℕ → ℕ → ℝ} {b : ℕ → ℝ}
    (hA : ∀ v i, networkEq (N.plain.assign L).all t v i = (∑ j ∈ Finset.range N.unknowns, A i j * v j) - b i) (v w : ℕ → ℝ) (s : ℝ) :
    N.lagrangian L o t (along v (N.lift w) s) = N.lagrangian L o t v +
      s * ((List.range N.unknowns).map fun r => N.multiplier v r * ∑ j ∈ Finset.range N.unknowns, A r j * w j).sum := by
  have hmul : ∀ r, N.multiplier (along v (N.lift w) s) r = N.multiplier v r := by
    intro r
    show v (N.twin r).2 + s * N.lift w (N.twin r).2 = v (N.twin r).2
    have : N.lift w (N.twin r).2 = 0 := lift_multiplier N _ r
    rw [this]; ring
  have hprim : ∀ r < N.unknowns, N.primal (along v (N.lift w) s) r = N.primal v r + s * w r := by
    intro r hr
    show v (N.twin r).1 + s * N.lift w (N.twin r).1 = N.primal v r + s * w r
    have : N.lift w (N.twin r).1 = w r := lift_primal N _ hr
    rw [this]; rfl
  have hinf : ∀ k, infTerm o (2 * N.unknowns) k (N.multiplier (along v (N.lift w) s)) (along v (N.lift w) s) =
      infTerm o (2 * N.unknowns) k (N.multiplier v) v := by
    intro k
    have hz : ∀ i, 2 * N.unknowns ≤ i → along v (N.lift w) s i = v i := by
      intro i hi; unfold along; rw [lift_high N _ hi]; ring
    unfold infTerm
    cases o with
    | L1 =>
      simp only [hmul]
      rw [hz _ (by omega), hz _ (by omega), hz _ (by omega), hz _ (by omega)]
    | L2 =>
      simp only [hmul]
      rw [hz _ (by omega), hz _ (by omega)]
  unfold Network.lagrangian
  simp only [hinf]
  rw [add_right_comm]
  congr 1
  rw [← List.sum_map_mul_left, ← List.sum_map_add]
  congr 1
  apply List.map_congr_left
  intro r _
  rw [hmul, plain_congr hL N o ho t hprim r, hA, hA]
  simp only [mul_add, Finset.sum_add_distrib]
  have : ∑ j ∈ Finset.range N.unknowns, A r j * (s * w j) = s * ∑ j ∈ Finset.range N.unknowns, A r j * w j := by
    rw [Finset.mul_sum]; exact Finset.sum_congr rfl fun j _ => by ring
  rw [this]; ring

/-- The multipliers of a solution are orthogonal to everything the plain matrix reaches. -/
theorem multipliers_orthogonal (hL : L.Loaded) (N : Network) (hv : N.Valid) (o : OptKind) (ho : N.optimization = some o)
    (hlin : ∀ e ∈ N.elements, e.Linear) (hrec : ∀ e ∈ N.elements, e.Reciprocal) {t : ℝ} (ht : N.RatiosNonzero t) {A : ℕ → ℕ → ℝ} {b : ℕ → ℝ}
    (hA : ∀ v i, networkEq (N.plain.assign L).all t v i = (∑ j ∈ Finset.range N.unknowns, A i j * v j) - b i) {v : ℕ → ℝ}
    (h : N.Solved L t v) (w : ℕ → ℝ) :
    ((List.range N.unknowns).map fun r => N.multiplier v r * ∑ j ∈ Finset.range N.unknowns, A r j * w j).sum = 0 := by
  have ha : ∀ p ∈ (N.assign L).all, p.details.opt = true := fun p hp => by
    have := (network_wellPlaced hL N hv p hp).mode
    rw [opt_of_some ho] at this; exact this
  have hd := lagrangian_along hL N hv o ho hrec t v (linear_regularAt hlin ht _) (N.lift w)
  rw [rowDir_solved ha h (N.lift w)] at hd
  have hlag : (fun s => N.lagrangian L o t (along v (N.lift w) s)) = fun s => N.lagrangian L o t v +
      s * ((List.range N.unknowns).map fun r => N.multiplier v r * ∑ j ∈ Finset.range N.unknowns, A r j * w j).sum :=
    funext fun s => lagrangian_shift hL N o ho hA v w s
  rw [hlag] at hd
  have hd2 := ((hasDerivAt_id (0 : ℝ)).mul_const
    ((List.range N.unknowns).map fun r => N.multiplier v r * ∑ j ∈ Finset.range N.unknowns, A r j * w j).sum).const_add (N.lagrangian L o t v)
  have := hd2.unique hd
  simpa using this

/-- If the plain equations have one solution, all multipliers of any solution of the analysis vanish. -/
theorem multipliers_zero (hL : L.Loaded) (N : Network) (hv : N.Valid) (o : OptKind) (ho : N.optimization = some o)
    (hlin : ∀ e ∈ N.elements, e.Linear) (hrec : ∀ e ∈ N.elements, e.Reciprocal) {t : ℝ} (ht : N.RatiosNonzero t)
    (hu : N.plain.UniqueSolution L t) {v : ℕ → ℝ} (h : N.Solved L t v) : ∀ r < N.unknowns, N.multiplier v r = 0 := by
  obtain ⟨_, _, _, hsize, _⟩ := network_twin hL N o ho
  obtain ⟨A, b, hA⟩ := network_rows hL N.plain hv hlin t ht
  have hk := (unique_iff_kernel hA).1 hu
  rw [hsize] at hA hk
  obtain ⟨w, hw⟩ := kernelZero_solves hk (N.multiplier v)
  have h0 := multipliers_orthogonal hL N hv o ho hlin hrec ht hA h w
  have h1 : ((List.range N.unknowns).map fun r => N.multiplier v r ^ 2).sum = 0 := by
    rw [← h0]
    congr 1
    apply List.map_congr_left
    intro r hr
    rw [hw r (List.mem_range.1 hr)]; ring
  intro r hr
  have h2 := sum_zero_each (List.range N.unknowns) (fun r => N.multiplier v r ^ 2) (fun r _ => sq_nonneg _) h1 r (List.mem_range.2 hr)
  exact pow_eq_zero_iff (two_ne_zero) |>.1 h2

theorem injections_zero (hL : L.Loaded) (N : Network) (hv : N.Valid) (o : OptKind) (ho : N.optimization = some o)
    (hlin : ∀ e ∈ N.elements, e.Linear) (hrec : ∀ e ∈ N.elements, e.Reciprocal) {t : ℝ} (ht : N.RatiosNonzero t)
    (hu : N.plain.UniqueSolution L t) {v : ℕ → ℝ} (h : N.Solved L t v) (r : ℕ) : N.injection o v r = 0 := by
  by_cases hr : r < 2 * N.buses
  · rw [injection_share hL N o ho t v h r hr, multipliers_zero hL N hv o ho hlin hrec ht hu h r (by have := buses_unknowns N; omega)]; simp
  · unfold Network.injection; rw [if_neg hr]

/-- A solution of the analysis reads a solution of the plain equations. -/
theorem primal_solved (hL : L.Loaded) (N : Network) (hv : N.Valid) (o : OptKind) (ho : N.optimization = some o)
    (hlin : ∀ e ∈ N.elements, e.Linear) (hrec : ∀ e ∈ N.elements, e.Reciprocal) {t : ℝ} (ht : N.RatiosNonzero t)
    (hu : N.plain.UniqueSolution L t) {v : ℕ → ℝ} (h : N.Solved L t v) : N.plain.Solved L t (N.primal v) := by
  intro r
  rw [C20_residual hL N o ho t v h r, injections_zero hL N hv o ho hlin hrec ht hu h r, neg_zero]

/-- One solution without the analysis, one solution with it. -/
theorem opt_unique_of_plain (hL : L.Loaded) (N : Network) (hv : N.Valid) (o : OptKind) (ho : N.optimization = some o)
    (hlin : ∀ e ∈ N.elements, e.Linear) (hrec : ∀ e ∈ N.elements, e.Reciprocal) {t : ℝ} (ht : N.RatiosNonzero t)
    (hu : N.plain.UniqueSolution L t) : N.UniqueSolution L t := by
  obtain ⟨_, _, _, hsize, _⟩ := network_twin hL N o ho
  obtain ⟨u, hu1, hu2⟩ := id hu
  have hus : N.plain.Solved L t u := solved_of_below hL N.plain hu1
  obtain ⟨x, x1, x2, x3⟩ := exists_vector N u (fun _ => 0) (fun _ => match o with | .L1 => -1 / 2 | .L2 => 0)
  have hx : N.Solved L t x := by
    refine (solved_iff hL N o ho t x).2 ⟨fun r hr => ?_, fun r hr => ?_, fun r hr => ?_⟩
    · rw [plain_congr hL N o ho t x1 r, hus r]
      unfold Network.injection
      split_ifs
      · cases o with
        | L1 => simp only; rw [x3 _ (by omega), x3 _ (by omega)]; simp
        | L2 => simp only; rw [x3 _ (by omega)]; simp
      · simp
    · rw [parts_primal_scale hL N hv o ho t 0 x x (fun _ _ => rfl) (fun s hs => by rw [x2 s hs]; simp), zero_mul]
    · have hm := x2 r (by have := buses_unknowns N; omega)
      cases o with
      | L1 => simp only; rw [x3 _ (by omega), x3 _ (by omega), hm]; norm_num
      | L2 => simp only; rw [x3 _ (by omega), hm]; norm_num
  refine ⟨x, fun i _ => hx i, fun y hy => ?_⟩
  have hys := solved_of_below hL N hy
  have hz := multipliers_zero hL N hv o ho hlin hrec ht hu hys
  have hprim := primal_solved hL N hv o ho hlin hrec ht hu hys
  have hb := buses_unknowns N
  intro i hi
  rw [size_opt hL N o ho] at hi
  by_cases hlow : i < 2 * N.unknowns
  · obtain ⟨r, hr, rfl | rfl⟩ := twin_cases N i hlow
    · have := hu2 (N.primal y) (fun i _ => hprim i) r (by rw [hsize]; exact hr)
      exact this.trans (x1 r hr).symm
    · exact (hz r hr).trans (x2 r hr).symm
  · rw [x3 i (not_lt.1 hlow)]
    have h3 := ((solved_iff hL N o ho t y).1 hys).2.2
    obtain ⟨j, rfl⟩ := Nat.exists_eq_add_of_le (not_lt.1 hlow)
    cases o with
    | L2 =>
      simp only [OptKind.width] at hi h3 ⊢
      have := h3 j (by omega)
      rw [hz j (by omega)] at this
      linarith
    | L1 =>
      simp only [OptKind.width] at hi h3 ⊢
      by_cases hj : j % 4 < 2
      · have hr : 2 * (j / 4) + j % 4 < 2 * N.buses := by omega
        have := (h3 _ hr).1
        rw [hz _ (by omega), show 2 * N.unknowns + 4 * ((2 * (j / 4) + j % 4) / 2) + (2 * (j / 4) + j % 4) % 2 = 2 * N.unknowns + j by omega] at this
        linarith
      · have hr : 2 * (j / 4) + (j % 4 - 2) < 2 * N.buses := by omega
        have := (h3 _ hr).2
        rw [hz _ (by omega), show 2 * N.unknowns + 4 * ((2 * (j / 4) + (j % 4 - 2)) / 2) + 2 + (2 * (j / 4) + (j % 4 - 2)) % 2 = 2 * N.unknowns + j by omega] at this
        linarith

/-- A direction the plain equations do not notice is one the analysis does not notice. -/
theorem solved_shift (hL : L.Loaded) (N : Network) (hv : N.Valid) (o : OptKind) (ho : N.optimization = some o)
    (hlin : ∀ e ∈ N.elements, e.Linear) (hrec : ∀ e ∈ N.elements, e.Reciprocal) {t : ℝ} (ht : N.RatiosNonzero t) {A : ℕ → ℕ → ℝ} {b : ℕ → ℝ}
    (hA : ∀ v i, networkEq (N.plain.assign L).all t v i = (∑ j ∈ Finset.range N.unknowns, A i j * v j) - b i) {v : ℕ → ℝ}
    (h : N.Solved L t v) {w : ℕ → ℝ} (hw : ∀ i < N.unknowns, ∑ j ∈ Finset.range N.unknowns, A i j * w j = 0) :
    N.Solved L t (fun i => v i + N.lift w i) := by
  have hc := (C19_critical_points hL N hv o ho hrec t v (linear_regularAt hlin ht _)).1 h
  refine (C19_critical_points hL N hv o ho hrec t _ (linear_regularAt hlin ht _)).2 fun i => ?_
  have hsh : ∀ y, N.lagrangian L o t (fun i => y i + N.lift w i) = N.lagrangian L o t y := fun y => by
    have := lagrangian_shift hL N o ho hA y w 1
    have e : along y (N.lift w) 1 = fun i => y i + N.lift w i := by funext i; simp [along]
    rw [e] at this
    rw [this, List.sum_eq_zero, mul_zero, add_zero]
    intro z hz
    obtain ⟨r, hr, rfl⟩ := List.mem_map.1 hz
    rw [hw r (List.mem_range.1 hr), mul_zero]
  have he : (fun s => N.lagrangian L o t (Function.update (fun i => v i + N.lift w i) i s)) =
      fun s => N.lagrangian L o t (Function.update v i (s - N.lift w i)) := by
    funext s
    rw [← hsh (Function.update v i (s - N.lift w i))]
    congr 1
    funext j
    by_cases hj : j = i
    · subst hj; simp
    · simp [Function.update_of_ne hj]
  rw [he]
  refine HasDerivAt.comp_sub_const (f := fun s => N.lagrangian L o t (Function.update v i s)) _ _ ?_
  rw [add_sub_cancel_right]
  exact hc i

/-- One solution with the analysis, one solution without it. -/
theorem plain_unique_of_opt (hL : L.Loaded) (N : Network) (hv : N.Valid) (o : OptKind) (ho : N.optimization = some o)
    (hlin : ∀ e ∈ N.elements, e.Linear) (hrec : ∀ e ∈ N.elements, e.Reciprocal) {t : ℝ} (ht : N.RatiosNonzero t)
    (hu : N.UniqueSolution L t) : N.plain.UniqueSolution L t := by
  obtain ⟨_, _, _, hsize, _⟩ := network_twin hL N o ho
  obtain ⟨A, b, hA⟩ := network_rows hL N.plain hv hlin t ht
  refine (unique_iff_kernel hA).2 ?_
  rw [hsize] at hA ⊢
  obtain ⟨x, hx, hu⟩ := hu
  intro w hw r hr
  have := hu _ (fun i _ => solved_shift hL N hv o ho hlin hrec ht hA (solved_of_below hL N hx) hw i) (N.twin r).1 (by
    rw [size_opt hL N o ho]; have := (twin_lt N hr).1; omega)
  have h2 := lift_primal N w hr
  unfold Network.primal at h2
  linarith

/-! ### Runs on linear equations -/

section
variable {C : NRContext} {opt : Bool} {ps : List Placed} {m : Stamper} {v0 : ℕ → ℝ} {it0 : ℤ} {vInit : ℕ → ℝ} {tx : ℝ}

/-- A Newton run on linear stamps whose equations have one solution returns it, with success, in the first or second iteration. -/
theorem affine_run (hlin : ∀ p ∈ ps, p.LinearStamps) (hr : Ready opt ps m v0 it0) (hreg : ∀ v, ∀ p ∈ ps, p.Regular tx v)
    (hn : ∀ p ∈ ps, ∀ x ∈ p.details.seg.vars, ∀ c, p.details.varMap x = some c → c < C.size) (hrows : ∀ p ∈ ps, p.RowsBelow C.size) (hne : C.size ≠ 0)
    (hu : ∃ x, (∀ i < C.size, networkEq ps tx x i = 0) ∧ ∀ y, (∀ i < C.size, networkEq ps tx y i = 0) → ∀ i < C.size, y i = x i)
    (hsolve : C.solve = idealSolve C.size) (hd : C.debug = false) (hlim : C.limit = none) (htol : 0 < C.tolerance) (hmax : 2 ≤ C.maxIters) :
    ∃ r st, nrRun C Stamper.ops m vInit tx = .ok (r, st) ∧ r.success = true ∧ r.iter ≤ 1 ∧ ∀ i, networkEq ps tx r.v i = 0 := by
  have he : ExactSolver C.size C.solve := by rw [hsolve]; exact idealSolve_exact _
  have hexact : ∀ k st, RunReach C Stamper.ops m vInit tx k st → ∀ F : RunFacts C Stamper.ops m vInit tx k st, ∀ i, networkEq ps tx F.vNext i = 0 := by
    intro k st hreach F i
    rcases Nat.lt_or_ge i C.size with hi | hi
    · exact (linear_pass hlin hr hreg hn hreach F F.vNext).1 (he _ _ _ F.sol) i hi
    · exact networkEq_high hrows tx _ hi
  have hzero : ∀ k st, RunReach C Stamper.ops m vInit tx (k + 1) st → ∀ F : RunFacts C Stamper.ops m vInit tx (k + 1) st, F.rd.maxResidual = 0 := by
    intro k st hreach F
    obtain ⟨_, _, _, ⟨i, hi, h4⟩, _⟩ := pass_spec hr hreach F
    rw [← h4]
    have hlp : linPoint v0 it0 (k + 1) st = st.vPrev := by unfold linPoint; simp
    rw [hlp]
    cases hreach with
    | @step k st' _ hreach' hp =>
      obtain ⟨G, ⟨_, hG⟩ | ⟨_, _, hG⟩ | ⟨_, _, hG⟩⟩ := nrPass_cases hp
      · simp at hG
      · simp at hG
      · injection hG with hG
        subst hG
        have hc : G.carry = G.vNext := by unfold PassFacts.carry; rw [hlim]
        show |networkEq ps tx G.carry i| = 0
        rw [hc, hexact k st' hreach' G i, abs_zero]
  have hsecond : ∀ k st2, RunReach C Stamper.ops m vInit tx (k + 2) st2 → False := by
    intro k st2 hreach
    cases hreach with
    | @step _ st1 _ hreach1 hp =>
      obtain ⟨G, ⟨_, hG⟩ | ⟨_, _, hG⟩ | ⟨_, hlt, hG⟩⟩ := nrPass_cases hp
      · simp at hG
      · simp at hG
      · rw [hzero _ _ hreach1 G] at hlt
        exact hlt htol
  have hpass : ∀ k st, RunReach C Stamper.ops m vInit tx k st → ∃ p, runPass C Stamper.ops m vInit tx k st = .ok p := by
    intro k st hreach
    have key := fun x => linear_system hlin hr hreg hn hreach x
    obtain ⟨x, hx, hux⟩ := hu
    obtain ⟨y, hy, _⟩ := idealSolve_of ((key x).2 hx) (fun y hy => hux y ((key y).1 hy))
    exact nrPass_ok hd hne (by rw [hsolve]; exact hy)
  have hrun : ∃ r st, nrRun C Stamper.ops m vInit tx = .ok (r, st) := by
    obtain ⟨p0, hp0⟩ := hpass 0 _ .start
    cases p0 with
    | ret r st' => exact ⟨r, st', nrRun_of_ret (by omega) .start hp0⟩
    | next st1 =>
      have hreach1 : RunReach C Stamper.ops m vInit tx 1 st1 := .step .start hp0
      obtain ⟨p1, hp1⟩ := hpass 1 st1 hreach1
      cases p1 with
      | ret r st' => exact ⟨r, st', nrRun_of_ret (by omega) hreach1 hp1⟩
      | next st2 => exact (hsecond 0 st2 (.step hreach1 hp1)).elim
  obtain ⟨r, st, h⟩ := hrun
  refine ⟨r, st, h, ?_⟩
  obtain ⟨hm, ⟨k, st2, hk, hreach, F, rfl, hv2, hi, hc⟩ | ⟨hreach, rfl⟩⟩ := nrRun_end h
  · have hk1 : k ≤ 1 := by
      by_contra hgt
      obtain ⟨j, rfl⟩ : ∃ j, k = j + 2 := ⟨k - 2, by omega⟩
      exact hsecond j st2 hreach
    have hlen : st2.history.length = k := (reach_history rfl hreach).1
    have hnb : ¬ Bails F.done.history := by
      apply not_bails_short
      · simp [PassFacts.done]
      · simp [PassFacts.done, hlen]; omega
    refine ⟨?_, by omega, ?_⟩
    · rcases hc with ⟨_, hb⟩ | ⟨hs', _⟩
      · exact absurd hb hnb
      · exact hs'
    · rw [hv2]
      exact hexact k st2 hreach F
  · exfalso
    obtain ⟨j, hj⟩ : ∃ j, C.maxIters = j + 2 := ⟨C.maxIters - 2, by omega⟩
    rw [hj] at hreach
    exact hsecond j _ hreach

/-- A Newton run on linear stamps whose equations do not have exactly one solution raises. -/
theorem affine_raises (hlin : ∀ p ∈ ps, p.LinearStamps) (hr : Ready opt ps m v0 it0) (hreg : ∀ v, ∀ p ∈ ps, p.Regular tx v)
    (hn : ∀ p ∈ ps, ∀ x ∈ p.details.seg.vars, ∀ c, p.details.varMap x = some c → c < C.size)
    (hu : ¬ ∃ x, (∀ i < C.size, networkEq ps tx x i = 0) ∧ ∀ y, (∀ i < C.size, networkEq ps tx y i = 0) → ∀ i < C.size, y i = x i)
    (hsolve : C.solve = idealSolve C.size) : ∃ e, nrRun C Stamper.ops m vInit tx = .error e := by
  have hno : ∀ k st, RunReach C Stamper.ops m vInit tx k st → ∀ F : RunFacts C Stamper.ops m vInit tx k st, False := by
    intro k st hreach F
    have key := linear_pass hlin hr hreg hn hreach F
    have hsol := F.sol
    rw [hsolve] at hsol
    unfold idealSolve at hsol
    split_ifs at hsol with hx
    obtain ⟨x, hx, hux⟩ := hx
    exact hu ⟨x, (key x).1 hx, fun y hy i hi => hux y ((key y).2 hy) i hi⟩
  cases h : nrRun C Stamper.ops m vInit tx with
  | error e => exact ⟨e, rfl⟩
  | ok p =>
    exfalso
    obtain ⟨r, st⟩ := p
    obtain ⟨hm, ⟨k, st2, _, hreach, F, _⟩ | ⟨hreach, _⟩⟩ := nrRun_end h
    · exact hno k st2 hreach F
    · have hstep : ∀ k st, RunReach C Stamper.ops m vInit tx k st → k = 0 := by
        intro k st hreach
        cases hreach with
        | start => rfl
        | step hreach1 hp =>
          obtain ⟨G, _⟩ := nrPass_cases hp
          exact (hno _ _ hreach1 G).elim
      exact hm (hstep _ _ hreach)

end

end Verif
