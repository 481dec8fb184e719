import Verif.Model.Residuals
import Verif.Lemmas.NewtonMethod
import Verif.Lemmas.NewtonLocal
import Verif.Lemmas.DebugPass
import Verif.Spec.Converge
import Verif.Spec.NewtonStep
import Mathlib.Algebra.Order.Chebyshev

/-! The Newton loop of the solver near a solution. -/

namespace Verif

open Ex

/-! ### Falling residuals have no rising trend -/

theorem list_range_sum (f : ℕ → ℝ) (n : ℕ) : ((List.range n).map f).sum = ∑ k ∈ Finset.range n, f k := by
  induction n with
  | zero => simp
  | succ n ih => rw [List.range_succ, List.map_append, List.sum_append, ih, Finset.sum_range_succ]; simp

theorem slope_nonpos {y : List ℝ} (h : y.Pairwise fun a b => b ≤ a) : slope y ≤ 0 := by
  have hanti : ∀ i j, i ≤ j → j < y.length → y.getD j 0 ≤ y.getD i 0 := by
    intro i j hij hj
    rcases Nat.lt_or_ge i j with h1 | h1
    · have e : ∀ k (hk : k < y.length), y.getD k 0 = y[k] := fun k hk => by simp [hk]
      rw [e j hj, e i (by omega)]
      exact List.pairwise_iff_getElem.1 h i j (by omega) hj h1
    · rw [le_antisymm hij h1]
  have e1 : (y.zipIdx.map fun p => (p.2 : ℝ) * p.1).sum = ∑ k ∈ Finset.range y.length, (k : ℝ) * y.getD k 0 := by
    rw [← list_range_sum]
    congr 1
    apply List.ext_getElem
    · simp
    · intro i h1 h2
      simp at h1 h2 ⊢
      left; simp [h1]
  have e2 : y.sum = ∑ k ∈ Finset.range y.length, y.getD k 0 := by
    rw [← list_range_sum]
    congr 1
    apply List.ext_getElem
    · simp
    · intro i h1 h2
      simp at h1 h2 ⊢
      simp [h1]
  have e3 : (do let a ← List.range y.length; pure (a : ℝ) : List ℝ) = (List.range y.length).map (Nat.cast : ℕ → ℝ) := by
    simp [List.map_eq_flatMap]
  unfold slope
  simp only [e1, e3, List.map_map, list_range_sum, Function.comp_apply]
  rw [e2]
  apply div_nonpos_of_nonpos_of_nonneg
  · have hv : AntivaryOn (fun k : ℕ => (k : ℝ)) (fun k => y.getD k 0) (Finset.range y.length) := by
      intro i hi j hj hlt
      simp only [Finset.coe_range, Set.mem_Iio] at hi hj
      by_contra hc
      push Not at hc
      have : i ≤ j := by exact_mod_cast hc.le
      exact absurd (hanti i j this hj) (not_le.2 hlt)
    have := hv.card_mul_sum_le_sum_mul_sum
    rw [Finset.card_range] at this
    linarith
  · have := sq_sum_le_card_mul_sum_sq (s := Finset.range y.length) (f := fun k : ℕ => (k : ℝ))
    rw [Finset.card_range] at this
    linarith

theorem falling_not_bails {y : List ℝ} (h : y.Pairwise fun a b => b ≤ a) : ¬ Bails y := fun ⟨_, h2⟩ => absurd h2 (not_lt.2 (slope_nonpos h))

/-! ### The basin of a solution -/

theorem within_iff {n : ℕ} {δ : ℝ} (hδ : 0 ≤ δ) (v w : ℕ → ℝ) : Within n δ v w ↔ ‖cutTo n v - cutTo n w‖ ≤ δ := by
  rw [pi_norm_le_iff_of_nonneg hδ]
  exact ⟨fun h i => h i i.2, fun h i hi => h ⟨i, hi⟩⟩

theorem filled_trips (l : List (ℕ × Option ℕ × ℝ)) :
    (Builder.nz (tripsOf l)).length = (l.filter fun e => e.2.1.isSome ∧ e.2.2 ≠ 0).length := by
  induction l with
  | nil => rfl
  | cons e l ih =>
    obtain ⟨r, c, x⟩ := e
    cases c with
    | none =>
      have h1 : tripsOf ((r, none, x) :: l) = tripsOf l := by simp [tripsOf]
      rw [h1, ih]; simp
    | some c =>
      have h1 : tripsOf ((r, some c, x) :: l) = ⟨r, c, x⟩ :: tripsOf l := by simp [tripsOf]
      have h2 : Builder.nz (⟨r, c, x⟩ :: tripsOf l) = if x ≠ 0 then ⟨r, c, x⟩ :: Builder.nz (tripsOf l) else Builder.nz (tripsOf l) := by
        unfold Builder.nz; rw [List.filter_cons]; simp
      rw [h1, h2, List.filter_cons]
      by_cases hx : x = 0
      · simp [hx, ih]
      · simp [hx, ih]

theorem nz_perm {a b : List (ℕ × Option ℕ × ℝ)} (h : a.Perm b) : (Builder.nz (tripsOf a)).length = (Builder.nz (tripsOf b)).length :=
  ((tripsOf_perm h).filter _).length_eq

/-- What holds at every vector within `1 / (2 M)` of `xs`. -/
structure Basin (ps : List Placed) (tx : ℝ) (n : ℕ) (xs : ℕ → ℝ) (M B : ℝ) (w : ℕ → ℝ) : Prop where
  regular : ∀ p ∈ ps, p.Regular tx w
  filled : filledStamps ps tx w = filledStamps ps tx xs
  diff : DifferentiableAt ℝ (equationsMap ps tx n) (cutTo n w)
  inj : Function.Injective (fderiv ℝ (equationsMap ps tx n) (cutTo n w))
  bound : ‖equationsMap ps tx n (cutTo n w)‖ ≤ B * ‖cutTo n w - cutTo n xs‖
  tight : ‖cutTo n w - cutTo n xs‖ ≤ B * ‖equationsMap ps tx n (cutTo n w)‖
  step : ∀ x, equationsMap ps tx n (cutTo n w) + fderiv ℝ (equationsMap ps tx n) (cutTo n w) (x - cutTo n w) = 0 →
    ‖x - cutTo n xs‖ ≤ M * ‖cutTo n w - cutTo n xs‖ ^ 2 ∧ ‖equationsMap ps tx n x‖ ≤ ‖equationsMap ps tx n (cutTo n w)‖

theorem stretch_agree {n : ℕ} (v : ℕ → ℝ) : ∀ k < n, v k = stretch n (cutTo n v) k := fun k hk => by simp [stretch, hk, cutTo]

theorem solution_facts {ps : List Placed} {tx : ℝ} {n : ℕ} {xs : ℕ → ℝ} (hn : Below ps n) (hr : ∀ p ∈ ps, p.Regular tx xs)
    (hz : ∀ i < n, networkEq ps tx xs i = 0) (hnd : Nondegenerate n (networkEq ps tx) xs) :
    ContDiffAt ℝ 2 (equationsMap ps tx n) (cutTo n xs) ∧ equationsMap ps tx n (cutTo n xs) = 0 ∧
      Function.Injective (fderiv ℝ (equationsMap ps tx n) (cutTo n xs)) := by
  have hr' := regular_agree hn tx (stretch_agree (n := n) xs) hr
  have hs := equationsMap_smooth hr'
  have h0 : equationsMap ps tx n (cutTo n xs) = 0 := by
    funext i
    show networkEq ps tx _ i = 0
    rw [← networkEq_agree hn tx (stretch_agree xs)]; exact hz i i.2
  have hinj : Function.Injective (fderiv ℝ (equationsMap ps tx n) (cutTo n xs)) := by
    rw [injective_iff_map_eq_zero]
    intro u hu
    have h1 := hnd (stretch n u) (fun i hi => by
      have := equationsMap_deriv hn (w := xs) (u := stretch n u) (hs.differentiableAt (by norm_num)) ⟨i, hi⟩
      rw [cutTo_stretch, hu] at this
      exact this)
    funext i
    have := h1 i i.2
    rwa [stretch_lt u i.2] at this
  exact ⟨hs, h0, hinj⟩

theorem regular_within {ps : List Placed} {tx : ℝ} {n : ℕ} {xs : ℕ → ℝ} (hn : Below ps n) (hr : ∀ p ∈ ps, p.Regular tx xs) :
    ∃ η > 0, ∀ w, Within n η w xs → ∀ p ∈ ps, p.Regular tx w := by
  have hr' := regular_agree hn tx (stretch_agree (n := n) xs) hr
  obtain ⟨r1, hr1, hreg⟩ := Metric.nhds_basis_closedBall.eventually_iff.1 (regular_near hr')
  refine ⟨r1, hr1, fun w hw => regular_agree hn tx (fun k hk => (stretch_agree (n := n) w k hk).symm) (hreg ?_)⟩
  rw [Metric.mem_closedBall, dist_eq_norm]
  exact (within_iff hr1.le w xs).1 hw

/-- A Newton step solves the linearised equations. -/
theorem step_linear {ps : List Placed} {tx : ℝ} {n : ℕ} {w x : ℕ → ℝ} (hn : Below ps n)
    (hd : DifferentiableAt ℝ (equationsMap ps tx n) (cutTo n w)) (h : NewtonStep ps tx n w x) :
    equationsMap ps tx n (cutTo n w) + fderiv ℝ (equationsMap ps tx n) (cutTo n w) (cutTo n x - cutTo n w) = 0 := by
  obtain ⟨d, h1, h2⟩ := h
  funext i
  have e1 := equationsMap_deriv hn (w := w) (u := fun k => x k - w k) hd i
  have e2 := (h1 i).unique e1
  have := h2 i i.2
  rw [networkEq_agree hn tx (stretch_agree w), e2] at this
  exact this

theorem accuracy_exists {ps : List Placed} {tx : ℝ} {n : ℕ} {xs : ℕ → ℝ} (hn : Below ps n) (hr : ∀ p ∈ ps, p.Regular tx xs)
    (hz : ∀ i < n, networkEq ps tx xs i = 0) (hnd : Nondegenerate n (networkEq ps tx) xs) :
    ∃ M > 0, ∃ B > 0, ∀ w, Within n (1 / (2 * M)) w xs → DifferentiableAt ℝ (equationsMap ps tx n) (cutTo n w) ∧
      ‖cutTo n w - cutTo n xs‖ ≤ B * ‖equationsMap ps tx n (cutTo n w)‖ ∧
      ∀ x, equationsMap ps tx n (cutTo n w) + fderiv ℝ (equationsMap ps tx n) (cutTo n w) (x - cutTo n w) = 0 →
        ‖x - cutTo n xs‖ ≤ M * ‖cutTo n w - cutTo n xs‖ ^ 2 ∧ ‖equationsMap ps tx n x‖ ≤ ‖equationsMap ps tx n (cutTo n w)‖ := by
  obtain ⟨hs, h0, hinj⟩ := solution_facts hn hr hz hnd
  obtain ⟨M, hM, B, hB, -, H⟩ := newton_quadratic hs h0 hinj (ρ := 1) one_pos
  refine ⟨M, hM, B, hB, fun w hw => ?_⟩
  obtain ⟨a1, _, _, a4, a5⟩ := H _ ((within_iff (by positivity) w xs).1 hw)
  exact ⟨a1, a4, a5⟩

theorem basin_exists {ps : List Placed} {tx : ℝ} {n : ℕ} {xs : ℕ → ℝ} (hn : Below ps n) (hr : ∀ p ∈ ps, p.Regular tx xs)
    (hz : ∀ i < n, networkEq ps tx xs i = 0) (hnd : Nondegenerate n (networkEq ps tx) xs) (hf : SteadyFill n ps tx xs) {ρ : ℝ} (hρ0 : 0 < ρ) :
    ∃ M > 0, ∃ B > 0, 1 / (2 * M) ≤ ρ ∧ ∀ w, Within n (1 / (2 * M)) w xs → Basin ps tx n xs M B w := by
  have hr' := regular_agree hn tx (stretch_agree (n := n) xs) hr
  obtain ⟨hs, h0, hinj⟩ := solution_facts hn hr hz hnd
  obtain ⟨r1, hr1, hreg⟩ := Metric.nhds_basis_closedBall.eventually_iff.1 (regular_near hr')
  obtain ⟨η, hη, hfill⟩ := hf
  obtain ⟨M, hM, B, hB, hρ, H⟩ := newton_quadratic hs h0 hinj (ρ := min (min r1 η) ρ) (lt_min (lt_min hr1 hη) hρ0)
  refine ⟨M, hM, B, hB, hρ.trans (min_le_right _ _), fun w hw => ?_⟩
  replace hρ := hρ.trans (min_le_left _ _)
  have hw' := (within_iff (by positivity) w xs).1 hw
  obtain ⟨a1, a2, a3, a5, a4⟩ := H _ hw'
  refine ⟨?_, hfill w ((within_iff hη.le w xs).2 (hw'.trans (hρ.trans (min_le_right _ _)))), a1, a2, a3, a5, a4⟩
  refine regular_agree hn tx (fun k hk => (stretch_agree (n := n) w k hk).symm) (hreg ?_)
  rw [Metric.mem_closedBall, dist_eq_norm]
  exact hw'.trans (hρ.trans (min_le_left _ _))

/-! ### Passes inside the basin -/

variable {C : NRContext} {opt : Bool} {ps : List Placed} {m : Stamper} {v0 : ℕ → ℝ} {it0 : ℤ} {vInit : ℕ → ℝ} {tx : ℝ} {xs : ℕ → ℝ} {M B : ℝ}

/-- What is true at the head of every pass of a run from inside the basin. -/
structure Nearing (C : NRContext) (ps : List Placed) (m : Stamper) (tx : ℝ) (xs : ℕ → ℝ) (M : ℝ) (k : ℕ) (st : NRState Stamper) : Prop where
  near : ‖cutTo C.size st.vPrev - cutTo C.size xs‖ ≤ 1 / M * (1 / 2) ^ 2 ^ k
  falling : st.history.Pairwise fun a b => b ≤ a
  above : ∀ h ∈ st.history, ‖equationsMap ps tx C.size (cutTo C.size st.vPrev)‖ ≤ h
  builder : ∃ its, (∀ it ∈ its, (Builder.nz it).length = filledStamps ps tx xs) ∧
    ∀ ts, st.Y.stamps ts = Builder.newton (tripsOf (Stamper.ops.stampLinear m tx).2) (its ++ [ts])

theorem Nearing.within (hM : 0 < M) {k : ℕ} {st : NRState Stamper} (h : Nearing C ps m tx xs M k st) :
    Within C.size (1 / (2 * M)) st.vPrev xs := by
  rw [within_iff (by positivity)]
  refine h.near.trans ?_
  have h1 : ((1 : ℝ) / 2) ^ 2 ^ k ≤ (1 / 2) ^ 1 := pow_le_pow_of_le_one (by norm_num) (by norm_num) Nat.one_le_two_pow
  have e : 1 / (2 * M) = 1 / M * (1 / 2) ^ 1 := by field_simp
  rw [e]
  exact mul_le_mul_of_nonneg_left h1 (by positivity)

theorem linPoint_fresh (hit : it0 ≠ 0) (k : ℕ) (st : NRState Stamper) : linPoint v0 it0 k st = st.vPrev := by
  unfold linPoint; simp [hit]

/-- The builder has seen no more filled stamps in earlier passes than there are now. -/
def Current (ps : List Placed) (m : Stamper) (tx : ℝ) (st : NRState Stamper) : Prop :=
  ∃ its, (∀ it ∈ its, (Builder.nz it).length ≤ filledStamps ps tx st.vPrev) ∧
    ∀ ts, st.Y.stamps ts = Builder.newton (tripsOf (Stamper.ops.stampLinear m tx).2) (its ++ [ts])

theorem Nearing.current {k : ℕ} {st : NRState Stamper} (h : Nearing C ps m tx xs M k st) (hB : Basin ps tx C.size xs M B st.vPrev) :
    Current ps m tx st := by
  obtain ⟨its, h1, h2⟩ := h.builder
  exact ⟨its, fun it hi => by rw [h1 it hi, hB.filled], h2⟩

/-- The linear system of a pass is the linearisation of the equations. -/
theorem fill_system (hr : Ready opt ps m v0 it0) (hit : it0 ≠ 0) (hn : Below ps C.size) {k : ℕ} {st : NRState Stamper}
    (h : RunReach C Stamper.ops m vInit tx k st) (hreg : ∀ p ∈ ps, p.Regular tx st.vPrev)
    (hd : DifferentiableAt ℝ (equationsMap ps tx C.size) (cutTo C.size st.vPrev)) (hb : Current ps m tx st) (x : ℕ → ℝ) :
    Solves C.size (Builder.matOf (st.Y.stamps (tripsOf (Stamper.ops.stampNonlinear st.stamper st.vPrev k).2)).entries)
      (fun i => jOf (Stamper.ops.stampLinear m tx).2 i + jOf (Stamper.ops.stampNonlinear st.stamper st.vPrev k).2 i) x ↔
    equationsMap ps tx C.size (cutTo C.size st.vPrev) +
      fderiv ℝ (equationsMap ps tx C.size) (cutTo C.size st.vPrev) (cutTo C.size x - cutTo C.size st.vPrev) = 0 := by
  obtain ⟨i1, _, i3⟩ := reach_at hr h
  obtain ⟨j1, j2⟩ := mid_at i1 i3
  rw [linPoint_fresh hit] at j2
  set lin := (Stamper.ops.stampLinear m tx).2 with hlin
  set cur := (Stamper.ops.stampNonlinear st.stamper st.vPrev k).2 with hcur
  have p1 : lin.Perm (ps.flatMap fun p => p.emitted tx st.vPrev true) := by
    have := emit_perm (hr.frozen.updateTx tx) (hr.at_ tx) true
    have e : (ps.flatMap fun p => p.emitted tx v0 true) = ps.flatMap fun p => p.emitted tx st.vPrev true :=
      List.flatMap_congr fun p hp => emitted_linear (fun x hx hc =>
          (List.nodup_append.1 (hr.frozen.wp p hp).params).2.2 x hc x hx rfl) tx v0 st.vPrev
    rw [e] at this
    exact this
  have p2 : cur.Perm (ps.flatMap fun p => p.emitted tx st.vPrev false) := emit_perm j1 j2 false
  obtain ⟨its, hits, hY⟩ := hb
  have hA : Builder.matOf (st.Y.stamps (tripsOf cur)).entries = Builder.matOf (tripsOf (lin ++ cur)) := by
    obtain ⟨A, hA, h2⟩ := C04_matrix_current_partial (tripsOf lin) its (tripsOf cur) (fun it h => by
      rw [nz_perm p2, filled_trips]
      exact hits it h)
    rw [← hY] at hA
    unfold Builder.toMatrix at hA
    simp at hA
    rw [hA, tripsOf_append]
    funext i j
    exact h2 i j
  have hJ : (fun i => jOf lin i + jOf cur i) = jOf (lin ++ cur) := by funext i; rw [jOf_append]
  rw [hA, hJ, newton_solves (d := fun i => if hi : i < C.size then
    fderiv ℝ (equationsMap ps tx C.size) (cutTo C.size st.vPrev) (cutTo C.size x - cutTo C.size st.vPrev) ⟨i, hi⟩ else
      dirRow (fun k => x k - st.vPrev k) ((ps.flatMap fun p => p.emitted tx st.vPrev true) ++ (ps.flatMap fun p => p.emitted tx st.vPrev false)) i)
    hreg hn (p1.append p2) (fun i => ?_)]
  · constructor
    · intro hs
      funext i
      have := hs i i.2
      simp only [i.2, dif_pos] at this
      rw [networkEq_agree hn tx (stretch_agree st.vPrev)] at this
      exact this
    · intro hs i hi
      have := congrFun hs ⟨i, hi⟩
      simp only [hi, dif_pos]
      rw [networkEq_agree hn tx (stretch_agree st.vPrev)]
      exact this
  · split_ifs with hi
    · exact equationsMap_deriv hn (u := fun j => x j - st.vPrev j) hd ⟨i, hi⟩
    · exact network_jacobian ps tx st.vPrev hreg _ i

/-- The linear system of a pass inside the basin. -/
theorem near_system (hr : Ready opt ps m v0 it0) (hit : it0 ≠ 0) (hn : Below ps C.size) {k : ℕ} {st : NRState Stamper}
    (h : RunReach C Stamper.ops m vInit tx k st) (hN : Nearing C ps m tx xs M k st) (hB : Basin ps tx C.size xs M B st.vPrev) (x : ℕ → ℝ) :
    Solves C.size (Builder.matOf (st.Y.stamps (tripsOf (Stamper.ops.stampNonlinear st.stamper st.vPrev k).2)).entries)
      (fun i => jOf (Stamper.ops.stampLinear m tx).2 i + jOf (Stamper.ops.stampNonlinear st.stamper st.vPrev k).2 i) x ↔
    equationsMap ps tx C.size (cutTo C.size st.vPrev) +
      fderiv ℝ (equationsMap ps tx C.size) (cutTo C.size st.vPrev) (cutTo C.size x - cutTo C.size st.vPrev) = 0 :=
  fill_system hr hit hn h hB.regular hB.diff (hN.current hB) x

/-- The builder of a pass holds the current stamps, which lie within the matrix. -/
theorem fill_entries (hr : Ready opt ps m v0 it0) (hit : it0 ≠ 0) (hn : Below ps C.size) (hrow : ∀ p ∈ ps, p.RowsBelow C.size) {k : ℕ}
    {st : NRState Stamper} (h : RunReach C Stamper.ops m vInit tx k st) (hc : Current ps m tx st) :
    let b := st.Y.stamps (tripsOf (Stamper.ops.stampNonlinear st.stamper st.vPrev k).2)
    b.maxIndex = b.index ∧ ∀ t ∈ b.entries, t.row < C.size ∧ t.col < C.size := by
  intro b
  obtain ⟨i1, _, i3⟩ := reach_at hr h
  obtain ⟨j1, j2⟩ := mid_at i1 i3
  rw [linPoint_fresh hit] at j2
  obtain ⟨its, hits, hY⟩ := hc
  have p1 := emit_perm (hr.frozen.updateTx tx) (hr.at_ tx) true
  have p2 : (Stamper.ops.stampNonlinear st.stamper st.vPrev k).2.Perm (ps.flatMap fun p => p.emitted tx st.vPrev false) := emit_perm j1 j2 false
  have hb : b = Builder.newton (tripsOf (Stamper.ops.stampLinear m tx).2) (its ++ [tripsOf (Stamper.ops.stampNonlinear st.stamper st.vPrev k).2]) := hY _
  obtain ⟨n1, n2⟩ := newton_current (tripsOf (Stamper.ops.stampLinear m tx).2) its (tripsOf (Stamper.ops.stampNonlinear st.stamper st.vPrev k).2)
    (fun it h => by rw [nz_perm p2, filled_trips]; exact hits it h)
  rw [← hb] at n1 n2
  refine ⟨n1, fun t ht => ?_⟩
  rw [n2] at ht
  have hn' : ∀ p ∈ ps, p.Below C.size := hn
  rcases List.mem_append.1 ht with ht | ht
  · exact emitted_below hn' hrow tx v0 true t ((p1.filterMap _).mem_iff.1 (List.mem_filter.1 ht).1)
  · exact emitted_below hn' hrow tx st.vPrev false t ((p2.filterMap _).mem_iff.1 (List.mem_filter.1 ht).1)

/-- A pass at a point where the derivative of the equations is injective goes through. -/
theorem fill_through (hr : Ready opt ps m v0 it0) (hit : it0 ≠ 0) (hn : Below ps C.size) (hs : C.solve = idealSolve C.size)
    (hd : C.debug = true → ∀ p ∈ ps, p.RowsBelow C.size) (hsz : C.size ≠ 0)
    {k : ℕ} {st : NRState Stamper} (h : RunReach C Stamper.ops m vInit tx k st) (hreg : ∀ p ∈ ps, p.Regular tx st.vPrev)
    (hdf : DifferentiableAt ℝ (equationsMap ps tx C.size) (cutTo C.size st.vPrev))
    (hinj : Function.Injective (fderiv ℝ (equationsMap ps tx C.size) (cutTo C.size st.vPrev))) (hc : Current ps m tx st) :
    ∃ p, runPass C Stamper.ops m vInit tx k st = .ok p := by
  -- the linear system has exactly one solution
  set T := fderiv ℝ (equationsMap ps tx C.size) (cutTo C.size st.vPrev) with hT
  have hsurj : Function.Surjective T := (LinearMap.injective_iff_surjective (f := (T : (Fin C.size → ℝ) →ₗ[ℝ] (Fin C.size → ℝ)))).1 hinj
  obtain ⟨u, hu⟩ := hsurj (-equationsMap ps tx C.size (cutTo C.size st.vPrev))
  have key := fill_system hr hit hn h hreg hdf hc
  have hx := (key (stretch C.size (cutTo C.size st.vPrev + u))).2 (by
    rw [cutTo_stretch, add_sub_cancel_left, ← hT, hu, add_neg_cancel])
  have huniq : ∀ z, Solves C.size _ _ z → ∀ i < C.size, z i = stretch C.size (cutTo C.size st.vPrev + u) i := fun z hz i hi => by
    have h1 := (key z).1 hz
    have h2 : T (cutTo C.size z - cutTo C.size st.vPrev) = T u := by rw [hu]; exact eq_neg_of_add_eq_zero_right h1
    have h3 := congrFun (hinj h2) ⟨i, hi⟩
    rw [stretch_lt _ hi]
    have h4 : z i - st.vPrev i = u ⟨i, hi⟩ := h3
    show z i = st.vPrev i + u ⟨i, hi⟩
    linarith
  obtain ⟨y, hy, _⟩ := idealSolve_of hx huniq
  cases hdb : C.debug with
  | false => exact nrPass_ok hdb hsz (by rw [hs]; exact hy)
  | true =>
    obtain ⟨c1, c3⟩ := fill_entries hr hit hn (hd hdb) h hc
    refine nrPass_through hsz (assertValid_ok _ _ hsz c3 (fun i hi => ?_) (fun i hi => ?_)) c1 (by rw [hs]; exact hy)
    · obtain ⟨⟨j, _, hj⟩, _⟩ := unique_rows_cols hx huniq i hi
      obtain ⟨t, ht, e, _⟩ := matOf_entry hj
      exact ⟨t, ht, e⟩
    · obtain ⟨_, j, _, hj⟩ := unique_rows_cols hx huniq i hi
      obtain ⟨t, ht, _, e⟩ := matOf_entry hj
      exact ⟨t, ht, e⟩

theorem near_residual (hr : Ready opt ps m v0 it0) (hit : it0 ≠ 0) (hn : Below ps C.size) {k : ℕ} {st : NRState Stamper}
    (h : RunReach C Stamper.ops m vInit tx k st) (F : RunFacts C Stamper.ops m vInit tx k st) :
    F.rd.maxResidual = ‖equationsMap ps tx C.size (cutTo C.size st.vPrev)‖ := by
  obtain ⟨-, -, h3, ⟨i, hi, h4⟩, -⟩ := pass_spec hr h F
  rw [linPoint_fresh hit] at h3 h4
  have e : ∀ j (hj : j < C.size), networkEq ps tx st.vPrev j = equationsMap ps tx C.size (cutTo C.size st.vPrev) ⟨j, hj⟩ :=
    fun j hj => networkEq_agree hn tx (stretch_agree st.vPrev) j
  apply le_antisymm
  · rw [← h4, e i hi]; exact norm_le_pi_norm (equationsMap ps tx C.size (cutTo C.size st.vPrev)) ⟨i, hi⟩
  · rw [pi_norm_le_iff_of_nonneg (by rw [← h4]; exact abs_nonneg _)]
    intro j
    rw [Real.norm_eq_abs, ← e j j.2]; exact h3 j j.2

/-- What a pass inside the basin computes. -/
theorem near_facts (hr : Ready opt ps m v0 it0) (hit : it0 ≠ 0) (hn : Below ps C.size) (hM : 0 < M) (hB0 : 0 < B)
    (hbasin : ∀ w, Within C.size (1 / (2 * M)) w xs → Basin ps tx C.size xs M B w) (he : ExactSolver C.size C.solve)
    {k : ℕ} {st : NRState Stamper} (h : RunReach C Stamper.ops m vInit tx k st) (hN : Nearing C ps m tx xs M k st)
    (F : RunFacts C Stamper.ops m vInit tx k st) :
    ‖cutTo C.size F.vNext - cutTo C.size xs‖ ≤ 1 / M * (1 / 2) ^ 2 ^ (k + 1) ∧
    ‖equationsMap ps tx C.size (cutTo C.size F.vNext)‖ ≤ F.rd.maxResidual ∧
    (st.history ++ [F.rd.maxResidual]).Pairwise (fun a b => b ≤ a) ∧
    F.rd.maxResidual ≤ B * (1 / M * (1 / 2) ^ 2 ^ k) ∧
    ‖cutTo C.size F.vNext - cutTo C.size xs‖ ≤ M * (B * F.rd.maxResidual) ^ 2 := by
  have hB := hbasin _ (hN.within hM)
  have hm := F.mat
  unfold Builder.toMatrix at hm
  split_ifs at hm
  injection hm with hm
  have hs := he _ _ _ F.sol
  rw [← hm] at hs
  obtain ⟨s1, s2⟩ := hB.step _ ((near_system hr hit hn h hN hB F.vNext).1 hs)
  have hres := near_residual hr hit hn h F
  refine ⟨s1.trans ?_, by rw [hres]; exact s2, ?_, ?_, ?_⟩
  · calc M * ‖cutTo C.size st.vPrev - cutTo C.size xs‖ ^ 2 ≤ M * (1 / M * (1 / 2) ^ 2 ^ k) ^ 2 := by
          have := hN.near
          gcongr
      _ = 1 / M * (1 / 2) ^ 2 ^ (k + 1) := by
          rw [mul_pow, ← pow_mul, pow_succ 2 k]; field_simp
  · rw [List.pairwise_append]
    refine ⟨hN.falling, List.pairwise_singleton _ _, fun a ha b hb => ?_⟩
    rw [List.mem_singleton] at hb
    rw [hb, hres]; exact hN.above a ha
  · rw [hres]
    exact hB.bound.trans (mul_le_mul_of_nonneg_left hN.near hB0.le)
  · rw [hres]
    refine s1.trans ?_
    have := hB.tight
    gcongr

/-- A pass inside the basin goes through and either ends the run with success or stays inside the basin. -/
theorem near_pass (hr : Ready opt ps m v0 it0) (hit : it0 ≠ 0) (hn : Below ps C.size) (hM : 0 < M) (hB0 : 0 < B)
    (hbasin : ∀ w, Within C.size (1 / (2 * M)) w xs → Basin ps tx C.size xs M B w) (hs : C.solve = idealSolve C.size)
    (hd : C.debug = true → ∀ p ∈ ps, p.RowsBelow C.size)
    (hlim : ∀ f, C.limit = some f → ∀ a b, Within C.size (1 / (2 * M)) a xs → Within C.size (1 / (2 * M)) b xs → f a b = a) (hsz : C.size ≠ 0)
    {k : ℕ} {st : NRState Stamper} (h : RunReach C Stamper.ops m vInit tx k st) (hN : Nearing C ps m tx xs M k st) :
    (∃ r st', runPass C Stamper.ops m vInit tx k st = .ok (.ret r st') ∧ r.success = true ∧ r.iter = k ∧
      ‖cutTo C.size r.v - cutTo C.size xs‖ ≤ 1 / M * (1 / 2) ^ 2 ^ (k + 1) ∧
      ‖cutTo C.size r.v - cutTo C.size xs‖ ≤ M * (B * C.tolerance) ^ 2) ∨
    (∃ st', runPass C Stamper.ops m vInit tx k st = .ok (.next st') ∧ Nearing C ps m tx xs M (k + 1) st' ∧
      ¬ B * (1 / M * (1 / 2) ^ 2 ^ k) < C.tolerance) := by
  have he : ExactSolver C.size C.solve := by rw [hs]; exact idealSolve_exact _
  have hB := hbasin _ (hN.within hM)
  obtain ⟨p, hp⟩ := fill_through hr hit hn hs hd hsz h hB.regular hB.diff hB.inj (hN.current hB)
  obtain ⟨F, hF⟩ := nrPass_cases hp
  obtain ⟨f1, f2, f3, f4, f5⟩ := near_facts hr hit hn hM hB0 hbasin he h hN F
  rcases hF with ⟨hb, _⟩ | ⟨_, ht, rfl⟩ | ⟨_, ht, rfl⟩
  · exact absurd hb (falling_not_bails f3)
  · refine Or.inl ⟨_, _, hp, rfl, rfl, f1, f5.trans ?_⟩
    have h0 : 0 ≤ F.rd.maxResidual := by rw [near_residual hr hit hn h F]; exact norm_nonneg _
    gcongr
  · refine Or.inr ⟨_, hp, ?_, fun hlt => ht (lt_of_le_of_lt f4 hlt)⟩
    have hc : F.carry = F.vNext := by
      unfold PassFacts.carry
      split
      · rename_i f hf
        split_ifs
        · refine hlim f hf _ _ ((within_iff (by positivity) _ _).2 (f1.trans ?_)) (hN.within hM)
          calc 1 / M * (1 / 2) ^ 2 ^ (k + 1) ≤ 1 / M * (1 / 2) ^ 1 := by
                have : (1 / 2 : ℝ) ^ 2 ^ (k + 1) ≤ (1 / 2) ^ 1 :=
                  pow_le_pow_of_le_one (by norm_num) (by norm_num) (Nat.one_le_two_pow)
                gcongr
            _ = 1 / (2 * M) := by rw [pow_one]; field_simp
        · rfl
      · rfl
    refine ⟨by rw [hc]; exact f1, f3, fun a ha => ?_, ?_⟩
    · rw [hc]
      refine f2.trans ?_
      rcases List.mem_append.1 ha with ha | ha
      · exact (List.pairwise_append.1 f3).2.2 a ha _ (List.mem_singleton_self _)
      · rw [List.mem_singleton] at ha; rw [ha]
    · obtain ⟨its, h1, h2⟩ := hN.builder
      obtain ⟨i1, _, i3⟩ := reach_at hr h
      obtain ⟨j1, j2⟩ := mid_at i1 i3
      rw [linPoint_fresh hit] at j2
      have p2 : (Stamper.ops.stampNonlinear st.stamper st.vPrev k).2.Perm (ps.flatMap fun p => p.emitted tx st.vPrev false) :=
        emit_perm j1 j2 false
      refine ⟨its ++ [tripsOf (Stamper.ops.stampNonlinear st.stamper st.vPrev k).2], fun it hit => ?_, fun ts => ?_⟩
      · rcases List.mem_append.1 hit with hit | hit
        · exact h1 it hit
        · rw [List.mem_singleton] at hit
          rw [hit, nz_perm p2, filled_trips]; exact hB.filled
      · have e : F.done.Y = Builder.newton (tripsOf (Stamper.ops.stampLinear m tx).2)
            (its ++ [tripsOf (Stamper.ops.stampNonlinear st.stamper st.vPrev k).2]) := h2 _
        show (F.done.Y.clear _).stamps ts = _
        rw [e]
        conv_rhs => unfold Builder.newton; rw [List.foldl_append]
        rfl

theorem near_start (hM : 0 < M) (h : Within C.size (1 / (2 * M)) vInit xs) :
    Nearing C ps m tx xs M 0 (nrStart Stamper.ops m vInit tx) := by
  refine ⟨?_, List.Pairwise.nil, by simp [nrStart], [], by simp, fun ts => rfl⟩
  have := (within_iff (by positivity) vInit xs).1 h
  refine this.trans (le_of_eq ?_)
  rw [pow_zero, pow_one]
  field_simp

/-- A run from inside the basin. -/
theorem near_run (hr : Ready opt ps m v0 it0) (hit : it0 ≠ 0) (hn : Below ps C.size) (hM : 0 < M) (hB0 : 0 < B)
    (hbasin : ∀ w, Within C.size (1 / (2 * M)) w xs → Basin ps tx C.size xs M B w) (hs : C.solve = idealSolve C.size)
    (hd : C.debug = true → ∀ p ∈ ps, p.RowsBelow C.size)
    (hlim : ∀ f, C.limit = some f → ∀ a b, Within C.size (1 / (2 * M)) a xs → Within C.size (1 / (2 * M)) b xs → f a b = a) (hsz : C.size ≠ 0) (hv : Within C.size (1 / (2 * M)) vInit xs) {K : ℕ}
    (hK : B * (1 / M * (1 / 2) ^ 2 ^ K) < C.tolerance) (hmax : K < C.maxIters) :
    ∃ r st, nrRun C Stamper.ops m vInit tx = .ok (r, st) ∧ r.success = true ∧ r.iter ≤ K ∧
      ‖cutTo C.size r.v - cutTo C.size xs‖ ≤ 1 / M * (1 / 2) ^ 2 ^ (r.iter + 1) ∧
      ‖cutTo C.size r.v - cutTo C.size xs‖ ≤ M * (B * C.tolerance) ^ 2 := by
  have step := fun {k : ℕ} {st : NRState Stamper} (h : RunReach C Stamper.ops m vInit tx k st) (hN : Nearing C ps m tx xs M k st) =>
    near_pass hr hit hn hM hB0 hbasin hs hd hlim hsz h hN
  have main : ∀ j ≤ K, (∃ r st, nrRun C Stamper.ops m vInit tx = .ok (r, st) ∧ r.success = true ∧ r.iter ≤ K ∧
      ‖cutTo C.size r.v - cutTo C.size xs‖ ≤ 1 / M * (1 / 2) ^ 2 ^ (r.iter + 1) ∧
      ‖cutTo C.size r.v - cutTo C.size xs‖ ≤ M * (B * C.tolerance) ^ 2) ∨
      ∃ st, RunReach C Stamper.ops m vInit tx j st ∧ Nearing C ps m tx xs M j st := by
    intro j hj
    induction j with
    | zero => exact Or.inr ⟨_, .start, near_start hM hv⟩
    | succ j ih =>
      rcases ih (by omega) with h | ⟨st, h1, h2⟩
      · exact Or.inl h
      · rcases step h1 h2 with ⟨r, st', g1, g2, g3, g4, g5⟩ | ⟨st', g1, g2, _⟩
        · exact Or.inl ⟨r, st', nrRun_of_ret (by omega) h1 g1, g2, by omega, by rw [g3]; exact g4, g5⟩
        · exact Or.inr ⟨st', .step h1 g1, g2⟩
  rcases main K le_rfl with h | ⟨st, h1, h2⟩
  · exact h
  · rcases step h1 h2 with ⟨r, st', g1, g2, g3, g4, g5⟩ | ⟨st', _, _, g3⟩
    · exact ⟨r, st', nrRun_of_ret hmax h1 g1, g2, by omega, by rw [g3]; exact g4, g5⟩
    · exact absurd hK g3

/-! ### Voltage limiting near a solution -/

theorem offLimits_margin {n : ℕ} {bs : List (ℕ × ℕ)} {xs : ℕ → ℝ} (h : OffLimits n bs xs) :
    ∃ ρ > 0, ρ ≤ 1 / 2 ∧ ∀ b ∈ bs, |xs b.1| + ρ ≤ 2 ∧ |xs b.2| + ρ ≤ 2 := by
  induction bs with
  | nil => exact ⟨1 / 2, by norm_num, le_rfl, by simp⟩
  | cons b bs ih =>
    obtain ⟨ρ, h1, h2, h3⟩ := ih fun c hc => h c (by simp [hc])
    obtain ⟨_, _, h4, h5⟩ := h b (by simp)
    refine ⟨min ρ (min (2 - |xs b.1|) (2 - |xs b.2|)), lt_min h1 (lt_min (by linarith) (by linarith)), (min_le_left _ _).trans h2, ?_⟩
    intro c hc
    have m1 : min ρ (min (2 - |xs b.1|) (2 - |xs b.2|)) ≤ ρ := min_le_left _ _
    have m2 : min ρ (min (2 - |xs b.1|) (2 - |xs b.2|)) ≤ 2 - |xs b.1| := (min_le_right _ _).trans (min_le_left _ _)
    have m3 : min ρ (min (2 - |xs b.1|) (2 - |xs b.2|)) ≤ 2 - |xs b.2| := (min_le_right _ _).trans (min_le_right _ _)
    rcases List.mem_cons.1 hc with rfl | hc
    · exact ⟨by linarith, by linarith⟩
    · obtain ⟨a1, a2⟩ := h3 c hc
      exact ⟨by linarith, by linarith⟩

theorem limiting_idle {n : ℕ} {bs : List (ℕ × ℕ)} {xs : ℕ → ℝ} (h : OffLimits n bs xs) :
    ∃ ρ > 0, ∀ a b, Within n ρ a xs → Within n ρ b xs → applyLimiting bs a b = a := by
  obtain ⟨ρ, h1, h2, h3⟩ := offLimits_margin h
  refine ⟨ρ, h1, fun a b ha hb => ?_⟩
  funext i
  unfold applyLimiting
  split_ifs with hm
  · obtain ⟨c, hc, he⟩ := List.any_eq_true.1 hm
    have hi : i < n ∧ |xs i| + ρ ≤ 2 := by
      obtain ⟨i1, i2, _⟩ := h c hc
      obtain ⟨k1, k2⟩ := h3 c hc
      simp at he
      rcases he with rfl | rfl
      · exact ⟨i1, k1⟩
      · exact ⟨i2, k2⟩
    have e1 := abs_le.1 (ha i hi.1)
    have e2 := abs_le.1 (hb i hi.1)
    have e3 := le_abs_self (xs i)
    have e4 := neg_abs_le (xs i)
    obtain ⟨_, h4⟩ := hi
    unfold clip
    rw [max_eq_left (by linarith : (-1 : ℝ) ≤ a i - b i), min_eq_left (by linarith : a i - b i ≤ 1), add_sub_cancel,
      max_eq_left (by linarith : (-2 : ℝ) ≤ a i), min_eq_left (by linarith : a i ≤ 2)]
  · rfl

/-! ### A condition for steady fill -/

theorem find_key {d : List (Sym × Ex)} (hn : (d.map Prod.fst).Nodup) {y : Sym} {e : Ex} (h : (y, e) ∈ d) :
    d.find? (fun kv => kv.1 = y) = some (y, e) := by
  induction d with
  | nil => simp at h
  | cons kv d ih =>
    simp only [List.map_cons, List.nodup_cons] at hn
    rcases List.mem_cons.1 h with rfl | h
    · simp
    · have : kv.1 ≠ y := fun hk => hn.1 (hk ▸ List.mem_map.2 ⟨(y, e), h, rfl⟩)
      rw [List.find?_cons_of_neg (by simpa using this)]
      exact ih hn.2 h

/-- A matrix stamp is a partial derivative of an equation of its part. -/
theorem stamp_value {p : Placed} {s : Stamp} (hs : s ∈ p.stamps) {c : ℕ} (hc : s.col = some c) :
    ∃ x ∈ p.details.firstOrder, ∃ y ∈ p.details.seg.vars, p.details.row x = some s.row ∧ p.details.varMap y = some c ∧
      ∀ t v, p.Regular t v → eval (p.env t v) s.expr.entry.expr = eval (p.env t v) (diff y (p.details.seg.derivative x)) := by
  unfold Placed.stamps at hs
  obtain ⟨x, hx, h⟩ := List.mem_flatMap.1 hs
  obtain ⟨e, he, h⟩ := List.mem_filterMap.1 h
  unfold Placed.place at h
  split at h
  · simp at h
  · rename_i r hrow
    split at h
    · injection h with h; subst h; simp at hc
    · rename_i y hce
      obtain ⟨c', hc', rfl⟩ := Option.map_eq_some_iff.1 h
      simp only [Option.some.injEq] at hc
      subst hc
      have hcols := C01_entry_columns p.details.seg.vars (p.details.seg.derivative x)
      refine ⟨x, hx, y, hcols.1 e he y hce, hrow, hc', fun t v hr => ?_⟩
      rw [← entrySum_eq_diff hr x (hcols.1 e he y hce)]
      have h1 := mem_evals_col he hce
      have h2 := entrySum_some (p.env t v) p.details.seg.vars _ hcols.2 y
      refine Eq.trans ?_ h2.symm
      rw [← dictVal_coeff]
      unfold dictVal
      rw [find_key hcols.2 h1.1]

/-- A nonlinear matrix stamp of the part is zero only if it is zero wherever the part is regular. -/
def Placed.Filled (p : Placed) (t : ℝ) (v : ℕ → ℝ) : Prop :=
  ∀ s ∈ p.stamps, s.expr.entry.isLinear = false → s.col ≠ none →
    eval (p.env t v) s.expr.entry.expr ≠ 0 ∨ ∀ w, p.Regular t w → eval (p.env t w) s.expr.entry.expr = 0

theorem filledStamps_congr {ps : List Placed} {t : ℝ} {v w : ℕ → ℝ}
    (h : ∀ p ∈ ps, ∀ s ∈ p.stamps, s.expr.entry.isLinear = false → s.col ≠ none →
      (eval (p.env t v) s.expr.entry.expr ≠ 0 ↔ eval (p.env t w) s.expr.entry.expr ≠ 0)) : filledStamps ps t v = filledStamps ps t w := by
  unfold filledStamps
  induction ps with
  | nil => rfl
  | cons p l ih =>
    rw [List.flatMap_cons, List.flatMap_cons, List.filter_append, List.filter_append, List.length_append, List.length_append,
      ih fun q hq => h q (by simp [hq])]
    congr 1
    unfold Placed.emitted
    rw [List.filter_map, List.filter_map, List.length_map, List.length_map]
    congr 1
    refine List.filter_congr fun s hs => ?_
    obtain ⟨hs1, hs2⟩ := List.mem_filter.1 hs
    have := h p (by simp) s hs1 (by simpa using hs2)
    cases hc : s.col with
    | none => simp [hc]
    | some c => simpa [hc] using not_iff_not.1 (this (by simp [hc]))

/-- If the nonlinear matrix stamps that are zero at a vector are always zero, the fill is steady around it. -/
theorem steady_of_nonzero {ps : List Placed} {tx : ℝ} {n : ℕ} {xs : ℕ → ℝ} (hn : Below ps n) (hr : ∀ p ∈ ps, p.Regular tx xs)
    (h : ∀ p ∈ ps, p.Filled tx xs) : SteadyFill n ps tx xs := by
  have hr' := regular_agree hn tx (stretch_agree (n := n) xs) hr
  have hev : ∀ᶠ x in nhds (cutTo n xs), ∀ p ∈ ps, ∀ s ∈ p.stamps, s.expr.entry.isLinear = false → s.col ≠ none →
      (eval (p.env tx (stretch n x)) s.expr.entry.expr ≠ 0 ↔ eval (p.env tx xs) s.expr.entry.expr ≠ 0) := by
    have hone : ∀ p ∈ ps, ∀ s ∈ p.stamps, ∀ᶠ x in nhds (cutTo n xs), s.expr.entry.isLinear = false → s.col ≠ none →
        (eval (p.env tx (stretch n x)) s.expr.entry.expr ≠ 0 ↔ eval (p.env tx xs) s.expr.entry.expr ≠ 0) := by
      intro p hp s hs
      by_cases hl : s.expr.entry.isLinear = false ∧ s.col ≠ none
      · rcases h p hp s hs hl.1 hl.2 with hne | hzero
        · obtain ⟨c, hc⟩ := Option.ne_none_iff_exists'.1 hl.2
          obtain ⟨x, _, y, _, _, _, hval⟩ := stamp_value hs hc
          have hreg := hr' p hp
          have h0 : eval (p.env tx (stretch n (cutTo n xs))) (diff y (p.details.seg.derivative x)) ≠ 0 := by
            rw [← hval _ _ hreg, ← env_agree (hn p hp) tx (stretch_agree xs)]
            exact hne
          have hc := (eval_smooth (env_smooth hreg.disj tx n (cutTo n xs)) (defined_diff y (defined_diff x hreg.defined))).continuousAt
          filter_upwards [hc.eventually_ne h0, regular_near hr'] with z h1 h2 _ _
          rw [hval _ _ (h2 p hp)]; exact iff_of_true h1 hne
        · filter_upwards [regular_near hr'] with z h2 _ _
          rw [hzero _ (h2 p hp), hzero _ (hr p hp)]
      · exact Filter.Eventually.of_forall fun _ h1 h2 => absurd ⟨h1, h2⟩ hl
    have hlist : ∀ l : List Placed, (∀ p ∈ l, p ∈ ps) → ∀ᶠ x in nhds (cutTo n xs), ∀ p ∈ l, ∀ s ∈ p.stamps,
        s.expr.entry.isLinear = false → s.col ≠ none →
        (eval (p.env tx (stretch n x)) s.expr.entry.expr ≠ 0 ↔ eval (p.env tx xs) s.expr.entry.expr ≠ 0) := by
      intro l hl
      induction l with
      | nil => exact Filter.Eventually.of_forall fun _ p hp => by simp at hp
      | cons p l ih =>
        have hp := hl p (by simp)
        have hst : ∀ k : List Stamp, (∀ s ∈ k, s ∈ p.stamps) → ∀ᶠ x in nhds (cutTo n xs), ∀ s ∈ k,
            s.expr.entry.isLinear = false → s.col ≠ none →
            (eval (p.env tx (stretch n x)) s.expr.entry.expr ≠ 0 ↔ eval (p.env tx xs) s.expr.entry.expr ≠ 0) := by
          intro k hk
          induction k with
          | nil => exact Filter.Eventually.of_forall fun _ s hs => by simp at hs
          | cons s k ih2 =>
            filter_upwards [hone p hp s (hk s (by simp)), ih2 fun a ha => hk a (by simp [ha])] with z h1 h2 a ha
            rcases List.mem_cons.1 ha with rfl | ha
            · exact h1
            · exact h2 a ha
        filter_upwards [hst p.stamps (fun _ h => h), ih fun q hq => hl q (by simp [hq])] with z h1 h2 q hq
        rcases List.mem_cons.1 hq with rfl | hq
        · exact h1
        · exact h2 q hq
    exact hlist ps fun _ h => h
  obtain ⟨η, hη, hsub⟩ := Metric.nhds_basis_closedBall.eventually_iff.1 hev
  refine ⟨η, hη, fun w hw => filledStamps_congr fun p hp s hs h1 h2 => ?_⟩
  have hw' := (within_iff hη.le w xs).1 hw
  rw [env_agree (hn p hp) tx (stretch_agree (n := n) w)]
  exact hsub (by rw [Metric.mem_closedBall, dist_eq_norm]; exact hw') p hp s hs h1 h2

end Verif
