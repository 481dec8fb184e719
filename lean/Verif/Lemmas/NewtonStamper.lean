import Verif.Lemmas.Newton
import Verif.Lemmas.Jacobian
import Verif.Props.Matrix
import Verif.Props.Residuals

/-! The Newton loop on the modelled `MatrixStamper`. -/

namespace Verif

open Ex

/-- A built stamper whose tables were last filled with `v0` under iteration number `it0`. -/
structure Ready (opt : Bool) (ps : List Placed) (m : Stamper) (v0 : ℕ → ℝ) (it0 : ℤ) : Prop where
  frozen : Frozen opt ps m
  at_ : ∀ t, (m.updateTx t).At v0 t it0

theorem Ready.of_at {opt : Bool} {ps : List Placed} {m : Stamper} {v0 : ℕ → ℝ} {t0 : ℝ} {it0 : ℤ} (hf : Frozen opt ps m)
    (h : m.At v0 t0 it0) : Ready opt ps m v0 it0 := ⟨hf, fun t => At.updateTx h t⟩

/-- A freshly built stamper (`homotopycontroller.py` 19): iteration number `-1`. -/
theorem build_ready (opt : Bool) (ps : List Placed) (hw : ∀ p ∈ ps, p.WellPlaced opt) :
    ∃ m, Stamper.build opt ps = .ok m ∧ Ready opt ps m (fun _ => 0) (-1) := by
  obtain ⟨m, h1, h2, h3⟩ := build_spec opt ps hw
  exact ⟨m, h1, h2, h3⟩

/-- Linear entries are the same at every vector. -/
theorem emitted_linear {p : Placed} (hdisj : ∀ x ∈ p.details.seg.vars, x ∉ p.details.seg.constants) (t : ℝ) (v w : ℕ → ℝ) :
    p.emitted t v true = p.emitted t w true := by
  unfold Placed.emitted
  apply List.map_congr_left
  intro s hs
  obtain ⟨h1, h2⟩ := List.mem_filter.1 hs
  have hl : s.expr.entry.isLinear = true := by simpa using h2
  unfold Placed.stamps at h1
  obtain ⟨x, hx, h3⟩ := List.mem_flatMap.1 h1
  obtain ⟨e, he, h4⟩ := List.mem_filterMap.1 h3
  have hse : s.expr.entry = e := by
    unfold Placed.place at h4
    split at h4
    · simp at h4
    · split at h4
      · injection h4 with h4; subst h4; rfl
      · obtain ⟨c, _, rfl⟩ := Option.map_eq_some_iff.1 h4; rfl
  rw [hse] at hl ⊢
  have := C61_linear_entries_do_not_depend_on_variables p.details.seg.vars (p.details.seg.derivative x) e he hl
    (p.env t v) (p.env t w) (fun y hy => by
      unfold Placed.env Part.env Placed.point Placed.part; simp [hy])
  rw [this]

/-- The vector a pass linearises at: the one it was given, unless the tables already carry its iteration number. -/
noncomputable def linPoint (v0 : ℕ → ℝ) (it0 : ℤ) (k : ℕ) (st : NRState Stamper) : ℕ → ℝ :=
  if k = 0 ∧ it0 = 0 then v0 else st.vPrev

variable {C : NRContext} {opt : Bool} {ps : List Placed} {m : Stamper} {v0 : ℕ → ℝ} {it0 : ℤ} {vInit : ℕ → ℝ} {tx : ℝ}

/-- The stamper in a pass after `stamp_nonlinear`. -/
def midStamper (k : ℕ) (st : NRState Stamper) : Stamper := st.stamper.updateV st.vPrev k

theorem mid_at {k : ℕ} {st : NRState Stamper} (hf : Frozen opt ps st.stamper)
    (h : (k = 0 ∧ st.stamper.At v0 tx it0) ∨ (0 < k ∧ ∃ w, st.stamper.At w tx ((k : ℤ) - 1))) :
    Frozen opt ps (midStamper k st) ∧ (midStamper k st).At (linPoint v0 it0 k st) tx k := by
  refine ⟨hf.updateV _ _, ?_⟩
  unfold midStamper linPoint
  rcases h with ⟨rfl, h⟩ | ⟨hk, w, h⟩
  · by_cases hz : it0 = 0
    · subst hz
      simp only [true_and, if_true, Nat.cast_zero]
      rw [At.updateV_same h]; exact h
    · simp only [hz, and_false, if_false, Nat.cast_zero]
      exact At.updateV hf h _ (Ne.symm hz)
  · have : ¬ (k = 0 ∧ it0 = 0) := by omega
    rw [if_neg this]
    exact At.updateV hf h _ (by omega)

theorem done_stamper {jl : ℕ → ℝ} {li k : ℕ} {st : NRState Stamper} (F : PassFacts C Stamper.ops tx jl li k st) {w : ℕ → ℝ}
    (h : (midStamper k st).At w tx k) : F.done.stamper = (midStamper k st).updateTx tx := by
  show ((midStamper k st).updateV F.vNext k).updateTx tx = _
  rw [At.updateV_same h]

theorem reach_at (hr : Ready opt ps m v0 it0) {k : ℕ} {st : NRState Stamper} (h : RunReach C Stamper.ops m vInit tx k st) :
    Frozen opt ps st.stamper ∧ (k = 0 → st.vPrev = vInit) ∧
    ((k = 0 ∧ st.stamper.At v0 tx it0) ∨ (0 < k ∧ ∃ w, st.stamper.At w tx ((k : ℤ) - 1))) := by
  induction h with
  | start => exact ⟨hr.frozen.updateTx tx, fun _ => rfl, Or.inl ⟨rfl, hr.at_ tx⟩⟩
  | @step k st st' _ hp ih =>
    obtain ⟨i1, _, i3⟩ := ih
    obtain ⟨j1, j2⟩ := mid_at i1 i3
    obtain ⟨F, ⟨_, hF⟩ | ⟨_, _, hF⟩ | ⟨hb, ht, hF⟩⟩ := nrPass_cases hp
    · simp at hF
    · simp at hF
    · injection hF with hF
      subst hF
      have e := done_stamper F j2
      refine ⟨?_, by omega, Or.inr ⟨by omega, linPoint v0 it0 k st, ?_⟩⟩
      · show Frozen opt ps F.done.stamper; rw [e]; exact j1.updateTx tx
      · show F.done.stamper.At _ _ _
        rw [e]
        have := At.updateTx j2 tx
        simpa using this

/-- What pass `k` of a run sees: `lin` and `cur` are the emitted stamps, all evaluated at the linearisation point. -/
theorem pass_spec (hr : Ready opt ps m v0 it0) {k : ℕ} {st : NRState Stamper} (h : RunReach C Stamper.ops m vInit tx k st)
    (F : RunFacts C Stamper.ops m vInit tx k st) :
    let w := linPoint v0 it0 k st
    let lin := (Stamper.ops.stampLinear m tx).2
    let cur := (Stamper.ops.stampNonlinear st.stamper st.vPrev k).2
    lin.Perm (ps.flatMap fun p => p.emitted tx w true) ∧ cur.Perm (ps.flatMap fun p => p.emitted tx w false) ∧
    (∀ i < C.size, |networkEq ps tx w i| ≤ F.rd.maxResidual) ∧
    (∃ i < C.size, |networkEq ps tx w i| = F.rd.maxResidual) ∧
    F.done.stamper.At w tx k ∧ Frozen opt ps F.done.stamper := by
  intro w lin cur
  obtain ⟨i1, _, i3⟩ := reach_at hr h
  obtain ⟨j1, j2⟩ := mid_at i1 i3
  have hlin : lin.Perm (ps.flatMap fun p => p.emitted tx w true) := by
    have := emit_perm (hr.frozen.updateTx tx) (hr.at_ tx) true
    have e : (ps.flatMap fun p => p.emitted tx v0 true) = ps.flatMap fun p => p.emitted tx w true := by
      have hd : ∀ p ∈ ps, p.emitted tx v0 true = p.emitted tx w true := fun p hp =>
        emitted_linear (fun x hx hc =>
          (List.nodup_append.1 (hr.frozen.wp p hp).params).2.2 x hc x hx rfl) tx v0 w
      exact List.flatMap_congr hd
    rw [e] at this
    exact this
  have hcur : cur.Perm (ps.flatMap fun p => p.emitted tx w false) := emit_perm j1 j2 false
  have hres := F.res
  have e1 : (Stamper.ops.residuals (Stamper.ops.stampNonlinear st.stamper st.vPrev k).1 tx F.vNext k).2 =
      ((midStamper k st).updateTx tx).contributions := by
    show (((midStamper k st).updateV F.vNext k).updateTx tx).contributions = _
    rw [At.updateV_same j2]
  rw [e1] at hres
  have hperm := contributions_perm (j1.updateTx tx) (At.updateTx j2 tx)
  obtain ⟨-, c2, c3, c4, -⟩ := C33_residual_report _ _ _ hres
  have hrow : ∀ i, rowTotal ((midStamper k st).updateTx tx).contributions i = networkEq ps tx w i := fun i => rowTotal_perm hperm i
  refine ⟨hlin, hcur, fun i hi => ?_, ⟨F.rd.maxResidualIdx, c3, ?_⟩, ?_, ?_⟩
  · rw [← hrow]; exact c2 i hi
  · rw [← hrow]; exact c4
  · rw [done_stamper F j2]; exact At.updateTx j2 tx
  · rw [done_stamper F j2]; exact j1.updateTx tx

/-! ### The matrix builder in the loop -/

theorem clear_usage (b : Builder) : b.clear b.usage = b := rfl

variable {σ : Type} {O : StamperOps σ} {m' : σ}

theorem reach_builder {k : ℕ} {st : NRState σ} (h : RunReach C O m' vInit tx k st) :
    ∃ its, its.length = k ∧
      ∀ ts, st.Y.stamps ts = Builder.newton (tripsOf (O.stampLinear m' tx).2) (its ++ [ts]) := by
  induction h with
  | start =>
    refine ⟨[], rfl, fun ts => ?_⟩
    rfl
  | @step k st st' _ hp ih =>
    obtain ⟨its, hl, hits⟩ := ih
    obtain ⟨F, ⟨_, hF⟩ | ⟨_, _, hF⟩ | ⟨hb, ht, hF⟩⟩ := nrPass_cases hp
    · simp at hF
    · simp at hF
    · injection hF with hF
      subst hF
      refine ⟨its ++ [tripsOf (O.stampNonlinear st.stamper st.vPrev k).2], by simp [hl], fun ts => ?_⟩
      have e : F.done.Y = Builder.newton (tripsOf (O.stampLinear m' tx).2) (its ++ [tripsOf (O.stampNonlinear st.stamper st.vPrev k).2]) :=
        hits _
      show (F.done.Y.clear _).stamps ts = _
      rw [e]
      conv_rhs => unfold Builder.newton; rw [List.foldl_append]
      rfl

theorem matOf_perm {a b : List Trip} (h : a.Perm b) (i j : ℕ) : Builder.matOf a i j = Builder.matOf b i j :=
  ((h.filter _).map _).sum_eq

theorem tripsOf_perm {a b : List (ℕ × Option ℕ × ℝ)} (h : a.Perm b) : (tripsOf a).Perm (tripsOf b) := h.filterMap _

theorem tripsOf_append (a b : List (ℕ × Option ℕ × ℝ)) : tripsOf (a ++ b) = tripsOf a ++ tripsOf b := by
  simp [tripsOf]

theorem jOf_append (a b : List (ℕ × Option ℕ × ℝ)) (i : ℕ) : jOf (a ++ b) i = jOf a i + jOf b i := by
  simp [jOf]

/-- In the first iteration the matrix is exactly the stamps. -/
theorem first_matrix {st : NRState σ} (h : RunReach C O m' vInit tx 0 st) (F : RunFacts C O m' vInit tx 0 st) (i j : ℕ) :
    F.A i j = Builder.matOf (tripsOf ((O.stampLinear m' tx).2 ++ (O.stampNonlinear st.stamper st.vPrev 0).2)) i j := by
  obtain ⟨its, hl, hits⟩ := reach_builder h
  have : its = [] := List.length_eq_zero_iff.1 hl
  subst this
  have hm := F.mat
  rw [hits] at hm
  obtain ⟨A, hA, h2⟩ := C04_matrix_current_partial (tripsOf (O.stampLinear m' tx).2) []
    (tripsOf (O.stampNonlinear st.stamper st.vPrev 0).2) (by simp)
  unfold Builder.toMatrix at hm hA
  split_ifs at hm
  simp at hA
  injection hm with hm
  rw [← hm, tripsOf_append]
  have := h2 i j
  rw [← hA] at this
  exact this

end Verif
