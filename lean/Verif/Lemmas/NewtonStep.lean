import Verif.Lemmas.NewtonStamper
import Verif.Spec.LinearSolve
import Verif.Spec.NewtonStep

/-! The linear system of one pass, as a Newton step. -/

namespace Verif

open Ex

theorem dirRow_sub (x w : ℕ → ℝ) (l : List (ℕ × Option ℕ × ℝ)) (i : ℕ) :
    dirRow (fun k => x k - w k) l i = dirRow x l i - dirRow w l i := by
  induction l with
  | nil => simp [dirRow]
  | cons e l ih =>
    have h : ∀ u : ℕ → ℝ, dirRow u (e :: l) i = dirRow u [e] i + dirRow u l i := fun u => dirRow_append u [e] l i
    rw [h, h, h, ih]
    have : dirRow (fun k => x k - w k) [e] i = dirRow x [e] i - dirRow w [e] i := by
      unfold dirRow dirVal
      obtain ⟨r, c, z⟩ := e
      by_cases hr : r = i
      · cases c <;> simp [hr]; ring
      · simp [hr]
    rw [this]; ring

/-- The system assembled at `w`, applied to any `x`: the equations at `w` plus their derivative towards `x`. -/
theorem newton_row {ps : List Placed} {t : ℝ} {w : ℕ → ℝ} (hr : ∀ p ∈ ps, p.Regular t w) {n : ℕ}
    (hn : ∀ p ∈ ps, ∀ x ∈ p.details.seg.vars, ∀ c, p.details.varMap x = some c → c < n)
    {l : List (ℕ × Option ℕ × ℝ)}
    (hl : l.Perm ((ps.flatMap fun p => p.emitted t w true) ++ (ps.flatMap fun p => p.emitted t w false)))
    (x : ℕ → ℝ) (i : ℕ) :
    ∃ d, HasDerivAt (fun s => networkEq ps t (along w (fun k => x k - w k) s) i) d 0 ∧
      (∑ j ∈ Finset.range n, Builder.matOf (tripsOf l) i j * x j) - jOf l i = networkEq ps t w i + d := by
  refine ⟨_, network_jacobian ps t w hr _ i, ?_⟩
  have hc : ∀ e ∈ l, ∀ c, e.2.1 = some c → c < n := fun e he => emitted_cols ps t w n hn e (hl.mem_iff.1 he)
  rw [sum_matOf n x l hc i, ← dirRow_perm _ hl, dirRow_sub, dirRow_eq, dirRow_eq w, ← network_row ps t w hr i,
    ← linRow_perm w hl]
  ring

/-- `newton_row` for a named derivative. -/
theorem newton_solves {ps : List Placed} {t : ℝ} {w : ℕ → ℝ} (hr : ∀ p ∈ ps, p.Regular t w) {n : ℕ}
    (hn : ∀ p ∈ ps, ∀ x ∈ p.details.seg.vars, ∀ c, p.details.varMap x = some c → c < n)
    {l : List (ℕ × Option ℕ × ℝ)}
    (hl : l.Perm ((ps.flatMap fun p => p.emitted t w true) ++ (ps.flatMap fun p => p.emitted t w false)))
    {x d : ℕ → ℝ} (hd : ∀ i, HasDerivAt (fun s => networkEq ps t (along w (fun k => x k - w k) s) i) (d i) 0) :
    Solves n (Builder.matOf (tripsOf l)) (jOf l) x ↔ ∀ i < n, networkEq ps t w i + d i = 0 := by
  unfold Solves
  have h : ∀ i, (∑ j ∈ Finset.range n, Builder.matOf (tripsOf l) i j * x j) - jOf l i = networkEq ps t w i + d i := fun i => by
    obtain ⟨d', h1, h2⟩ := newton_row hr hn hl x i
    rw [h2, h1.unique (hd i)]
  constructor
  · intro hs i hi
    rw [← h i, hs i hi, sub_self]
  · intro hs i hi
    have := h i
    rw [hs i hi] at this
    linarith

variable {C : NRContext} {σ : Type} {O : StamperOps σ} {m' : σ} {vInit : ℕ → ℝ} {tx : ℝ}

/-- In debug mode a matrix is only returned if nothing stale is in it. -/
theorem debug_matrix (hd : C.debug = true) {k : ℕ} {st : NRState σ} (h : RunReach C O m' vInit tx k st)
    (F : RunFacts C O m' vInit tx k st) (i j : ℕ) :
    F.A i j = Builder.matOf (tripsOf ((O.stampLinear m' tx).2 ++ (O.stampNonlinear st.stamper st.vPrev k).2)) i j := by
  obtain ⟨its, hl, hits⟩ := reach_builder h
  have hm := F.mat
  rw [hits, hd] at hm
  obtain ⟨h1, -, -, -, h5, -⟩ := Builder.newton_spec (tripsOf (O.stampLinear m' tx).2)
    (its ++ [tripsOf (O.stampNonlinear st.stamper st.vPrev k).2])
  obtain ⟨h5a, h5b⟩ := h5 (tripsOf (O.stampNonlinear st.stamper st.vPrev k).2) (by simp)
  unfold Builder.toMatrix at hm
  split_ifs at hm with hb
  injection hm with hm
  rw [← hm, tripsOf_append]
  have hi : (Builder.newton (tripsOf (O.stampLinear m' tx).2) (its ++ [tripsOf (O.stampNonlinear st.stamper st.vPrev k).2])).maxIndex =
      (Builder.newton (tripsOf (O.stampLinear m' tx).2) (its ++ [tripsOf (O.stampNonlinear st.stamper st.vPrev k).2])).index := by
    by_contra hc; exact hb ⟨rfl, hc⟩
  have hall : (Builder.newton (tripsOf (O.stampLinear m' tx).2) (its ++ [tripsOf (O.stampNonlinear st.stamper st.vPrev k).2])).entries
      = Builder.nz (tripsOf (O.stampLinear m' tx).2) ++ Builder.nz (tripsOf (O.stampNonlinear st.stamper st.vPrev k).2) := by
    rw [← h5a, ← hi, h1.len, List.take_length]
  rw [hall, Builder.matOf_append, Builder.matOf_nz, Builder.matOf_nz, Builder.matOf_append]

/-- The system solved in a pass whose matrix is current is the Newton system at the linearisation point. -/
theorem pass_newton {ps : List Placed} {opt : Bool} {m : Stamper} {v0 : ℕ → ℝ} {it0 : ℤ} (hr : Ready opt ps m v0 it0) {n : ℕ}
    (hn : ∀ p ∈ ps, ∀ x ∈ p.details.seg.vars, ∀ c, p.details.varMap x = some c → c < n)
    {k : ℕ} {st : NRState Stamper} (h : RunReach C Stamper.ops m vInit tx k st)
    (hcur : C.debug = true ∨ k = 0) (F : RunFacts C Stamper.ops m vInit tx k st)
    (hreg : ∀ p ∈ ps, p.Regular tx (linPoint v0 it0 k st)) {x d : ℕ → ℝ}
    (hd : ∀ i, HasDerivAt (fun s => networkEq ps tx (along (linPoint v0 it0 k st) (fun j => x j - linPoint v0 it0 k st j) s) i) (d i) 0) :
    Solves n F.A (fun i => jOf (Stamper.ops.stampLinear m tx).2 i + jOf (Stamper.ops.stampNonlinear st.stamper st.vPrev k).2 i) x ↔
      ∀ i < n, networkEq ps tx (linPoint v0 it0 k st) i + d i = 0 := by
  obtain ⟨p1, p2, -⟩ := pass_spec hr h F
  rw [← newton_solves hreg hn (p1.append p2) hd]
  have hA : F.A = Builder.matOf (tripsOf ((Stamper.ops.stampLinear m tx).2 ++ (Stamper.ops.stampNonlinear st.stamper st.vPrev k).2)) := by
    funext i j
    rcases hcur with hc | rfl
    · exact debug_matrix hc h F i j
    · exact first_matrix h F i j
  have hJ : (fun i => jOf (Stamper.ops.stampLinear m tx).2 i + jOf (Stamper.ops.stampNonlinear st.stamper st.vPrev k).2 i) =
      jOf ((Stamper.ops.stampLinear m tx).2 ++ (Stamper.ops.stampNonlinear st.stamper st.vPrev k).2) := by
    funext i; rw [jOf_append]
  rw [hA, hJ]

end Verif
