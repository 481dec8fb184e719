import Verif.Spec.Network
import Mathlib.Data.List.Perm.Basic
import Mathlib.Data.List.Flatten

/-! Helper lemmas about the stamper: the shared, deduplicated argument tables compute each stamp at its own
arguments. -/

namespace Verif

open Ex

/-! ### Arguments of one input -/

/-- Argument values of an input for operating point `v`, before the homotopy factor is set. -/
noncomputable def Input.filled (opt : Bool) (v : ℕ → ℝ) (i : Input) : List ℝ := List.zipWith (fill1 v) (i.fills opt) i.initial

/-- Set the homotopy factor. -/
def setTx (tx : Option ℕ) (t : ℝ) (col : List ℝ) : List ℝ :=
  match tx with
  | none => col
  | some k => col.set k t

theorem fills_length (opt : Bool) (i : Input) : (i.fills opt).length = i.initial.length := by
  simp [Input.fills, Input.initial]

theorem filled_length (opt : Bool) (v : ℕ → ℝ) (i : Input) : (i.filled opt v).length = i.initial.length := by
  simp [Input.filled, fills_length]

theorem zipWith_fill_twice (v w : ℕ → ℝ) (ks : List Idx) (l : List ℝ) :
    List.zipWith (fill1 v) ks (List.zipWith (fill1 w) ks l) = List.zipWith (fill1 v) ks l := by
  induction ks generalizing l with
  | nil => simp
  | cons k ks ih =>
    cases l with
    | nil => simp
    | cons a l =>
      simp only [List.zipWith_cons_cons, ih, List.cons.injEq, and_true]
      cases k <;> rfl

theorem zipWith_fill_set (v : ℕ → ℝ) (ks : List Idx) (l : List ℝ) (k : ℕ) (t : ℝ) (h : ks[k]? = some none) :
    List.zipWith (fill1 v) ks (l.set k t) = (List.zipWith (fill1 v) ks l).set k t := by
  induction ks generalizing l k with
  | nil => simp at h
  | cons a ks ih =>
    cases l with
    | nil => simp
    | cons b l =>
      cases k with
      | zero => simp at h; subst h; simp [fill1]
      | succ k => simp at h; simp [ih l k h]

/-! ### Builders -/

/-- The builder's table is exactly its inputs evaluated at `v`, `t`. -/
def InputBuilder.Holds (b : InputBuilder) (v : ℕ → ℝ) (t : ℝ) : Prop :=
  b.args = b.inputs.map fun i => setTx b.txIdx t (i.filled b.opt v)

/-- The homotopy factor's position is a constant of every input. -/
def InputBuilder.TxConst (b : InputBuilder) : Prop := ∀ k, b.txIdx = some k → ∀ i ∈ b.inputs, k < i.consts.length

theorem fills_tx {b : InputBuilder} (h : b.TxConst) {k : ℕ} (hk : b.txIdx = some k) {i : Input} (hi : i ∈ b.inputs) :
    (i.fills b.opt)[k]? = some none := by
  have := h k hk i hi
  unfold Input.fills
  rw [List.append_assoc, List.getElem?_append_left (by simpa using this)]
  simp [this]

theorem holds_updateV {b : InputBuilder} (hb : b.TxConst) {v w : ℕ → ℝ} {t : ℝ} {it : ℤ} (h : b.Holds v t)
    (hit : it ≠ b.iter) : (b.updateV w it).Holds w t := by
  unfold InputBuilder.Holds InputBuilder.updateV
  rw [if_neg hit]
  simp only
  rw [h]
  rw [List.zipWith_map_right, ← List.map_uncurry_zip_eq_zipWith]
  have : ∀ (l : List Input), (∀ i ∈ l, i ∈ b.inputs) →
      (List.map (Function.uncurry fun a b_1 => List.zipWith (fill1 w) (a.fills b.opt) (setTx b.txIdx t (Input.filled b.opt v b_1)))
        (l.zip l)) = l.map fun i => setTx b.txIdx t (Input.filled b.opt w i) := by
    intro l hl
    induction l with
    | nil => rfl
    | cons i l ih =>
      simp only [List.zip_cons_cons, List.map_cons, Function.uncurry]
      rw [show List.map _ (l.zip l) = _ from ih fun j hj => hl j (by simp [hj])]
      congr 1
      unfold setTx
      cases hk : b.txIdx with
      | none => simp only [Input.filled, zipWith_fill_twice]
      | some k =>
        simp only
        rw [zipWith_fill_set w _ _ k t (fills_tx hb hk (hl i (by simp)))]
        simp only [Input.filled, zipWith_fill_twice]
  exact this b.inputs fun _ h => h

theorem updateV_same {b : InputBuilder} {w : ℕ → ℝ} {it : ℤ} (hit : it = b.iter) :
    b.updateV w it = b := by
  unfold InputBuilder.updateV; rw [if_pos hit]

theorem holds_updateTx {b : InputBuilder} {v : ℕ → ℝ} {t u : ℝ} (h : b.Holds v t) : (b.updateTx u).Holds v u := by
  unfold InputBuilder.Holds InputBuilder.updateTx at *
  cases hk : b.txIdx with
  | none => simp only [h, hk]; simp [setTx]
  | some k =>
    simp only [h, hk, List.map_map]
    apply List.map_congr_left
    intro i _
    simp [setTx]

theorem filled_zero (opt : Bool) (i : Input) : i.filled opt (fun _ => 0) = i.initial := by
  unfold Input.filled Input.fills Input.initial
  have h1 : ∀ l : List ℝ, List.zipWith (fill1 fun _ => 0) (l.map fun _ => (none : Idx)) l = l := by
    intro l; induction l with
    | nil => rfl
    | cons a l ih => simp only [List.map_cons, List.zipWith_cons_cons, ih, fill1]
  have h2 : ∀ l : List Idx, List.zipWith (fill1 fun _ => 0) l (l.map fun _ => (0 : ℝ)) = l.map fun _ => (0 : ℝ) := by
    intro l; induction l with
    | nil => rfl
    | cons a l ih =>
      simp only [List.map_cons, List.zipWith_cons_cons, ih]
      cases a <;> rfl
  have h3 : ∀ l : List Idx, List.zipWith (fill1 fun _ => 0) (l.map fun k => if opt then k else none)
      (l.map fun _ => (0 : ℝ)) = l.map fun _ => (0 : ℝ) := by
    intro l; induction l with
    | nil => rfl
    | cons a l ih =>
      simp only [List.map_cons, List.zipWith_cons_cons, ih]
      cases opt <;> cases a <;> rfl
  rw [List.zipWith_append (by simp), List.zipWith_append (by simp), h1, h2, h3]

/-- A freshly frozen builder, once the factor has been set, holds the zero vector. -/
theorem holds_freeze {b b' : InputBuilder} (h : b.freeze = .ok b') (u : ℝ) :
    (b'.updateTx u).Holds (fun _ => 0) u ∧ b'.inputs = b.inputs ∧ b'.params = b.params ∧ b'.opt = b.opt ∧
    b'.txIdx = b.txIdx ∧ b'.iter = b.iter ∧ ∀ i ∈ b.inputs, i.initial.length = b.params.length := by
  unfold InputBuilder.freeze at h
  split_ifs at h with hl
  injection h with h
  subst h
  refine ⟨?_, rfl, rfl, rfl, rfl, rfl, by simpa using hl⟩
  unfold InputBuilder.Holds InputBuilder.updateTx
  cases hk : b.txIdx with
  | none =>
    simp only [setTx]
    exact List.map_congr_left fun i _ => (filled_zero _ i).symm
  | some k =>
    simp only [List.map_map, setTx]
    exact List.map_congr_left fun i _ => by simp [filled_zero]

/-! ### The environment of one column is the part's own environment -/

theorem zipWith_initial_consts (v : ℕ → ℝ) (l : List ℝ) :
    List.zipWith (fill1 v) (l.map fun _ => (none : Idx)) l = l := by
  induction l with
  | nil => rfl
  | cons a l ih => simp only [List.map_cons, List.zipWith_cons_cons, ih, fill1]

theorem zipWith_fill_zero (v : ℕ → ℝ) (l : List Idx) :
    List.zipWith (fill1 v) l (l.map fun _ => (0 : ℝ)) = l.map (readIdx v) := by
  induction l with
  | nil => rfl
  | cons a l ih =>
    simp only [List.map_cons, List.zipWith_cons_cons, ih]
    cases a <;> rfl

theorem filled_eq (opt : Bool) (v : ℕ → ℝ) (i : Input) :
    i.filled opt v = i.consts ++ i.primalIdx.map (readIdx v)
      ++ i.dualIdx.map (fun k => readIdx v (if opt then k else none)) := by
  unfold Input.filled Input.fills Input.initial
  rw [List.zipWith_append (by simp), List.zipWith_append (by simp), zipWith_initial_consts, zipWith_fill_zero]
  congr 1
  have : (i.dualIdx.map fun _ => (0 : ℝ)) = (i.dualIdx.map fun k => if opt then k else none).map fun _ => (0 : ℝ) := by
    rw [List.map_map]; rfl
  rw [this, zipWith_fill_zero, List.map_map]; rfl

theorem txFactorIndex_eq {s : Segment} (h : Sym.txFactor ∉ s.vars) :
    s.txFactorIndex = if Sym.txFactor ∈ s.parameters then some (s.parameters.idxOf Sym.txFactor) else none := by
  unfold Segment.txFactorIndex Segment.parameters
  by_cases hc : Sym.txFactor ∈ s.constants
  · simp [hc, List.idxOf_append_of_mem hc]
  · simp [hc, h]

/-- The arguments of a placed part's column. -/
theorem argEnv_own (p : Placed) (opt : Bool) (hp : p.WellPlaced opt) (t : ℝ) (v : ℕ → ℝ) :
    argEnv p.details.seg.parameters
      (setTx p.details.seg.txFactorIndex t ((p.details.input p.consts).filled opt v)) = p.env t v := by
  funext s
  have hlen := hp.consts
  have hdual : (p.details.seg.duals.map p.details.varMap).map (fun k => readIdx v (if opt then k else none))
      = (p.details.seg.duals.map p.details.varMap).map (readIdx v) := by
    apply List.map_congr_left
    intro k hk
    cases opt with
    | true => rfl
    | false =>
      obtain ⟨d, hd, rfl⟩ := List.mem_map.1 hk
      simp [hp.plain rfl d hd]
  have hcol : (p.details.input p.consts).filled opt v = p.consts ++ p.details.seg.vars.map (fun s => readIdx v (p.details.varMap s)) := by
    rw [filled_eq]
    unfold Details.input
    simp only [hdual, Segment.vars, List.map_append, List.map_map, List.append_assoc]
    rfl
  rw [hcol]
  set seg := p.details.seg with hseg
  have hgoal : p.env t v s = if s ∈ seg.constants then
      (if s = .txFactor then t else p.consts.getD (seg.constants.idxOf s) 0) else
      (if s ∈ seg.vars then readIdx v (p.details.varMap s) else 0) := rfl
  rw [hgoal]
  unfold argEnv
  by_cases hc : s ∈ seg.constants
  · have hidx : seg.parameters.idxOf s = seg.constants.idxOf s := List.idxOf_append_of_mem hc
    have hlt : seg.constants.idxOf s < p.consts.length := by
      rw [hlen]; exact List.idxOf_lt_length_iff.2 hc
    rw [if_pos hc, hidx]
    by_cases ht : s = .txFactor
    · subst ht
      have htx : seg.txFactorIndex = some (seg.constants.idxOf .txFactor) := by simp [Segment.txFactorIndex, hc]
      rw [if_pos rfl, htx]
      simp only [setTx]
      rw [List.getD_eq_getElem?_getD, List.getElem?_set_self (by simp; omega)]
      rfl
    · rw [if_neg ht]
      have hset : (setTx seg.txFactorIndex t (p.consts ++ seg.vars.map fun s => readIdx v (p.details.varMap s)))[seg.constants.idxOf s]?
          = (p.consts ++ seg.vars.map fun s => readIdx v (p.details.varMap s))[seg.constants.idxOf s]? := by
        unfold setTx
        cases hk : seg.txFactorIndex with
        | none => rfl
        | some k =>
          simp only
          rw [List.getElem?_set_ne]
          intro hEq
          unfold Segment.txFactorIndex at hk
          split_ifs at hk with htc
          injection hk with hk
          apply ht
          have h1 : seg.constants.idxOf Sym.txFactor = seg.constants.idxOf s := by rw [hk, hEq]
          have := List.idxOf_inj htc |>.1 h1
          exact this.symm
      rw [List.getD_eq_getElem?_getD, hset, List.getElem?_append_left hlt, List.getD_eq_getElem?_getD]
  · rw [if_neg hc]
    have hset : ∀ k, seg.constants.length ≤ k →
        (setTx seg.txFactorIndex t (p.consts ++ seg.vars.map fun s => readIdx v (p.details.varMap s)))[k]?
          = (p.consts ++ seg.vars.map fun s => readIdx v (p.details.varMap s))[k]? := by
      intro k hk
      unfold setTx
      cases hj : seg.txFactorIndex with
      | none => rfl
      | some j =>
        simp only
        rw [List.getElem?_set_ne]
        unfold Segment.txFactorIndex at hj
        split_ifs at hj with htc
        injection hj with hj
        have : seg.constants.idxOf Sym.txFactor < seg.constants.length := List.idxOf_lt_length_iff.2 htc
        omega
    have hidx : seg.parameters.idxOf s = seg.constants.length + seg.vars.idxOf s := by
      unfold Segment.parameters; rw [List.idxOf_append_of_notMem hc]
    rw [List.getD_eq_getElem?_getD, hset _ (by omega), hidx, ← hlen,
      List.getElem?_append_right (by omega), Nat.add_sub_cancel_left]
    by_cases hv : s ∈ seg.vars
    · rw [if_pos hv, List.getElem?_map, List.getElem?_eq_getElem (List.idxOf_lt_length_iff.2 hv)]
      simp
    · rw [if_neg hv, List.getElem?_eq_none]
      · rfl
      · rw [List.length_map, List.idxOf_eq_length_iff.2 hv]

end Verif
