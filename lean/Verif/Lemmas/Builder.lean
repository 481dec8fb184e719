import Verif.Model.Builder
import Mathlib.Data.List.Induction

/-! Helper lemmas about `MatrixBuilder`. -/

namespace Verif.Builder

open Verif

/-- The bookkeeping invariant. -/
structure WF (b : Builder) : Prop where
  len : b.maxIndex = b.entries.length
  le : b.index ≤ b.maxIndex

/-- The non-zero stamps. -/
noncomputable def nz (ts : List Trip) : List Trip := ts.filter fun t => t.val ≠ 0

theorem wf_empty : WF empty := ⟨rfl, le_refl _⟩

theorem wf_stamp {b : Builder} (h : WF b) (t : Trip) : WF (b.stamp t) := by
  unfold stamp
  split_ifs with h1 h2
  · exact h
  · exact ⟨by simp [h.len], by simp [h2]⟩
  · refine ⟨by simp [h.len], ?_⟩
    have := h.le
    show b.index + 1 ≤ b.maxIndex
    omega

theorem wf_clear {b : Builder} (h : WF b) {r : ℕ} (hr : r ≤ b.maxIndex) : WF (b.clear r) := ⟨h.len, hr⟩

/-- The live entries after a stamp. -/
theorem live_stamp {b : Builder} (h : WF b) (t : Trip) :
    (b.stamp t).entries.take (b.stamp t).index = b.entries.take b.index ++ nz [t] := by
  unfold stamp
  by_cases h1 : t.val = 0
  · simp [nz, h1]
  · rw [if_neg h1]
    have hnz : nz [t] = [t] := by simp [nz, h1]
    rw [hnz]
    split_ifs with h2
    · have : b.index = b.entries.length := by rw [h2, h.len]
      simp [this]
    · have hlt : b.index < b.entries.length := by
        have := h.le; have := h.len; omega
      simp only
      rw [List.take_add_one, List.getElem?_set_self hlt, List.take_set_of_le (le_refl _)]
      simp

/-- Entries above the live ones are the old ones. -/
theorem drop_stamp {b : Builder} (h : WF b) (t : Trip) :
    (b.stamp t).entries.drop (b.stamp t).index = b.entries.drop (b.stamp t).index := by
  unfold stamp
  by_cases h1 : t.val = 0
  · simp [h1]
  · rw [if_neg h1]
    split_ifs with h2
    · have : b.index = b.entries.length := by rw [h2, h.len]
      simp [this]
    · simp only
      rw [List.drop_set_of_lt (Nat.lt_succ_self _)]

theorem index_stamp (b : Builder) (t : Trip) : (b.stamp t).index = b.index + (nz [t]).length := by
  unfold stamp
  by_cases h1 : t.val = 0
  · simp [nz, h1]
  · simp only [h1, if_false, nz, ne_eq, not_false_eq_true, List.filter_cons, decide_true, if_true]
    split_ifs <;> rfl

theorem maxIndex_stamp {b : Builder} (h : WF b) (t : Trip) :
    (b.stamp t).maxIndex = max b.maxIndex (b.stamp t).index := by
  unfold stamp
  split_ifs with h1 h2
  · simp [h.le]
  · simp [h2]
  · have := h.le
    simp only
    omega

theorem stamps_cons (b : Builder) (t : Trip) (ts : List Trip) : b.stamps (t :: ts) = (b.stamp t).stamps ts := rfl

theorem nz_cons (t : Trip) (ts : List Trip) : nz (t :: ts) = nz [t] ++ nz ts := by
  rw [nz, ← List.singleton_append, List.filter_append]; rfl

theorem stamps_spec {b : Builder} (h : WF b) (ts : List Trip) :
    WF (b.stamps ts) ∧ (b.stamps ts).entries.take (b.stamps ts).index = b.entries.take b.index ++ nz ts ∧
    (b.stamps ts).index = b.index + (nz ts).length ∧
    (b.stamps ts).maxIndex = max b.maxIndex (b.stamps ts).index ∧
    (b.stamps ts).entries.drop (b.stamps ts).index = b.entries.drop (b.stamps ts).index := by
  induction ts generalizing b with
  | nil => exact ⟨h, by simp [stamps, nz], by simp [stamps, nz], by simp [stamps, h.le], rfl⟩
  | cons t ts ih =>
    obtain ⟨h1, h2, h3, h4, h5⟩ := ih (wf_stamp h t)
    rw [stamps_cons]
    refine ⟨h1, ?_, ?_, ?_, ?_⟩
    · rw [h2, live_stamp h, nz_cons t ts, List.append_assoc]
    · rw [h3, index_stamp, nz_cons t ts, List.length_append, Nat.add_assoc]
    · rw [h4, maxIndex_stamp h, h3]; omega
    · rw [h5]
      have : (b.stamp t).index ≤ ((b.stamp t).stamps ts).index := by rw [h3]; omega
      obtain ⟨k, hk⟩ := Nat.exists_eq_add_of_le this
      rw [hk, ← List.drop_drop, ← List.drop_drop, drop_stamp h t]

theorem matOf_append (a b : List Trip) (i j : ℕ) : matOf (a ++ b) i j = matOf a i j + matOf b i j := by
  simp [matOf]

theorem matOf_nz (ts : List Trip) (i j : ℕ) : matOf (nz ts) i j = matOf ts i j := by
  induction ts with
  | nil => rfl
  | cons t ts ih =>
    rw [nz_cons, matOf_append, ih, ← List.singleton_append (l := ts), matOf_append]
    congr 1
    by_cases h : t.val = 0
    · by_cases h2 : t.row = i ∧ t.col = j <;> simp [nz, matOf, h, h2]
    · simp [nz, h]

/-- The builder after linear stamps and some iterations. -/
theorem newton_spec (lin : List Trip) (its : List (List Trip)) :
    let b := newton lin its
    WF b ∧ (nz lin).length ≤ b.index ∧ b.entries.take (nz lin).length = nz lin ∧
    (empty.stamps lin).usage = (nz lin).length ∧
    (∀ last, its.getLast? = some last → b.entries.take b.index = nz lin ++ nz last ∧
      b.index = (nz lin).length + (nz last).length) ∧
    b.maxIndex = (nz lin).length + (its.map fun it => (nz it).length).foldr max 0 := by
  induction its using List.reverseRecOn with
  | nil =>
    obtain ⟨h1, h2, h3, h4, -⟩ := stamps_spec wf_empty lin
    have h3' : (empty.stamps lin).index = (nz lin).length := by rw [h3]; simp [empty]
    have h2' : (empty.stamps lin).entries.take (nz lin).length = nz lin := by
      rw [← h3', h2]; simp [empty]
    refine ⟨h1, ?_, h2', h3', by simp, ?_⟩
    · show _ ≤ (empty.stamps lin).index; rw [h3']
    · show (empty.stamps lin).maxIndex = _
      rw [h4, h3']; simp [empty]
  | append_singleton its it ih =>
    obtain ⟨h1, h2, h3, h4, -, h6⟩ := ih
    set b := newton lin its
    have hb' : newton lin (its ++ [it]) = newtonRound (nz lin).length b it := by
      rw [← h4]; show newton lin (its ++ [it]) = newtonRound _ (newton lin its) it
      unfold newton; rw [List.foldl_append]; rfl
    rw [hb']
    have hc : WF (b.clear (nz lin).length) := wf_clear h1 (le_trans h2 h1.le)
    obtain ⟨g1, g2, g3, g4, -⟩ := stamps_spec hc it
    have g3' : (newtonRound (nz lin).length b it).index = (nz lin).length + (nz it).length := g3
    have g2' : (newtonRound (nz lin).length b it).entries.take (newtonRound (nz lin).length b it).index
        = nz lin ++ nz it := by
      unfold newtonRound; rw [g2]; show b.entries.take (nz lin).length ++ _ = _; rw [h3]
    refine ⟨g1, ?_, ?_, h4, ?_, ?_⟩
    · show _ ≤ (newtonRound (nz lin).length b it).index
      rw [g3']; omega
    · have := congrArg (List.take (nz lin).length) g2'
      rw [List.take_take, g3', Nat.min_eq_left (by omega), List.take_left'] at this
      · exact this
      · rfl
    · intro last hl
      simp at hl; subst hl
      exact ⟨g2', g3'⟩
    · have : (newtonRound (nz lin).length b it).maxIndex = max b.maxIndex (newtonRound (nz lin).length b it).index := g4
      rw [this, h6, g3']
      rw [List.map_append, List.foldr_append]
      simp only [List.map_cons, List.map_nil, List.foldr_cons, List.foldr_nil]
      have key : ∀ (l : List ℕ) (k : ℕ), l.foldr max (max k 0) = max (l.foldr max 0) k := by
        intro l k; induction l with
        | nil => simp
        | cons a l ih => simp only [List.foldr_cons, ih]; omega
      rw [key]; omega

end Verif.Builder
