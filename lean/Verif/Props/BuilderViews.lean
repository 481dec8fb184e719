import Verif.Model.BuilderViews
import Verif.Props.Matrix
import Mathlib.Tactic.NormNum

/-!
# C158: the views of a matrix agree
-/

namespace Verif

open Builder

/-- Specification: what all stamps together put at a place. -/
noncomputable def placeTotal : List Trip → ℕ → ℕ → ℝ
  | [], _, _ => 0
  | t :: ts, i, j => (if t.row = i ∧ t.col = j then t.val else 0) + placeTotal ts i j

theorem matOf_total (ts : List Trip) (i j : ℕ) : matOf ts i j = placeTotal ts i j := by
  induction ts with
  | nil => rfl
  | cons t ts ih =>
    rw [placeTotal, ← ih]
    unfold matOf
    by_cases h : t.row = i ∧ t.col = j
    · rw [if_pos h, List.filter_cons_of_pos (by simpa using h)]
      rfl
    · rw [if_neg h, List.filter_cons_of_neg (by simpa using h), zero_add]

/-- **C158: rows.** After every history of calls the values listed in a row for a column add up to what the stamps that count put at this place. -/
theorem C158_rows (ops : List Op) (h : ClearsExisting ops) (i j : ℕ) :
    ((((run ops).getRow i).filter fun x => x.1 = j).map Prod.snd).sum = placeTotal (liveAfter ops) i j := by
  rw [getRow, (run_live ops h).2]
  induction liveAfter ops with
  | nil => rfl
  | cons t ts ih =>
    rw [placeTotal, ← ih]
    by_cases hi : t.row = i
    · by_cases hj : t.col = j
      · simp [hi, hj]
      · simp [hi, hj]
    · simp [hi]

/-- **C158: columns.** The same for columns. -/
theorem C158_cols (ops : List Op) (h : ClearsExisting ops) (i j : ℕ) :
    ((((run ops).getCol j).filter fun x => x.1 = i).map Prod.snd).sum = placeTotal (liveAfter ops) i j := by
  rw [getCol, (run_live ops h).2]
  induction liveAfter ops with
  | nil => rfl
  | cons t ts ih =>
    rw [placeTotal, ← ih]
    by_cases hi : t.row = i
    · by_cases hj : t.col = j
      · simp [hi, hj]
      · simp [hj]
    · by_cases hj : t.col = j
      · simp [hi, hj]
      · simp [hj]

theorem lt_maxSucc {l : List ℕ} {a : ℕ} (h : a ∈ l) : a < maxSucc l := by
  induction l with
  | nil => cases h
  | cons b l ih =>
    rw [maxSucc, List.foldr_cons]
    rcases List.mem_cons.1 h with rfl | h
    · exact lt_of_lt_of_le (Nat.lt_succ_self _) (le_max_left _ _)
    · exact lt_of_lt_of_le (ih h) (le_max_right _ _)

theorem maxSucc_attained {l : List ℕ} (h : l ≠ []) : ∃ a ∈ l, maxSucc l = a + 1 := by
  induction l with
  | nil => exact absurd rfl h
  | cons b l ih =>
    rw [maxSucc, List.foldr_cons]
    change ∃ a ∈ b :: l, max (b + 1) (maxSucc l) = a + 1
    rcases le_total (maxSucc l) (b + 1) with hm | hm
    · exact ⟨b, List.mem_cons_self, max_eq_left hm⟩
    · cases l with
      | nil => exact absurd hm (by simp [maxSucc])
      | cons c l =>
        obtain ⟨a, ha, e⟩ := ih (List.cons_ne_nil _ _)
        exact ⟨a, List.mem_cons_of_mem _ ha, by rw [max_eq_right hm, e]⟩

/-- The rows after adding entries. -/
theorem symAdd_fold (ts : List Trip) : ∀ (M : List (List ℝ)) (f : ℕ → ℕ → ℝ) (m n : ℕ), M.length = m → (∀ i < m, ∃ r, M[i]? = some r ∧ r.length = n ∧ ∀ j < n, r[j]? = some (f i j)) →
    (ts.foldl symAdd M).length = m ∧ ∀ i < m, ∃ r, (ts.foldl symAdd M)[i]? = some r ∧ r.length = n ∧ ∀ j < n, r[j]? = some (f i j + placeTotal ts i j) := by
  induction ts with
  | nil =>
    intro M f m n hl hM
    refine ⟨hl, fun i hi => ?_⟩
    obtain ⟨r, h1, h2, h3⟩ := hM i hi
    exact ⟨r, h1, h2, fun j hj => by rw [h3 j hj, placeTotal, add_zero]⟩
  | cons t ts ih =>
    intro M f m n hl hM
    have := ih (symAdd M t) (fun i j => f i j + if t.row = i ∧ t.col = j then t.val else 0) m n (by rw [symAdd, List.length_modify, hl]) fun i hi => by
      obtain ⟨r, h1, h2, h3⟩ := hM i hi
      rw [symAdd, List.getElem?_modify, h1]
      by_cases hti : t.row = i
      · refine ⟨r.modify t.col (· + t.val), by simp [hti], by rw [List.length_modify, h2], fun j hj => ?_⟩
        rw [List.getElem?_modify, h3 j hj]
        by_cases htj : t.col = j
        · simp [hti, htj]
        · simp [hti, htj]
      · refine ⟨r, by simp [hti], h2, fun j hj => ?_⟩
        rw [h3 j hj]
        simp [hti]
    refine ⟨this.1, fun i hi => ?_⟩
    obtain ⟨r, h1, h2, h3⟩ := this.2 i hi
    refine ⟨r, h1, h2, fun j hj => ?_⟩
    rw [h3 j hj, placeTotal, add_assoc]

/-- **C158, partial: the symbolic matrix.** If at least one entry counts and as many as ever did, the symbolic matrix is a rectangle just large enough for all entries that count, with
at every place what they put there. Missing: fewer entries than before (`C158_symbolic_fails`) and none (`C158_empty_fails`). -/
theorem C158_symbolic_partial (ops : List Op) (h : ClearsExisting ops) (hne : liveAfter ops ≠ []) (hfull : ∀ pre, pre <+: ops → (liveAfter pre).length ≤ (liveAfter ops).length) :
    ∃ M m n, (run ops).toSymbolic = .ok M ∧ M.length = m ∧ (∀ t ∈ liveAfter ops, t.row < m ∧ t.col < n) ∧ (∃ t ∈ liveAfter ops, t.row + 1 = m) ∧
      (∃ t ∈ liveAfter ops, t.col + 1 = n) ∧ ∀ i < m, ∃ r, M[i]? = some r ∧ r.length = n ∧ ∀ j < n, r[j]? = some (placeTotal (liveAfter ops) i j) := by
  obtain ⟨hwf, hlive⟩ := run_live ops h
  have hmax : ∀ ops, ClearsExisting ops → ∀ k, (∀ pre, pre <+: ops → (liveAfter pre).length ≤ k) → (run ops).maxIndex ≤ k ∧ (run ops).index = (liveAfter ops).length := by
    intro ops
    induction ops using List.reverseRecOn with
    | nil => exact fun _ k _ => ⟨Nat.zero_le _, rfl⟩
    | append_singleton ops o ih =>
      intro hc k hk
      have hc' : ClearsExisting ops := fun pre r post hp => hc pre r (post ++ [o]) (by simp [hp])
      obtain ⟨i1, i2⟩ := ih hc' k fun pre hp => hk pre (hp.trans (List.prefix_append _ _))
      obtain ⟨w, l⟩ := run_live (ops ++ [o]) hc
      have hidx : (run (ops ++ [o])).index = (liveAfter (ops ++ [o])).length := by
        rw [← l, List.length_take, Nat.min_eq_left]
        rw [← w.len]
        exact w.le
      refine ⟨?_, hidx⟩
      have hkk := hk _ List.prefix_rfl
      rw [← hidx] at hkk
      have hrun : run (ops ++ [o]) = apply (run ops) o := by unfold run; rw [List.foldl_append]; rfl
      rw [hrun] at hkk ⊢
      cases o with
      | clear r => exact i1
      | stamp t =>
        change ((run ops).stamp t).index ≤ k at hkk
        change ((run ops).stamp t).maxIndex ≤ k
        unfold stamp at hkk ⊢
        split_ifs at hkk ⊢ with h1 h2
        · exact i1
        · simp only at hkk ⊢
          omega
        · exact i1
  obtain ⟨hm1, hm2⟩ := hmax ops h _ hfull
  have hall : (run ops).entries = liveAfter ops := by
    rw [← hlive, List.take_of_length_le]
    rw [← hwf.len, hm2]
    exact hm1
  have hr : (liveAfter ops).map Trip.row ≠ [] := by simpa using hne
  have hc : (liveAfter ops).map Trip.col ≠ [] := by simpa using hne
  obtain ⟨a, ha, ea⟩ := maxSucc_attained hr
  obtain ⟨b, hb, eb⟩ := maxSucc_attained hc
  obtain ⟨t, ht, rfl⟩ := List.mem_map.1 ha
  obtain ⟨u, hu, rfl⟩ := List.mem_map.1 hb
  have H := symAdd_fold (liveAfter ops) (List.replicate (maxSucc ((liveAfter ops).map Trip.row)) (List.replicate (maxSucc ((liveAfter ops).map Trip.col)) 0)) (fun _ _ => 0) _ _
    List.length_replicate fun i hi => ⟨_, by rw [List.getElem?_replicate, if_pos hi], List.length_replicate, fun j hj => by rw [List.getElem?_replicate, if_pos hj]⟩
  refine ⟨_, _, _, by rw [toSymbolic, hall, if_neg (by simpa using hne)], H.1, fun t ht => ⟨lt_maxSucc (List.mem_map_of_mem ht), lt_maxSucc (List.mem_map_of_mem ht)⟩, ⟨t, ht, ea.symm⟩,
    ⟨u, hu, eb.symm⟩, fun i hi => ?_⟩
  obtain ⟨r, h1, h2, h3⟩ := H.2 i hi
  exact ⟨r, h1, h2, fun j hj => by rw [h3 j hj, zero_add]⟩

/-- **C158 fails after a clear.** After a stamp and a clear no entry counts and all rows are empty, but the symbolic matrix still shows the stamp. -/
theorem C158_symbolic_fails : ∃ ops, ClearsExisting ops ∧ liveAfter ops = [] ∧ (∀ i, (run ops).getRow i = []) ∧ (run ops).toSymbolic = .ok [[5]] := by
  have hr : run [.stamp ⟨0, 0, 5⟩, .clear 0] = ⟨[⟨0, 0, 5⟩], 0, 1⟩ := by simp [run, apply, stamp, clear, empty]
  refine ⟨[.stamp ⟨0, 0, 5⟩, .clear 0], fun pre r post hp => ?_, by simp [liveAfter, liveStep], fun i => by rw [hr]; rfl, ?_⟩
  · cases pre with
    | nil => cases hp
    | cons p pre =>
      cases pre with
      | nil =>
        cases hp
        exact Nat.zero_le _
      | cons q pre =>
        rw [List.cons_append, List.cons_append] at hp
        have := congrArg List.length hp
        simp at this
  · rw [hr]
    simp [toSymbolic, maxSucc, symAdd]

/-- **C158 fails without entries.** The symbolic matrix of a fresh builder is an exception. -/
theorem C158_empty_fails : ∃ e, (run []).toSymbolic = .error e := ⟨_, rfl⟩

/-! ### A case -/

/-- Two stamps at one place and one at another. -/
example : ∃ M m n, (run [.stamp ⟨0, 1, 5⟩, .stamp ⟨0, 1, 2⟩, .stamp ⟨1, 0, 3⟩]).toSymbolic = .ok M ∧ M.length = m ∧ m = 2 ∧ n = 2 ∧
    (∀ i < m, ∃ r, M[i]? = some r ∧ r.length = n ∧ ∀ j < n, r[j]? = some (placeTotal [⟨0, 1, 5⟩, ⟨0, 1, 2⟩, ⟨1, 0, 3⟩] i j)) ∧
    ((((run [.stamp ⟨0, 1, 5⟩, .stamp ⟨0, 1, 2⟩, .stamp ⟨1, 0, 3⟩]).getRow 0).filter fun x => x.1 = 1).map Prod.snd).sum = 7 ∧
    ((((run [.stamp ⟨0, 1, 5⟩, .stamp ⟨0, 1, 2⟩, .stamp ⟨1, 0, 3⟩]).getCol 0).filter fun x => x.1 = 1).map Prod.snd).sum = 3 := by
  have hc : ClearsExisting [.stamp ⟨0, 1, 5⟩, .stamp ⟨0, 1, 2⟩, .stamp ⟨1, 0, 3⟩] := fun pre r post hp => by
    have : Op.clear r ∈ [Op.stamp ⟨0, 1, 5⟩, .stamp ⟨0, 1, 2⟩, .stamp ⟨1, 0, 3⟩] := by rw [hp]; simp
    simp at this
  have hl : liveAfter [.stamp ⟨0, 1, 5⟩, .stamp ⟨0, 1, 2⟩, .stamp ⟨1, 0, 3⟩] = [⟨0, 1, 5⟩, ⟨0, 1, 2⟩, ⟨1, 0, 3⟩] := by simp [liveAfter, liveStep]
  have hle : ∀ ops : List Op, (liveAfter ops).length ≤ ops.length := fun ops => by
    induction ops using List.reverseRecOn with
    | nil => rfl
    | append_singleton ops o ih =>
      rw [show liveAfter (ops ++ [o]) = liveStep (liveAfter ops) o by unfold liveAfter; rw [List.foldl_append]; rfl, List.length_append]
      cases o with
      | stamp t =>
        rw [liveStep]
        split_ifs
        · exact ih.trans (Nat.le_add_right _ _)
        · rw [List.length_append]
          exact Nat.add_le_add_right ih _
      | clear r =>
        rw [liveStep, List.length_take]
        exact (min_le_right _ _).trans (ih.trans (Nat.le_add_right _ _))
  obtain ⟨M, m, n, h1, h2, h3, ⟨t, ht, e1⟩, ⟨u, hu, e2⟩, h6⟩ := C158_symbolic_partial _ hc (by rw [hl]; simp) (fun pre hp => (hle pre).trans (by rw [hl]; exact hp.length_le))
  rw [hl] at h3 ht hu h6
  refine ⟨M, m, n, h1, h2, ?_, ?_, h6, ?_, ?_⟩
  · have := (h3 ⟨1, 0, 3⟩ (by simp)).1
    simp at ht
    rcases ht with rfl | rfl | rfl <;> simp at e1 this <;> omega
  · have := (h3 ⟨0, 1, 5⟩ (by simp)).2
    simp at hu
    rcases hu with rfl | rfl | rfl <;> simp at e2 this <;> omega
  · rw [C158_rows _ hc, hl]
    simp only [placeTotal]
    norm_num
  · rw [C158_cols _ hc, hl]
    norm_num [placeTotal]

end Verif
