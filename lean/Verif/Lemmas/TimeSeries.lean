import Verif.Spec.TimeSeries

/-!
# Lemmas on loads by name, hourly values and balancing
-/

namespace Verif

theorem lastIndex_none {α : Type} (p : α → Bool) (l : List α) : lastIndex p l = none ↔ ∀ x ∈ l, p x = false := by
  induction l with
  | nil => simp [lastIndex]
  | cons a l ih =>
    unfold lastIndex
    cases h : lastIndex p l with
    | some i =>
      have : ¬ ∀ x ∈ l, p x = false := fun hh => by rw [ih.2 hh] at h; cases h
      simp only [List.mem_cons, reduceCtorEq, false_iff]
      intro hh; exact this fun x hx => hh x (Or.inr hx)
    | none =>
      have := ih.1 h
      by_cases hp : p a <;> simp [hp, this]
      exact this

theorem lastIndex_some {α : Type} (p : α → Bool) (l : List α) (i : ℕ) :
    lastIndex p l = some i ↔ (∃ x, l[i]? = some x ∧ p x = true) ∧ ∀ j, i < j → ∀ y, l[j]? = some y → p y = false := by
  induction l generalizing i with
  | nil => simp [lastIndex]
  | cons a l ih =>
    unfold lastIndex
    cases h : lastIndex p l with
    | some k =>
      obtain ⟨⟨x, hx, hp⟩, hlast⟩ := (ih k).1 h
      constructor
      · intro hi
        have : i = k + 1 := by simpa using hi.symm
        subst this
        refine ⟨⟨x, by simpa using hx, hp⟩, ?_⟩
        intro j hj y hy
        match j, hj with
        | j + 1, hj => exact hlast j (by omega) y (by simpa using hy)
      · rintro ⟨⟨y, hy, hpy⟩, hl⟩
        match i with
        | 0 =>
          have := hl (k + 1) (by omega) x (by simpa using hx)
          rw [hp] at this; cases this
        | i + 1 =>
          have h1 : lastIndex p l = some i := (ih i).2 ⟨⟨y, by simpa using hy, hpy⟩, fun j hj z hz => hl (j + 1) (by omega) z (by simpa using hz)⟩
          rw [h] at h1
          simpa using h1
    | none =>
      have hn := (lastIndex_none p l).1 h
      constructor
      · intro hi
        by_cases hp : p a
        · have : i = 0 := by simpa [hp] using hi.symm
          subst this
          refine ⟨⟨a, rfl, hp⟩, ?_⟩
          intro j hj y hy
          match j, hj with
          | j + 1, _ => exact hn y (List.mem_of_getElem? (by simpa using hy))
        · simp [hp] at hi
      · rintro ⟨⟨y, hy, hpy⟩, -⟩
        match i with
        | 0 =>
          have : a = y := by simpa using hy
          subst this; simp [hpy]
        | i + 1 =>
          have := hn y (List.mem_of_getElem? (i := i) (by simpa using hy))
          rw [hpy] at this; cases this

/-- What does not change during a run. -/
def NamedLoad.ident (l : NamedLoad) : Txt × Txt × Option Txt := (l.num, l.phase, l.triplex)

theorem lastIndex_map {α β : Type} (f : α → β) (q : β → Bool) (l : List α) : lastIndex (fun x => q (f x)) l = lastIndex q (l.map f) := by
  induction l with
  | nil => rfl
  | cons a l ih => simp only [lastIndex, List.map_cons, ih]

theorem modify_map {α β : Type} (f : α → β) (g : α → α) (hg : ∀ x, f (g x) = f x) (l : List α) (i : ℕ) : (l.modify i g).map f = l.map f := by
  apply List.ext_getElem?
  intro j
  rw [List.getElem?_map, List.getElem?_map, List.getElem?_modify]
  split_ifs
  · cases l[j]? <;> simp [hg]
  · cases l[j]? <;> simp

theorem modify_ne {α : Type} (g : α → α) (l : List α) {i k : ℕ} (h : k ≠ i) : (l.modify k g)[i]? = l[i]? := by
  rw [List.getElem?_modify]; simp [h]

theorem modify_eq {α : Type} (g : α → α) (l : List α) (i : ℕ) : (l.modify i g)[i]? = l[i]?.map g := by
  rw [List.getElem?_modify]; simp

theorem loadIndex_ident {ls ls' : List NamedLoad} (h : ls.map NamedLoad.ident = ls'.map NamedLoad.ident) (n : Txt) : loadIndex ls n = loadIndex ls' n := by
  have key : ∀ l : List NamedLoad, loadIndex l n = lastIndex (fun t : Txt × Txt × Option Txt =>
      decide (NamedLoad.name ⟨t.1, t.2.1, t.2.2, ⟨0, 0, 0, 0, 0⟩⟩ = n)) (l.map NamedLoad.ident) := fun l => by
    rw [← lastIndex_map]; rfl
  rw [key, key, h]

theorem negativeIndex_ident {ls ls' : List NamedLoad} (h : ls.map NamedLoad.ident = ls'.map NamedLoad.ident) (neg : List Txt) (ph : Txt) :
    negativeIndex neg ls ph = negativeIndex neg ls' ph := by
  have key : ∀ l : List NamedLoad, negativeIndex neg l ph = lastIndex (fun t : Txt × Txt × Option Txt =>
      decide (t.1 ∈ neg.map afterUnderscore ∧ t.2.2.getD t.2.1 = ph)) (l.map NamedLoad.ident) := fun l => by
    rw [← lastIndex_map]; rfl
  rw [key, key, h]

theorem setColumn_ident (h : ℤ) (ls : List NamedLoad) (c : Column) : (setColumn h ls c).map NamedLoad.ident = ls.map NamedLoad.ident := by
  unfold setColumn
  split
  · rfl
  · split
    · rfl
    · exact modify_map NamedLoad.ident (NamedLoad.setMagnitude _) (fun _ => rfl) _ _

theorem setLoadValues_ident (cols : List Column) (h : ℤ) (ls : List NamedLoad) :
    (setLoadValues cols h ls).map NamedLoad.ident = ls.map NamedLoad.ident := by
  unfold setLoadValues
  induction cols generalizing ls with
  | nil => rfl
  | cons c cols ih => rw [List.foldl_cons, ih, setColumn_ident]

theorem setMagnitude_ident (m : ℝ) (l : NamedLoad) : (l.setMagnitude m).ident = l.ident := rfl

theorem name_of_ident {l l' : NamedLoad} (h : l.ident = l'.ident) : l.name = l'.name := by
  simp only [NamedLoad.ident, Prod.mk.injEq] at h
  unfold NamedLoad.name
  rw [h.1, h.2.1]

/-- A load whose name does not occur among the columns keeps its values. -/
theorem setLoadValues_other (cols : List Column) (h : ℤ) (ls : List NamedLoad) (i : ℕ)
    (hc : ∀ c ∈ cols, loadIndex ls c.name ≠ some i) : (setLoadValues cols h ls)[i]? = ls[i]? := by
  unfold setLoadValues
  induction cols generalizing ls with
  | nil => rfl
  | cons c cols ih =>
    rw [List.foldl_cons, ih]
    · unfold setColumn
      have := hc c (by simp)
      split
      · rfl
      · rename_i k hk
        split
        · rfl
        · exact modify_ne _ _ (fun e => this (by rw [hk, e]))
    · intro c' hc'
      rw [loadIndex_ident (setColumn_ident h ls c)]
      exact hc c' (by simp [hc'])

theorem loadIndex_name {ls : List NamedLoad} {n : Txt} {i : ℕ} (h : loadIndex ls n = some i) : ∃ l, ls[i]? = some l ∧ l.name = n := by
  obtain ⟨⟨x, hx, hp⟩, -⟩ := (lastIndex_some _ _ _).1 h
  exact ⟨x, hx, by simpa using hp⟩

/-- The load of column `c` after the hour's values are set. -/
theorem setLoadValues_get (cols : List Column) (hn : (cols.map Column.name).Nodup) (h : ℤ) (ls : List NamedLoad) (c : Column) (hc : c ∈ cols) (i : ℕ)
    (hi : loadIndex ls c.name = some i) :
    (setLoadValues cols h ls)[i]? = ls[i]?.map fun l => match c.value h with
      | some m => l.setMagnitude m
      | none => l := by
  induction cols generalizing ls with
  | nil => simp at hc
  | cons d cols ih =>
    rw [List.map_cons, List.nodup_cons] at hn
    have e : setLoadValues (d :: cols) h ls = setLoadValues cols h (setColumn h ls d) := rfl
    rw [e]
    rcases List.mem_cons.1 hc with rfl | hc'
    · rw [setLoadValues_other]
      · unfold setColumn
        rw [hi]
        cases c.value h with
        | none => simp
        | some m => simp only [modify_eq]
      · intro d hd hdi
        rw [loadIndex_ident (setColumn_ident h ls c)] at hdi
        obtain ⟨l1, h1, h2⟩ := loadIndex_name hi
        obtain ⟨l2, h3, h4⟩ := loadIndex_name hdi
        rw [h1] at h3
        have : l1 = l2 := by simpa using h3
        subst this
        exact hn.1 (List.mem_map.2 ⟨d, hd, by rw [← h4, h2]⟩)
    · rw [ih hn.2 _ hc' (by rw [loadIndex_ident (setColumn_ident h ls d)]; exact hi)]
      congr 1
      unfold setColumn
      split
      · rfl
      · rename_i k hk
        split
        · rfl
        · refine modify_ne _ _ ?_
          rintro rfl
          obtain ⟨l1, h1, h2⟩ := loadIndex_name hi
          obtain ⟨l2, h3, h4⟩ := loadIndex_name hk
          rw [h1] at h3
          have : l1 = l2 := by simpa using h3
          subst this
          exact hn.1 (List.mem_map.2 ⟨c, hc', by rw [← h2, h4]⟩)

theorem setMagnitude_S (m : ℝ) (l : NamedLoad) : (l.setMagnitude m).S = (m : ℂ) * Complex.exp (l.S.arg * Complex.I) := by
  rw [Complex.exp_mul_I, ← Complex.ofReal_cos, ← Complex.ofReal_sin]
  apply Complex.ext
  · simp [NamedLoad.setMagnitude, NamedLoad.S, -Complex.ofReal_cos, -Complex.ofReal_sin]
  · simp [NamedLoad.setMagnitude, NamedLoad.S, -Complex.ofReal_cos, -Complex.ofReal_sin]

theorem setMagnitude_norm (m : ℝ) (hm : 0 ≤ m) (l : NamedLoad) : ‖(l.setMagnitude m).S‖ = m := by
  rw [setMagnitude_S, norm_mul, Complex.norm_exp_ofReal_mul_I, mul_one, Complex.norm_real, Real.norm_of_nonneg hm]

theorem setMagnitude_arg (m : ℝ) (hm : 0 < m) (l : NamedLoad) : (l.setMagnitude m).S.arg = l.S.arg := by
  rw [setMagnitude_S, Complex.exp_mul_I, Complex.arg_mul_cos_add_sin_mul_I hm (Complex.arg_mem_Ioc _)]

theorem add_ident (p q : ℝ) (l : NamedLoad) : (l.add p q).ident = l.ident := rfl

theorem addOutputs_ident (neg : List Txt) (gs : List GenOut) (ls : List NamedLoad) : (addOutputs neg gs ls).2.map NamedLoad.ident = ls.map NamedLoad.ident := by
  induction gs generalizing ls with
  | nil => rfl
  | cons g gs ih =>
    unfold addOutputs
    split
    · rfl
    · rw [ih, modify_map NamedLoad.ident (NamedLoad.add _ _) (fun _ => rfl)]

/-- Load `i` after the outputs are added. -/
theorem addOutputs_get (neg : List Txt) (gs : List GenOut) (ls : List NamedLoad) (hok : (addOutputs neg gs ls).1 = .ok ()) (i : ℕ) :
    (addOutputs neg gs ls).2[i]? = ls[i]?.map fun l =>
      l.add ((gs.filter fun g => negativeIndex neg ls g.phase = some i).map GenOut.P).sum ((gs.filter fun g => negativeIndex neg ls g.phase = some i).map GenOut.Q).sum := by
  induction gs generalizing ls with
  | nil =>
    simp only [addOutputs, List.filter_nil, List.map_nil, List.sum_nil]
    have : (fun l : NamedLoad => l.add 0 0) = id := by funext l; simp [NamedLoad.add]
    rw [this]; simp
  | cons g gs ih =>
    unfold addOutputs at hok ⊢
    cases hk : negativeIndex neg ls g.phase with
    | none => rw [hk] at hok; cases hok
    | some k =>
      rw [hk] at hok
      simp only at hok ⊢
      rw [ih _ hok]
      have hid : ∀ ph, negativeIndex neg (ls.modify k (NamedLoad.add g.P g.Q)) ph = negativeIndex neg ls ph := fun ph =>
        negativeIndex_ident (modify_map NamedLoad.ident (NamedLoad.add _ _) (fun _ => rfl) _ _) neg ph
      simp only [hid]
      by_cases hki : k = i
      · subst hki
        rw [modify_eq]
        simp only [List.filter_cons, hk, decide_true, if_true, List.map_cons, List.sum_cons]
        cases ls[k]? with
        | none => rfl
        | some l => simp [NamedLoad.add, add_assoc]
      · rw [modify_ne _ _ hki]
        simp [hk, hki]

theorem afterUnderscore_iff (n k : Txt) : afterUnderscore n = k ↔ '_' ∉ k ∧ (n = k ∨ ∃ pre, n = pre ++ '_' :: k) := by
  induction n with
  | nil =>
    constructor
    · rintro rfl
      exact ⟨by simp [afterUnderscore], .inl rfl⟩
    · rintro ⟨-, rfl | ⟨pre, h⟩⟩
      · rfl
      · simp at h
  | cons c cs ih =>
    unfold afterUnderscore
    split_ifs with h1 h2
    · rw [ih]
      refine and_congr_right fun hk => ?_
      constructor
      · rintro (rfl | ⟨pre, rfl⟩)
        · exact absurd h1 hk
        · exact .inr ⟨c :: pre, rfl⟩
      · rintro (rfl | ⟨pre, h⟩)
        · exact absurd (List.mem_cons_of_mem _ h1) hk
        · cases pre with
          | nil =>
            cases h
            exact .inl rfl
          | cons d ds =>
            cases h
            exact .inr ⟨ds, rfl⟩
    · subst h2
      constructor
      · rintro rfl
        exact ⟨h1, .inr ⟨[], rfl⟩⟩
      · rintro ⟨hk, rfl | ⟨pre, h⟩⟩
        · simp at hk
        · cases pre with
          | nil => cases h; rfl
          | cons d ds => cases h; simp at h1
    · constructor
      · rintro rfl
        exact ⟨by simp [h1, Ne.symm h2], .inl rfl⟩
      · rintro ⟨hk, rfl | ⟨pre, h⟩⟩
        · rfl
        · cases pre with
          | nil => cases h; exact absurd rfl h2
          | cons d ds => cases h; simp at h1

theorem isNegative_iff (neg : List Txt) (l : NamedLoad) : l.num ∈ neg.map afterUnderscore ↔ l.IsNegative neg := by
  unfold NamedLoad.IsNegative
  simp only [List.mem_map, afterUnderscore_iff]
  constructor
  · rintro ⟨n, hn, h1, h2⟩
    exact ⟨h1, n, hn, h2⟩
  · rintro ⟨h1, n, hn, h2⟩
    exact ⟨n, hn, h1, h2⟩

theorem balancePhase_eq (l : NamedLoad) : l.balancePhase = l.onPhase := by
  unfold NamedLoad.balancePhase NamedLoad.onPhase
  cases l.triplex <;> rfl

end Verif
