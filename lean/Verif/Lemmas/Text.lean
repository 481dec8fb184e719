import Verif.Spec.Glm

/-!
# Lemmas on the text functions
-/

namespace Verif.Glm

theorem dropWhile_append_all (p : Char → Bool) (l s : Txt) (h : ∀ c ∈ l, p c = true) : (l ++ s).dropWhile p = s.dropWhile p := by
  induction l with
  | nil => rfl
  | cons c l ih =>
    rw [List.cons_append, List.dropWhile_cons, if_pos (h c (by simp))]
    exact ih fun d hd => h d (by simp [hd])

theorem dropWhile_head (p : Char → Bool) (c : Char) (s : Txt) (h : p c = false) : (c :: s).dropWhile p = c :: s := by
  rw [List.dropWhile_cons, if_neg (by simp [h])]

/-- What comes after a character that stays is cut from the right only. -/
theorem dropEnd_append (p : Char → Bool) (a r : Txt) (c : Char) (hc : p c = false) :
    ((a ++ c :: r).reverse.dropWhile p).reverse = a ++ c :: (r.reverse.dropWhile p).reverse := by
  rw [List.reverse_append, List.reverse_cons, List.append_assoc, List.singleton_append]
  induction r.reverse with
  | nil => rw [List.nil_append, dropWhile_head p c _ hc]; simp
  | cons d ds ih =>
    by_cases hd : p d = true
    · rw [List.cons_append, List.dropWhile_cons, if_pos hd, ih, List.dropWhile_cons, if_pos hd]
    · rw [List.cons_append, List.dropWhile_cons, if_neg hd, List.dropWhile_cons, if_neg hd]
      simp

/-- A row whose kept part `a ++ [c]` begins with `d`: only its surroundings are stripped. -/
theorem stripBy_core (p : Char → Bool) (l a r : Txt) (c : Char) (hl : ∀ x ∈ l, p x = true)
    (ha : ∀ x ∈ (a ++ [c]).head?, p x = false) (hc : p c = false) :
    stripBy p (l ++ (a ++ c :: r)) = a ++ c :: (r.reverse.dropWhile p).reverse := by
  unfold stripBy
  rw [dropWhile_append_all p l _ hl]
  have h : (a ++ c :: r).dropWhile p = a ++ c :: r := by
    cases a with
    | nil => exact dropWhile_head p c r hc
    | cons x xs => exact dropWhile_head p x _ (ha x (by simp))
  rw [h, dropEnd_append p a r c hc]

theorem dropWhile_blank (p : Char → Bool) (s : Txt) (h : ∀ c ∈ s, p c = true) : s.dropWhile p = [] := by
  have := dropWhile_append_all p s [] h
  simpa using this

theorem dropEnd_blank (p : Char → Bool) (s : Txt) (h : ∀ c ∈ s, p c = true) : (s.reverse.dropWhile p).reverse = [] := by
  rw [dropWhile_blank p _ fun c hc => h c (List.mem_reverse.1 hc)]; rfl

/-! ### `find` -/

theorem find_append_of_notMem (p : Char) (ps a r : Txt) (h : p ∉ a) :
    find (p :: ps) (a ++ r) = (find (p :: ps) r).map (· + a.length) := by
  induction a with
  | nil => cases h' : find (p :: ps) r <;> simp [h']
  | cons c a ih =>
    have hc : p ≠ c := fun e => h (by simp [e])
    rw [List.cons_append, find, if_neg (by simp [List.isPrefixOf, hc]), ih fun e => h (by simp [e])]
    cases find (p :: ps) r <;> simp [Nat.add_assoc]

/-- A cut at a pattern leaves what comes before its first character. -/
theorem cutAt_append (p : Char) (ps a r : Txt) (h : p ∉ a) : cutAt (p :: ps) (a ++ r) = a ++ cutAt (p :: ps) r := by
  unfold cutAt
  rw [find_append_of_notMem p ps a r h]
  cases find (p :: ps) r with
  | none => rfl
  | some i =>
    simp only [Option.map_some]
    rw [List.take_append, List.take_of_length_le (by omega)]
    simp

theorem cutAt_pattern (pat r : Txt) : cutAt pat (pat ++ r) = [] := by
  unfold cutAt
  cases h : pat ++ r with
  | nil =>
    have : pat = [] := (List.append_eq_nil_iff.1 h).1
    subst this
    simp [find]
  | cons c cs =>
    have : pat.isPrefixOf (c :: cs) = true := by rw [← h]; simp
    rw [find, if_pos this]
    rfl

theorem cutAt_nil (p : Char) (ps : Txt) : cutAt (p :: ps) [] = [] := rfl

/-! ### `split` -/

theorem splitAux_word (w v : Txt) (h : ∀ c ∈ v, isSpace c = false) (r : Txt) : splitAux w (v ++ r) = splitAux (w ++ v) r := by
  induction v generalizing w with
  | nil => simp
  | cons c v ih =>
    rw [List.cons_append, splitAux, if_neg (by simp [h c (by simp)]), ih _ fun d hd => h d (by simp [hd])]
    simp

theorem splitAux_blank (s r : Txt) (h : Blank s) : splitAux [] (s ++ r) = splitAux [] r := by
  induction s with
  | nil => rfl
  | cons c s ih =>
    rw [List.cons_append, splitAux, if_pos (h c (by simp))]
    exact ih fun d hd => h d (by simp [hd])

theorem splitAux_gap (w s r : Txt) (hw : w ≠ []) (hs : Blank s) (hne : s ≠ []) : splitAux w (s ++ r) = w :: splitAux [] r := by
  cases s with
  | nil => exact absurd rfl hne
  | cons c s =>
    rw [List.cons_append, splitAux, if_pos (hs c (by simp)), if_neg (by simpa using hw)]
    rw [splitAux_blank s r fun d hd => hs d (by simp [hd])]

theorem splitAux_end (w s : Txt) (hw : w ≠ []) (hs : Blank s) : splitAux w s = [w] := by
  cases s with
  | nil => rw [splitAux, if_neg (by simpa using hw)]
  | cons c s =>
    have := splitAux_gap w (c :: s) [] hw hs (by simp)
    simpa [splitAux] using this

theorem splitOnAux_none (sep : Char) (w s : Txt) (h : sep ∉ s) : splitOnAux sep w s = [w ++ s] := by
  induction s generalizing w with
  | nil => simp [splitOnAux]
  | cons c s ih =>
    rw [splitOnAux, if_neg (fun e => h (by simp [e])), ih _ fun e => h (by simp [e])]
    simp

theorem splitOn_none (sep : Char) (s : Txt) (h : sep ∉ s) : splitOn sep s = [s] := by
  rw [splitOn, splitOnAux_none sep [] s h, List.nil_append]

theorem dropChar_of_notMem (c : Char) (s : Txt) (h : c ∉ s) : dropChar c s = s := by
  unfold dropChar
  rw [List.filter_eq_self]
  intro d hd
  simp only [ne_eq, decide_eq_true_eq]
  exact fun e => h (e ▸ hd)

end Verif.Glm
