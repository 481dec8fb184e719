import Verif.Lemmas.RawFile

/-!
# Writing files down: helpers for concrete texts
-/

namespace Verif.Raw

open Glm (Blank Number Numeral Exponent Sign)

/-! ### Fields and lines -/

/-- A field with the way it is written. -/
structure Written where
  quoted : Bool
  before : ℕ
  left : Txt
  text : Txt
  right : Txt
  after : ℕ
  deriving DecidableEq

/-- The characters of the field. -/
def Written.render (w : Written) : Txt :=
  if w.quoted then List.replicate w.before ' ' ++ '\'' :: doubled (w.left ++ w.text ++ w.right) ++ '\'' :: List.replicate w.after ' '
  else w.left ++ w.text ++ w.right

/-- The conditions on a field. -/
def Written.fine (w : Written) : Bool :=
  w.left.all Glm.isSpace && w.right.all Glm.isSpace && !(w.text.head?.any Glm.isSpace) && !(w.text.getLast?.any Glm.isSpace) &&
  !((w.left ++ w.text ++ w.right).contains '\n') && (w.quoted || (!w.text.contains ',' && decide (w.text.head? ≠ some '\'')))

/-- A plain field; white space around it is taken as it stands. -/
def plainField (s : String) : Written :=
  let t := s.toList
  let l := t.takeWhile Glm.isSpace
  let m := t.dropWhile Glm.isSpace
  let r := (m.reverse.takeWhile Glm.isSpace).reverse
  ⟨false, 0, l, m.take (m.length - r.length), r, 0⟩

/-- A field between quotes, after `a` and before `b` spaces. -/
def quotedField (a : ℕ) (s : String) (b : ℕ) : Written := { plainField s with quoted := true, before := a, after := b }

theorem trimmed_of {t : Txt} (h1 : (t.head?.any Glm.isSpace) = false) (h2 : (t.getLast?.any Glm.isSpace) = false) : Trimmed t := by
  constructor
  · intro c hc
    cases h : t.head? with
    | none => rw [h] at hc; cases hc
    | some a => rw [h] at hc h1; cases hc; exact h1
  · intro c hc
    cases h : t.getLast? with
    | none => rw [h] at hc; cases hc
    | some a => rw [h] at hc h2; cases hc; exact h2

theorem Written.field {w : Written} (h : w.fine = true) : Field w.render w.text := by
  simp only [Written.fine, Bool.and_eq_true, Bool.not_eq_true', Bool.or_eq_true, List.all_eq_true, decide_eq_true_eq] at h
  obtain ⟨⟨⟨⟨⟨h1, h2⟩, h3⟩, h4⟩, h5⟩, h6⟩ := h
  have hn : '\n' ∉ w.left ++ w.text ++ w.right := by simpa [List.contains_iff_mem] using h5
  unfold Written.render
  split
  · exact .quoted _ _ _ _ _ h1 h2 (trimmed_of h3 h4) hn
  · rename_i hq
    rcases h6 with h6 | ⟨h6, h7⟩
    · exact absurd h6 hq
    · exact .plain _ _ _ h1 h2 (trimmed_of h3 h4) (by simpa [List.contains_iff_mem] using h6) h7 hn

/-- The characters of a line. -/
def renderLine : List Written → Txt
  | [] => []
  | [w] => w.render
  | w :: ws => w.render ++ ',' :: renderLine ws

theorem renderLine_line : ∀ {ws : List Written}, ws ≠ [] → (∀ w ∈ ws, w.fine = true) → Line (renderLine ws) (ws.map Written.text)
  | [], h, _ => absurd rfl h
  | [w], _, h => .last (Written.field (h w (by simp)))
  | w :: w' :: ws, _, h => .more (Written.field (h w (by simp))) (renderLine_line (by simp) fun x hx => h x (List.mem_cons_of_mem _ hx))

/-- The characters of a text, every line with a line end. -/
def renderText (lines : List (List Written)) : Txt := lines.flatMap fun l => renderLine l ++ ['\n']

/-- The contents of the fields. -/
def contents (lines : List (List Written)) : List Row := lines.map fun l => l.map Written.text

/-- The conditions on a text. -/
def fineText (lines : List (List Written)) : Bool := lines.all fun l => l.all Written.fine && decide (renderLine l ≠ [])

theorem renderText_text {lines : List (List Written)} (h : fineText lines = true) : TextOf (renderText lines) (contents lines) := by
  induction lines with
  | nil => exact .nil
  | cons l ls ih =>
    simp only [fineText, List.all_cons, Bool.and_eq_true, List.all_eq_true, decide_eq_true_eq] at h
    obtain ⟨⟨h1, h2⟩, h3⟩ := h
    have hl : l ≠ [] := by rintro rfl; exact h2 rfl
    have := TextOf.line (renderLine_line hl h1) h2 (ih (by simpa only [fineText, List.all_eq_true, Bool.and_eq_true, decide_eq_true_eq] using h3))
    simpa [renderText, contents] using this

/-! ### Contents -/

/-- Only digits, and at least one. -/
def digitsB (t : Txt) : Bool := decide (t ≠ []) && t.all Char.isDigit

/-- The text without its sign. -/
def unsigned : Txt → Txt
  | '-' :: t => t
  | '+' :: t => t
  | t => t

theorem takeWhile_holds {α : Type} (p : α → Bool) (l : List α) : ∀ a ∈ l.takeWhile p, p a = true := by
  induction l with
  | nil => intro a ha; cases ha
  | cons b l ih =>
    intro a ha
    by_cases hb : p b = true
    · rw [List.takeWhile_cons_of_pos hb] at ha
      rcases List.mem_cons.1 ha with rfl | ha
      · exact hb
      · exact ih a ha
    · rw [List.takeWhile_cons_of_neg hb] at ha
      cases ha

theorem unsigned_eq (t : Txt) : ∃ s k, Sign s k ∧ t = s ++ unsigned t := by
  unfold unsigned
  split
  · exact ⟨['-'], -1, .minus, rfl⟩
  · exact ⟨['+'], 1, .plus, rfl⟩
  · exact ⟨[], 1, .none, rfl⟩

/-- The text is an integer, or a numeral with a point. -/
def Content.check : Content → Txt → Bool
  | .integer, t => digitsB (unsigned t)
  | .number, t =>
    let u := unsigned t
    let a := u.takeWhile Char.isDigit
    let b := u.dropWhile Char.isDigit
    match b with
    | [] => decide (a ≠ [])
    | c :: b => decide (c = '.') && b.all Char.isDigit && decide (a ++ b ≠ [])
  | .text, _ => true

theorem Content.check_holds {c : Content} {t : Txt} (h : c.check t = true) : c.Holds t := by
  obtain ⟨s, k, hs, ht⟩ := unsigned_eq t
  cases c with
  | integer =>
    simp only [Content.check, digitsB, Bool.and_eq_true, decide_eq_true_eq, List.all_eq_true] at h
    exact ⟨_, s, unsigned t, k, hs, h.1, h.2, ht, rfl⟩
  | number =>
    simp only [Content.check] at h
    have hu : unsigned t = (unsigned t).takeWhile Char.isDigit ++ (unsigned t).dropWhile Char.isDigit := (List.takeWhile_append_dropWhile).symm
    have ha : ∀ c ∈ (unsigned t).takeWhile Char.isDigit, c.isDigit = true := fun c hc => takeWhile_holds _ _ c hc
    rw [ht]
    generalize (unsigned t).takeWhile Char.isDigit = a at h hu ha
    generalize (unsigned t).dropWhile Char.isDigit = b at h hu
    cases b with
    | nil =>
      simp only [decide_eq_true_eq] at h
      have := Number.mk s a [] k 0 _ hs (.whole a h ha) .none
      rw [List.append_nil] at this hu
      rw [hu]
      exact ⟨_, this⟩
    | cons c b =>
      simp only [Bool.and_eq_true, decide_eq_true_eq, List.all_eq_true] at h
      obtain ⟨⟨rfl, hb⟩, hne⟩ := h
      have := Number.mk s (a ++ '.' :: b) [] k 0 _ hs (.point a b hne ha hb) .none
      rw [List.append_nil] at this
      rw [hu]
      exact ⟨_, this⟩
  | text => trivial

/-- The conditions of `Fits`. -/
def fitsB (cols : List Heading) (n : ℕ) (required : List String) (row : Row) : Bool :=
  (cols.zip row).all (fun p => decide (p.2 = []) || p.1.2.check p.2) && decide (n ≤ row.length) && required.all fun name => decide (under cols row name ≠ [])

theorem fitsB_fits {cols : List Heading} {n : ℕ} {required : List String} {row : Row} (h : fitsB cols n required row = true) :
    Fits cols n required row := by
  simp only [fitsB, Bool.and_eq_true, List.all_eq_true, decide_eq_true_eq, Bool.or_eq_true] at h
  obtain ⟨⟨h1, h2⟩, h3⟩ := h
  refine ⟨fun k c t hc ht => ?_, h2, h3⟩
  have hm : (c, t) ∈ cols.zip row := by
    refine List.mem_of_getElem? (i := k) ?_
    rw [List.getElem?_zip_eq_some]
    exact ⟨hc, ht⟩
  rcases h1 _ hm with h | h
  · exact .inl h
  · exact .inr (Content.check_holds h)

/-- Two rows have names that differ. -/
def apartB (cols : List Heading) (numbers identifiers : List String) (r r' : Row) : Bool :=
  numbers.any (fun name => decide (toInt (under cols r name) ≠ toInt (under cols r' name))) ||
  identifiers.any fun name => decide (identifier (under cols r name) ≠ identifier (under cols r' name))

theorem apartB_apart {cols : List Heading} {numbers identifiers : List String} {r r' : Row} (h : apartB cols numbers identifiers r r' = true) :
    ¬ SameName cols numbers identifiers r r' := by
  rintro ⟨h1, h2⟩
  simp only [apartB, Bool.or_eq_true, List.any_eq_true, decide_eq_true_eq] at h
  rcases h with ⟨name, hm, hne⟩ | ⟨name, hm, hne⟩
  · obtain ⟨n, i1, i2⟩ := h1 name hm
    exact hne (by rw [toInt_integer i1, toInt_integer i2])
  · exact hne (h2 name hm)

/-- The condition holds for all pairs. -/
def pairsB {α : Type} (p : α → α → Bool) : List α → Bool
  | [] => true
  | a :: l => l.all (p a) && pairsB p l

theorem pairsB_pairwise {α : Type} {p : α → α → Bool} {P : α → α → Prop} (hp : ∀ a b, p a b = true → P a b) :
    ∀ {l : List α}, pairsB p l = true → l.Pairwise P
  | [], _ => .nil
  | a :: l, h => by
    simp only [pairsB, Bool.and_eq_true, List.all_eq_true] at h
    exact .cons (fun b hb => hp a b (h.1 b hb)) (pairsB_pairwise hp h.2)

/-! ### Sections -/

/-- A row a record can begin with. -/
def openingB : Row → Bool
  | (c :: t) :: _ => decide (c ≠ '@') && decide (c ≠ 'q') && decide (c ≠ 'Q') && decide (c :: t ≠ ['0']) && !(['0', ' ', '/'].isPrefixOf (c :: t))
  | _ => false

theorem openingB_opening {r : Row} (h : openingB r = true) : Opening r := by
  unfold openingB at h
  split at h
  · rename_i c t ts
    simp only [Bool.and_eq_true, decide_eq_true_eq, Bool.not_eq_true'] at h
    obtain ⟨⟨⟨⟨h1, h2⟩, h3⟩, h4⟩, h5⟩ := h
    refine ⟨c, t, ts, rfl, h1, h2, h3, h4, fun hp => ?_⟩
    rw [List.isPrefixOf_iff_prefix.2 hp] at h5
    cases h5
  · cases h

/-- A section and its end. -/
def laid (items : List (List Row)) : List Row := items.flatten ++ [[['0']]]

/-- Every record begins with a row a record can begin with. -/
def openB (items : List (List Row)) : Bool := items.all fun rs => match rs with
  | r :: _ => openingB r
  | [] => false

theorem laid_lists {items : List (List Row)} (h : openB items = true) (rest : List Row) : Lists items (laid items ++ rest) rest := by
  induction items with
  | nil => exact .stop (.inl rfl)
  | cons rs items ih =>
    simp only [openB, List.all_cons, Bool.and_eq_true] at h
    cases rs with
    | nil => exact absurd h.1 (by simp)
    | cons r rs =>
      have := Lists.item (rs := rs) (openingB_opening h.1) (ih h.2)
      simpa [laid] using this

theorem laid_laysOut {tail : List Row → Prop} {rest : List Row} : ∀ {secs empty : List (List (List Row))}, LaysOut tail empty rest →
    (secs.all openB) = true → LaysOut tail (secs ++ empty) (secs.flatMap laid ++ rest)
  | [], _, h, _ => h
  | items :: secs, empty, h, hs => by
    simp only [List.all_cons, Bool.and_eq_true] at hs
    rw [List.flatMap_cons, List.append_assoc, List.cons_append]
    exact .sect (laid_lists hs.1 _) (laid_laysOut h hs.2)

end Verif.Raw
