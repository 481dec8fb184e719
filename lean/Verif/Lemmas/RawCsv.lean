import Verif.Spec.RawText
import Verif.Lemmas.Numbers

/-!
# The rows of a text
-/

namespace Verif.Raw

open Glm (Blank strip cutAt)

/-! ### White space -/

theorem strip_trimmed {l t r : Txt} (hl : Blank l) (hr : Blank r) (ht : Trimmed t) : strip (l ++ t ++ r) = t := by
  rcases t.eq_nil_or_concat' with rfl | ⟨a, c, rfl⟩
  · rw [List.append_nil]
    have : Blank (l ++ r) := fun c hc => (List.mem_append.1 hc).elim (hl c) (hr c)
    rw [strip, Glm.stripBy, Glm.dropWhile_blank _ _ this]; rfl
  · have h := Glm.stripBy_core Glm.isSpace l a r c hl ht.1 (ht.2 c (by simp))
    rw [Glm.dropEnd_blank _ _ hr] at h
    rw [strip, List.append_assoc, List.append_assoc, List.singleton_append, h]

theorem strip_dropSpaces (w : Txt) : strip (w.dropWhile (· = ' ')) = strip w := by
  have : (w.dropWhile (· = ' ')).dropWhile Glm.isSpace = w.dropWhile Glm.isSpace := by
    induction w with
    | nil => rfl
    | cons c cs ih =>
      by_cases h : c = ' '
      · rw [List.dropWhile_cons, if_pos (by simp [h]), ih, List.dropWhile_cons, if_pos (by rw [h]; rfl)]
      · rw [List.dropWhile_cons, if_neg (by simp [h])]
  rw [strip, Glm.stripBy, this]; rfl

theorem blank_replicate (n : ℕ) : Blank (List.replicate n ' ') := fun c hc => by
  rw [List.eq_of_mem_replicate hc]; rfl

/-! ### Fields -/

/-- The reader is behind the content of a field. -/
def CsvState.Behind (s : CsvState) : Prop := s = .startField ∨ s = .inField ∨ s = .quoteInQuoted

theorem csvGo_start {d c : Char} (hc : c ≠ '\n') (r : Row) (cs : Txt) :
    csvGo d .startRecord [] r (c :: cs) = csvGo d .startField [] r (c :: cs) := by
  simp only [csvGo, if_neg hc]

theorem csvGo_inField (d : Char) (r : Row) (rest w : Txt) : ∀ f, d ∉ w → '\n' ∉ w → csvGo d .inField f r (w ++ rest) = csvGo d .inField (f ++ w) r rest := by
  induction w with
  | nil => intro f _ _; simp
  | cons c w ih =>
    intro f h1 h2
    have hc : c ≠ '\n' := fun e => h2 (by simp [e])
    have hd : c ≠ d := fun e => h1 (by simp [e])
    rw [List.cons_append, csvGo, if_neg hc, if_neg hd, ih _ (fun e => h1 (by simp [e])) fun e => h2 (by simp [e])]
    simp

theorem csvGo_plain (d : Char) (w : Txt) : d ∉ w → '\n' ∉ w → (w.dropWhile (· = ' ')).head? ≠ some '\'' →
    ∃ s : CsvState, s.Behind ∧ ∀ r rest, csvGo d .startField [] r (w ++ rest) = csvGo d s (w.dropWhile (· = ' ')) r rest := by
  induction w with
  | nil => intro _ _ _; exact ⟨_, .inl rfl, fun _ _ => rfl⟩
  | cons c w ih =>
    intro h1 h2 h3
    have hc : c ≠ '\n' := fun e => h2 (by simp [e])
    have hd : c ≠ d := fun e => h1 (by simp [e])
    by_cases hs : c = ' '
    · rw [List.dropWhile_cons, if_pos (by simp [hs])] at h3 ⊢
      obtain ⟨s, hb, e⟩ := ih (fun e => h1 (by simp [e])) (fun e => h2 (by simp [e])) h3
      refine ⟨s, hb, fun r rest => ?_⟩
      rw [List.cons_append, csvGo, if_neg hc, if_neg (by rw [hs]; decide), if_pos hs, e]
    · rw [List.dropWhile_cons, if_neg (by simp [hs])] at h3 ⊢
      have hq : c ≠ '\'' := fun e => h3 (by simp [e])
      refine ⟨.inField, .inr (.inl rfl), fun r rest => ?_⟩
      rw [List.cons_append, csvGo, if_neg hc, if_neg hq, if_neg hs, if_neg hd,
        csvGo_inField d r rest w _ (fun e => h1 (by simp [e])) fun e => h2 (by simp [e])]
      rfl

theorem csvGo_quoted (d : Char) (r : Row) (rest t : Txt) : ∀ f, csvGo d .inQuoted f r (doubled t ++ rest) = csvGo d .inQuoted (f ++ t) r rest := by
  induction t with
  | nil => intro f; simp [doubled]
  | cons c t ih =>
    intro f
    by_cases hc : c = '\''
    · have : doubled (c :: t) = '\'' :: '\'' :: doubled t := by simp [doubled, hc]
      rw [this, List.cons_append, List.cons_append, csvGo, if_pos rfl, csvGo, if_pos rfl, ih, hc]
      simp
    · have : doubled (c :: t) = c :: doubled t := by simp [doubled, hc]
      rw [this, List.cons_append, csvGo, if_neg hc, ih]
      simp

theorem csvGo_spaces (d : Char) (r : Row) (rest : Txt) (n : ℕ) :
    csvGo d .startField [] r (List.replicate n ' ' ++ rest) = csvGo d .startField [] r rest := by
  induction n with
  | zero => rfl
  | succ n ih =>
    rw [List.replicate_succ, List.cons_append, csvGo, if_neg (by decide), if_neg (by decide), if_pos rfl, ih]

theorem csvGo_field {w t : Txt} (h : Field w t) :
    ∃ (s : CsvState) (f : Txt), s.Behind ∧ strip f = t ∧ ∀ r rest, csvGo ',' .startField [] r (w ++ rest) = csvGo ',' s f r rest := by
  cases h with
  | plain l t r' hl hr ht hc hq hn =>
    have hb : ∀ s : Txt, Blank s → ',' ∉ s ∧ '\'' ∉ s := fun s hs => ⟨fun hm => absurd (hs _ hm) (by decide), fun hm => absurd (hs _ hm) (by decide)⟩
    have h1 : ',' ∉ l ++ t ++ r' := by
      simp only [List.mem_append, not_or]
      exact ⟨⟨(hb l hl).1, hc⟩, (hb r' hr).1⟩
    have h2 : ((l ++ t ++ r').dropWhile (· = ' ')).head? ≠ some '\'' := by
      intro e
      have key : ∀ (a b : Txt), '\'' ∉ a → (b.dropWhile (· = ' ')).head? ≠ some '\'' → ((a ++ b).dropWhile (· = ' ')).head? ≠ some '\'' := by
        intro a b ha hb
        induction a with
        | nil => exact hb
        | cons c a ih =>
          rw [List.cons_append, List.dropWhile_cons]
          split
          · exact ih fun hm => ha (by simp [hm])
          · intro e
            rw [List.head?_cons, Option.some.injEq] at e
            exact ha (by simp [e])
      have hr0 : (r'.dropWhile (· = ' ')).head? ≠ some '\'' := by
        have := key r' [] (hb r' hr).2 (by simp)
        rwa [List.append_nil] at this
      rw [List.append_assoc] at e
      refine key l (t ++ r') (hb l hl).2 ?_ e
      cases t with
      | nil => exact hr0
      | cons c t =>
        have : Glm.isSpace c = false := ht.1 c (by simp)
        have hcs : c ≠ ' ' := fun e => by rw [e] at this; cases this
        rw [List.cons_append, List.dropWhile_cons, if_neg (by simp [hcs])]
        exact hq
    obtain ⟨s, hs, e⟩ := csvGo_plain ',' _ h1 hn h2
    exact ⟨s, _, hs, by rw [strip_dropSpaces, strip_trimmed hl hr ht], e⟩
  | quoted a b l t r' hl hr ht hn =>
    have h0 : ∀ r rest, csvGo ',' .startField [] r (List.replicate a ' ' ++ '\'' :: doubled (l ++ t ++ r') ++ '\'' :: List.replicate b ' ' ++ rest) =
        csvGo ',' .quoteInQuoted (l ++ t ++ r') r (List.replicate b ' ' ++ rest) := by
      intro r rest
      rw [List.append_assoc, List.append_assoc, csvGo_spaces, List.cons_append, csvGo, if_neg (by decide), if_pos rfl]
      generalize l ++ t ++ r' = x
      rw [csvGo_quoted, List.nil_append, List.cons_append, csvGo, if_pos rfl]
    cases b with
    | zero => exact ⟨.quoteInQuoted, _, .inr (.inr rfl), strip_trimmed hl hr ht, h0⟩
    | succ b =>
      refine ⟨.inField, l ++ t ++ r' ++ List.replicate (b + 1) ' ', .inr (.inl rfl), ?_, fun r rest => ?_⟩
      · rw [List.append_assoc]
        exact strip_trimmed hl (fun c hc => (List.mem_append.1 hc).elim (hr c) (blank_replicate _ c)) ht
      · rw [h0, List.replicate_succ, List.cons_append, csvGo, if_neg (by decide), if_neg (by decide), if_neg (by decide), csvGo_inField _ _ _ _ _
          (fun hm => absurd (List.eq_of_mem_replicate hm) (by decide)) (fun hm => absurd (List.eq_of_mem_replicate hm) (by decide))]
        simp

theorem Field.noEnd {w t : Txt} (h : Field w t) : '\n' ∉ w := by
  cases h with
  | plain l t r hl hr ht hc hq hn => exact hn
  | quoted a b l t r hl hr ht hn =>
    have h2 : '\n' ∉ doubled (l ++ t ++ r) := by
      intro hm
      obtain ⟨c, hc, hm⟩ := List.mem_flatMap.1 hm
      split at hm
      · revert hm; decide
      · rw [List.mem_singleton] at hm
        exact hn (hm ▸ hc)
    simp only [List.mem_append, List.mem_cons, List.mem_replicate, not_or]
    exact ⟨⟨fun h => absurd h.2 (by decide), by decide, h2⟩, by decide, fun h => absurd h.2 (by decide)⟩

/-! ### Lines -/

theorem Line.noEnd {l : Txt} {ts : Row} (h : Line l ts) : '\n' ∉ l := by
  induction h with
  | last h => exact h.noEnd
  | more h _ ih =>
    simp only [List.mem_append, List.mem_cons, not_or]
    exact ⟨h.noEnd, by decide, ih⟩

theorem Behind.comma {s : CsvState} (h : s.Behind) (f : Txt) (r : Row) (cs : Txt) :
    csvGo ',' s f r (',' :: cs) = csvGo ',' .startField [] (r ++ [f]) cs := by
  rcases h with rfl | rfl | rfl <;> simp [csvGo]

theorem Behind.lineEnd {s : CsvState} (h : s.Behind) (f : Txt) (r : Row) (cs : Txt) :
    csvGo ',' s f r ('\n' :: cs) = (r ++ [f]) :: csvGo ',' .startRecord [] [] cs := by
  rcases h with rfl | rfl | rfl <;> simp [csvGo]

theorem Behind.fileEnd {s : CsvState} (h : s.Behind) (f : Txt) (r : Row) : csvGo ',' s f r [] = [r ++ [f]] := by
  rcases h with rfl | rfl | rfl <;> simp [csvGo]

theorem csvGo_line {l : Txt} {ts : Row} (h : Line l ts) : ∃ fs : Row, fs.map strip = ts ∧
    ∀ r : Row, csvGo ',' .startField [] r l = [r ++ fs] ∧
    ∀ rest, csvGo ',' .startField [] r (l ++ '\n' :: rest) = (r ++ fs) :: csvGo ',' .startRecord [] [] rest := by
  induction h with
  | @last w t h =>
    obtain ⟨s, f, hb, hf, e⟩ := csvGo_field h
    refine ⟨[f], by simp [hf], fun r => ⟨?_, fun rest => ?_⟩⟩
    · have := e r []
      rw [List.append_nil] at this
      rw [this, Behind.fileEnd hb]
    · rw [e, Behind.lineEnd hb]
  | @more w t l ts h _ ih =>
    obtain ⟨s, f, hb, hf, e⟩ := csvGo_field h
    obtain ⟨fs, hfs, he⟩ := ih
    refine ⟨f :: fs, by simp [hf, hfs], fun r => ⟨?_, fun rest => ?_⟩⟩
    · rw [e, Behind.comma hb, (he _).1]
      simp
    · rw [List.append_assoc, e, List.cons_append, Behind.comma hb, (he _).2]
      simp

/-! ### Texts -/

theorem csvGo_text {s : Txt} {rows : List Row} (h : TextOf s rows) : (csvGo ',' .startRecord [] [] s).map (fun r => r.map strip) = rows := by
  have start : ∀ (l : Txt) (rest : Txt), l ≠ [] → '\n' ∉ l → csvGo ',' .startRecord [] [] (l ++ rest) = csvGo ',' .startField [] [] (l ++ rest) := by
    intro l rest hne hn
    cases l with
    | nil => exact absurd rfl hne
    | cons c l => exact csvGo_start (fun e => hn (by simp [e])) _ _
  induction h with
  | nil => rfl
  | @last l r h hne =>
    obtain ⟨fs, hfs, he⟩ := csvGo_line h
    have := start l [] hne h.noEnd
    rw [List.append_nil] at this
    rw [this, (he []).1]
    simp [hfs]
  | @line l s r rs h hne _ ih =>
    obtain ⟨fs, hfs, he⟩ := csvGo_line h
    rw [start l _ hne h.noEnd, (he []).2, List.map_cons, ih]
    simp [hfs]
  | @blank s rs _ ih => rw [csvGo, if_pos rfl, List.map_cons, ih]; rfl

theorem Line.comma {l : Txt} {a b : Txt} {ts : Row} (h : Line l (a :: b :: ts)) : ',' ∈ l := by
  cases h with
  | more h hl => simp

theorem takeWhile_line {l : Txt} (h : '\n' ∉ l) (s : Txt) : (l ++ '\n' :: s).takeWhile (· ≠ '\n') = l := by
  induction l with
  | nil => simp
  | cons c l ih =>
    have hc : c ≠ '\n' := fun e => h (by simp [e])
    rw [List.cons_append, List.takeWhile_cons, if_pos (by simp [hc]), ih fun hm => h (by simp [hm])]

theorem findDelim_text {s : Txt} {a b : Txt} {ts : Row} {rows : List Row} (h : TextOf s ((a :: b :: ts) :: rows)) : findDelim s = ',' := by
  rw [findDelim, if_pos]
  cases h with
  | last h hne =>
    have : ∀ l : Txt, '\n' ∉ l → l.takeWhile (· ≠ '\n') = l := fun l hl => by
      induction l with
      | nil => rfl
      | cons c l ih =>
        have hc : c ≠ '\n' := fun e => hl (by simp [e])
        rw [List.takeWhile_cons, if_pos (by simp [hc]), ih fun hm => hl (by simp [hm])]
    rw [this _ h.noEnd]
    exact h.comma
  | line h hne hs =>
    rw [takeWhile_line h.noEnd]
    exact h.comma

theorem rowsOf_text {s : Txt} {a b : Txt} {ts : Row} {rows : List Row} (h : TextOf s ((a :: b :: ts) :: rows)) :
    rowsOf s = .ok ((a :: b :: ts) :: rows) := by
  have hne : s ≠ [] := by
    rintro rfl
    have := findDelim_text h
    revert this
    decide
  rw [rowsOf, if_neg hne, findDelim_text h, csvGo_text h]

end Verif.Raw
