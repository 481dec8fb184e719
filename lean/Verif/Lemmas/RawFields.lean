import Verif.Lemmas.RawCsv
import Verif.Lemmas.GlmObjects

/-!
# Fields of a row
-/

namespace Verif.Raw

open Glm (Blank strip cutAt pyFloat Number Sign decimal)

theorem ok_then {α β : Type} (a : α) (f : α → Py β) : ((Except.ok a : Py α) >>= f) = f a := rfl

/-! ### Numbers -/

theorem Integer.number {t : Txt} {n : ℤ} (h : Integer t n) : Number t (n : ℚ) := by
  obtain ⟨s, ds, k, hs, hne, hd, rfl, rfl⟩ := h
  have := Number.mk s ds [] k 0 (decimal ds) hs (.whole ds hne hd) .none
  simpa using this

theorem toInt_integer {t : Txt} {n : ℤ} (h : Integer t n) : toInt t = .ok n := by
  have hb := h.number.black
  have hst : strip t = t := by
    have := Glm.strip_black (l := []) (r := []) (fun _ h => by cases h) hb (fun _ h => by cases h)
    simpa using this
  obtain ⟨s, ds, k, hs, hne, hd, rfl, rfl⟩ := h
  have hsg : Glm.signOf (s ++ ds) = (k, ds) := Glm.signOf_append hs fun c hc => by
    have := Glm.digit_sign (hd c (List.mem_of_mem_head? hc))
    exact ⟨this.1, this.2.1⟩
  rw [toInt, Glm.intOf, hst, hsg]
  rw [if_pos ⟨hne, by simpa using hd⟩, Glm.natOf_decimal]

theorem toFloat_number {t : Txt} {x : ℚ} (h : Number t x) : toFloat t = .ok x := by
  have hst : strip t = t := by
    have := Glm.strip_black (l := []) (r := []) (fun _ h => by cases h) h.black (fun _ h => by cases h)
    simpa using this
  have hn : Glm.numPrefix t = some (x, []) := by
    have := Glm.numPrefix_append (r := []) h (fun c hc => by simp at hc)
    rwa [List.append_nil] at this
  rw [toFloat, pyFloat, hst, hn]

theorem toFloat_blanks {t b : Txt} {x : ℚ} (h : Number t x) (hb : Blank b) : toFloat (t ++ b) = .ok x := by
  have hst : strip (t ++ b) = t := by
    have := Glm.strip_black (l := []) (r := b) (fun _ h => by cases h) h.black hb
    simpa using this
  have hn : Glm.numPrefix t = some (x, []) := by
    have := Glm.numPrefix_append (r := []) h (fun c hc => by simp at hc)
    rwa [List.append_nil] at this
  rw [toFloat, pyFloat, hst, hn]

theorem Number.digit {t : Txt} {x : ℚ} (h : Number t x) : ∃ c ∈ t, c.isDigit = true := by
  obtain ⟨s, n, e, k, j, y, hs, hn, he⟩ := h
  cases hn with
  | whole ds hne hd =>
    obtain ⟨c, hc⟩ := List.exists_mem_of_ne_nil n hne
    exact ⟨c, by simp [hc], hd c hc⟩
  | point a b hne ha hb =>
    obtain ⟨c, hc⟩ := List.exists_mem_of_ne_nil _ hne
    rcases List.mem_append.1 hc with h | h
    · exact ⟨c, by simp [h], ha c h⟩
    · exact ⟨c, by simp [h], hb c h⟩

theorem Number.ne_nil {t : Txt} {x : ℚ} (h : Number t x) : t ≠ [] := by
  obtain ⟨c, hc, _⟩ := Number.digit h
  exact List.ne_nil_of_mem hc

theorem digitsIn_number {t : Txt} {x : ℚ} (h : Number t x) : ∃ ds, digitsIn t = .ok ds := by
  obtain ⟨c, hc, hd⟩ := Number.digit h
  rw [digitsIn, if_neg]
  · exact ⟨_, rfl⟩
  · intro e
    have := List.takeWhile_append_dropWhile (p := fun c : Char => !c.isDigit) (l := t)
    rw [e, List.append_nil] at this
    rw [← this] at hc
    have := Glm.takeWhile_all _ _ c hc
    simp [hd] at this

/-! ### Columns -/

/-- The heading is at this place, and only there. -/
def colAt (cols : List Heading) (k : ℕ) (name : String) (c : Content) : Bool :=
  cols[k]? = some (name, c) ∧ (cols.map Prod.fst).idxOf name = k

theorem colAt_iff {cols : List Heading} {k : ℕ} {name : String} {c : Content} (h : colAt cols k name c = true) :
    cols[k]? = some (name, c) ∧ (cols.map Prod.fst).idxOf name = k := by simpa [colAt] using h

theorem under_eq {cols : List Heading} {k : ℕ} {name : String} {c : Content} (h : colAt cols k name c = true) (row : Row) :
    under cols row name = row.getD k [] := by rw [under, (colAt_iff h).2]

theorem getD_lt {row : Row} {k : ℕ} (hk : k < row.length) : row.getD k [] = row[k] := by
  rw [List.getD_eq_getElem?_getD, List.getElem?_eq_getElem hk]; rfl

theorem parseToken_ne {α : Type} (conv : Txt → Py α) (d : Option α) {t : Txt} (h : t ≠ []) : parseToken conv d t = conv t := by
  unfold parseToken
  rw [if_neg h]

theorem cell_eq {row : Row} {k : ℕ} (hk : k < row.length) : cell row k = .ok (row.getD k []) := by
  rw [cell, List.getElem?_eq_getElem hk, getD_lt hk]

theorem Fits.holds {cols : List Heading} {n : ℕ} {req : List String} {row : Row} (h : Fits cols n req row) {k : ℕ} {name : String} {c : Content}
    (hc : colAt cols k name c = true) : under cols row name = [] ∨ c.Holds (under cols row name) := by
  rw [under_eq hc]
  by_cases hk : k < row.length
  · rw [getD_lt hk]
    exact h.typed k _ _ (colAt_iff hc).1 (List.getElem?_eq_getElem hk)
  · left
    rw [List.getD_eq_getElem?_getD, List.getElem?_eq_none (not_lt.1 hk)]; rfl

theorem intAt_default {cols : List Heading} {n : ℕ} {req : List String} {row : Row} (h : Fits cols n req row) {k : ℕ} {name : String} (d : ℤ)
    (hc : colAt cols k name .integer = true) (hk : k < row.length) :
    ∃ m, intAt row k (some d) = .ok m ∧ Int' (some d) (under cols row name) m := by
  rw [intAt, cell_eq hk, ok_then, ← under_eq hc]
  rcases h.holds hc with e | ⟨m, hm⟩
  · exact ⟨d, by rw [parseToken, if_pos e], .inl ⟨e, rfl⟩⟩
  · exact ⟨m, by rw [parseToken_ne _ _ (Number.ne_nil hm.number), toInt_integer hm], .inr hm⟩

theorem intAt_filled {cols : List Heading} {n : ℕ} {req : List String} {row : Row} (h : Fits cols n req row) {k : ℕ} (name : String)
    (hc : colAt cols k name .integer = true) (hk : k < row.length) (hf : name ∈ req) :
    ∃ m, (∀ d, intAt row k d = .ok m) ∧ Integer (under cols row name) m := by
  rcases h.holds hc with e | ⟨m, hm⟩
  · exact absurd e (h.filled name hf)
  · refine ⟨m, fun d => ?_, hm⟩
    rw [intAt, cell_eq hk, ok_then, ← under_eq hc, parseToken_ne _ _ (Number.ne_nil hm.number), toInt_integer hm]

theorem Content.Holds.toNumber {c : Content} (hn : c ≠ .text) {t : Txt} (h : c.Holds t) : ∃ x, Number t x := by
  cases c with
  | integer => obtain ⟨n, hn⟩ := h; exact ⟨_, hn.number⟩
  | number => exact h
  | text => exact absurd rfl hn

theorem floatAt_default {cols : List Heading} {n : ℕ} {req : List String} {row : Row} (h : Fits cols n req row) {k : ℕ} {name : String} (c : Content) (d : ℚ)
    (hc : colAt cols k name c = true) (hn : c ≠ .text) (hk : k < row.length) :
    ∃ m : ℚ, floatAt row k (some d) = .ok m ∧ Num (some d) (under cols row name) m := by
  rw [floatAt, cell_eq hk, ok_then, ← under_eq hc]
  rcases h.holds hc with e | hm
  · exact ⟨d, by rw [parseToken, if_pos e], d, rfl, .inl ⟨e, rfl⟩⟩
  · obtain ⟨m, hm⟩ := Content.Holds.toNumber hn hm
    exact ⟨m, by rw [parseToken_ne _ _ (Number.ne_nil hm), toFloat_number hm], m, rfl, .inr hm⟩

theorem floatAt_filled {cols : List Heading} {n : ℕ} {req : List String} {row : Row} (h : Fits cols n req row) {k : ℕ} (name : String) (c : Content)
    (hc : colAt cols k name c = true) (hn : c ≠ .text) (hk : k < row.length) (hf : name ∈ req) :
    ∃ m : ℚ, (∀ d, floatAt row k d = .ok m) ∧ ∀ d, Num d (under cols row name) m := by
  rcases h.holds hc with e | hm
  · exact absurd e (h.filled name hf)
  · obtain ⟨m, hm⟩ := Content.Holds.toNumber hn hm
    refine ⟨m, fun d => ?_, fun d => ⟨m, rfl, .inr hm⟩⟩
    rw [floatAt, cell_eq hk, ok_then, ← under_eq hc, parseToken_ne _ _ (Number.ne_nil hm), toFloat_number hm]

theorem textAt_identifier {cols : List Heading} {row : Row} {k : ℕ} {name : String} {c : Content}
    (hc : colAt cols k name c = true) (hk : k < row.length) : textAt row k (some ['1']) = .ok (identifier (under cols row name)) := by
  rw [textAt, cell_eq hk, ok_then, ← under_eq hc, parseToken, identifier]
  split <;> rfl

/-! ### Fields that are not kept -/

/-- A field of this heading can be read in this way. -/
def Compatible (cols : List Heading) (req : List String) (e : ℕ × Kind × Bool) : Bool := match cols[e.1]? with
  | none => false
  | some (name, c) => (cols.map Prod.fst).idxOf name = e.1 && (e.2.2 || name ∈ req) && (match e.2.1, c with
    | .text, _ => true
    | .int, .integer => true
    | .int, _ => false
    | _, .text => false
    | _, _ => true)

theorem checkToken_fits {cols : List Heading} {n : ℕ} {req : List String} {row : Row} (h : Fits cols n req row) {e : ℕ × Kind × Bool}
    (hc : Compatible cols req e = true) : checkToken e.2.1 e.2.2 (row.getD e.1 []) = .ok () := by
  obtain ⟨k, kind, opt⟩ := e
  rw [Compatible] at hc
  dsimp only at hc ⊢
  cases hcol : cols[k]? with
  | none => rw [hcol] at hc; cases hc
  | some nc =>
    obtain ⟨name, c⟩ := nc
    rw [hcol] at hc
    simp only [Bool.and_eq_true, decide_eq_true_eq, Bool.or_eq_true] at hc
    obtain ⟨⟨h1, h2⟩, h3⟩ := hc
    have hca : colAt cols k name c = true := by simp [colAt, hcol, h1]
    rw [← under_eq hca]
    unfold checkToken
    split
    · rename_i e
      rcases h2 with h2 | h2
      · rw [if_pos h2]
      · exact absurd e (h.filled name h2)
    · rename_i e
      have hh := (h.holds hca).resolve_left e
      cases kind with
      | text => rfl
      | int =>
        cases c with
        | integer => obtain ⟨m, hm⟩ := hh; simp only [toInt_integer hm]; rfl
        | number => cases h3
        | text => cases h3
      | float =>
        obtain ⟨m, hm⟩ := Content.Holds.toNumber (by rintro rfl; cases h3) hh
        simp only [toFloat_number hm]; rfl
      | digits =>
        obtain ⟨m, hm⟩ := Content.Holds.toNumber (by rintro rfl; cases h3) hh
        obtain ⟨ds, hds⟩ := digitsIn_number hm
        simp only [hds]; rfl

theorem checkFields_fits {cols : List Heading} {n : ℕ} {req : List String} {row : Row} (h : Fits cols n req row) (l : List (ℕ × Kind × Bool))
    (hc : ∀ e ∈ l, Compatible cols req e = true) (hl : ∀ e ∈ l, e.1 < row.length) : checkFields row l = .ok () := by
  induction l with
  | nil => rfl
  | cons e l ih =>
    obtain ⟨k, kind, opt⟩ := e
    have h1 := checkToken_fits h (hc _ (by simp : (k, kind, opt) ∈ _))
    have h2 : k < row.length := hl (k, kind, opt) (by simp)
    rw [checkFields, cell_eq h2, ok_then, h1, ok_then, ih (fun e he => hc e (by simp [he])) fun e he => hl e (by simp [he])]

/-! ### Filled rows -/

theorem fullRow_length (row : Row) (m : ℕ) : m ≤ (fullRow row m).length ∧ row.length ≤ (fullRow row m).length := by
  rw [fullRow, List.length_append, List.length_replicate]; omega

theorem fullRow_getD (row : Row) (m k : ℕ) : (fullRow row m).getD k [] = row.getD k [] := by
  rw [fullRow, List.getD_eq_getElem?_getD, List.getD_eq_getElem?_getD, List.getElem?_append]
  split
  · rfl
  · rename_i h
    rw [List.getElem?_eq_none (not_lt.1 h)]
    rcases Nat.lt_or_ge (k - row.length) (m - row.length) with h' | h'
    · rw [List.getElem?_eq_getElem (by simpa using h'), List.getElem_replicate]; rfl
    · rw [List.getElem?_eq_none (by simpa using h')]

theorem under_fullRow (cols : List Heading) (row : Row) (m : ℕ) (name : String) : under cols (fullRow row m) name = under cols row name :=
  fullRow_getD _ _ _

theorem Fits.fullRow {cols : List Heading} {n : ℕ} {req : List String} {row : Row} (h : Fits cols n req row) (m : ℕ) : Fits cols m req (fullRow row m) where
  typed k c t hc ht := by
    have e : (Raw.fullRow row m).getD k [] = t := by rw [List.getD_eq_getElem?_getD, ht]; rfl
    rw [fullRow_getD, List.getD_eq_getElem?_getD] at e
    cases hk : row[k]? with
    | none => rw [hk] at e; exact .inl e.symm
    | some t' =>
      rw [hk] at e
      obtain rfl : t' = t := e
      exact h.typed k c t' hc hk
  width := (fullRow_length row m).1
  filled name hn := by rw [under_fullRow]; exact h.filled name hn

end Verif.Raw
