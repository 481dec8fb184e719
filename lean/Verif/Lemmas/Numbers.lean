import Verif.Spec.Numbers
import Verif.Lemmas.GlmObjects

/-!
# Reading numbers
-/

namespace Verif.Glm

theorem Sign.of (s : Txt) : ∃ u k r, Sign u k ∧ s = u ++ r ∧ signOf s = (k, r) := by
  match s with
  | [] => exact ⟨[], 1, [], .none, rfl, rfl⟩
  | c :: cs =>
    by_cases h1 : c = '-'
    · subst h1; exact ⟨['-'], -1, cs, .minus, rfl, rfl⟩
    · by_cases h2 : c = '+'
      · subst h2; exact ⟨['+'], 1, cs, .plus, rfl, rfl⟩
      · exact ⟨[], 1, c :: cs, .none, rfl, signOf_other h1 h2⟩
where
  signOf_other {c : Char} {cs : Txt} (h1 : c ≠ '-') (h2 : c ≠ '+') : signOf (c :: cs) = (1, c :: cs) := by
    rw [signOf]
    · intro _ h; exact h1 (List.cons.inj h).1
    · intro _ h; exact h2 (List.cons.inj h).1

theorem signOf_append {u r : Txt} {k : ℤ} (h : Sign u k) (hr : ∀ c ∈ r.head?, c ≠ '+' ∧ c ≠ '-') : signOf (u ++ r) = (k, r) := by
  cases h with
  | plus => rfl
  | minus => rfl
  | none =>
    cases r with
    | nil => rfl
    | cons c cs =>
      obtain ⟨h1, h2⟩ := hr c rfl
      exact Sign.of.signOf_other h2 h1

theorem takeWhile_all (p : Char → Bool) (s : Txt) : ∀ c ∈ s.takeWhile p, p c = true := by
  induction s with
  | nil => exact fun c hc => absurd hc (by simp)
  | cons a s ih =>
    intro c hc
    rw [List.takeWhile_cons] at hc
    by_cases ha : p a = true
    · rw [if_pos ha] at hc
      rcases List.mem_cons.1 hc with rfl | hc
      · exact ha
      · exact ih c hc
    · rw [if_neg ha] at hc
      exact absurd hc (by simp)

/-! ### Soundness -/

theorem exponent_of (s : Txt) : ∃ e, s = e ++ (exponentOf s).2 ∧ Exponent e (exponentOf s).1 := by
  cases s with
  | nil => exact ⟨[], rfl, .none⟩
  | cons c cs =>
    rw [exponentOf]
    by_cases hc : (c = 'e' || c = 'E') = true
    · rw [if_pos hc]
      obtain ⟨u, k, r, hu, hcs, hs⟩ := Sign.of cs
      rw [hs]
      dsimp only
      by_cases hd : (r.takeWhile Char.isDigit).isEmpty = true
      · rw [if_pos hd]
        exact ⟨[], rfl, .none⟩
      · rw [if_neg hd]
        refine ⟨c :: (u ++ r.takeWhile Char.isDigit), ?_, ?_⟩
        · rw [List.cons_append, List.append_assoc, List.takeWhile_append_dropWhile, hcs]
        · rw [natOf_decimal]
          refine .some c u _ k ?_ hu (fun h => hd (by rw [h]; rfl)) (takeWhile_all _ _)
          simpa using hc
    · rw [if_neg hc]
      exact ⟨[], rfl, .none⟩

theorem unsignedPrefix_sound {s r : Txt} {x : ℚ} (h : unsignedPrefix s = some (x, r)) :
    ∃ n e y j, s = n ++ e ++ r ∧ Numeral n y ∧ Exponent e j ∧ x = y * 10 ^ j := by
  rw [unsignedPrefix] at h
  dsimp only at h
  have hsplit := List.takeWhile_append_dropWhile (p := Char.isDigit) (l := s)
  have ha := takeWhile_all Char.isDigit s
  generalize s.takeWhile Char.isDigit = a at *
  generalize s.dropWhile Char.isDigit = q at *
  have plain : ∀ q' : Txt, (if (a ++ ([] : Txt)).isEmpty = true then none else
      some ((natOf (a ++ ([] : Txt)) : ℚ) * (10 : ℚ) ^ ((exponentOf q').1 - (([] : Txt).length : ℤ)), (exponentOf q').2)) = some (x, r) → q = q' →
      ∃ n e y j, s = n ++ e ++ r ∧ Numeral n y ∧ Exponent e j ∧ x = y * 10 ^ j := by
    intro q' h hq
    rw [List.append_nil] at h
    by_cases he : a.isEmpty = true
    · rw [if_pos he] at h; cases h
    · rw [if_neg he] at h
      obtain ⟨e, h1, h2⟩ := exponent_of q'
      injection h with h
      injection h with hx hr
      refine ⟨a, e, decimal a, (exponentOf q').1, ?_, .whole a (fun h => he (by rw [h]; rfl)) ha, h2, ?_⟩
      · rw [← hr, List.append_assoc, ← h1, ← hq, hsplit]
      · rw [← hx, natOf_decimal]
        simp
  cases q with
  | nil => exact plain [] h rfl
  | cons c q =>
    by_cases hc : c = '.'
    · subst hc
      replace h : (if (a ++ q.takeWhile Char.isDigit).isEmpty = true then none else
        some ((natOf (a ++ q.takeWhile Char.isDigit) : ℚ) * (10 : ℚ) ^ ((exponentOf (q.dropWhile Char.isDigit)).1 -
          ((q.takeWhile Char.isDigit).length : ℤ)), (exponentOf (q.dropWhile Char.isDigit)).2)) = some (x, r) := h
      have hsq := List.takeWhile_append_dropWhile (p := Char.isDigit) (l := q)
      have hb := takeWhile_all Char.isDigit q
      generalize q.takeWhile Char.isDigit = b at *
      generalize q.dropWhile Char.isDigit = w at *
      by_cases he : (a ++ b).isEmpty = true
      · rw [if_pos he] at h; cases h
      · rw [if_neg he] at h
        obtain ⟨e, h1, h2⟩ := exponent_of w
        injection h with h
        injection h with hx hr
        refine ⟨a ++ '.' :: b, e, _, (exponentOf w).1, ?_, .point a b (fun h => he (by rw [h]; rfl)) ha hb, h2, ?_⟩
        · rw [← hsplit, ← hsq, ← hr]
          simp only [List.append_assoc, List.cons_append]
          rw [← h1]
        · rw [← hx, natOf_append, zpow_sub₀ (by norm_num), zpow_natCast]
          push_cast
          field_simp
    · refine plain (c :: q) ?_ rfl
      split at h
      · rename_i hq
        exact absurd (List.cons.inj hq).1 hc
      · exact h

theorem numPrefix_sound {s r : Txt} {x : ℚ} (h : numPrefix s = some (x, r)) : ∃ n, s = n ++ r ∧ Number n x := by
  rw [numPrefix] at h
  obtain ⟨u, k, t, hu, hs, he⟩ := Sign.of s
  rw [he] at h
  obtain ⟨⟨y, r'⟩, h1, h2⟩ := Option.map_eq_some_iff.1 h
  obtain ⟨n, e, z, j, ht, hn, hj, hy⟩ := unsignedPrefix_sound h1
  injection h2 with hx hr
  subst hr
  refine ⟨u ++ n ++ e, ?_, ?_⟩
  · replace ht : t = n ++ e ++ r' := ht
    rw [hs, ht]
    simp only [List.append_assoc]
  · rw [← hx, hy]
    have := Number.mk u n e k j z hu hn hj
    rw [mul_assoc] at this
    exact this

/-! ### Completeness -/

/-- What may follow a number. -/
def Stops (r : Txt) : Prop := ∀ c ∈ r.head?, c.isDigit = false ∧ c ≠ '.' ∧ c ≠ 'e' ∧ c ≠ 'E'

theorem digits_run {a r : Txt} (ha : ∀ c ∈ a, c.isDigit = true) (hr : ∀ c ∈ r.head?, c.isDigit = false) :
    (a ++ r).takeWhile Char.isDigit = a ∧ (a ++ r).dropWhile Char.isDigit = r := by
  induction a with
  | nil =>
    cases r with
    | nil => exact ⟨rfl, rfl⟩
    | cons c r =>
      have := hr c rfl
      simp [this]
  | cons c a ih =>
    obtain ⟨h1, h2⟩ := ih fun c hc => ha c (List.mem_cons_of_mem _ hc)
    have := ha c (by simp)
    simp [this, h1, h2]

theorem digit_sign {c : Char} (h : c.isDigit = true) : c ≠ '+' ∧ c ≠ '-' ∧ c ≠ '.' ∧ c ≠ 'e' ∧ c ≠ 'E' := by
  refine ⟨?_, ?_, ?_, ?_, ?_⟩ <;> rintro rfl <;> exact absurd h (by decide)

theorem exponentOf_append {e r : Txt} {j : ℤ} (h : Exponent e j) (hr : Stops r) : exponentOf (e ++ r) = (j, r) := by
  cases h with
  | none =>
    cases r with
    | nil => rfl
    | cons c r =>
      obtain ⟨-, -, h1, h2⟩ := hr c rfl
      rw [List.nil_append, exponentOf, if_neg (by simp [h1, h2])]
  | some c s ds k hc hs hne hd =>
    rw [List.cons_append, exponentOf, if_pos (by simpa using hc), List.append_assoc]
    have hh : ∀ c ∈ (ds ++ r).head?, c ≠ '+' ∧ c ≠ '-' := by
      cases ds with
      | nil => exact absurd rfl hne
      | cons d ds =>
        intro c hc
        cases hc
        exact ⟨(digit_sign (hd d (by simp))).1, (digit_sign (hd d (by simp))).2.1⟩
    rw [signOf_append hs hh]
    obtain ⟨h1, h2⟩ := digits_run hd fun c hc => (hr c hc).1
    dsimp only
    rw [h1, h2, if_neg (by simpa using hne), natOf_decimal]

theorem exponent_head {e r : Txt} {j : ℤ} (h : Exponent e j) (hr : Stops r) : ∀ c ∈ (e ++ r).head?, c.isDigit = false ∧ c ≠ '.' := by
  cases h with
  | none => exact fun c hc => ⟨(hr c hc).1, (hr c hc).2.1⟩
  | some d s ds k hc hs hne hd =>
    intro c hc'
    cases hc'
    rcases hc with rfl | rfl <;> exact ⟨by decide, by decide⟩

theorem unsignedPrefix_append {n e r : Txt} {y : ℚ} {j : ℤ} (hn : Numeral n y) (he : Exponent e j) (hr : Stops r) :
    unsignedPrefix (n ++ e ++ r) = some (y * 10 ^ j, r) := by
  have hx := exponent_head he hr
  cases hn with
  | whole _ hne hd =>
    obtain ⟨h1, h2⟩ := digits_run hd fun c hc => (hx c hc).1
    rw [unsignedPrefix, List.append_assoc]
    simp only [h1, h2]
    split
    · rename_i hq
      rw [hq] at hx
      exact absurd rfl (hx '.' rfl).2
    · rw [List.append_nil, if_neg (by simpa using hne), exponentOf_append he hr]
      simp [natOf_decimal]
  | point a b hne ha hb =>
    obtain ⟨h1, h2⟩ := digits_run (a := a) (r := '.' :: (b ++ (e ++ r))) ha (fun c hc => by cases hc; decide)
    obtain ⟨h3, h4⟩ := digits_run (a := b) (r := e ++ r) hb fun c hc => (hx c hc).1
    rw [unsignedPrefix]
    rw [show a ++ '.' :: b ++ e ++ r = a ++ '.' :: (b ++ (e ++ r)) by simp]
    simp only [h1, h2, h3, h4]
    rw [if_neg (by simpa using hne), exponentOf_append he hr]
    simp only [natOf_append, Option.some.injEq, Prod.mk.injEq, and_true]
    rw [zpow_sub₀ (by norm_num), zpow_natCast]
    push_cast
    field_simp

theorem numeral_head {n : Txt} {y : ℚ} (h : Numeral n y) (r : Txt) : ∃ c, (n ++ r).head? = some c ∧ c ≠ '+' ∧ c ≠ '-' := by
  cases h with
  | whole _ hne hd =>
    cases n with
    | nil => exact absurd rfl hne
    | cons c n => exact ⟨c, rfl, (digit_sign (hd c (by simp))).1, (digit_sign (hd c (by simp))).2.1⟩
  | point a b hne ha hb =>
    cases a with
    | nil => exact ⟨'.', rfl, by decide, by decide⟩
    | cons c a => exact ⟨c, rfl, (digit_sign (ha c (by simp))).1, (digit_sign (ha c (by simp))).2.1⟩

theorem numPrefix_append {n r : Txt} {x : ℚ} (h : Number n x) (hr : Stops r) : numPrefix (n ++ r) = some (x, r) := by
  obtain ⟨s, n, e, k, j, y, hs, hn, he⟩ := h
  have hh : ∀ c ∈ (n ++ e ++ r).head?, c ≠ '+' ∧ c ≠ '-' := by
    obtain ⟨c, hc, h1⟩ := numeral_head hn (e ++ r)
    intro c' hc'
    rw [List.append_assoc, hc] at hc'
    cases hc'
    exact h1
  rw [numPrefix, show s ++ n ++ e ++ r = s ++ (n ++ e ++ r) by simp, signOf_append hs hh, unsignedPrefix_append hn he hr, Option.map_some, mul_assoc]

/-! ### White space -/

theorem strip_split (t : Txt) : ∃ l r, Blank l ∧ Blank r ∧ t = l ++ strip t ++ r := by
  refine ⟨t.takeWhile isSpace, ((t.dropWhile isSpace).reverse.takeWhile isSpace).reverse, takeWhile_all _ _, fun c hc => ?_, ?_⟩
  · exact takeWhile_all _ _ c (List.mem_reverse.1 hc)
  · rw [strip, stripBy, List.append_assoc, ← List.reverse_append, List.takeWhile_append_dropWhile, List.reverse_reverse,
      List.takeWhile_append_dropWhile]

theorem digit_black {c : Char} (h : c.isDigit = true) : isSpace c = false := by
  cases hs : isSpace c with
  | false => rfl
  | true =>
    simp only [isSpace, Bool.or_eq_true, decide_eq_true_eq] at hs
    rcases hs with ((((rfl | rfl) | rfl) | rfl) | rfl) | rfl <;> exact absurd h (by decide)

theorem Sign.black {s : Txt} {k : ℤ} (h : Sign s k) : ∀ c ∈ s, isSpace c = false := by
  cases h <;> decide

theorem Numeral.black {n : Txt} {y : ℚ} (h : Numeral n y) : ∀ c ∈ n, isSpace c = false := by
  cases h with
  | whole _ _ hd => exact fun c hc => digit_black (hd c hc)
  | point a b _ ha hb =>
    intro c hc
    rcases List.mem_append.1 hc with h | h
    · exact digit_black (ha c h)
    · rcases List.mem_cons.1 h with rfl | h
      · decide
      · exact digit_black (hb c h)

theorem Exponent.black {e : Txt} {j : ℤ} (h : Exponent e j) : ∀ c ∈ e, isSpace c = false := by
  cases h with
  | none => exact fun c hc => absurd hc (by simp)
  | some d s ds k hc hs _ hd =>
    intro c h
    rcases List.mem_cons.1 h with rfl | h
    · rcases hc with rfl | rfl <;> decide
    · rcases List.mem_append.1 h with h | h
      · exact hs.black c h
      · exact digit_black (hd c h)

theorem Number.black {n : Txt} {x : ℚ} (h : Number n x) : ∀ c ∈ n, isSpace c = false := by
  obtain ⟨s, n, e, k, j, y, hs, hn, he⟩ := h
  intro c hc
  rcases List.mem_append.1 hc with h | h
  · rcases List.mem_append.1 h with h | h
    · exact hs.black c h
    · exact hn.black c h
  · exact he.black c h

theorem Factor.black {n : Txt} {x : ℚ} (h : Factor n x) : ∀ c ∈ n, isSpace c = false := by
  cases h with
  | number _ h => exact h.black
  | bare _ h => exact h.black

theorem ComplexNumber.black {n : Txt} {z : ℚ × ℚ} (h : ComplexNumber n z) : ∀ c ∈ n, isSpace c = false := by
  have hU : ∀ u, UnitLetter u → ∀ c ∈ u, isSpace c = false := by
    rintro u (rfl | rfl) <;> decide
  intro c hc
  cases h with
  | real _ _ h => exact h.black c hc
  | imaginary m u _ h hu =>
    rcases List.mem_append.1 hc with h' | h'
    · exact h.black c h'
    · exact hU u hu c h'
  | both n m u _ _ h hm _ hu =>
    rcases List.mem_append.1 hc with h' | h'
    · rcases List.mem_append.1 h' with h' | h'
      · exact h.black c h'
      · exact hm.black c h'
    · exact hU u hu c h'

theorem strip_black {l t r : Txt} (hl : Blank l) (ht : ∀ c ∈ t, isSpace c = false) (hr : Blank r) : strip (l ++ t ++ r) = t :=
  stripBy_around isSpace l t r hl ht hr

/-! ### Imaginary parts -/

theorem unit_stops {u : Txt} (h : UnitLetter u) : Stops u := by
  rcases h with rfl | rfl <;> exact fun c hc => by cases hc; decide

/-- A text that starts like no number. -/
theorem numPrefix_none {s u : Txt} {k : ℤ} (hs : Sign s k) (hu : UnitLetter u) : numPrefix (s ++ u) = none := by
  rcases hu with rfl | rfl <;> cases hs <;> decide +kernel

theorem imagPart_iff (s : Txt) (y : ℚ) : imagPart s = some y ↔ ∃ m u, s = m ++ u ∧ Factor m y ∧ UnitLetter u := by
  constructor
  · intro h
    rw [imagPart] at h
    cases hp : numPrefix s with
    | some p =>
      obtain ⟨x, r⟩ := p
      rw [hp] at h
      dsimp only at h
      by_cases hr : (r = ['j'] || r = ['J']) = true
      · rw [if_pos hr] at h
        cases h
        obtain ⟨n, rfl, hn⟩ := numPrefix_sound hp
        exact ⟨n, r, rfl, .number n _ hn, by simpa [UnitLetter] using hr⟩
      · rw [if_neg hr] at h; cases h
    | none =>
      rw [hp] at h
      dsimp only at h
      obtain ⟨u, k, r, hu, hs, he⟩ := Sign.of s
      rw [he] at h
      dsimp only at h
      by_cases hr : (r = ['j'] || r = ['J']) = true
      · rw [if_pos hr] at h
        cases h
        exact ⟨u, r, hs, .bare u k hu, by simpa [UnitLetter] using hr⟩
      · rw [if_neg hr] at h; cases h
  · rintro ⟨m, u, rfl, hm, hu⟩
    rw [imagPart]
    cases hm with
    | number _ h =>
      rw [numPrefix_append h (unit_stops hu)]
      dsimp only
      rw [if_pos (by simpa [UnitLetter] using hu)]
    | bare k h =>
      rw [numPrefix_none h hu]
      have : signOf (m ++ u) = (k, u) := signOf_append h (by rcases hu with rfl | rfl <;> exact fun c hc => by cases hc; decide)
      dsimp only
      rw [this, if_pos (by simpa [UnitLetter] using hu)]

theorem factor_stops {m u : Txt} (hs : m.head? = some '+' ∨ m.head? = some '-') : Stops (m ++ u) := by
  cases m with
  | nil => rcases hs with h | h <;> cases h
  | cons c m =>
    intro c' hc
    cases hc
    rcases hs with h | h <;> cases h <;> decide

end Verif.Glm
