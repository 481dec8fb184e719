import Verif.Lemmas.Numbers

/-!
# C102: numbers in files
-/

namespace Verif.Glm

/-- **C102, real numbers.** A text is read as a real number exactly if it is a number between white space, and then as its value: with sign, decimal
point and exponent. -/
theorem C102_real (t : Txt) (x : ℚ) : pyFloat t = some x ↔ ∃ l n r, Blank l ∧ Blank r ∧ t = l ++ n ++ r ∧ Number n x := by
  constructor
  · intro h
    obtain ⟨l, r, hl, hr, ht⟩ := strip_split t
    rw [pyFloat] at h
    split at h
    · rename_i y hp
      cases h
      obtain ⟨n, hn, h⟩ := numPrefix_sound hp
      rw [List.append_nil] at hn
      exact ⟨l, n, r, hl, hr, hn ▸ ht, h⟩
    · cases h
  · rintro ⟨l, n, r, hl, hr, rfl, h⟩
    have hp := numPrefix_append (r := []) h (fun c hc => absurd hc (by simp))
    rw [List.append_nil] at hp
    rw [pyFloat, strip_black hl h.black hr, hp]

/-- **C102, complex numbers.** A text is read as a complex number exactly if it is one between white space, and then with its parts. -/
theorem C102_complex (t : Txt) (z : ℚ × ℚ) : pyComplex t = some z ↔ ∃ l n r, Blank l ∧ Blank r ∧ t = l ++ n ++ r ∧ ComplexNumber n z := by
  constructor
  · intro h
    obtain ⟨l, r, hl, hr, ht⟩ := strip_split t
    suffices ComplexNumber (strip t) z from ⟨l, _, r, hl, hr, ht, this⟩
    rw [pyComplex] at h
    generalize strip t = s at h
    have imag : (imagPart s).map (fun y => ((0 : ℚ), y)) = some z → ComplexNumber s z := by
      intro h
      obtain ⟨y, hy, rfl⟩ := Option.map_eq_some_iff.1 h
      obtain ⟨m, u, rfl, hm, hu⟩ := (imagPart_iff s y).1 hy
      exact .imaginary m u y hm hu
    cases hp : numPrefix s with
    | none => rw [hp] at h; exact imag h
    | some p =>
      obtain ⟨x, q⟩ := p
      rw [hp] at h
      obtain ⟨n, rfl, hn⟩ := numPrefix_sound hp
      cases q with
      | nil =>
        dsimp only at h
        cases h
        rw [List.append_nil]
        exact .real n x hn
      | cons c q =>
        dsimp only at h
        by_cases hc : (c = '+' || c = '-') = true
        · rw [if_pos hc] at h
          obtain ⟨y, hy, rfl⟩ := Option.map_eq_some_iff.1 h
          obtain ⟨m, u, hmu, hm, hu⟩ := (imagPart_iff _ y).1 hy
          rw [hmu, ← List.append_assoc]
          refine .both n m u x y hn hm ?_ hu
          cases m with
          | nil =>
            rcases hu with rfl | rfl <;> cases hmu <;> exact absurd hc (by decide)
          | cons d m =>
            cases hmu
            simpa using hc
        · rw [if_neg hc] at h
          exact imag h
  · rintro ⟨l, n, r, hl, hr, rfl, h⟩
    rw [pyComplex, strip_black hl h.black hr]
    cases h with
    | real _ x h =>
      have hp := numPrefix_append (r := []) h (fun c hc => absurd hc (by simp))
      rw [List.append_nil] at hp
      rw [hp]
    | imaginary m u y h hu =>
      have hi := (imagPart_iff (m ++ u) y).2 ⟨m, u, rfl, h, hu⟩
      cases h with
      | bare k h => rw [numPrefix_none h hu, hi]; rfl
      | number _ h =>
        rw [numPrefix_append h (unit_stops hu), hi]
        rcases hu with rfl | rfl <;> rfl
    | both n m u x y h hm hs hu =>
      rw [List.append_assoc, numPrefix_append h (factor_stops hs)]
      have hi := (imagPart_iff (m ++ u) y).2 ⟨m, u, rfl, hm, hu⟩
      cases m with
      | nil => rcases hs with h | h <;> cases h
      | cons c m =>
        rw [List.cons_append] at hi ⊢
        dsimp only
        rw [if_pos (by rcases hs with h | h <;> cases h <;> rfl), hi]
        rfl

/-- **C102 fails for polar numbers.** A voltage written as magnitude and angle in degrees, as GridLAB-D writes it, is never read. -/
theorem C102_polar_fails (t : Txt) : pyComplex (t ++ ['d']) = none := by
  cases h : pyComplex (t ++ ['d']) with
  | none => rfl
  | some z =>
    exfalso
    obtain ⟨l, n, r, -, hr, ht, hn⟩ := (C102_complex _ z).1 h
    have hd : ∀ c : Char, c.isDigit = true → c ≠ 'd' := by rintro c h rfl; exact absurd h (by decide)
    have hN : ∀ m y, Number m y → ∀ c, m.getLast? = some c → c ≠ 'd' := by
      intro m y hm c hc
      have : c ∈ m := List.mem_of_getLast? hc
      obtain ⟨s, n, e, k, j, y, hs, hn, he⟩ := hm
      rcases List.mem_append.1 this with h | h
      · rcases List.mem_append.1 h with h | h
        · cases hs <;> simp at h <;> subst h <;> decide
        · have := hn.plain c h
          rintro rfl
          exact absurd this (by decide)
      · cases he with
        | none => cases h
        | some b s ds k hb hs _ hds =>
          rcases List.mem_cons.1 h with rfl | h
          · rcases hb with rfl | rfl <;> decide
          · rcases List.mem_append.1 h with h | h
            · cases hs <;> simp at h <;> subst h <;> decide
            · exact hd c (hds c h)
    have hne : n ≠ [] ∧ ∀ c, n.getLast? = some c → c ≠ 'd' := by
      cases hn with
      | real _ x h' =>
        refine ⟨?_, hN _ _ h'⟩
        obtain ⟨s, n, e, k, j, y, hs, hn, he⟩ := h'
        intro h0
        obtain ⟨c, hc, -⟩ := numeral_head hn e
        rw [List.append_assoc] at h0
        rw [(List.append_eq_nil_iff.1 h0).2] at hc
        cases hc
      | imaginary m u y h hu => rcases hu with rfl | rfl <;> exact ⟨by simp, fun c hc => by simp at hc; subst hc; decide⟩
      | both n m u x y h hm hs hu => rcases hu with rfl | rfl <;> exact ⟨by simp, fun c hc => by simp at hc; subst hc; decide⟩
    rcases List.eq_nil_or_concat r with rfl | ⟨r', c, rfl⟩
    · have hl : (t ++ ['d']).getLast? = n.getLast? := by
        rw [ht, List.append_nil, List.getLast?_append]
        cases hg : n.getLast? with
        | none => exact absurd (List.getLast?_eq_none_iff.1 hg) hne.1
        | some c => rfl
      rw [List.getLast?_append] at hl
      exact hne.2 'd' hl.symm rfl
    · have hl : (t ++ ['d']).getLast? = some c := by rw [ht, List.concat_eq_append, ← List.append_assoc, List.getLast?_append]; rfl
      rw [List.getLast?_append] at hl
      cases hl
      exact absurd (hr 'd' (by simp)) (by decide)

/-- Numbers of both kinds. -/
example : pyFloat " -12.5e-1\n".toList = some (-5 / 4) ∧ pyComplex "1.5e2-2j".toList = some (150, -2) := by
  constructor <;> decide +kernel

/-- `-12.5e-1` is a number in the sense of the statement. -/
example : Number "-12.5e-1".toList (-5 / 4) := by
  have h := Number.mk "-".toList "12.5".toList "e-1".toList _ _ _ .minus (.point "12".toList "5".toList (by decide) (by decide) (by decide))
    (.some 'e' "-".toList "1".toList _ (.inl rfl) .minus (by decide) (by decide))
  have e : (((-1 : ℤ) : ℚ) * ((decimal "12".toList : ℚ) + decimal "5".toList / 10 ^ "5".toList.length) * 10 ^ ((-1 : ℤ) * decimal "1".toList)) = -5 / 4 := by
    have e1 : decimal "12".toList = 12 := by decide +kernel
    have e2 : decimal "5".toList = 5 := by decide +kernel
    have e3 : decimal "1".toList = 1 := by decide +kernel
    have e4 : "5".toList.length = 1 := by decide +kernel
    rw [e1, e2, e3, e4]
    norm_num
  exact e ▸ h

/-- So a text that is no number is not read, and one that is read is one. -/
example : (∃ l n r, Blank l ∧ Blank r ∧ " -12.5e-1\n".toList = l ++ n ++ r ∧ Number n (-5 / 4)) ∧
    ¬ ∃ x l n r, Blank l ∧ Blank r ∧ "1.2.3".toList = l ++ n ++ r ∧ Number n x := by
  refine ⟨(C102_real _ _).1 (by decide +kernel), ?_⟩
  rintro ⟨x, h⟩
  have := (C102_real _ x).2 h
  rw [show pyFloat "1.2.3".toList = none by decide +kernel] at this
  cases this

/-- The same for complex numbers. -/
example : ∃ l n r, Blank l ∧ Blank r ∧ "1.5e2-2j".toList = l ++ n ++ r ∧ ComplexNumber n (150, -2) :=
  (C102_complex _ _).1 (by decide +kernel)

end Verif.Glm
