import Verif.Spec.Report
import Verif.Lemmas.Numbers
import Verif.Lemmas.Cache

/-!
# Lemmas about numbers in output files
-/

namespace Verif

theorem roundEven_near {x : ℝ} (hx : 0 ≤ x) : |(roundEven x : ℝ) - x| ≤ 1 / 2 := by
  have h1 : (⌊x⌋₊ : ℝ) ≤ x := Nat.floor_le hx
  have h2 : x < ⌊x⌋₊ + 1 := Nat.lt_floor_add_one x
  unfold roundEven
  simp only
  split_ifs with h3 h4 h5 <;> rw [abs_le] <;> push_cast <;> constructor <;> linarith

theorem decimal_toDigits (n : ℕ) : Glm.decimal (Nat.toDigits 10 n) = n := by
  rw [← Glm.natOf_decimal]
  have h := Nat.ofDigitChars_toDigits (b := 10) (n := n) (by decide) (by decide)
  rw [Nat.ofDigitChars_eq_foldl] at h
  exact h

theorem natOf_zeros (k : ℕ) (s : Txt) : Glm.natOf (List.replicate k '0' ++ s) = Glm.natOf s := by
  induction k with
  | zero => rfl
  | succ k ih =>
    rw [List.replicate_succ, List.cons_append]
    exact ih

theorem decimal_pad (k n : ℕ) : Glm.decimal (padZeros k (Nat.toDigits 10 n)) = n := by
  rw [← Glm.natOf_decimal, padZeros, natOf_zeros, Glm.natOf_decimal, decimal_toDigits]

theorem toDigits_digit {n : ℕ} : ∀ c ∈ Nat.toDigits 10 n, c.isDigit = true := fun _ hc =>
  Nat.isDigit_of_mem_toDigits (by decide) (by decide) hc

theorem pad_digit {k n : ℕ} : ∀ c ∈ padZeros k (Nat.toDigits 10 n), c.isDigit = true := by
  intro c hc
  rcases List.mem_append.1 hc with h | h
  · rw [List.eq_of_mem_replicate h]; decide
  · exact toDigits_digit c h

theorem pad_length {k n : ℕ} (hk : 0 < k) (h : n < 10 ^ k) : (padZeros k (Nat.toDigits 10 n)).length = k := by
  have := (Nat.length_toDigits_le_iff (b := 10) (by decide) hk).2 h
  simp [padZeros]
  omega

theorem fixedText_shows {k : ℕ} (hk : 0 < k) (x : ℝ) : Shows k x (fixedText k x) := by
  set m := roundEven (|x| * 10 ^ k) with hm
  have hpos : (0 : ℝ) < 10 ^ k := by positivity
  have hr : |(m : ℝ) - |x| * 10 ^ k| ≤ 1 / 2 := roundEven_near (by positivity)
  have hn : Glm.Numeral (Nat.toDigits 10 (m / 10 ^ k) ++ '.' :: padZeros k (Nat.toDigits 10 (m % 10 ^ k))) ((m : ℚ) / 10 ^ k) := by
    have h := Glm.Numeral.point (Nat.toDigits 10 (m / 10 ^ k)) (padZeros k (Nat.toDigits 10 (m % 10 ^ k))) (by simp) toDigits_digit pad_digit
    rw [decimal_toDigits, decimal_pad, pad_length hk (Nat.mod_lt _ (by positivity))] at h
    have he : ((m / 10 ^ k : ℕ) : ℚ) + ((m % 10 ^ k : ℕ) : ℚ) / 10 ^ k = (m : ℚ) / 10 ^ k := by
      have h1 : ((10 ^ k * (m / 10 ^ k) + m % 10 ^ k : ℕ) : ℚ) = m := by rw [Nat.div_add_mod]
      rw [← h1]
      push_cast
      field_simp
    rwa [he] at h
  have hd : |(m : ℝ) / 10 ^ k - (|x|)| ≤ 1 / 2 / 10 ^ k := by
    have : (m : ℝ) / 10 ^ k - |x| = ((m : ℝ) - |x| * 10 ^ k) / 10 ^ k := by field_simp
    rw [this, abs_div, abs_of_pos hpos]
    gcongr
  unfold fixedText
  simp only [← hm]
  by_cases hx : x < 0
  · rw [if_pos hx]
    refine ⟨-((m : ℚ) / 10 ^ k), ?_, ?_⟩
    · have := Glm.Number.mk _ _ _ _ _ _ Glm.Sign.minus hn Glm.Exponent.none
      simpa using this
    · rw [abs_of_neg hx] at hd
      push_cast
      rw [← abs_neg]
      have : -(-((m : ℝ) / 10 ^ k) - x) = (m : ℝ) / 10 ^ k - -x := by ring
      rw [this]; exact hd
  · rw [if_neg hx]
    refine ⟨(m : ℚ) / 10 ^ k, ?_, ?_⟩
    · have := Glm.Number.mk _ _ _ _ _ _ Glm.Sign.none hn Glm.Exponent.none
      simpa using this
    · rw [abs_of_nonneg (not_lt.1 hx)] at hd
      push_cast
      exact hd

theorem digit_no {c : Char} (hc : c.isDigit = false) {t : Txt} (h : ∀ d ∈ t, d.isDigit = true) : c ∉ t := fun hm => by
  rw [h c hm] at hc; cases hc

theorem fixedText_field (k : ℕ) (x : ℝ) : OneField (fixedText k x) := by
  have h : ∀ c : Char, c.isDigit = false → c ≠ '-' → c ≠ '.' → c ∉ fixedText k x := by
    intro c h1 h2 h3
    unfold fixedText
    simp only [List.mem_append, List.mem_cons, not_or]
    refine ⟨?_, digit_no h1 toDigits_digit, h3, digit_no h1 pad_digit⟩
    split_ifs <;> simp [h2]
  exact ⟨h _ (by decide) (by decide) (by decide), h _ (by decide) (by decide) (by decide)⟩

theorem hourText_field (z : ℤ) : OneField (hourText z) := by
  have h : ∀ c : Char, c.isDigit = false → c ≠ '-' → c ∉ hourText z := by
    intro c h1 h2
    unfold hourText
    split_ifs
    · simp only [List.mem_cons, not_or]
      exact ⟨h2, digit_no h1 toDigits_digit⟩
    · exact digit_no h1 toDigits_digit
  exact ⟨h _ (by decide) (by decide), h _ (by decide) (by decide)⟩

theorem splitOn_first {c : Char} {x : Txt} (hx : c ∉ x) (y : Txt) : (x ++ c :: y).splitOn c = x :: y.splitOn c := by
  rw [List.splitOn_append_cons_of_beq _ _ (by simp), List.splitOn_eq_singleton hx]
  rfl

theorem splitOn_lines {α : Type} (f : α → Txt) (l : List α) (hl : ∀ a ∈ l, '\n' ∉ f a) (y : Txt) :
    ((l.flatMap fun a => f a ++ ['\n']) ++ y).splitOn '\n' = l.map f ++ y.splitOn '\n' := by
  induction l with
  | nil => rfl
  | cons a l ih =>
    simp only [List.flatMap_cons, List.append_assoc, List.map_cons, List.cons_append]
    rw [List.nil_append,
      splitOn_first (hl a List.mem_cons_self), ih fun b hb => hl b (List.mem_cons_of_mem _ hb)]

theorem four_fields {a b c d : Txt} (ha : OneField a) (hb : OneField b) (hc : OneField c) (hd : OneField d) :
    (a ++ ',' :: (b ++ ',' :: (c ++ ',' :: d))).splitOn ',' = [a, b, c, d] ∧ '\n' ∉ a ++ ',' :: (b ++ ',' :: (c ++ ',' :: d)) := by
  refine ⟨?_, ?_⟩
  · rw [splitOn_first ha.1, splitOn_first hb.1, splitOn_first hc.1, List.splitOn_eq_singleton hd.1]
  · simp [ha.2, hb.2, hc.2, hd.2]

theorem hourText_number (z : ℤ) : Glm.Number (hourText z) z := by
  have hn := Glm.Numeral.whole (Nat.toDigits 10 z.natAbs) (toDigits_ne_nil _) toDigits_digit
  rw [decimal_toDigits] at hn
  unfold hourText
  split_ifs with h
  · have := Glm.Number.mk _ _ _ _ _ _ Glm.Sign.minus hn Glm.Exponent.none
    have hz : ((z.natAbs : ℕ) : ℚ) = -(z : ℚ) := by
      have h0 : ((z.natAbs : ℕ) : ℤ) = -z := by omega
      rw [show ((z.natAbs : ℕ) : ℚ) = (((z.natAbs : ℕ) : ℤ) : ℚ) from (Int.cast_natCast _).symm, h0]
      push_cast; rfl
    rw [hz] at this
    simpa using this
  · have := Glm.Number.mk _ _ _ _ _ _ Glm.Sign.none hn Glm.Exponent.none
    have hz : ((z.natAbs : ℕ) : ℚ) = (z : ℚ) := by
      have h0 : ((z.natAbs : ℕ) : ℤ) = z := by omega
      rw [show ((z.natAbs : ℕ) : ℚ) = (((z.natAbs : ℕ) : ℤ) : ℚ) from (Int.cast_natCast _).symm, h0]
    rw [hz] at this
    simpa using this

theorem number_unique {t : Txt} {x y : ℚ} (hx : Glm.Number t x) (hy : Glm.Number t y) : x = y := by
  have h1 := Glm.numPrefix_append (r := []) hx (by simp [Glm.Stops])
  have h2 := Glm.numPrefix_append (r := []) hy (by simp [Glm.Stops])
  rw [h1] at h2
  simpa using h2

theorem nil_not_number {x : ℚ} (h : Glm.Number [] x) : False := by
  have := Glm.numPrefix_append (r := []) h (by simp [Glm.Stops])
  revert this
  simp [Glm.numPrefix, Glm.signOf, Glm.unsignedPrefix]

theorem three_not_seven (h : Glm.Number ['3'] 7) : False := by
  have h3 : Glm.Number ['3'] 3 := by
    have := Glm.Number.mk _ _ _ _ _ _ Glm.Sign.none (Glm.Numeral.whole ['3'] (by decide) (by decide)) Glm.Exponent.none
    have hd : Glm.decimal ['3'] = 3 := by decide +kernel
    rw [hd] at this
    simpa using this
  have := number_unique h h3
  norm_num at this

end Verif
