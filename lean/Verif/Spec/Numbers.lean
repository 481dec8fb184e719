import Verif.Spec.Glm

/-!
# Numbers as they are written
-/

namespace Verif.Glm

/-- A sign or none, with its factor. -/
inductive Sign : Txt → ℤ → Prop
  | none : Sign [] 1
  | plus : Sign ['+'] 1
  | minus : Sign ['-'] (-1)

/-- An exponent or none, with its value. -/
inductive Exponent : Txt → ℤ → Prop
  | none : Exponent [] 0
  | some (c : Char) (s ds : Txt) (k : ℤ) (hc : c = 'e' ∨ c = 'E') (hs : Sign s k) (hne : ds ≠ []) (hd : ∀ c ∈ ds, c.isDigit = true) :
      Exponent (c :: (s ++ ds)) (k * decimal ds)

/-- A number and its value: a plain decimal numeral with or without sign and exponent. -/
inductive Number : Txt → ℚ → Prop
  | mk (s n e : Txt) (k j : ℤ) (y : ℚ) (hs : Sign s k) (hn : Numeral n y) (he : Exponent e j) : Number (s ++ n ++ e) (k * y * 10 ^ j)

/-- The imaginary unit. -/
def UnitLetter (u : Txt) : Prop := u = ['j'] ∨ u = ['J']

/-- What is written before the imaginary unit: a number, or only a sign. -/
inductive Factor : Txt → ℚ → Prop
  | number (n : Txt) (y : ℚ) (h : Number n y) : Factor n y
  | bare (s : Txt) (k : ℤ) (h : Sign s k) : Factor s k

/-- A complex number and its parts: a real number, a multiple of the unit, or both, the second with a sign. -/
inductive ComplexNumber : Txt → ℚ × ℚ → Prop
  | real (n : Txt) (x : ℚ) (h : Number n x) : ComplexNumber n (x, 0)
  | imaginary (m u : Txt) (y : ℚ) (h : Factor m y) (hu : UnitLetter u) : ComplexNumber (m ++ u) (0, y)
  | both (n m u : Txt) (x y : ℚ) (h : Number n x) (hm : Factor m y) (hs : m.head? = some '+' ∨ m.head? = some '-') (hu : UnitLetter u) :
      ComplexNumber (n ++ m ++ u) (x, y)

end Verif.Glm
