import Verif.Model.TimeSeries
import Mathlib.Algebra.Order.Field.Rat

/-!
# Python text functions used by the GridLAB-D reader

`/repo/src/ditto/readers/gridlabd/read.py`, `load_parser.py`, `helpers.py`, `line_impedance.py`. Text is a list of
characters. White space is ASCII white space and digits are ASCII digits (python also knows others).
-/

namespace Verif.Glm

/-- White space of `str.strip()` and `str.split()` (`read.py` 92, 101, 128). -/
def isSpace (c : Char) : Bool := c = ' ' || c = '\t' || c = '\n' || c = '\r' || c = '\x0b' || c = '\x0c'

/-- `s.strip(…)` with the set of characters `p` (`read.py` 92; `helpers.py` 16). -/
def stripBy (p : Char → Bool) (s : Txt) : Txt := ((s.dropWhile p).reverse.dropWhile p).reverse

/-- `s.strip()` (`read.py` 92). -/
def strip (s : Txt) : Txt := stripBy isSpace s

/-- The loop of `s.split()`; `w` is the word read so far (`read.py` 101, 128). -/
def splitAux : Txt → Txt → List Txt
  | w, [] => if w.isEmpty then [] else [w]
  | w, c :: cs =>
    if isSpace c then (if w.isEmpty then splitAux [] cs else w :: splitAux [] cs) else splitAux (w ++ [c]) cs

/-- `s.split()` (`read.py` 101, 128). -/
def split (s : Txt) : List Txt := splitAux [] s

/-- The loop of `s.split(sep)` for a one-character separator; `w` is the piece read so far (`read.py` 104). -/
def splitOnAux (sep : Char) : Txt → Txt → List Txt
  | w, [] => [w]
  | w, c :: cs => if c = sep then w :: splitOnAux sep [] cs else splitOnAux sep (w ++ [c]) cs

/-- `s.split(sep)` for a one-character separator (`read.py` 104; `load_parser.py` 155). -/
def splitOn (sep : Char) (s : Txt) : List Txt := splitOnAux sep [] s

/-- `s.find(pat)`; `none` for `-1` (`read.py` 98, 126, 205, 436). -/
def find (pat : Txt) : Txt → Option ℕ
  | [] => if pat.isEmpty then some 0 else none
  | c :: cs => if pat.isPrefixOf (c :: cs) then some 0 else (find pat cs).map (· + 1)

/-- `if s.find(pat) != -1: s = s[:s.find(pat)]` (`read.py` 98-99, 126-127). -/
def cutAt (pat s : Txt) : Txt := match find pat s with
  | some i => s.take i
  | none => s

/-- `s.replace(c, "")` (`read.py` 131). -/
def dropChar (c : Char) (s : Txt) : Txt := s.filter (· ≠ c)

/-- `remove_nonnum.sub('', s)` with `remove_nonnum = re.compile(r'[^\d.]+')` (`read.py` 30; `line_impedance.py` 8). -/
def removeNonnum (s : Txt) : Txt := s.filter fun c => c.isDigit || c = '.'

/-! ### Numbers -/

/-- Value of a row of digits (in `float(s)`, `int(s)`, `read.py` 208, 1163). -/
def natOf (s : Txt) : ℕ := s.foldl (fun n c => 10 * n + (c.toNat - '0'.toNat)) 0

/-- An optional sign, as a factor (in `float(s)`, `read.py` 208). -/
def signOf : Txt → ℤ × Txt
  | '-' :: cs => (-1, cs)
  | '+' :: cs => (1, cs)
  | cs => (1, cs)

/-- The exponent part of a numeral, if there is one: its value and the rest. Without a digit after the `e` there is none (in `float(s)`, `read.py` 208). -/
def exponentOf : Txt → ℤ × Txt
  | c :: cs =>
    if c = 'e' || c = 'E' then
      let (s, r) := signOf cs
      let ds := r.takeWhile Char.isDigit
      if ds.isEmpty then (0, c :: cs) else (s * natOf ds, r.dropWhile Char.isDigit)
    else (0, c :: cs)
  | [] => (0, [])

/-- A numeral at the head of the text, without sign: digits with at most one point, at least one digit, optional exponent (in `float(s)`, `read.py` 208). -/
def unsignedPrefix (s : Txt) : Option (ℚ × Txt) :=
  let a := s.takeWhile Char.isDigit
  let r := s.dropWhile Char.isDigit
  let b := match r with
    | '.' :: r' => r'.takeWhile Char.isDigit
    | _ => []
  let r' := match r with
    | '.' :: r' => r'.dropWhile Char.isDigit
    | _ => r
  if (a ++ b).isEmpty then none
  else
    let (e, rest) := exponentOf r'
    some ((natOf (a ++ b) : ℚ) * (10 : ℚ) ^ (e - b.length), rest)

/-- A numeral with optional sign at the head of the text (in `float(s)`, `read.py` 208). -/
def numPrefix (s : Txt) : Option (ℚ × Txt) :=
  (unsignedPrefix (signOf s).2).map fun (x, r) => ((signOf s).1 * x, r)

/-- `float(s)`; `none` is `ValueError` (`read.py` 208, 211, 439). The spellings of infinity and `nan` and underscores between
digits, which python accepts, are not accepted here, and the value is not rounded. -/
def pyFloat (s : Txt) : Option ℚ := match numPrefix (strip s) with
  | some (x, []) => some x
  | _ => none

/-- The imaginary part at the end of a complex numeral: a signed numeral or a bare sign before `j` (in `complex(s)`, `read.py` 278). -/
def imagPart (s : Txt) : Option ℚ := match numPrefix s with
  | some (y, r) => if r = ['j'] || r = ['J'] then some y else none
  | none => if (signOf s).2 = ['j'] || (signOf s).2 = ['J'] then some (signOf s).1 else none

/-- `complex(s)`: real and imaginary part; `none` is `ValueError` (`read.py` 278, 428; `load_parser.py` 94). Parentheses
around the number, which python accepts, are not accepted here. -/
def pyComplex (s : Txt) : Option (ℚ × ℚ) := match numPrefix (strip s) with
  | none => (imagPart (strip s)).map fun y => (0, y)
  | some (x, []) => some (x, 0)
  | some (x, c :: r) =>
    if c = '+' || c = '-' then (imagPart (c :: r)).map fun y => (x, y)
    else (imagPart (strip s)).map fun y => (0, y)

end Verif.Glm
