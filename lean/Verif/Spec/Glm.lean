import Mathlib.Data.Nat.Digits.Defs
import Verif.Model.Glm

/-!
# What it means to write objects down in a GridLAB-D file

A small grammar of rows: one row opens an object, one row per attribute, one row closes the object, blank rows and comments
anywhere. Nothing here refers to how the rows are read.
-/

namespace Verif.Glm

/-- Only white space. -/
def Blank (s : Txt) : Prop := ∀ c ∈ s, isSpace c = true

/-- A word: not empty, no white space, no quote, semicolon, slash or closing brace. -/
def Word (w : Txt) : Prop := w ≠ [] ∧ ∀ c ∈ w, isSpace c = false ∧ c ≠ '"' ∧ c ≠ ';' ∧ c ≠ '/' ∧ c ≠ '}'

/-- A row without content: blank, or a comment. -/
inductive Ignorable : Txt → Prop
  | blank (s : Txt) (h : Blank s) : Ignorable s
  | comment (l t : Txt) (h : Blank l) : Ignorable (l ++ "//".toList ++ t)

/-- What may follow on a row: white space, then perhaps a comment. -/
def Trailing (t : Txt) : Prop := Blank t ∨ ∃ s u, Blank s ∧ t = s ++ "//".toList ++ u

/-- `object tag {`. -/
def HeaderRow (tag row : Txt) : Prop :=
  ∃ l g g' t, Blank l ∧ Blank g ∧ g ≠ [] ∧ Blank g' ∧ g' ≠ [] ∧ Trailing t ∧
    row = l ++ "object".toList ++ g ++ tag ++ g' ++ "{".toList ++ t

/-- The tag of an object and the attributes left for the rows below: the tag is the class, or the class with a number, which
is the name. -/
inductive Opens (o : Obj) : Txt → List (Txt × Txt) → Prop
  | plain : Opens o o.cls o.attrs
  | numbered (n : Txt) (as : List (Txt × Txt)) (hn : Word n) (hc : ':' ∉ n)
      (h : o.attrs = ("name".toList, o.cls ++ ":".toList ++ n) :: as) : Opens o (o.cls ++ ":".toList ++ n) as

/-- A value, with or without quotes. -/
inductive Quoted (v : Txt) : Txt → Prop
  | plain : Quoted v v
  | quoted : Quoted v ("\"".toList ++ v ++ "\"".toList)

/-- `key value;`, and anything after the semicolon. -/
def AttrRow (k v row : Txt) : Prop :=
  ∃ l g q s r, Blank l ∧ Blank g ∧ g ≠ [] ∧ Quoted v q ∧ Blank s ∧ row = l ++ k ++ g ++ q ++ s ++ ";".toList ++ r

/-- `}`, or `};` and anything after it. -/
def CloseRow (row : Txt) : Prop := ∃ l t, Blank l ∧ (Blank t ∨ ∃ r, t = ";".toList ++ r) ∧ row = l ++ "}".toList ++ t

/-- The rows of the body of an object. -/
inductive Body : List Txt → List (Txt × Txt) → Prop
  | nil : Body [] []
  | skip {r rows as} (h : Ignorable r) (hb : Body rows as) : Body (r :: rows) as
  | attr {r rows k v as} (h : AttrRow k v r) (hb : Body rows as) : Body (r :: rows) ((k, v) :: as)

/-- The rows of a file that writes these objects down. -/
inductive Written : List Txt → List Obj → Prop
  | nil : Written [] []
  | skip {r rows os} (h : Ignorable r) (hw : Written rows os) : Written (r :: rows) os
  | object {tag as h body c rows} {o : Obj} {os} (ho : Opens o tag as) (hh : HeaderRow tag h) (hb : Body body as) (hc : CloseRow c)
      (hw : Written rows os) : Written (h :: body ++ c :: rows) (o :: os)

/-- An object one may write: its class is in the schema and not among those left out, every attribute belongs to the class, is
given once and is a word, and so are the values. -/
structure Writable (W : World) (o : Obj) : Prop where
  cls : Word o.cls ∧ ':' ∉ o.cls ∧ o.cls ∉ skippedObjects
  known : ∃ ps, W.schema o.cls = some ps ∧ ∀ a ∈ o.attrs, a.1 ∈ ps
  words : ∀ a ∈ o.attrs, Word a.1 ∧ Word a.2 ∧ a.1 ≠ "object".toList ∧ a.1 ≠ "schedule".toList
  once : (o.attrs.map Prod.fst).Nodup

/-- The name an object goes by, and the object under that name: its own name, or for a link without a name the names of its
two ends, which it then carries. -/
inductive Filed (W : World) (o : Obj) : Txt × Obj → Prop
  | named (name : Txt) (h : ("name".toList, name) ∈ o.attrs) : Filed W o (name, o)
  | link (f t : Txt) (h : "name".toList ∉ o.attrs.map Prod.fst) (hf : ("from".toList, f) ∈ o.attrs) (ht : ("to".toList, t) ∈ o.attrs)
      (hs : "name".toList ∈ (W.schema o.cls).getD []) :
      Filed W o (f ++ "-".toList ++ t, { o with attrs := o.attrs ++ [("name".toList, f ++ "-".toList ++ t)] })

/-! ### Numbers -/

/-- The number a row of decimal digits stands for. -/
def decimal (ds : Txt) : ℕ := Nat.ofDigits 10 (ds.map fun c => c.toNat - '0'.toNat).reverse

/-- A plain decimal numeral and its value: digits, or digits around one point. -/
inductive Numeral : Txt → ℚ → Prop
  | whole (ds : Txt) (hne : ds ≠ []) (hd : ∀ c ∈ ds, c.isDigit = true) : Numeral ds (decimal ds)
  | point (a b : Txt) (hne : a ++ b ≠ []) (ha : ∀ c ∈ a, c.isDigit = true) (hb : ∀ c ∈ b, c.isDigit = true) :
      Numeral (a ++ '.' :: b) (decimal a + decimal b / 10 ^ b.length)

/-! ### Spacing of conductors -/

/-- The spacing object gives `d` feet as the distance of the conductors `x` and `y` (of `A`, `B`, `C`, the neutral `N` and the earth
`E`), under a name with the letters in this order. -/
def Spaced (o : Obj) (x y : Char) (d : ℚ) : Prop := ∃ n u, Numeral n d ∧ (u = [] ∨ u = "ft".toList) ∧
  (([x, y].Sublist "ABCNE".toList ∧ o.get ("distance_".toList ++ [x, y]) = .ok (n ++ u)) ∨
   ([y, x].Sublist "ABCNE".toList ∧ o.get ("distance_".toList ++ [y, x]) = .ok (n ++ u)))

end Verif.Glm
