import Verif.Spec.Glm
import Verif.Model.Loader

/-!
# A feeder written down in several files

Nothing here refers to how the files are read, apart from the grammar of rows and the disk.
-/

namespace Verif.Glm

/-- No character that ends a row. -/
def OneRow (r : Txt) : Prop := '\n' ∉ r ∧ '\r' ∉ r

/-- The text of a file with these rows: each ends with a line feed, with carriage return and line feed, or with a carriage return alone; the last may end
with the file. -/
inductive FileText : Txt → List Txt → Prop
  | nil : FileText [] []
  | last (r : Txt) (hr : OneRow r) (hne : r ≠ []) : FileText r [r]
  | row {r e t : Txt} {rows : List Txt} (hr : OneRow r) (he : e = "\n".toList ∨ e = "\r\n".toList ∨ (e = "\r".toList ∧ t.head? ≠ some '\n')) (ht : FileText t rows) : FileText (r ++ e ++ t) (r :: rows)

/-- `#include "location";`, with or without the quotes and the semicolon. -/
def IncludeRow (location row : Txt) : Prop :=
  ∃ g q e s, Blank g ∧ g ≠ [] ∧ location ≠ [] ∧ (∀ c ∈ location, isSpace c = false ∧ c ≠ '"' ∧ c ≠ ';') ∧ Quoted location q ∧ (e = [] ∨ e = ";".toList) ∧ Blank s ∧
    row = "#include".toList ++ g ++ q ++ e ++ s

/-- No row asks for another file. -/
def NoInclude (rows : List Txt) : Prop := ∀ r ∈ rows, ¬ "#include".toList <+: r

/-- The rows of a file that writes down objects and, between objects, includes other files: the objects and the locations in their order. -/
inductive Laid : List Txt → List (Obj ⊕ Txt) → Prop
  | plain {rows : List Txt} {os : List Obj} (hw : Written rows os) (hn : NoInclude rows) : Laid rows (os.map Sum.inl)
  | more {rows rest : List Txt} {os : List Obj} {r location : Txt} {ps : List (Obj ⊕ Txt)} (hw : Written rows os) (hn : NoInclude rows) (hr : IncludeRow location r)
      (hl : Laid rest ps) : Laid (rows ++ r :: rest) (os.map Sum.inl ++ Sum.inr location :: ps)

/-- The objects of a file with those of the included files in the place of the rows that include them, at most `n` files deep. -/
inductive InPlace (disk : Disk) : ℕ → List (Obj ⊕ Txt) → List Obj → Prop
  | nil (n : ℕ) : InPlace disk n [] []
  | own {n : ℕ} {o : Obj} {ps : List (Obj ⊕ Txt)} {os : List Obj} (h : InPlace disk n ps os) : InPlace disk n (Sum.inl o :: ps) (o :: os)
  | file {n : ℕ} {location t : Txt} {rows : List Txt} {qs ps : List (Obj ⊕ Txt)} {us os : List Obj} (ht : disk location = some t) (hr : FileText t rows)
      (hl : Laid rows qs) (hq : InPlace disk n qs us) (h : InPlace disk (n + 1) ps os) : InPlace disk (n + 1) (Sum.inr location :: ps) (us ++ os)

/-- The objects of the included files, one file after another, if these include none. -/
inductive Included (disk : Disk) : List (Obj ⊕ Txt) → List Obj → Prop
  | nil : Included disk [] []
  | own {o : Obj} {ps : List (Obj ⊕ Txt)} {us : List Obj} (h : Included disk ps us) : Included disk (Sum.inl o :: ps) us
  | file {location t : Txt} {rows : List Txt} {ps : List (Obj ⊕ Txt)} {vs us : List Obj} (ht : disk location = some t) (hr : FileText t rows) (hw : Written rows vs)
      (hn : NoInclude rows) (h : Included disk ps us) : Included disk (Sum.inr location :: ps) (vs ++ us)

end Verif.Glm
