import Verif.Spec.GlmSupply

/-!
# Which places of a GridLAB-D file are joined

Names and phases of the file only. A device joins the two names it is between, whatever its phases.
-/

namespace Verif.Glm

variable {M : Type}

/-- A line that has a phase, a closed switch or a fuse from one name to another. -/
inductive PlainStep (objs : List (Txt × Obj)) (ds : List (List Char × M)) : Txt → Txt → Prop
  | line {x : Obj × List Char × M} {a b : Txt} : x ∈ (declaredLines objs).zip ds → x.2.1 ≠ [] → x.1.attr "from".toList = some a → x.1.attr "to".toList = some b →
      PlainStep objs ds a b
  | switch {d : DeclaredDevice} {a b : Txt} : d ∈ declaredSwitches objs → d.isOpen = false → d.frm = some a → d.to_ = some b → PlainStep objs ds a b
  | fuse {d : DeclaredDevice × Option Txt} {a b : Txt} : d ∈ declaredFuses objs → d.1.frm = some a → d.1.to_ = some b → PlainStep objs ds a b

/-- Any device from one name to another: one of these, a regulator or a transformer. -/
inductive FileStep (objs : List (Txt × Obj)) (ds : List (List Char × M)) : Txt → Txt → Prop
  | plain {a b : Txt} : PlainStep objs ds a b → FileStep objs ds a b
  | reg {d : Obj × Option Obj × Char} {a b : Txt} : d ∈ declaredRegs objs → d.1.attr "from".toList = some a → d.1.attr "to".toList = some b → FileStep objs ds a b
  | coil {o c : Obj} {p q : Char} {a b : Txt} : .coil o (some c) p q ∈ declaredXfmrs objs → o.attr "from".toList = some a → o.attr "to".toList = some b →
      FileStep objs ds a b
  | tap {o c : Obj} {a b : Txt} : .tap o c ∈ declaredXfmrs objs → o.attr "from".toList = some a → o.attr "to".toList = some b → FileStep objs ds a b

/-- The places of two names, one of which leads to the other. -/
def NextTo (objs : List (Txt × Obj)) (R : Txt → Txt → Prop) (a b : Txt) : Prop := ∃ n m, (R n m ∨ R m n) ∧ FileRoot objs n a ∧ FileRoot objs m b

/-- There is a way from one place to the other. -/
def FileJoined (objs : List (Txt × Obj)) (ds : List (List Char × M)) : Txt → Txt → Prop := Relation.ReflTransGen (NextTo objs (FileStep objs ds))

/-- There is a way that uses no transformer and no regulator. -/
def PlainJoined (objs : List (Txt × Obj)) (ds : List (List Char × M)) : Txt → Txt → Prop := Relation.ReflTransGen (NextTo objs (PlainStep objs ds))

/-- The phases of the nodes and loads without parent, in the order of the file. -/
def ownPlaces (objs : List (Txt × Obj)) : List ((Txt × Obj) × Char) := (declaredPlaces objs).filter fun x => (x.1.2.attr "parent".toList).isNone

end Verif.Glm
