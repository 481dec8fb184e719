import Verif.Spec.Grid

/-!
# What a GridLAB-D file asks for

Read from the objects of the file alone, without the store of models or the dictionary of bus names.
-/

namespace Verif.Glm

/-- Whether an object of a triplex class has power of its own. -/
def hasPower (o : Obj) : Bool := ["power_1", "power_2", "power_12"].any fun k => (o.attr k.toList).isSome

/-- An object that is a load. -/
def isLoadObj (o : Obj) : Bool :=
  o.cls ∈ ["load", "triplex_load", "triplex_node"].map String.toList ∨ o.cls = "triplex_meter".toList ∧ hasPower o

/-- An object that is a node. -/
def isNodeObj (o : Obj) : Bool :=
  o.cls ∈ ["node", "meter"].map String.toList ∨ o.cls = "triplex_meter".toList ∧ ¬ hasPower o

/-- `FileRoot objs name r`: what is called `name` in the file is at `r`, which has no parent. A load without parent is a place of its own, a load
with one is no place. -/
inductive FileRoot (objs : List (Txt × Obj)) : Txt → Txt → Prop
  | own (name : Txt) (o : Obj) (h : (name, o) ∈ objs) (hn : isNodeObj o ∨ isLoadObj o) (hp : o.attr "parent".toList = none) :
      FileRoot objs name name
  | child (name : Txt) (o : Obj) (h : (name, o) ∈ objs) (hn : isNodeObj o) (q r : Txt) (hp : o.attr "parent".toList = some q)
      (hr : FileRoot objs q r) : FileRoot objs name r

variable {M : Type}

/-- Bus number `b` is phase `p` of what the file calls `name`. -/
def FileAt (objs : List (Txt × Obj)) (g : Grid M) (name : Txt) (p : Char) (b : ℕ) : Prop :=
  ∃ r x, FileRoot objs name r ∧ g.buses[b]? = some x ∧ x.name = r ∧ x.phase = p ∧ x.virtual = false

/-- The same for a name the file may leave out. -/
def FileAtOf (objs : List (Txt × Obj)) (g : Grid M) (name : Option Txt) (p : Char) (b : ℕ) : Prop :=
  ∃ n, name = some n ∧ FileAt objs g n p b

/-- A terminal: ground, or a phase. -/
def FileTerm (objs : List (Txt × Obj)) (g : Grid M) (name : Option Txt) : Option Char → Ref → Prop
  | none, r => r = none
  | some p, r => ∃ b, r = some b ∧ FileAtOf objs g name p b

/-! ### Rewriting of objects -/

/-- The classes of the objects that are rewritten while lines are read. -/
def conductorClasses : List Txt := ["overhead_line_conductor", "underground_line_conductor", "triplex_line_conductor"].map String.toList

/-- The attributes that are rewritten while lines are read. -/
def writtenAttributes : List Txt := ["geometric_mean_radius", "resistance", "conductor_resistance"].map String.toList

/-- A text with one of the units that are removed when lines are read. -/
def HasUnit (t : Txt) : Prop := (find "km".toList t).isSome ∨ (find "cm".toList t).isSome

/-- No attribute with a unit that would be removed when lines are read. -/
def UnitFree (o : Obj) : Prop := ∀ a ∈ writtenAttributes, ∀ t, o.attr a = some t → ¬ HasUnit t

/-- An object as it was, up to what the reading of lines rewrites. -/
structure SameObj (o o' : Obj) : Prop where
  cls : o'.cls = o.cls
  attr : ∀ a, a ∉ writtenAttributes → o'.attr a = o.attr a
  other : o.cls ∉ conductorClasses → o' = o
  plain : UnitFree o → o' = o
  clean : ∀ a, o'.attr a = o.attr a ∨ ∃ t, o.attr a = some t ∧ o'.attr a = some (removeNonnum t)

/-- All objects as they were, up to what the reading of lines rewrites. -/
def SameObjs (objs objs' : List (Txt × Obj)) : Prop := ∀ k, Option.Rel SameObj (lookup k objs) (lookup k objs')

/-- A way of reading the lines of a file that rewrites nothing else. -/
def Keeps (readLine : LineReader M) (objs : List (Txt × Obj)) : Prop :=
  ∀ objs1 o ph d objs2, SameObjs objs objs1 → readLine objs1 o ph = .ok (d, objs2) → SameObjs objs1 objs2

/-- What a configuration names as its conductors are conductors, if they are objects of the file. -/
def ConductorsNamed (objs : List (Txt × Obj)) : Prop := ∀ k c, lookup k objs = some c → ∀ p ∈ "ABCN12".toList, ∀ n,
  c.attr ("conductor_".toList ++ [p]) = some n → ∀ o, lookup n objs = some o → o.cls ∈ conductorClasses

/-- No name and no reference in the file ends like the name of an inner bus. -/
def OuterFile (objs : List (Txt × Obj)) : Prop :=
  ∀ name o, (name, o) ∈ objs → Outer name ∧ ∀ k ∈ ["from".toList, "to".toList, "parent".toList], ∀ n, o.attr k = some n → Outer n

/-! ### Loads -/

/-- What a number of a load is. -/
inductive LoadKind
  | power
  | impedance
  | current
  deriving DecidableEq, Repr

/-- A load as the file declares it: the node, the phases it is connected to, what it is, and the number. -/
structure DeclaredLoad where
  node : Txt
  phases : Txt
  kind : LoadKind
  value : ℚ × ℚ
  deriving DecidableEq, Repr

/-- The attributes that declare a load. -/
def loadAttributes : List (Txt × LoadKind) :=
  [("power_".toList, .power), ("constant_power_".toList, .power), ("impedance_".toList, .impedance),
   ("constant_impedance_".toList, .impedance), ("constant_current_".toList, .current)]

/-- The endings of these attributes. -/
def loadEndings : List Txt := ["A", "B", "C", "AB", "BC", "CA", "1", "2", "12"].map String.toList

/-- The phases an ending stands for: in a delta connection one letter stands for that phase and the next. -/
def endingPhases (delta : Bool) (c : Txt) : Txt :=
  if delta ∧ c = "A".toList then "AB".toList
  else if delta ∧ c = "B".toList then "BC".toList
  else if delta ∧ c = "C".toList then "CA".toList
  else c

/-- Whether the phases of a load say delta. -/
def saysDelta (o : Obj) : Bool := match o.attr "phases".toList with
  | none => false
  | some t => 'D' ∈ stripBy (· = '|') (stripBy (· = '"') t) ∧ 'S' ∉ stripBy (· = '|') (stripBy (· = '"') t)

/-- The loads one object declares: one for each of these attributes that is there and is not zero. -/
def objectLoads (name : Txt) (o : Obj) : List DeclaredLoad :=
  loadEndings.flatMap fun c => loadAttributes.flatMap fun a =>
    match (o.attr (a.1 ++ c)).bind pyComplex with
    | some z => if z = 0 then [] else [⟨(o.attr "parent".toList).getD name, endingPhases (saysDelta o) c, a.2, z⟩]
    | none => []

/-- The loads a file declares. -/
def declaredLoads (objs : List (Txt × Obj)) : List DeclaredLoad :=
  objs.flatMap fun x => if isLoadObj x.2 then objectLoads x.1 x.2 else []

/-- No load of the file is given by a base power. -/
def NoBasePower (objs : List (Txt × Obj)) : Prop :=
  ∀ name o, (name, o) ∈ objs → isLoadObj o → ∀ c ∈ loadEndings, o.attr ("base_power_".toList ++ c) = none

/-- The load `x` of the network is the declared load `d`. -/
def IsDeclared (objs : List (Txt × Obj)) (g : Grid M) (d : DeclaredLoad) (x : GLoad) : Prop :=
  ∃ a rest, d.phases = a :: rest ∧ FileAt objs g d.node a x.f ∧ FileTerm objs g (some d.node) rest.head? x.t ∧
    (x.p, x.q) = (if d.kind = .power then d.value else 0) ∧ x.z = (if d.kind = .impedance then d.value else 0) ∧
    x.i = (if d.kind = .current then d.value else 0)

/-- The parents of the nodes and meters of a file. -/
def parentNames (objs : List (Txt × Obj)) : List Txt :=
  (objs.filter fun x => x.2.cls ∈ ["node", "meter"].map String.toList).filterMap fun x => x.2.attr "parent".toList

end Verif.Glm
