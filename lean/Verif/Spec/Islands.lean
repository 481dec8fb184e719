import Verif.Model.Islands
import Verif.Spec.Kirchhoff
import Mathlib.Logic.Relation

/-!
# What it means to be connected
-/

namespace Verif

/-- The pairs of terminals between which an element lets current pass, loads and slacks aside. Blown fuses and open switches join
nothing. -/
inductive Joins : Element → Ref → Ref → Prop
  | line {f t g b bl} : Joins (.line f t g b bl) f t
  | phase {ph y sh f t} (h : (f, t) ∈ ph) : Joins (.unbalanced ph y sh) (some f) (some t)
  | primarySecondary {fp fn tp tn tr ang g b} : Joins (.transformer fp fn tp tn tr ang g b) fp tp
  | primary {fp fn tp tn tr ang g b} : Joins (.transformer fp fn tp tn tr ang g b) fp fn
  | secondary {fp fn tp tn tr ang g b} : Joins (.transformer fp fn tp tn tr ang g b) tp tn
  | tap1 {f p s1 t1 s2 t2 r g0 b0 g1 b1 g2 b2} : Joins (.centerTap f p s1 t1 s2 t2 r g0 b0 g1 b1 g2 b2) (some f) (some t1)
  | tap2 {f p s1 t1 s2 t2 r g0 b0 g1 b1 g2 b2} : Joins (.centerTap f p s1 t1 s2 t2 r g0 b0 g1 b1 g2 b2) (some f) (some t2)
  | switch {f t} : Joins (.switch f t .closed) f t
  | source {f t vr vi} : Joins (.voltageSource f t vr vi) f t
  | regulator {f c t tr g b} : Joins (.regulator f c t tr g b) f t
  | fuse {f i t} : Joins (.fuse f i t) f t
  | capacitor {f t sw b} : Joins (.capacitor f t sw b) f t

/-- A transformer, center-tap transformer or regulator. -/
inductive Transforms : Element → Prop
  | transformer {fp fn tp tn tr ang g b} : Transforms (.transformer fp fn tp tn tr ang g b)
  | centerTap {f p s1 t1 s2 t2 r g0 b0 g1 b1 g2 b2} : Transforms (.centerTap f p s1 t1 s2 t2 r g0 b0 g1 b1 g2 b2)
  | regulator {f c t tr g b} : Transforms (.regulator f c t tr g b)

/-- The element joins a bus named `a` to a bus named `b`, which is another node. -/
def LinksNames (buses : List GBus) (e : Element) (a b : Txt) : Prop :=
  a ≠ b ∧ ∃ f t, Joins e (some f) (some t) ∧ (nameOf buses f = a ∧ nameOf buses t = b ∨ nameOf buses f = b ∧ nameOf buses t = a)

/-- Some element joins the two nodes. -/
def Linked (buses : List GBus) (elements : List Element) (a b : Txt) : Prop := ∃ e ∈ elements, LinksNames buses e a b

/-- The nodes are joined by a path of elements. -/
def PathBetween (buses : List GBus) (elements : List Element) : Txt → Txt → Prop := Relation.ReflTransGen (Linked buses elements)

/-- The first element that joins the two nodes neither is a transformer nor a regulator. -/
def PlainLinked (buses : List GBus) (elements : List Element) (a b : Txt) : Prop :=
  ∃ (i : ℕ) (e : Element), elements[i]? = some e ∧ LinksNames buses e a b ∧ ¬ Transforms e ∧
    ∀ j < i, ∀ e' : Element, elements[j]? = some e' → ¬ LinksNames buses e' a b

/-- The name of a bus that is not an internal one. -/
def RealName (buses : List GBus) (a : Txt) : Prop := ∃ b ∈ buses, b.virtual = false ∧ b.name = a

/-- Elements end at buses of the network that are not internal to some element. -/
def ProperEnds (buses : List GBus) (elements : List Element) : Prop :=
  ∀ e ∈ elements, ∀ f t, Joins e (some f) (some t) → RealName buses (nameOf buses f) ∧ RealName buses (nameOf buses t)

/-- `cs` is a correct answer to "the connected components of the graph with these nodes and adjacency": what networkx returns, the
sets and their members in any order. -/
structure IsComponents (node : Txt → Prop) (adj : Txt → Txt → Prop) (cs : List (List Txt)) : Prop where
  cover : ∀ a, node a → ∃ c ∈ cs, a ∈ c
  nodes : ∀ c ∈ cs, ∀ a ∈ c, node a
  nonempty : ∀ c ∈ cs, c ≠ []
  component : ∀ c ∈ cs, ∀ a ∈ c, ∀ b, node b → (b ∈ c ↔ Relation.ReflTransGen adj a b)
  disjoint : cs.Pairwise fun c d => ∀ a ∈ c, a ∉ d

/-- Two nodes of the graph are adjacent. -/
def Graph.Adj (G : Graph) (a b : Txt) : Prop := ∃ e ∈ G.edges, e.u = a ∧ e.v = b ∨ e.u = b ∧ e.v = a

/-- A correct list of islands of the graph. -/
def IsIslands (G : Graph) (cs : List (List Txt)) : Prop := IsComponents (· ∈ G.nodes) G.Adj cs

/-- A correct list of components of the subgraph with the given edges and their end nodes (`edge_subgraph`). -/
def IsEdgeIslands (es : List GEdge) (cs : List (List Txt)) : Prop :=
  IsComponents (fun a => ∃ e ∈ es, e.u = a ∨ e.v = a) (Graph.Adj ⟨[], es⟩) cs

end Verif

namespace Verif

/-- The first bus of a name that is not an internal one. -/
def FirstNamed (buses : List GBus) (a : Txt) (x : GBus) : Prop :=
  ∃ i : ℕ, buses[i]? = some x ∧ x.virtual = false ∧ x.name = a ∧ ∀ j < i, ∀ y, buses[j]? = some y → y.virtual = true ∨ y.name ≠ a

/-- Buses inside center-tap transformers, regulators and fuses. -/
def Element.inside : Element → List Ref
  | .centerTap _ p s1 _ s2 .. => [some p, some s1, some s2]
  | .regulator _ c _ .. => [c]
  | .fuse _ i _ => [i]
  | _ => []

/-- Buses inside elements are marked as internal. -/
def InsideVirtual (buses : List GBus) (elements : List Element) : Prop :=
  ∀ e ∈ elements, ∀ k, some k ∈ e.inside → ∀ b, buses[k]? = some b → b.virtual = true

/-- The terminals of the elements that are not told apart by edges of the graph. -/
def Element.hangsOn : Element → Option (List Ref)
  | .slack b .. => some [some b]
  | .generator b .. => some [some b]
  | .load f t _ => some [f, t]
  | .fuse f _ t => some [f, t]
  | .regulator f _ t .. => some [f, t]
  | .capacitor f t .. => some [f, t]
  | _ => none

/-- Lines, transformers and switches. -/
inductive Carries : Element → Prop
  | line {f t g b bl} : Carries (.line f t g b bl)
  | unbalanced {ph y sh} : Carries (.unbalanced ph y sh)
  | transformer {fp fn tp tn tr ang g b} : Carries (.transformer fp fn tp tn tr ang g b)
  | centerTap {f p s1 t1 s2 t2 r g0 b0 g1 b1 g2 b2} : Carries (.centerTap f p s1 t1 s2 t2 r g0 b0 g1 b1 g2 b2)
  | switch {f t s} : Carries (.switch f t s)

/-- An element that draws no current at the bus under any circumstances. -/
def Untouched (e : Element) (k : ℕ) : Prop := ∀ t V w, ∀ d ∈ e.draws t V w, d.1 ≠ some k

end Verif
