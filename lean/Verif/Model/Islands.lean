import Verif.Model.TimeSeries
import Mathlib.Algebra.Order.Round
import Mathlib.Algebra.Ring.Parity

/-!
# The graph of the network (`/repo/src/logic/graphanalyzer.py`) and island selection (`timeseriesprocessor.py` 28-123)

Only what islands depend on: labels and colours of nodes and edges are left out. Connected components are computed by networkx; the
functions below take the list it returned as an argument and the theorems hold for every list that is a correct answer
(`IsComponents` in `Verif/Spec/Islands.lean`), in whatever order.
-/

namespace Verif

/-- What the graph reads from a bus (`bus.py` 27-30). -/
structure GBus where
  name : Txt
  virtual : Bool
  vnom : ℝ

/-- `get_connections` of the elements (`line.py` 135, `unbalanced_line.py` 179, `transformer.py` 161,
`center_tap_transformer.py` 155, `slack.py` 65, `switch.py` 36, `generator.py` 73, `load.py` 132, `voltagesource.py` 32, `shunt.py` 59,
`regulator.py` 122, `fuse.py` 38, `capacitor.py` 42). A blown fuse, which has none, is not an `Element`. -/
def Element.connections : Element → List (Ref × Ref)
  | .line f t .. => [(f, t)]
  | .unbalanced ph .. => ph.map fun p => (some p.1, some p.2)
  | .transformer fp fn tp tn .. => [(fp, tp), (fp, fn), (tp, tn)]
  | .centerTap f _ _ t1 _ t2 .. => [(some f, some t1), (some f, some t2)]
  | .slack b .. => [(some b, none)]
  | .switch f t s => match s with
    | .opened => []
    | .closed => [(f, t)]
  | .generator .. => []
  | .load f t _ => [(f, t)]
  | .voltageSource f t .. => [(f, t)]
  | .shunt .. => []
  | .regulator f _ t .. => [(f, t)]
  | .fuse f _ t => [(f, t)]
  | .capacitor f t .. => [(f, t)]

/-- `type(element) == Load` (`graphanalyzer.py` 38). -/
def Element.isLoadType : Element → Bool
  | .load .. => true
  | _ => false

/-- `type(element) in [CenterTapTransformer, Transformer, Regulator]` (`graphanalyzer.py` 80). -/
def Element.changesVoltage : Element → Bool
  | .transformer .. | .centerTap .. | .regulator .. => true
  | _ => false

/-- An edge between two names with the positions of its elements (`element_list`, `graphanalyzer.py` 44-49). -/
structure GEdge where
  u : Txt
  v : Txt
  elements : List ℕ

/-- The edge joins the two names; edges have no direction (`nx.Graph()`, `graphanalyzer.py` 18, 45). -/
def GEdge.joins (e : GEdge) (a b : Txt) : Bool := e.u = a && e.v = b || e.u = b && e.v = a

/-- `self.G` (`graphanalyzer.py` 18). -/
structure Graph where
  nodes : List Txt
  edges : List GEdge

/-- The name of the bus a terminal refers to (`graphanalyzer.py` 40-49). -/
def nameOf (buses : List GBus) (k : ℕ) : Txt := ((buses[k]?).map GBus.name).getD []

/-- One node per name of a bus that is not virtual (`graphanalyzer.py` 24-34). -/
def graphNodes (buses : List GBus) : List Txt := ((buses.filter fun b => !b.virtual).map GBus.name).dedup

/-- Adding a connection between two named nodes (`graphanalyzer.py` 45-49): element `i` is added to the edge, which is made, with
its end nodes, if it is new. -/
def Graph.link (G : Graph) (a b : Txt) (i : ℕ) : Graph :=
  if G.edges.any fun e => e.joins a b then
    { G with edges := G.edges.map fun e => if e.joins a b ∧ i ∉ e.elements then { e with elements := e.elements ++ [i] } else e }
  else ⟨[a, b].foldl (fun ns n => if n ∈ ns then ns else ns ++ [n]) G.nodes, G.edges ++ [⟨a, b, [i]⟩]⟩

/-- The body of the loop over the connections of element `i` (`graphanalyzer.py` 37-49). -/
def Graph.connect (buses : List GBus) (e : Element) (i : ℕ) (G : Graph) (c : Ref × Ref) : Graph :=
  if e.isLoadType then G
  else match c with
    | (some f, some t) =>
      let a := nameOf buses f
      let b := nameOf buses t
      if a = b then G
      else if a ∉ G.nodes ∧ b ∉ G.nodes then G
      else G.link a b i
    | _ => G

/-- `GraphAnalyzer.__init__` (`graphanalyzer.py` 16-57). -/
def Graph.build (buses : List GBus) (elements : List Element) : Graph :=
  elements.zipIdx.foldl (fun G x => x.1.connections.foldl (Graph.connect buses x.1 x.2) G) ⟨graphNodes buses, []⟩

/-- `get_nominal_voltage_islands`: the edges of the subgraph (`graphanalyzer.py` 79-82). -/
def Graph.plainEdges (G : Graph) (elements : List Element) : List GEdge :=
  G.edges.filter fun e => match e.elements.head?.bind fun i => elements[i]? with
    | some x => !x.changesVoltage
    | none => true

/-- Python's `round` of a number: to the nearest integer, halves to the even one (`graphanalyzer.py` 74). -/
noncomputable def pyRound (x : ℝ) : ℤ :=
  open Classical in
  if Int.fract x = 1 / 2 then (if Even ⌊x⌋ then ⌊x⌋ else ⌊x⌋ + 1) else round x

/-- `self.G.nodes[name]["bus_list"][0]` (`graphanalyzer.py` 72): the first bus of that name that is not virtual. -/
def firstBus (buses : List GBus) (a : Txt) : Option GBus := buses.find? fun b => !b.virtual && b.name = a

/-- The inner loop of `validate_voltage_islands` (`graphanalyzer.py` 70-77); the first argument is `vnom`. -/
noncomputable def validateIsland (buses : List GBus) : Option ℤ → List Txt → Except String Unit
  | _, [] => .ok ()
  | vn, a :: as =>
    open Classical in
    match firstBus buses a with
    | none => .error "KeyError"
    | some b => match vn with
      | none => validateIsland buses (some (pyRound b.vnom)) as
      | some v => if |b.vnom - v| > 10 then .error "nominal voltage is not consistent" else validateIsland buses (some v) as

/-- The outer loop (`graphanalyzer.py` 66-69) over the voltage islands. -/
noncomputable def validateIslands (buses : List GBus) : List (List Txt) → Except String Unit
  | [] => .ok ()
  | c :: cs => do
    validateIsland buses none c
    validateIslands buses cs

/-- The checks at the start of `PowerFlow.execute` (`powerflow.py` 21-26), given the islands and voltage islands networkx found. -/
noncomputable def executeChecks (buses : List GBus) (islands voltageIslands : List (List Txt)) : Except String Unit :=
  if islands.length ≠ 1 then .error "Detected multiple network islands." else validateIslands buses voltageIslands

/-! ### Selection of an island -/

/-- The elements with a list of their own from which `select_island` removes by edge (`timeseriesprocessor.py` 44-72): transformers,
switches, lines. `lines.remove` of any other element raises and is ignored. -/
def Element.removedByEdge : Element → Bool
  | .line .. | .unbalanced .. | .transformer .. | .centerTap .. | .switch .. => true
  | _ => false

/-- Elements on edges of the other islands (`timeseriesprocessor.py` 33-44). -/
def edgeElements (G : Graph) (others : List (List Txt)) : List ℕ :=
  others.flatMap fun c => c.flatMap fun a => (G.edges.filter fun e => e.u = a || e.v = a).flatMap GEdge.elements

/-- Internal buses of a center-tap transformer (`timeseriesprocessor.py` 50-62). -/
def Element.internalBuses : Element → List ℕ
  | .centerTap _ p s1 _ s2 .. => [p, s1, s2]
  | _ => []

/-- The bus is in the list of buses; ground never is (`timeseriesprocessor.py` 77, 84, 91, 98, 109, 120). -/
def holds (buses : List ℕ) : Ref → Bool
  | none => false
  | some k => k ∈ buses

/-- What is tested of the elements in the second half (`timeseriesprocessor.py` 75-123): slacks, generators, loads, fuses,
regulators and capacitors stay if their buses are still there. -/
def Element.busesHeld (buses : List ℕ) : Element → Bool
  | .slack b .. => holds buses (some b)
  | .generator b .. => holds buses (some b)
  | .load f t _ => holds buses f && holds buses t
  | .fuse f _ t => holds buses f && holds buses t
  | .regulator f _ t .. => holds buses f && holds buses t
  | .capacitor f t .. => holds buses f && holds buses t
  | _ => true

/-- Interior buses removed with their fuse or regulator (`timeseriesprocessor.py` 99-102, 110-113). -/
def Element.interiorBus : Element → List ℕ
  | .fuse _ (some i) _ => [i]
  | .regulator _ (some c) .. => [c]
  | _ => []

/-- The network after `select_island`: positions of the buses and elements that stay (`timeseriesprocessor.py` 28-123). -/
structure Selected where
  buses : List ℕ
  elements : List ℕ

/-- The element leaves one of the lists by edge (`timeseriesprocessor.py` 45-72). -/
def goneByEdge (G : Graph) (others : List (List Txt)) (x : Element × ℕ) : Bool := x.1.removedByEdge && decide (x.2 ∈ edgeElements G others)

/-- The buses left after lines 33-74 of `timeseriesprocessor.py`: the internal buses of removed center-tap transformers and the buses
of the other islands are gone. -/
def leftBuses (buses : List GBus) (elements : List Element) (others : List (List Txt)) : List ℕ :=
  let G := Graph.build buses elements
  let internal := (elements.zipIdx.filter (goneByEdge G others)).flatMap fun x => x.1.internalBuses
  (List.range buses.length).filter fun k => match buses[k]? with
    | some b => (b.virtual || !(others.any fun c => decide (b.name ∈ c))) && decide (k ∉ internal)
    | none => false

/-- `select_island` (`timeseriesprocessor.py` 28-123). `islands` is the list networkx returned; those
without the swing bus are removed. The swing bus must be a node (networkx raises otherwise, line 32). The interior buses of fuses and regulators are virtual and end no element, so removing them does not change the later tests; here
they are removed at the end. The removal of a listed bus that is already gone (line 74), an exception, cannot happen: every bus has
one name and every name is in one island. -/
def selectIsland (buses : List GBus) (elements : List Element) (islands : List (List Txt)) (swing : Txt) :
    Except String Selected :=
  let G := Graph.build buses elements
  let others := islands.filter fun c => swing ∉ c
  let left := leftBuses buses elements others
  let dropped := (elements.zipIdx.filter fun x => !x.1.busesHeld left).flatMap fun x => x.1.interiorBus
  if swing ∉ G.nodes then .error "KeyError"
  else .ok ⟨left.filter fun k => decide (k ∉ dropped),
    (elements.zipIdx.filter fun x => !goneByEdge G others x && x.1.busesHeld left).map Prod.snd⟩

end Verif
