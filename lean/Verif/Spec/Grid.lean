import Verif.Model.ThreePhase

/-!
# Where the terminals of a distribution network are

Written without the dictionary of bus names: a node is its own bus unless it has a parent, and then it is where its parent is.
-/

namespace Verif.Glm

/-- `Root ns name r`: the node `name` is at the node `r`, which has no parent. -/
inductive Root (ns : List DNode) : Txt → Txt → Prop
  | self (n : DNode) (h : n ∈ ns) (hp : n.parent = none) : Root ns n.name n.name
  | child (n : DNode) (h : n ∈ ns) (q r : Txt) (hp : n.parent = some q) (hr : Root ns q r) : Root ns n.name r

variable {M : Type}

/-- Bus number `b` is the bus of phase `p` of the node `name`. -/
def At (ns : List DNode) (g : Grid M) (name : Txt) (p : Char) (b : ℕ) : Prop :=
  ∃ r x, Root ns name r ∧ g.buses[b]? = some x ∧ x.name = r ∧ x.phase = p ∧ x.virtual = false

/-- The endings of the names of inner buses. -/
def innerEndings : List Txt := ["-Reg", "-Fuse", "_primary", "_sending_1", "_sending_2"].map String.toList

/-- A name that is not the name of an inner bus. -/
def Outer (name : Txt) : Prop := ∀ e ∈ innerEndings, ¬ e <:+ name

/-- The phase `p` of the node `name`, if there is a name. -/
def AtOf (ns : List DNode) (g : Grid M) (name : Option Txt) (p : Char) (b : ℕ) : Prop := ∃ n, name = some n ∧ At ns g n p b

/-- An inner bus, which belongs to no node. -/
def Inner (g : Grid M) (b : ℕ) : Prop := ∃ x, g.buses[b]? = some x ∧ x.virtual = true

/-- A terminal of a load or of a coil: ground, or a phase of a node. -/
def TermAt (ns : List DNode) (g : Grid M) (name : Option Txt) : Option Char → Ref → Prop
  | none, r => r = none
  | some p, r => ∃ b, r = some b ∧ AtOf ns g name p b

/-- `num` is the part of a name after its last underscore; the whole name if it has none. -/
def NameEnding (name num : Txt) : Prop := '_' ∉ num ∧ (name = num ∨ ∃ pre, name = pre ++ '_' :: num)

/-- The load `x` of the network is the phase load `pl` of `l`: between the phases it names, or between one phase and ground, with its numbers.
It carries its phases and the ending of the name. -/
def LoadAt (ns : List DNode) (g : Grid M) (l : DLoad) (pl : PhaseLoad) (x : GLoad) : Prop :=
  ∃ a rest, pl.phase = some (a :: rest) ∧ At ns g l.connecting a x.f ∧ TermAt ns g (some l.connecting) rest.head? x.t ∧
    x.p = pl.p ∧ x.q = pl.q ∧ x.z = pl.z ∧ x.i = pl.i ∧ x.phase = a :: rest ∧ NameEnding l.name x.num ∧ x.triplex = l.triplex

/-- The fuse `x` is the wire `w` of `d`: between the two ends of the wire, over an inner bus of its own, with the limit of the file.
It is good, whatever the file says of its state. -/
def FuseAt (ns : List DNode) (g : Grid M) (d : DDevice) (w : PhaseWire) (x : GFuse) : Prop :=
  AtOf ns g d.frm w.phase x.f ∧ AtOf ns g d.to_ w.phase x.t ∧ Inner g x.i ∧ x.phase = w.phase ∧ x.status = .good ∧
    ∃ t, d.limit = some t ∧ floatOf t = .ok x.limit

/-- The switch `x` is the wire `w` of `d`: between the two ends of the wire, open if the wire is open. -/
def SwitchAt (ns : List DNode) (g : Grid M) (d : DDevice) (w : PhaseWire) (x : GSwitch) : Prop :=
  AtOf ns g d.frm w.phase x.f ∧ AtOf ns g d.to_ w.phase x.t ∧ x.phase = w.phase ∧ (x.status = .opened ↔ w.isOpen = some true)

/-- The capacitor `x` is the phase capacitor `pc` of an object `o`: at a phase of the parent of the object, with the rated reactive power and the
nominal voltage of the file. -/
def CapAt (ns : List DNode) (g : Grid M) (objs : List (Txt × Obj)) (c : DCap) (pc : Char × ℚ) (x : GCap) : Prop :=
  ∃ o t v, lookup c.name objs = some o ∧ AtOf ns g (o.attr "parent".toList) pc.1 x.bus ∧ x.var = pc.2 ∧
    o.attr "cap_nominal_voltage".toList = some v ∧ floatOf v = .ok x.nominal ∧ x.nominal ≠ 0 ∧ x.high = c.high ∧ x.low = c.low ∧
    o.attr "control".toList = some t ∧
    (x.mode = .manual → t = "MANUAL".toList ∨ t = "VOLT".toList ∧ (c.high = none ∨ c.low = none)) ∧
    (x.mode = .volt → t = "VOLT".toList) ∧ (x.mode = .var → t = "VAR".toList) ∧ (x.mode = .varvolt → t = "VARVOLT".toList) ∧
    (x.mode ≠ .manual → x.switch = .closed) ∧
    (x.mode = .manual → (x.switch = .closed ↔ o.attr ("switch".toList ++ [pc.1]) = some "CLOSED".toList))

/-- The regulator `x` is the phase `p` of `r`, over an inner bus of its own, at the tap of the configuration. -/
def RegAt (ns : List DNode) (g : Grid M) (objs : List (Txt × Obj)) (r : DRegulator) (p : Char) (x : GReg) : Prop :=
  AtOf ns g r.frm p x.f ∧ AtOf ns g r.to_ p x.t ∧ Inner g x.c ∧ ∃ o k config t reg hi lo, lookup r.name objs = some o ∧
    o.attr "configuration".toList = some k ∧ lookup k objs = some config ∧ config.attr ("tap_pos_".toList ++ [p]) = some t ∧ intOf t = .ok x.tap ∧
    r.regulation = some reg ∧ r.high = some hi ∧ r.low = some lo ∧ hi + lo ≠ 0 ∧ x.step * ((hi + lo : ℤ) : ℚ) = 2 * reg ∧
    regTypeOf r.kind = .ok x.kind ∧ ∃ u1 u2, config.attr "raise_taps".toList = some u1 ∧ intOf u1 = .ok x.raiseTaps ∧
      config.attr "lower_taps".toList = some u2 ∧ intOf u2 = .ok x.lowerTaps

/-- The next one in a cycle. -/
def cycleNext (ps : List Char) (i : ℕ) : Option Char := ps[(i + 1) % ps.length]?

/-- The transformer `x` is coil number `i` of `t`: on each side from phase `i` to the next phase in a delta connection, to ground otherwise. -/
def CoilAt (ns : List DNode) (g : Grid M) (t : DTransformer) (i : ℕ) (x : GXfmr) : Prop :=
  ∃ p fp fn tp tn v1 v2 d1 d2 r y s, x = .coil fp fn tp tn v1 v2 d1 d2 r y s ∧ t.phases[i]? = some p ∧
    AtOf ns g t.frm p fp ∧ TermAt ns g t.frm (if t.w1.connection = some 'D' then cycleNext t.phases i else none) fn ∧
    AtOf ns g t.to_ p tp ∧ TermAt ns g t.to_ (if t.w2.connection = some 'D' then cycleNext t.phases i else none) tn ∧
    t.w1.voltage = some v1 ∧ t.w2.voltage = some v2 ∧ (d1 = true ↔ t.w1.connection = some 'D') ∧ (d2 = true ↔ t.w2.connection = some 'D') ∧
    t.w2.resistance = some (r / 2) ∧ t.reactances.sum = y ∧ t.w2.power = some s ∧ s ≠ 0 ∧ v2 ≠ 0 ∧ ¬ (r = 0 ∧ y = 0)

/-- The transformer `x` is the center tap transformer `t`: from its first phase to the two hot phases, over three inner buses. -/
def CenterTapAt (ns : List DNode) (g : Grid M) (t : DTransformer) (x : GXfmr) : Prop :=
  ∃ p f b0 b1 t1 b2 t2 v0 v1 v2 r0 r1 r2 x0 x1 x2 s, x = .centerTap f b0 b1 t1 b2 t2 v0 v1 v2 r0 r1 r2 x0 x1 x2 s ∧ t.phases.head? = some p ∧
    AtOf ns g t.frm p f ∧ AtOf ns g t.to_ '1' t1 ∧ AtOf ns g t.to_ '2' t2 ∧ Inner g b0 ∧ Inner g b1 ∧ Inner g b2 ∧
    b0 ≠ b1 ∧ b0 ≠ b2 ∧ b1 ≠ b2 ∧
    t.w1.voltage = some v0 ∧ t.w2.voltage = some v1 ∧ t.w3.voltage = some v2 ∧ t.w1.resistance = some r0 ∧ t.w2.resistance = some r1 ∧
    t.w3.resistance = some r2 ∧ [x0, x1, x2] <+: t.reactances ∧ t.w1.power = some s ∧ s ≠ 0 ∧ v1 ≠ 0

/-! ### What a model asks for -/

/-- The phase loads of the store. -/
def loadPieces (ms : List (DModel M)) : List (DLoad × PhaseLoad) := ms.flatMap fun m => match m with
  | .load l => l.loads.map fun pl => (l, pl)
  | _ => []

/-- The fuse wires of the store. -/
def fusePieces (ms : List (DModel M)) : List (DDevice × PhaseWire) := ms.flatMap fun m => match m with
  | .device d => if d.isFuse then d.wires.map fun w => (d, w) else []
  | _ => []

/-- The switch wires of the store that are among the phases of the switch. -/
def switchPieces (ms : List (DModel M)) : List (DDevice × PhaseWire) := ms.flatMap fun m => match m with
  | .device d => if d.isFuse then [] else (d.wires.filter fun w => w.phase ∈ d.phases).map fun w => (d, w)
  | _ => []

/-- The phase capacitors of the store that are among the connected phases. -/
def capPieces (ms : List (DModel M)) : List (DCap × Char × ℚ) := ms.flatMap fun m => match m with
  | .capacitor c => (c.caps.filter fun pc => pc.1 ∈ c.connected).map fun pc => (c, pc)
  | _ => []

/-- The phases of the regulators of the store. -/
def regPieces (ms : List (DModel M)) : List (DRegulator × Char) := ms.flatMap fun m => match m with
  | .regulator r => r.phases.map fun p => (r, p)
  | _ => []

/-- The coils of the transformers of the store: one for each phase, one in all for a center tap. -/
def coilPieces (ms : List (DModel M)) : List (DTransformer × ℕ) := ms.flatMap fun m => match m with
  | .transformer t => if t.centerTap then [(t, 0)] else (List.range t.phases.length).map fun i => (t, i)
  | _ => []

/-- The transformer `x` is coil number `i` of `t`. -/
def XfmrAt (ns : List DNode) (g : Grid M) (t : DTransformer) (i : ℕ) (x : GXfmr) : Prop :=
  if t.centerTap then CenterTapAt ns g t x else CoilAt ns g t i x

/-- The lines with impedances of the store. -/
def linePieces (ms : List (DModel M)) : List (DLine M) := ms.filterMap fun m => match m with
  | .line l => some l
  | _ => none

/-- No name a model refers to is the name of an inner bus, and the neutral is not among the phases of a transformer. -/
def OuterModel (objs : List (Txt × Obj)) : DModel M → Prop
  | .node _ => True
  | .load l => Outer l.connecting
  | .transformer t => ((∀ n, t.frm = some n → Outer n) ∧ ∀ n, t.to_ = some n → Outer n) ∧ 'N' ∉ t.phases
  | .device d => (∀ n, d.frm = some n → Outer n) ∧ ∀ n, d.to_ = some n → Outer n
  | .capacitor c => ∀ o n, lookup c.name objs = some o → o.attr "parent".toList = some n → Outer n
  | .regulator r => (∀ n, r.frm = some n → Outer n) ∧ ∀ n, r.to_ = some n → Outer n
  | .line l => (∀ n, l.frm = some n → Outer n) ∧ ∀ n, l.to_ = some n → Outer n

end Verif.Glm
