import Verif.Model.Stamper

/-!
# Index assignment: `assign_matrix` and the `assign_nodes` methods

`/repo/src/logic/network/networkmodel.py` 71-81, `/repo/src/logic/stamping/lagrangestampdetails.py` 42-65,
`/repo/src/models/components/*.py`, `/repo/src/models/optimization/*.py`.

The python counter `count(0)` is a natural number threaded through the calls; `next(node_index)` returns it and adds one.
-/

namespace Verif

open Ex

/-- The four matrix indices of a bus (`bus.py` 76-85). Also used for the four indices of an internal pair of unknowns
of a transformer (`transformer.py` 93-107). -/
structure Node where
  vr : Idx
  vi : Idx
  lr : Idx
  li : Idx
  deriving DecidableEq, Repr

/-- `GROUND` (`bus.py` 90-94). -/
def Node.ground : Node := ⟨none, none, none, none⟩

/-- `Bus.assign_nodes` (`bus.py` 76-85). -/
def assignBus (opt : Bool) (n : ℕ) : Node × ℕ :=
  if opt then (⟨some n, some (n + 1), some (n + 2), some (n + 3)⟩, n + 4)
  else (⟨some n, some (n + 1), none, none⟩, n + 2)

/-- The buses come first in `get_all_elements` (`networkmodel.py` 48-49, 76-77). -/
def assignBuses (opt : Bool) : ℕ → ℕ → List Node × ℕ
  | 0, n => ([], n)
  | k + 1, n =>
    let b := assignBus opt n
    let r := assignBuses opt k b.2
    (b.1 :: r.1, r.2)

/-- A reference to a bus: `none` is `GROUND`, `some k` the bus at position `k` of `network.buses` (`bus.py` 90, `networkmodel.py` 24-25). -/
abbrev Ref := Option ℕ

/-- The indices stored in the referenced bus object. Simplified: a reference beyond the list (a bus that is not in
`network.buses`, whose indices python would leave at SKIP or undefined) reads as ground (`bus.py` 32-36, 90-94). -/
def nodeAt (nodes : List Node) : Ref → Node
  | none => Node.ground
  | some k => nodes.getD k Node.ground

/-! ### `build_two_terminal_stamp_details` -/

/-- An index dictionary; outer `none` is a missing key (`lagrangestampdetails.py` 43-44). -/
abbrev Dict := Sym → Option Idx

/-- `index_map[s] = i` (`lagrangestampdetails.py` 56, 61, 63). -/
def Dict.set (d : Dict) (s : Sym) (i : Idx) : Dict := fun x => if x = s then some i else d x

/-- The eight terminal entries (`lagrangestampdetails.py` 45-52, `line.py` 70-78). -/
def terminalDict (f t : Node) : Dict
  | .VrFrom => some f.vr
  | .ViFrom => some f.vi
  | .LrFrom => some f.lr
  | .LiFrom => some f.li
  | .VrTo => some t.vr
  | .ViTo => some t.vi
  | .LrTo => some t.lr
  | .LiTo => some t.li
  | _ => none

/-- A fresh index for every variable not yet in the map (`lagrangestampdetails.py` 54-56, 58-61). -/
def allocMissing : Dict → ℕ → List Sym → Dict × ℕ
  | d, n, [] => (d, n)
  | d, n, s :: ss => if (d s).isSome then allocMissing d n ss else allocMissing (d.set s (some n)) (n + 1) ss

/-- SKIP for every multiplier not yet in the map (`lagrangestampdetails.py` 58-63, plain mode). -/
def skipMissing : Dict → List Sym → Dict
  | d, [] => d
  | d, s :: ss => if (d s).isSome then skipMissing d ss else skipMissing (d.set s none) ss

/-- `build_two_terminal_stamp_details` (`lagrangestampdetails.py` 42-65) without the optional `index_map` argument (no
caller passes it). -/
def twoTerminalDetails (seg : Segment) (f t : Node) (n : ℕ) (opt : Bool) : Details × ℕ :=
  let a := allocMissing (terminalDict f t) n seg.primals
  let r := if opt then allocMissing a.1 a.2 seg.duals else (skipMissing a.1 seg.duals, a.2)
  let m : Sym → Idx := fun s => (r.1 s).join
  (⟨seg, m, m, opt⟩, r.2)

/-- `build_line_stamper`, `build_line_stamper_bus` (`line.py` 38-84), for `line_lh` or `shunt_lh`. -/
def lineDetails (seg : Segment) (f t : Node) (opt : Bool) : Details :=
  let m : Sym → Idx := fun s => (terminalDict f t s).join
  ⟨seg, m, m, opt⟩

/-! ### Elements -/

/-- The network elements with the numbers their constructors computed (see `Verif/Model/Components.lean`).
`networkmodel.py` 48-56, 122-123, 181-182. -/
inductive Element
  /-- `Line` (`line.py` 86-143): series `G`, `B`, susceptance per end. -/
  | line (f t : Ref) (g b bl : ℝ)
  /-- `UnbalancedLine` (`unbalanced_line.py` 54-193): from and to bus of each phase, series admittance, shunt
  susceptance. -/
  | unbalanced (phases : List (ℕ × ℕ)) (y : ℕ → ℕ → ℂ) (sh : ℕ → ℕ → ℝ)
  /-- `Transformer` (`transformer.py` 54-162). -/
  | transformer (fp fn tp tn : Ref) (tr ang g b : ℝ)
  /-- `CenterTapTransformer` (`center_tap_transformer.py` 57-159): `from_node`, `primary_node`, then sending and to node of
  the two secondary windings. -/
  | centerTap (f p s1 t1 s2 t2 : ℕ) (ratio g0 b0 g1 b1 g2 b2 : ℝ)
  /-- `Slack` (`slack.py` 24-66). -/
  | slack (bus : ℕ) (vr vi : ℝ)
  /-- `Switch` (`switch.py` 9-40). -/
  | switch (f t : Ref) (s : SwitchStatus)
  /-- `Generator` (`generator.py` 22-77): stored (negated) power and voltage set point. -/
  | generator (bus : ℕ) (P Vset : ℝ)
  /-- `Load` (`load.py` 36-132). -/
  | load (f t : Ref) (l : Load)
  /-- `VoltageSource` (`voltagesource.py` 22-39). -/
  | voltageSource (f t : Ref) (vr vi : ℝ)
  /-- `Shunt` (`shunt.py` 8-60). -/
  | shunt (bus : ℕ) (g b : ℝ)
  /-- `Regulator` (`regulator.py` 17-122): transformer between `f` and `c`, sensor between `c` and `t`. -/
  | regulator (f c t : Ref) (tr g b : ℝ)
  /-- `Fuse` that is not blown (`fuse.py` 13-48): line between `f` and `i`, sensor between `i` and `t`. -/
  | fuse (f i t : Ref)
  /-- `Capacitor` (`capacitor.py` 17-43). -/
  | capacitor (f t : Ref) (sw : CapSwitch) (b : ℝ)

/-- The index map of the ideal transformer (`transformer.py` 109-130): `prim` holds the indices of the primary current
and its multipliers, `sec` those of the internal secondary node. -/
def xfmrMap (fp fn prim sec tn : Node) : Sym → Idx
  | .VrPriPos => fp.vr | .ViPriPos => fp.vi | .VrPriNeg => fn.vr | .ViPriNeg => fn.vi
  | .IrPrim => prim.vr | .IiPrim => prim.vi
  | .VrSecPos => sec.vr | .ViSecPos => sec.vi | .VrSecNeg => tn.vr | .ViSecNeg => tn.vi
  | .LrPriPos => fp.lr | .LiPriPos => fp.li | .LrPriNeg => fn.lr | .LiPriNeg => fn.li
  | .LirPrim => prim.lr | .LiiPrim => prim.li
  | .LrSecPos => sec.lr | .LiSecPos => sec.li | .LrSecNeg => tn.lr | .LiSecNeg => tn.li
  | _ => none

/-- Primary current indices (`transformer.py` 93-94, 98-100, 103-104). -/
def xfmrPrim (opt : Bool) (n : ℕ) : Node :=
  ⟨some n, some (n + 1), if opt then some (n + 4) else none, if opt then some (n + 5) else none⟩

/-- Internal secondary node indices (`transformer.py` 95-96, 101-102, 105-106). -/
def xfmrSec (opt : Bool) (n : ℕ) : Node :=
  ⟨some (n + 2), some (n + 3), if opt then some (n + 6) else none, if opt then some (n + 7) else none⟩

/-- `Transformer.assign_nodes` and `get_stamps` (`transformer.py` 92-159). The shunt stamper of lines 145-150 is built but
not used by `get_stamps`. -/
def placeTransformer (L : Library) (opt : Bool) (fp fn tp tn : Node) (tr ang g b : ℝ) (n : ℕ) : List Placed × ℕ :=
  let prim := xfmrPrim opt n
  let sec := xfmrSec opt n
  let m := xfmrMap fp fn prim sec tn
  ([⟨⟨Devices.xfmr, m, m, opt⟩, [tr, ang, 0]⟩, ⟨lineDetails L.line sec tp opt, [g, b, 0]⟩],
   if opt then n + 8 else n + 4)

/-- The index map of the center-tap transformer (`center_tap_transformer.py` 108-143). -/
def ctMap (opt : Bool) (p s1 s2 : Node) (n : ℕ) : Sym → Idx
  | .VrPri => p.vr | .ViPri => p.vi
  | .IrL1 => some n | .IiL1 => some (n + 1) | .IrL2 => some (n + 2) | .IiL2 => some (n + 3)
  | .VrL1 => s1.vr | .ViL1 => s1.vi | .VrL2 => s2.vr | .ViL2 => s2.vi
  | .LrPri => if opt then p.lr else none | .LiPri => if opt then p.li else none
  | .LirL1 => if opt then some (n + 4) else none | .LiiL1 => if opt then some (n + 5) else none
  | .LirL2 => if opt then some (n + 6) else none | .LiiL2 => if opt then some (n + 7) else none
  | .LrL1 => if opt then s1.lr else none | .LiL1 => if opt then s1.li else none
  | .LrL2 => if opt then s2.lr else none | .LiL2 => if opt then s2.li else none
  | _ => none

/-- One two-terminal stamper with constants (`slack.py` 53-57, `generator.py` 64-71, `voltagesource.py` 29-36). -/
def placeTwoTerminal (seg : Segment) (opt : Bool) (f t : Node) (consts : List ℝ) (n : ℕ) : List Placed × ℕ :=
  let d := twoTerminalDetails seg f t n opt
  ([⟨d.1, consts⟩], d.2)

/-- `Load.assign_nodes` and `get_stamps` (`load.py` 109-130). -/
noncomputable def placeLoad (L : Library) (opt : Bool) (f t : Node) (l : Load) (n : ℕ) : List Placed × ℕ :=
  let a := if l.P = 0 ∧ l.Q = 0 then ([], n) else placeTwoTerminal L.pq opt f t [l.P, l.Q] n
  let b := if l.IP = 0 ∧ l.IQ = 0 then ([], a.2) else placeTwoTerminal L.ic opt f t [l.IP, l.IQ] a.2
  let c : List Placed := if l.Z = 0 then [] else [⟨lineDetails L.shunt f t opt, [l.GB.1, l.GB.2, 0]⟩]
  (a.1 ++ b.1 ++ c, b.2)

/-- The three stampers of one pair of phases (`unbalanced_line.py` 93-177, 184-193): rows of phase `i`, columns of phase
`j`. The python dictionary key `(line1_from, line2_to)` (line 177) is taken to be the pair `(i, j)`: distinct phases have
distinct buses. -/
noncomputable def placePair (L : Library) (opt : Bool) (nodes : ℕ → Node) (phases : List (ℕ × ℕ)) (y : ℕ → ℕ → ℂ) (sh : ℕ → ℕ → ℝ)
    (i j : ℕ) : List Placed :=
  let pi := phases.getD i (0, 0)
  let pj := phases.getD j (0, 0)
  let mk (seg : Segment) (rf rt cf ct : Node) : Details :=
    ⟨seg, fun s => (terminalDict cf ct s).join, fun s => (terminalDict rf rt s).join, opt⟩
  [⟨mk (if i = j then L.line else L.shunt) (nodes pi.1) (nodes pi.2) (nodes pj.1) (nodes pj.2),
     [(y i j).re, (y i j).im, 0]⟩,
   ⟨mk L.shunt (nodes pi.1) Node.ground (nodes pj.1) Node.ground, [0, sh i j / 2, 0]⟩,
   ⟨mk L.shunt (nodes pi.2) Node.ground (nodes pj.2) Node.ground, [0, sh i j / 2, 0]⟩]

/-- `UnbalancedLine.assign_nodes` and `get_stamps` (`unbalanced_line.py` 93-193). -/
noncomputable def placeUnbalanced (L : Library) (opt : Bool) (nodes : ℕ → Node) (phases : List (ℕ × ℕ)) (y : ℕ → ℕ → ℂ)
    (sh : ℕ → ℕ → ℝ) : List Placed :=
  (List.range phases.length).flatMap fun i => (List.range phases.length).flatMap fun j =>
    placePair L opt nodes phases y sh i j

/-- `assign_nodes` followed by `get_stamps` of one element (`networkmodel.py` 76-77, `matrixstamper.py` 125-126). -/
noncomputable def Element.place (L : Library) (opt : Bool) (nodes : List Node) (n : ℕ) : Element → List Placed × ℕ
  -- `line.py` 116-143
  | .line f t g b bl =>
    let F := nodeAt nodes f
    let T := nodeAt nodes t
    ([⟨lineDetails L.line F T opt, [g, b, 0]⟩, ⟨lineDetails L.shunt F Node.ground opt, [0, bl, 0]⟩,
      ⟨lineDetails L.shunt T Node.ground opt, [0, bl, 0]⟩], n)
  | .unbalanced ph y sh => (placeUnbalanced L opt (fun k => nodeAt nodes (some k)) ph y sh, n)
  | .transformer fp fn tp tn tr ang g b =>
    placeTransformer L opt (nodeAt nodes fp) (nodeAt nodes fn) (nodeAt nodes tp) (nodeAt nodes tn) tr ang g b n
  -- `center_tap_transformer.py` 94-153
  | .centerTap f p s1 t1 s2 t2 ratio g0 b0 g1 b1 g2 b2 =>
    let N := fun k => nodeAt nodes (some k)
    let m := ctMap opt (N p) (N s1) (N s2) n
    ([⟨⟨Devices.centerTap, m, m, opt⟩, [ratio, 0]⟩, ⟨lineDetails L.line (N f) (N p) opt, [g0, b0, 0]⟩,
      ⟨lineDetails L.line (N s1) (N t1) opt, [g1, b1, 0]⟩, ⟨lineDetails L.line (N s2) (N t2) opt, [g2, b2, 0]⟩],
     if opt then n + 8 else n + 4)
  | .slack b vr vi => placeTwoTerminal L.slack opt (nodeAt nodes (some b)) Node.ground [vr, vi] n
  -- `switch.py` 24-34
  | .switch f t s => match s with
    | .opened => ([], n)
    | .closed => placeTwoTerminal L.vs opt (nodeAt nodes f) (nodeAt nodes t) [0, 0] n
  | .generator b P Vset => placeTwoTerminal L.gen opt (nodeAt nodes (some b)) Node.ground [P, Vset] n
  | .load f t l => placeLoad L opt (nodeAt nodes f) (nodeAt nodes t) l n
  | .voltageSource f t vr vi => placeTwoTerminal L.vs opt (nodeAt nodes f) (nodeAt nodes t) [vr, vi] n
  -- `shunt.py` 48-57
  | .shunt b g s => ([⟨lineDetails L.shunt (nodeAt nodes (some b)) Node.ground opt, [g, s, 0]⟩], n)
  -- `regulator.py` 45-60, 112-119
  | .regulator f c t tr g b =>
    let x := placeTransformer L opt (nodeAt nodes f) Node.ground (nodeAt nodes c) Node.ground tr 0 g b n
    let s := placeTwoTerminal L.vs opt (nodeAt nodes c) (nodeAt nodes t) [0, 0] x.2
    (x.1 ++ s.1, s.2)
  -- `fuse.py` 28-29, 31-35, 43-48
  | .fuse f i t =>
    let s := placeTwoTerminal L.vs opt (nodeAt nodes i) (nodeAt nodes t) [0, 0] n
    (⟨lineDetails L.line (nodeAt nodes f) (nodeAt nodes i) opt, [10000, 10000, 0]⟩ :: s.1, s.2)
  -- `capacitor.py` 33-40
  | .capacitor f t sw b => match sw with
    | .opened => ([], n)
    | .closed => ([⟨lineDetails L.shunt (nodeAt nodes f) (nodeAt nodes t) opt, [0, b, 0]⟩], n)

/-- The loop over the elements (`networkmodel.py` 76-77): placed parts per element. -/
noncomputable def placeElements (L : Library) (opt : Bool) (nodes : List Node) : ℕ → List Element → List (List Placed) × ℕ
  | n, [] => ([], n)
  | n, e :: es =>
    let r := e.place L opt nodes n
    let rs := placeElements L opt nodes r.2 es
    (r.1 :: rs.1, rs.2)

/-- The two infeasibility analyses (`L1infeasibility.py`, `L2infeasibility.py`, loaded by `powerflow.py`). -/
inductive OptKind | L1 | L2
  deriving DecidableEq, Repr

/-- `L2InfeasibilityCurrent.assign_nodes` (`L2infeasibility.py` 46-57). -/
def placeL2 (b : Node) (n : ℕ) : Placed × ℕ :=
  let m : Sym → Idx := fun s => match s with
    | .Iir => some n | .Iii => some (n + 1) | .LVr => b.lr | .LVi => b.li | _ => none
  (⟨⟨Devices.l2, m, m, true⟩, []⟩, n + 2)

/-- `L1InfeasibilityCurrent.assign_nodes` (`L1infeasibility.py` 49-70): the bound multipliers get the indices of the
currents. -/
def placeL1 (b : Node) (n : ℕ) : Placed × ℕ :=
  let m : Sym → Idx := fun s => match s with
    | .IirPlus => some n | .IiiPlus => some (n + 1) | .IirMinus => some (n + 2) | .IiiMinus => some (n + 3)
    | .muVrPlus => some n | .muViPlus => some (n + 1) | .muVrMinus => some (n + 2) | .muViMinus => some (n + 3)
    | .LVr => b.lr | .LVi => b.li | .VrBus => b.vr | .ViBus => b.vi | _ => none
  (⟨⟨Devices.l1, m, m, true⟩, []⟩, n + 4)

/-- The loop of `assign_nodes` over the infeasibility currents, one per bus (`L1infeasibility.py` 21-26,
`L2infeasibility.py` 21-26). -/
def placeInfeasibility (k : OptKind) : ℕ → List Node → List Placed × ℕ
  | n, [] => ([], n)
  | n, b :: bs =>
    let p := match k with
      | .L1 => placeL1 b n
      | .L2 => placeL2 b n
    let r := placeInfeasibility k p.2 bs
    (p.1 :: r.1, r.2)

/-- A network: number of buses, the other elements in the order of `get_all_elements`, the optimization object (`networkmodel.py` 20-56). -/
structure Network where
  buses : ℕ
  elements : List Element
  optimization : Option OptKind

/-- `optimization_enabled` (`networkmodel.py` 74). -/
def Network.opt (N : Network) : Bool := N.optimization.isSome

/-- What `assign_matrix` produces (`networkmodel.py` 71-82). -/
structure Assignment where
  nodes : List Node
  parts : List (List Placed)
  infeasibility : List Placed
  size : ℕ

/-- `assign_matrix` (`networkmodel.py` 71-83) followed by `get_stamps` of all elements and of the optimization
(`matrixstamper.py`, `build_matrix_stamper`). -/
noncomputable def Network.assign (L : Library) (N : Network) : Assignment :=
  let b := assignBuses N.opt N.buses 0
  let e := placeElements L N.opt b.1 b.2 N.elements
  let o := match N.optimization with
    | none => ([], e.2)
    | some k => placeInfeasibility k e.2 b.1
  ⟨b.1, e.1, o.1, o.2⟩

/-- All placed parts in the order `build_matrix_stamper` collects them (`matrixstamper.py` 123-131). -/
def Assignment.all (a : Assignment) : List Placed := a.parts.flatten ++ a.infeasibility

end Verif
