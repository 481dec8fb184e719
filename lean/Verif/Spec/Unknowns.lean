import Verif.Model.Placement

/-!
# The unknowns of a network

Which quantities of a network are unknowns, listed device by device without reference to how indices are handed out.
-/

namespace Verif

/-- Unknowns of a bus: the two voltage parts; in optimization mode also its two multipliers. -/
def Node.unknowns (opt : Bool) (n : Node) : List Idx := [n.vr, n.vi] ++ if opt then [n.lr, n.li] else []

/-- Own unknowns of a transformer stamped as part `k`. -/
def xfmrUnknowns (opt : Bool) (k : ℕ) : List (ℕ × Sym) :=
  [(k, .IrPrim), (k, .IiPrim), (k, .VrSecPos), (k, .ViSecPos)] ++
  if opt then [(k, .LirPrim), (k, .LiiPrim), (k, .LrSecPos), (k, .LiSecPos)] else []

/-- Own unknowns of a two-terminal device stamped as part `k`: `own` and, in optimization mode, the multipliers of its
own equations (those after the four bus balance multipliers). -/
def twoTerminalUnknowns (opt : Bool) (k : ℕ) (seg : Segment) (own : List Sym) : List (ℕ × Sym) :=
  (own ++ if opt then seg.duals.drop 4 else []).map fun s => (k, s)

/-- Own unknowns of an element: position of the part among its stamped parts, and symbol. -/
def Element.unknowns (L : Library) (opt : Bool) : Element → List (ℕ × Sym)
  | .line .. => []
  | .unbalanced .. => []
  | .transformer .. => xfmrUnknowns opt 0
  | .centerTap .. => [(0, .IrL1), (0, .IiL1), (0, .IrL2), (0, .IiL2)] ++
      if opt then [(0, .LirL1), (0, .LiiL1), (0, .LirL2), (0, .LiiL2)] else []
  | .slack .. => twoTerminalUnknowns opt 0 L.slack [.ISr, .ISi]
  | .switch _ _ .closed => twoTerminalUnknowns opt 0 L.vs [.Ir, .Ii]
  | .switch _ _ .opened => []
  | .generator .. => twoTerminalUnknowns opt 0 L.gen [.Q]
  | .load .. => []
  | .voltageSource .. => twoTerminalUnknowns opt 0 L.vs [.Ir, .Ii]
  | .shunt .. => []
  | .regulator .. => xfmrUnknowns opt 0 ++ twoTerminalUnknowns opt 2 L.vs [.Ir, .Ii]
  | .fuse .. => twoTerminalUnknowns opt 1 L.vs [.Ir, .Ii]
  | .capacitor .. => []

/-- Column of an unknown among the placed parts of its element. -/
def unknownIdx (ps : List Placed) (u : ℕ × Sym) : Idx := (ps[u.1]?).bind fun p => p.details.varMap u.2

/-- Own unknowns of an infeasibility current. -/
def OptKind.unknowns : OptKind → List Sym
  | .L1 => [.IirPlus, .IiiPlus, .IirMinus, .IiiMinus]
  | .L2 => [.Iir, .Iii]

/-- Every unknown of the network, as the column it was given. -/
def Assignment.unknowns (L : Library) (N : Network) (a : Assignment) : List Idx :=
  a.nodes.flatMap (Node.unknowns N.opt) ++
  (List.zipWith (fun e ps => (Element.unknowns L N.opt e).map (unknownIdx ps)) N.elements a.parts).flatten ++
  match N.optimization with
  | none => []
  | some k => a.infeasibility.flatMap fun p => k.unknowns.map p.details.varMap

end Verif
