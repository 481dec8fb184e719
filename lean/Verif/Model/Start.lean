import Verif.Spec.Unknowns

/-!
# The start vector (`/repo/src/logic/network/networkmodel.py` 125-152 and 184-191, `/repo/src/models/components/bus.py` 33-34, 53-74)
-/

namespace Verif

/-- `v_init[idx] = x` (`networkmodel.py` 130-150). Indexing a numpy array with `None` (SKIP) addresses all of it. -/
def writeAt (v : ℕ → ℝ) (i : Idx) (x : ℝ) : ℕ → ℝ := match i with
  | some k => fun j => if j = k then x else v j
  | none => fun _ => x

/-- A sequence of assignments to `v_init` (`networkmodel.py` 128-150). -/
def writeAll (v : ℕ → ℝ) (ws : List (Idx × ℝ)) : ℕ → ℝ := ws.foldl (fun v w => writeAt v w.1 w.2) v

/-- `Vr_init`, `Vi_init` of a bus from `Vm_init` and `Va_init` (`bus.py` 38-39). -/
noncomputable def busStart (vm va : ℝ) : ℝ × ℝ := (vm * Real.cos va, vm * Real.sin va)

/-- The assignments of one bus (`networkmodel.py` 128-140). `get_Li_init` returns the index of the other multiplier
(`bus.py` 73-74). -/
noncomputable def busWrites (opt flat : Bool) (n : Node) (s : ℝ × ℝ) : List (Idx × ℝ) :=
  [(n.vr, if flat then 1 else s.1), (n.vi, if flat then 0 else s.2)] ++
  if opt then [(n.lr, 1 / 10000), (n.lr, 1 / 10000)] else []

/-- The assignments of one generator, placed as `ps` (`networkmodel.py` 142-146, `generator.py` 67-68, 76-77,
`lagrangestampdetails.py` 37-40). -/
noncomputable def genWrites (L : Library) (opt flat : Bool) (ps : List Placed) (g : Generator) : List (Idx × ℝ) :=
  [(unknownIdx ps (0, .Q), if flat then (g.Qmin + g.Qmax) / 2 else g.Qinit)] ++
  if opt then [((L.gen.duals[4]?).bind fun d => unknownIdx ps (0, d), 1 / 10000)] else []

/-- The assignments of one slack, placed as `ps`, with `Pinit` and `Qinit` (`networkmodel.py` 148-150, `slack.py` 59-63). -/
noncomputable def slackWrites (flat : Bool) (ps : List Placed) (s : ℝ × ℝ) : List (Idx × ℝ) :=
  [(unknownIdx ps (0, .ISr), if flat then 0 else s.1), (unknownIdx ps (0, .ISi), if flat then 0 else s.2)]

/-- The placed parts of the generators, in the order of `network.generators` (`networkmodel.py` 30-31, 48-56). -/
noncomputable def Network.placedGens (L : Library) (N : Network) : List (List Placed) :=
  (N.elements.zip (N.assign L).parts).filterMap fun x => match x.1 with
    | .generator .. => some x.2
    | _ => none

/-- The placed parts of the slacks, in the order of `network.slack` (`networkmodel.py` 28-29, 48-56). -/
noncomputable def Network.placedSlacks (L : Library) (N : Network) : List (List Placed) :=
  (N.elements.zip (N.assign L).parts).filterMap fun x => match x.1 with
    | .slack .. => some x.2
    | _ => none

/-- `TxNetworkModel.generate_v_init` (`networkmodel.py` 125-152). `buses`, `gens`, `slacks` hold the start values of the
objects in the order of the lists of the network. -/
noncomputable def txInit (L : Library) (N : Network) (flat : Bool) (buses : List (ℝ × ℝ)) (gens : List Generator)
    (slacks : List (ℝ × ℝ)) : ℕ → ℝ :=
  writeAll (fun _ => 0) ((List.zipWith (busWrites N.opt flat) (N.assign L).nodes buses).flatten ++
    (List.zipWith (genWrites L N.opt flat) (N.placedGens L) gens).flatten ++
    (List.zipWith (slackWrites flat) (N.placedSlacks L) slacks).flatten)

/-- One line of `Bus.set_initial_voltages` (`bus.py` 55-56): an entry that is not zero is kept. -/
noncomputable def keepAt (v : ℕ → ℝ) (i : Idx) (x : ℝ) : ℕ → ℝ := match i with
  | some k => fun j => if j = k then (if v k = 0 then x else v k) else v j
  | none => v

/-- `DxNetworkModel.generate_v_init` (`networkmodel.py` 184-191). A bus without an index would raise; it is passed over here. -/
noncomputable def dxInit (L : Library) (N : Network) (buses : List (ℝ × ℝ)) : ℕ → ℝ :=
  ((N.assign L).nodes.zip buses).foldl (fun v b => keepAt (keepAt v b.1.vr b.2.1) b.1.vi b.2.2) fun _ => 0

end Verif
