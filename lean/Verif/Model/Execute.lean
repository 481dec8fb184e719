import Verif.Model.DeviceControl
import Verif.Model.LoadFactor
import Verif.Model.Islands
import Verif.Model.Residuals
import Verif.Model.Results
import Verif.Model.Start
import Verif.Model.RawNetwork

/-!
# `PowerFlow.execute` (`/repo/src/logic/powerflow.py`)

The checks, the start vector, the run and the results put together. Left out: the durations (lines 19, 41-43), the progress message (38) and the
residuals, which the results keep without using them.
-/

namespace Verif

/-- `PowerFlowSettings` (`powerflowsettings.py` 2-23). Left out: `dump_matrix` (see `Verif/Model/Dumps.lean`), and `load_factor` and
`enable_line_capacitance`, which only the loader reads. -/
structure PFSettings where
  tolerance : ℝ
  maxIters : ℕ
  limiting : Bool
  debug : Bool
  flat : Bool
  txStepping : Bool
  control : Bool

/-- A network with what the checks, the start vector and the results read from its objects (`networkmodel.py` 19-46): names and nominal voltages of the
buses, the start voltages of the buses and the start values of generators and slacks. -/
structure PFNet where
  buses : List GBus
  starts : List (ℝ × ℝ)
  gens : List Generator
  slacks : List (ℝ × ℝ)
  net : DxNet

/-- The elements that have connections: `get_connections` of a blown fuse is empty (`fuse.py` 38-42). -/
def PFNet.connected (G : PFNet) : List Element := (G.net.items.filter fun i => !i.refuses).map Item.element

/-- `GraphAnalyzer(self.network)` (`powerflow.py` 21). -/
def PFNet.graph (G : PFNet) : Graph := Graph.build G.buses G.connected

/-- `generate_v_init` of the two kinds of network (`networkmodel.py` 125-152, 184-191). -/
noncomputable def PFNet.start (L : Library) (S : PFSettings) (G : PFNet) : ℕ → ℝ :=
  if G.net.threePhase then dxInit L G.net.network G.starts else txInit L G.net.network S.flat G.starts G.gens G.slacks

/-- The columns of the bus voltages (`v_limiting.py` 18-21). A bus without columns does not occur after `assign_matrix`. -/
noncomputable def PFNet.columns (L : Library) (G : PFNet) : List (ℕ × ℕ) :=
  (G.net.network.assign L).nodes.filterMap fun n => match n.vr, n.vi with
    | some r, some i => some (r, i)
    | _, _ => none

/-- The environment of the solver (`powerflow.py` 28-32, `nrsolver.py` 16-19); `size` is replaced in every run (`networkmodel.py` 82). -/
noncomputable def PFNet.context (L : Library) (S : PFSettings) (solve : (ℕ → ℕ → ℝ) → (ℕ → ℝ) → Option (ℕ → ℝ)) (G : PFNet) : NRContext where
  maxIters := S.maxIters
  tolerance := S.tolerance
  debug := S.debug
  size := (G.net.network.assign L).size
  solve := solve
  limit := if !G.net.threePhase && S.limiting then some (applyLimiting (G.columns L)) else none

/-- `PowerFlow.execute` (`powerflow.py` 18-54), given `spsolve` and the islands and voltage islands networkx found. The network is changed in place, so
the results are made from the network the device controller leaves behind (lines 45-54); that network is returned as well. -/
noncomputable def execute (L : Library) (S : PFSettings) (solve : (ℕ → ℕ → ℝ) → (ℕ → ℝ) → Option (ℕ → ℝ)) (islands voltageIslands : List (List Txt)) (G : PFNet) :
    Except String (Results × DxNet) := do
  executeChecks G.buses islands voltageIslands
  let (r, D) ← (G.net.run L (G.context L S solve) S.txStepping S.control (G.start L S)).out
  return (Results.make D.network (G.buses.map fun b => ⟨b.virtual, b.vnom⟩) (D.network.assign L) r.success r.v, D)

/-- `modify_load_factor` on a network with devices (`loadfactor.py` 3-6): the loads are among the items that are no devices. -/
noncomputable def DxNet.factor (a b : ℝ) (D : DxNet) : DxNet := { D with items := D.items.map fun i => match i with
  | .fixed e => .fixed (e.factor a b)
  | i => i }

end Verif

namespace Verif.Raw

/-- The bus objects of a RAW case (`data_classes.py` 68-71, `bus.py` 27-37): named as in the file, with the recorded voltage magnitude as nominal voltage.
`name` stands for the names of the file, which the loader does not look at otherwise. Star points of three-winding transformers in service (`parser.py` 462)
are left out. -/
def Case.busObjects (c : Case) (name : ℤ → Txt) : List GBus := (c.buses.filter fun b => b.ide ≠ 4).map fun b => ⟨name b.i, false, b.vm⟩

/-- The loaded case as the device controller sees it: not three-phase (`networkmodel.py` 117), and without controlled devices (`devicecontroller.py` 45-47). -/
noncomputable def Out.toDx (o : Out) : DxNet := ⟨o.toNetwork.buses, o.toNetwork.elements.map .fixed, none, false⟩

/-- The network `__parse_RAW_network` makes (`networkloader.py` 61-82) with the start values of its objects (`bus.py` 38-39, `slack.py` 47-48). -/
noncomputable def Case.grid (c : Case) (name : ℤ → Txt) (o : Out) : PFNet where
  buses := c.busObjects name
  starts := (c.buses.filter fun b => b.ide ≠ 4).map fun b => (b.vm * Real.cos (b.va * Real.pi / 180), b.vm * Real.sin (b.va * Real.pi / 180))
  gens := o.generators.map GenAt.g
  slacks := o.slack.map fun s => (s.Pinit, s.Qinit)
  net := o.toDx

end Verif.Raw
