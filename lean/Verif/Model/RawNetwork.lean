import Verif.Model.Raw

/-!
# The network model built out of a RAW case

`networkloader.py`, `__parse_RAW_network` (61-82) stores the lists of `parse_raw` in a `TxNetworkModel`, whose
`get_all_elements` (`networkmodel.py` 48-56, 122-123) lists buses, lines, transformers, slack, switches, generators, loads,
misc, voltage sources, shunts; switches, misc and voltage sources are empty for a RAW case.
-/

namespace Verif.Raw

/-- Position of a bus in `network.buses`. The objects refer to `Bus` objects; a bus number stands for its position
(`parser.py` 113-116 puts every bus under its number). -/
def Out.pos (o : Out) (i : ℤ) : ℕ := o.buses.idxOf i

/-- A line (`networkloader.py` 80, `line.py` 98-112). -/
def Out.line (o : Out) (l : LineAt) : Element := .line (some (o.pos l.f)) (some (o.pos l.t)) l.G l.B l.Bl

/-- A transformer (`networkloader.py` 79, `transformer.py` 57-90): negative terminals grounded (`parse_transformers.py`
181-184, 384-406). `G_shunt`, `B_shunt` are stored but not stamped (`transformer.py` 155-157). -/
def Out.xfmr (o : Out) (x : XfmrAt) : Element :=
  .transformer (some (o.pos x.f)) none (some (o.pos x.t)) none x.tr x.ang x.G x.B

/-- A swing source (`networkloader.py` 77, `slack.py` 42-48). -/
noncomputable def Out.swing (o : Out) (s : SlackAt) : Element :=
  .slack (o.pos s.bus) (s.Vset * Real.cos s.ang) (s.Vset * Real.sin s.ang)

/-- A generator (`networkloader.py` 78). -/
def Out.machine (o : Out) (x : GenAt) : Element := .generator (o.pos x.bus) x.g.P x.g.Vset

/-- A load (`networkloader.py` 76): from the bus to ground (`data_classes.py` 94, 231). -/
def Out.demand (o : Out) (x : LoadAt) : Element := .load (some (o.pos x.bus)) none x.l

/-- A shunt (`networkloader.py` 81). -/
def Out.shunt (o : Out) (s : ShuntAt) : Element := .shunt (o.pos s.bus) s.G s.B

/-- `__parse_RAW_network` (`networkloader.py` 61-82) and `get_all_elements` (`networkmodel.py` 48-56, 122-123). -/
noncomputable def Out.toNetwork (o : Out) : Network where
  buses := o.buses.length
  elements := o.branches.map o.line ++ (o.xfmrs.map o.xfmr ++ (o.slack.map o.swing ++
    (o.generators.map o.machine ++ (o.loads.map o.demand ++ o.shunts.map o.shunt))))
  optimization := none

end Verif.Raw
