import Verif.Model.Placement

/-!
# Changing all loads of a network by a factor

`/repo/src/logic/network/loadfactor.py`, as called by `/repo/src/run_solver.py` 66 before the solver assigns the matrix. Model/TimeSeries has the same
function on named loads; here it acts on the loads among the elements of a network. `network.loads` holds loads only
(`networkmodel.py` 26-27), so all other elements stay as they are.
-/

namespace Verif

/-- `load.P *= loadfactor_P; load.Q *= loadfactor_Q` (`loadfactor.py` 5-6). Impedance and current parts are not touched. -/
noncomputable def Element.factor (a b : ℝ) : Element → Element
  | .load f t l => .load f t { l with P := l.P * a, Q := l.Q * b }
  | e => e

/-- `modify_load_factor` (`loadfactor.py` 3-6). -/
noncomputable def Network.factor (a b : ℝ) (N : Network) : Network := { N with elements := N.elements.map (Element.factor a b) }

end Verif
