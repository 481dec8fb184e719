import Verif.Model.ThreePhase
import Mathlib.Data.List.Dedup

/-!
# What is printed of a network
-/

namespace Verif.Glm

/-- The numbers `display` prints (`networkmodel.py` 58-69, called in `run_solver.py` 68). -/
structure Summary where
  nodes : ℕ
  buses : ℕ
  lines : ℕ
  loads : ℕ
  phaseLoads : ℕ
  deriving DecidableEq, Repr

/-- `display` (`networkmodel.py` 58-69) for a three-phase network: distinct names of buses, buses, lines, distinct numbers of loads, loads. The printed text around the numbers is
left out. -/
def Grid.summary {M : Type} (g : Grid M) : Summary :=
  ⟨(g.buses.map PhaseBus.name).dedup.length, g.buses.length, g.lines.length, (g.loads.map GLoad.num).dedup.length, g.loads.length⟩

end Verif.Glm
