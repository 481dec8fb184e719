import Verif.Model.ThreePhase
import Verif.Model.TimeSeries

/-!
# Loads of a read network as the time series sees them
-/

namespace Verif.Glm

/-- A load of the network as an object with its number, phases and triplex phase (`threephaseparser.py` 140-155, `load.py` 71-91). -/
noncomputable def GLoad.named (x : GLoad) : NamedLoad :=
  ⟨x.num, x.phase, x.triplex.map fun c => [c], ⟨x.p, x.q, complexPair x.z, x.i.1, x.i.2⟩⟩

end Verif.Glm
