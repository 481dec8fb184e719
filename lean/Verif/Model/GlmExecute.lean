import Verif.Model.Execute
import Verif.Model.ThreePhase

/-!
# A feeder as `PowerFlow.execute` sees it
-/

namespace Verif.Glm

variable {M : Type}

/-- The magnitude a bus is made with (`threephaseparser.py` 107-117, 134, 258, 294): `abs` of a complex number, otherwise as it is given. -/
noncomputable def Phasor.magnitude : Phasor → ℝ
  | .nominal m _ => m
  | .given z => Real.sqrt ((z.1 : ℝ) ^ 2 + (z.2 : ℝ) ^ 2)
  | .polar m _ => m

/-- What the graph reads from a bus (`bus.py` 27-37): `V_Nominal` is the magnitude the bus is made with. -/
noncomputable def PhaseBus.object (b : PhaseBus) : GBus := ⟨b.name, b.virtual, b.nominal.magnitude⟩

/-- The network `ThreePhaseParser.parse` returns (`threephaseparser.py` 45-69) with the start values of its buses (`bus.py` 38-39, `threephaseparser.py`
119-126, 205-206). It has no generators (`networkmodel.py` 162-178), and the start values of slacks are not read (`networkmodel.py` 184-191). -/
noncomputable def Grid.pf (g : Grid M) (D : DxNet) : PFNet where
  buses := g.buses.map PhaseBus.object
  starts := g.buses.map fun b => b.start.value
  gens := []
  slacks := []
  net := D

end Verif.Glm
