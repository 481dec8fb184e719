import Verif.Model.Results

/-!
# When the check of the ratings cannot be made
-/

namespace Verif

/-- What the check of the ratings trips over: a line of a transmission network, a phase of a line without entry among the ampacities, a bus that is reported and has
nominal voltage zero. -/
def CheckStops (infos : List BusInfo) (ratings : List Rating) (N : Network) : Prop :=
  (∃ x ∈ N.elements.zip ratings, ∃ f t g b bl, x.1 = .line f t g b bl) ∨
  (∃ x ∈ N.elements.zip ratings, ∃ ph y sh, x.1 = .unbalanced ph y sh ∧ x.2.amps.length < ph.length) ∨
  ∃ i ∈ infos, i.virtual = false ∧ i.vnom = 0

end Verif
