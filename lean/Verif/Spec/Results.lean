import Verif.Spec.Kirchhoff
import Verif.Model.Results

/-!
# What results mean

Physical quantities of a solved network, from the voltages and the elements' own unknowns.
-/

namespace Verif

open ComplexConjugate

/-- Complex power of a branch with voltage `V` carrying current `I`. -/
noncomputable def power (V I : ℂ) : ℂ := V * conj I

/-- Series current of phase `i` of a line with admittance matrix `y`. -/
noncomputable def seriesCurrent (ph : List (ℕ × ℕ)) (y : ℕ → ℕ → ℂ) (V : Ref → ℂ) (i : ℕ) : ℂ :=
  ((List.range ph.length).map fun j => y i j * (V (some (ph.getD j (0, 0)).1) - V (some (ph.getD j (0, 0)).2))).sum

/-- Power through a transformer: into the primary winding of a two-winding transformer, out of the two secondary windings of
a center-tap transformer. -/
noncomputable def Element.throughput (V : Ref → ℂ) (w : List ℝ) : Element → ℂ
  | .transformer fp fn .. => power (V fp - V fn) (pairAt w 0)
  | .centerTap _ _ s1 _ s2 .. => power (V (some s1)) (pairAt w 0) + power (V (some s2)) (pairAt w 2)
  | _ => 0

/-- A line whose phases do not influence one another. -/
def Element.Uncoupled : Element → Prop
  | .unbalanced _ y _ => ∀ i j, i ≠ j → y i j = 0
  | _ => True

/-- Two-winding and center-tap transformers. -/
def Element.isTransformer : Element → Bool
  | .transformer .. | .centerTap .. => true
  | _ => false

/-- Some line phase carries more than its ampacity, some transformer more than its rating, or some real bus is five percent
or more away from its nominal voltage. -/
def Overload (infos : List BusInfo) (ratings : List Rating) (V : Ref → ℂ) (own : List (Element × List ℝ)) : Prop :=
  (∃ x ∈ own.zip ratings, ∃ ph y sh i A, x.1.1 = .unbalanced ph y sh ∧ i < ph.length ∧ x.2.amps[i]? = some (some A) ∧
    A < ‖seriesCurrent ph y V i‖) ∨
  (∃ x ∈ own.zip ratings, x.1.1.isTransformer = true ∧ ∃ R, x.2.power = some R ∧ R < ‖x.1.1.throughput V x.1.2‖) ∨
  (∃ k info, infos[k]? = some info ∧ info.virtual = false ∧ info.vnom / 20 ≤ |‖V (some k)‖ - info.vnom|)

end Verif
