import Verif.Spec.Kirchhoff

/-!
# How much load a network can carry

The constant powers of loads are compared with the currents they draw. All sums are over the places in the list of elements.
-/

namespace Verif

/-- A load that draws the fixed current `c` instead of its constant power. Other elements are left alone. -/
noncomputable def Element.withCurrent (c : ℂ) : Element → Element
  | .load f u l => .load f u ⟨0, 0, l.Z, l.IP + c.re, l.IQ + c.im⟩
  | e => e

/-- The network with fixed currents, `c k` for the element at place `k`, instead of constant powers. -/
noncomputable def Network.withCurrents (N : Network) (c : ℕ → ℂ) : Network := { N with elements := N.elements.mapIdx fun k e => e.withCurrent (c k) }

/-- Voltage across a load, zero for other elements. -/
noncomputable def Element.across (V : Ref → ℂ) : Element → ℂ
  | .load f u _ => V f - V u
  | _ => 0

/-- Voltage across the load at place `k`. -/
noncomputable def Network.across (N : Network) (V : Ref → ℂ) (k : ℕ) : ℂ := (N.elements[k]?.map (Element.across V)).getD 0

/-- Constant power of a load, zero for other elements. -/
noncomputable def Element.power : Element → ℂ
  | .load _ _ l => ⟨l.P, l.Q⟩
  | _ => 0

/-- Constant power of the load at place `k`. -/
noncomputable def Network.power (N : Network) (k : ℕ) : ℂ := (N.elements[k]?.map Element.power).getD 0

/-- The vector `x` is a solution of the network. -/
def Network.SolvedBy (L : Library) (N : Network) (x : ℕ → ℝ) : Prop := Kirchhoff N.buses 0 ((N.assign L).voltages x) ((N.assign L).owned L N x)

/-- `Z k j` bounds by how much the voltage across load `k` moves with the current of load `j`, when all loads draw fixed currents. -/
def Network.Responds (L : Library) (N : Network) (Z : ℕ → ℕ → ℝ) : Prop :=
  ∀ c c' x x', (N.withCurrents c).SolvedBy L x → (N.withCurrents c').SolvedBy L x' → ∀ k < N.elements.length,
    ‖N.across ((N.assign L).voltages x) k - N.across ((N.assign L).voltages x') k‖ ≤ ∑ j ∈ Finset.range N.elements.length, Z k j * ‖c j - c' j‖

end Verif
