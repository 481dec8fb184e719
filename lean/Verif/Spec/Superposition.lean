import Verif.Spec.Kirchhoff

/-!
# Superposition and reciprocity

Two rules of linear circuits. Nothing here refers to equations, unknowns or indices.
-/

namespace Verif

/-- Linear equipment that feeds nothing in by itself. -/
def Element.Undriven : Element → Prop
  | .slack .. | .generator .. | .load .. | .voltageSource .. => False
  | _ => True

/-- The third element is the first two put on top of each other, the first times `a` and the second times `b`: sources are added, everything else is the same. -/
inductive Mixes (a b : ℂ) : Element → Element → Element → Prop
  | same (e : Element) : e.Undriven → Mixes a b e e e
  | slack (k : ℕ) (v v' : ℂ) : Mixes a b (.slack k v.re v.im) (.slack k v'.re v'.im) (.slack k (a * v + b * v').re (a * v + b * v').im)
  | source (f u : Ref) (v v' : ℂ) :
      Mixes a b (.voltageSource f u v.re v.im) (.voltageSource f u v'.re v'.im) (.voltageSource f u (a * v + b * v').re (a * v + b * v').im)
  | load (f u : Ref) (z i i' : ℂ) :
      Mixes a b (.load f u ⟨0, 0, z, i.re, i.im⟩) (.load f u ⟨0, 0, z, i'.re, i'.im⟩) (.load f u ⟨0, 0, z, (a * i + b * i').re, (a * i + b * i').im⟩)

/-- The third network is the first two put on top of each other. -/
structure Superposed (a b : ℂ) (N₁ N₂ N : Network) : Prop where
  plain₁ : N₁.optimization = none
  plain₂ : N₂.optimization = none
  plain : N.optimization = none
  buses₁ : N₁.buses = N.buses
  buses₂ : N₂.buses = N.buses
  elements : ∃ xs : List (Element × Element × Element), (∀ x ∈ xs, Mixes a b x.1 x.2.1 x.2.2) ∧
    N₁.elements = xs.map (fun x => x.1) ∧ N₂.elements = xs.map (fun x => x.2.1) ∧ N.elements = xs.map fun x => x.2.2

/-- Linear equipment that transfers in both directions alike: no generators, constant powers and phase shifts, and symmetric couplings. -/
def Element.TwoWay : Element → Prop
  | .unbalanced _ y sh => (∀ i j, y i j = y j i) ∧ ∀ i j, sh i j = sh j i
  | .transformer _ _ _ _ _ ang _ _ => ang = 0
  | .generator .. => False
  | .load _ _ l => l.P = 0 ∧ l.Q = 0
  | _ => True

/-- A load drawing the current `J`. -/
noncomputable def currentLoad (f u : Ref) (J : ℂ) : Element := .load f u ⟨0, 0, 0, J.re, J.im⟩

/-- The network with one load more. -/
noncomputable def Network.loaded (N : Network) (f u : Ref) (J : ℂ) : Network := { N with elements := currentLoad f u J :: N.elements }

end Verif
