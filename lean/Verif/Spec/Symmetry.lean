import Verif.Spec.Kirchhoff
import Mathlib.Algebra.Group.End

/-!
# The same circuit, written down differently

Two descriptions of one circuit that differ in the order of the equipment and in the numbers of the buses, and two circuits that differ
in the angle all sources are measured against.
-/

namespace Verif

/-- A reference under new bus numbers. -/
def Ref.move (σ : Equiv.Perm ℕ) (r : Ref) : Ref := Option.map σ r

/-- An element under new bus numbers. -/
def Element.move (σ : Equiv.Perm ℕ) : Element → Element
  | .line f u g b bl => .line (Ref.move σ f) (Ref.move σ u) g b bl
  | .unbalanced ph y sh => .unbalanced (ph.map fun p => (σ p.1, σ p.2)) y sh
  | .transformer fp fn tp tn tr ang g b => .transformer (Ref.move σ fp) (Ref.move σ fn) (Ref.move σ tp) (Ref.move σ tn) tr ang g b
  | .centerTap f p s1 t1 s2 t2 ratio g0 b0 g1 b1 g2 b2 => .centerTap (σ f) (σ p) (σ s1) (σ t1) (σ s2) (σ t2) ratio g0 b0 g1 b1 g2 b2
  | .slack b vr vi => .slack (σ b) vr vi
  | .switch f u s => .switch (Ref.move σ f) (Ref.move σ u) s
  | .generator b P Vset => .generator (σ b) P Vset
  | .load f u l => .load (Ref.move σ f) (Ref.move σ u) l
  | .voltageSource f u vr vi => .voltageSource (Ref.move σ f) (Ref.move σ u) vr vi
  | .shunt b g s => .shunt (σ b) g s
  | .regulator f c u tr g b => .regulator (Ref.move σ f) (Ref.move σ c) (Ref.move σ u) tr g b
  | .fuse f i u => .fuse (Ref.move σ f) (Ref.move σ i) (Ref.move σ u)
  | .capacitor f u sw b => .capacitor (Ref.move σ f) (Ref.move σ u) sw b

/-- The second network is the first with buses numbered by `σ` and equipment listed in another order. -/
structure Relisted (σ : Equiv.Perm ℕ) (N N' : Network) : Prop where
  plain : N.optimization = none
  plain' : N'.optimization = none
  buses : N'.buses = N.buses
  inside : ∀ k, σ k < N.buses ↔ k < N.buses
  elements : (N.elements.map (Element.move σ)).Perm N'.elements

/-- An element with its source voltage turned by the unit number `c`. -/
noncomputable def Element.turn (c : ℂ) : Element → Element
  | .slack b vr vi => .slack b (c * ⟨vr, vi⟩).re (c * ⟨vr, vi⟩).im
  | .voltageSource f u vr vi => .voltageSource f u (c * ⟨vr, vi⟩).re (c * ⟨vr, vi⟩).im
  | e => e

/-- The network with all sources turned. -/
noncomputable def Network.turn (c : ℂ) (N : Network) : Network := { N with elements := N.elements.map (Element.turn c) }

/-- Own values turned: complex quantities, listed as real and imaginary parts one after the other. -/
noncomputable def turnPairs (c : ℂ) : List ℝ → List ℝ
  | a :: b :: l => (c * ⟨a, b⟩).re :: (c * ⟨a, b⟩).im :: turnPairs c l
  | l => l

/-- Own values of an element turned: currents and inner voltages turn, the reactive power of a generator stays. -/
noncomputable def Element.turnOwn (c : ℂ) (e : Element) (w : List ℝ) : List ℝ :=
  match e with
  | .generator .. => w
  | _ => turnPairs c w

/-- The element has no part whose current is a fixed phasor. -/
def Element.Turnable : Element → Prop
  | .load _ _ l => l.IP = 0 ∧ l.IQ = 0
  | _ => True

end Verif
