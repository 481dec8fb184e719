import Verif.Spec.Kirchhoff

/-!
# The same circuit in other units

All voltages are written as `a` times, all admittances as `k` times as large numbers, so all currents as `a * k` and all powers as
`a ^ 2 * k` times as large ones.
-/

namespace Verif

/-- A load in the new units. -/
noncomputable def Load.rebase (a k : ℝ) (l : Load) : Load := ⟨a ^ 2 * k * l.P, a ^ 2 * k * l.Q, l.Z / k, a * k * l.IP, a * k * l.IQ⟩

/-- An element in the new units. Turns ratios and angles are pure numbers. A fuse has no data. -/
noncomputable def Element.rebase (a k : ℝ) : Element → Element
  | .line f u g b bl => .line f u (k * g) (k * b) (k * bl)
  | .unbalanced ph y sh => .unbalanced ph (fun i j => k * y i j) (fun i j => k * sh i j)
  | .transformer fp fn tp tn tr ang g b => .transformer fp fn tp tn tr ang (k * g) (k * b)
  | .centerTap f p s1 t1 s2 t2 ratio g0 b0 g1 b1 g2 b2 => .centerTap f p s1 t1 s2 t2 ratio (k * g0) (k * b0) (k * g1) (k * b1) (k * g2) (k * b2)
  | .slack b vr vi => .slack b (a * vr) (a * vi)
  | .switch f u s => .switch f u s
  | .generator b P Vset => .generator b (a ^ 2 * k * P) (a * Vset)
  | .load f u l => .load f u (l.rebase a k)
  | .voltageSource f u vr vi => .voltageSource f u (a * vr) (a * vi)
  | .shunt b g s => .shunt b (k * g) (k * s)
  | .regulator f c u tr g b => .regulator f c u tr (k * g) (k * b)
  | .fuse f i u => .fuse f i u
  | .capacitor f u sw b => .capacitor f u sw (k * b)

/-- The factors by which the own values of an element grow: currents, inner voltages, the reactive power of a generator. -/
noncomputable def Element.ownFactors (a k : ℝ) : Element → List ℝ
  | .transformer .. => [a * k, a * k, a, a]
  | .centerTap .. => [a * k, a * k, a * k, a * k]
  | .slack .. => [a * k, a * k]
  | .switch _ _ .closed => [a * k, a * k]
  | .generator .. => [a ^ 2 * k]
  | .voltageSource .. => [a * k, a * k]
  | .regulator .. => [a * k, a * k, a, a, a * k, a * k]
  | .fuse .. => [a * k, a * k]
  | _ => []

/-- Own values in the new units. -/
noncomputable def Element.rebaseOwn (a k : ℝ) (e : Element) (w : List ℝ) : List ℝ := List.zipWith (· * ·) (e.ownFactors a k) w

/-- The network in the new units. -/
noncomputable def Network.rebase (a k : ℝ) (N : Network) : Network := { N with elements := N.elements.map (Element.rebase a k) }

/-- Not a fuse. -/
def Element.NoFuse : Element → Prop
  | .fuse .. => False
  | _ => True

end Verif
