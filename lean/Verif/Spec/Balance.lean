import Verif.Spec.Kirchhoff

/-!
# Powers of a network: delivered, demanded, taken by the equipment

Written per kind of element, from voltages and the own values of the element. Nothing here refers to currents drawn, segments or indices.
-/

namespace Verif

open ComplexConjugate

/-- Complex power taken by an admittance `y` with voltage `d` across it. -/
noncomputable def takes (y d : ℂ) : ℂ := conj y * Complex.normSq d

/-- Complex power an element delivers into the network: slacks and voltage sources at their set voltage with the current they send, generators
their power. Stored generator powers and stored source currents are those drawn, hence the signs. -/
noncomputable def Element.delivers (w : List ℝ) : Element → ℂ
  | .slack _ vr vi => ⟨vr, vi⟩ * conj (-pairAt w 0)
  | .generator _ P _ => -⟨P, w.getD 0 0⟩
  | .voltageSource _ _ vr vi => ⟨vr, vi⟩ * conj (-pairAt w 0)
  | _ => 0

/-- Complex power a load is specified to take at the voltages `V`: constant power, constant current, constant impedance. -/
noncomputable def Element.demands (V : Ref → ℂ) : Element → ℂ
  | .load f u l => ⟨l.P, l.Q⟩ + (V f - V u) * conj ⟨l.IP, l.IQ⟩ + takes l.Z⁻¹ (V f - V u)
  | _ => 0

/-- Complex power taken by series and shunt admittances of the equipment. Ideal windings, switches and sensors take none. -/
noncomputable def Element.loses (V : Ref → ℂ) (w : List ℝ) : Element → ℂ
  | .line f u g b bl => takes ⟨g, b⟩ (V f - V u) + takes ⟨0, bl⟩ (V f) + takes ⟨0, bl⟩ (V u)
  | .unbalanced ph y sh =>
    let F : ℕ → ℂ := fun i => V (some (ph.getD i (0, 0)).1)
    let U : ℕ → ℂ := fun i => V (some (ph.getD i (0, 0)).2)
    ∑ i ∈ Finset.range ph.length, ∑ j ∈ Finset.range ph.length,
      ((F i - U i) * conj (y i j * (F j - U j)) + F i * conj ((⟨0, sh i j / 2⟩ : ℂ) * F j) + U i * conj ((⟨0, sh i j / 2⟩ : ℂ) * U j))
  | .transformer _ _ tp _ _ _ g b => takes ⟨g, b⟩ (pairAt w 2 - V tp)
  | .centerTap f p s1 t1 s2 t2 _ g0 b0 g1 b1 g2 b2 =>
    takes ⟨g0, b0⟩ (V (some f) - V (some p)) + takes ⟨g1, b1⟩ (V (some s1) - V (some t1)) + takes ⟨g2, b2⟩ (V (some s2) - V (some t2))
  | .shunt b g s => takes ⟨g, s⟩ (V (some b))
  | .regulator _ c _ _ g b => takes ⟨g, b⟩ (pairAt w 2 - V c)
  | .fuse f i _ => takes ⟨10000, 10000⟩ (V f - V i)
  | .capacitor f u .closed b => takes ⟨0, b⟩ (V f - V u)
  | _ => 0

/-- An element whose resistances are not negative. -/
def Element.Passive : Element → Prop
  | .line _ _ g _ _ => 0 ≤ g
  | .unbalanced ph y sh => (∀ i j, y i j = y j i) ∧ (∀ i j, sh i j = sh j i) ∧
      ∀ d : ℕ → ℝ, 0 ≤ ∑ i ∈ Finset.range ph.length, ∑ j ∈ Finset.range ph.length, d i * (y i j).re * d j
  | .transformer _ _ _ _ _ _ g _ => 0 ≤ g
  | .centerTap _ _ _ _ _ _ _ g0 _ g1 _ g2 _ => 0 ≤ g0 ∧ 0 ≤ g1 ∧ 0 ≤ g2
  | .shunt _ g _ => 0 ≤ g
  | .regulator _ _ _ _ g _ => 0 ≤ g
  | _ => True

end Verif
