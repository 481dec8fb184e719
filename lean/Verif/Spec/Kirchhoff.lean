import Verif.Spec.Unknowns
import Verif.Spec.Network

/-!
# Kirchhoff's laws of a network, in complex arithmetic

What each kind of element means to an electrical engineer: the current it draws out of each bus it touches and the laws
its own unknowns obey, at homotopy factor `t`. Nothing here refers to segments, symbols, derivatives or indices.
-/

namespace Verif

open ComplexConjugate

/-- References inside the network. -/
def Ref.Valid (buses : ℕ) : Ref → Prop
  | none => True
  | some k => k < buses

/-- All buses an element touches are buses of the network. -/
def Element.Valid (buses : ℕ) : Element → Prop
  | .line f t .. => Ref.Valid buses f ∧ Ref.Valid buses t
  | .unbalanced ph .. => ∀ p ∈ ph, p.1 < buses ∧ p.2 < buses
  | .transformer fp fn tp tn .. => Ref.Valid buses fp ∧ Ref.Valid buses fn ∧ Ref.Valid buses tp ∧ Ref.Valid buses tn
  | .centerTap f p s1 t1 s2 t2 .. => f < buses ∧ p < buses ∧ s1 < buses ∧ t1 < buses ∧ s2 < buses ∧ t2 < buses
  | .slack b .. => b < buses
  | .switch f t _ => Ref.Valid buses f ∧ Ref.Valid buses t
  | .generator b .. => b < buses
  | .load f t _ => Ref.Valid buses f ∧ Ref.Valid buses t
  | .voltageSource f t .. => Ref.Valid buses f ∧ Ref.Valid buses t
  | .shunt b .. => b < buses
  | .regulator f c t .. => Ref.Valid buses f ∧ Ref.Valid buses c ∧ Ref.Valid buses t
  | .fuse f i t => Ref.Valid buses f ∧ Ref.Valid buses i ∧ Ref.Valid buses t
  | .capacitor f t .. => Ref.Valid buses f ∧ Ref.Valid buses t

/-- All references of the network are to its own buses. -/
def Network.Valid (N : Network) : Prop := ∀ e ∈ N.elements, e.Valid N.buses

/-- A complex number from two entries of a list of own values. -/
def pairAt (w : List ℝ) (k : ℕ) : ℂ := ⟨w.getD k 0, w.getD (k + 1) 0⟩

/-- Real and imaginary part as two real laws. -/
def both (z : ℂ) : List ℝ := [z.re, z.im]

/-- A branch current: out of `f`, into `t`. -/
def branch (f t : Ref) (I : ℂ) : List (Ref × ℂ) := [(f, I), (t, -I)]

/-- Series admittance during homotopy: stiffened 21-fold at `t = 1`. -/
noncomputable def stiff (t : ℝ) (g b : ℝ) : ℂ := ⟨g, b⟩ * (1 + 20 * t)

/-- Shunt admittance during homotopy: gone at `t = 1`. -/
noncomputable def faded (t : ℝ) (g b : ℝ) : ℂ := ⟨g, b⟩ * (1 - t)

/-- Turns ratio during homotopy: one at `t = 1`. -/
noncomputable def ratioAt (t tr : ℝ) : ℝ := tr + (1 - tr) * t

/-- Complex turns ratio during homotopy. -/
noncomputable def turns (t tr ang : ℝ) : ℂ :=
  ⟨ratioAt t tr * Real.cos (ang - ang * t), ratioAt t tr * Real.sin (ang - ang * t)⟩

/-- Currents of a two-winding transformer with own values primary current `I` and internal secondary voltage `S`: the
primary carries `I`, the secondary returns `conj τ · I` through the negative terminal, and feeds the winding admittance
towards the positive terminal. -/
noncomputable def xfmrDraws (t : ℝ) (V : Ref → ℂ) (fp fn tp tn : Ref) (tr ang g b : ℝ) (I S : ℂ) : List (Ref × ℂ) :=
  branch fp fn I ++ [(tn, conj (turns t tr ang) * I), (tp, -(stiff t g b * (S - V tp)))]

/-- Laws of a two-winding transformer: the voltage ratio, and current balance at the internal secondary node. -/
noncomputable def xfmrLaws (t : ℝ) (V : Ref → ℂ) (fp fn tp tn : Ref) (tr ang g b : ℝ) (I S : ℂ) : List ℝ :=
  both ((V fp - V fn) - turns t tr ang * (S - V tn)) ++ both (-(conj (turns t tr ang) * I) + stiff t g b * (S - V tp))

/-- Currents drawn out of the buses by an element; `w` are the values of its own unknowns. -/
noncomputable def Element.draws (t : ℝ) (V : Ref → ℂ) (w : List ℝ) : Element → List (Ref × ℂ)
  | .line f u g b bl =>
    branch f u (stiff t g b * (V f - V u)) ++ [(f, faded t 0 bl * V f), (u, faded t 0 bl * V u)]
  | .unbalanced ph y sh =>
    (List.range ph.length).flatMap fun i => (List.range ph.length).flatMap fun j =>
      let pi := ph.getD i (0, 0)
      let pj := ph.getD j (0, 0)
      let Y := if i = j then stiff t (y i j).re (y i j).im else faded t (y i j).re (y i j).im
      branch (some pi.1) (some pi.2) (Y * (V (some pj.1) - V (some pj.2))) ++
      [(some pi.1, faded t 0 (sh i j / 2) * V (some pj.1)), (some pi.2, faded t 0 (sh i j / 2) * V (some pj.2))]
  | .transformer fp fn tp tn tr ang g b => xfmrDraws t V fp fn tp tn tr ang g b (pairAt w 0) (pairAt w 2)
  | .centerTap f p s1 t1 s2 t2 ratio g0 b0 g1 b1 g2 b2 =>
    [(some p, ((1 / ratioAt t ratio : ℝ) : ℂ) * (pairAt w 2 - pairAt w 0)), (some s1, pairAt w 0), (some s2, pairAt w 2)] ++
    branch (some f) (some p) (stiff t g0 b0 * (V (some f) - V (some p))) ++
    branch (some s1) (some t1) (stiff t g1 b1 * (V (some s1) - V (some t1))) ++
    branch (some s2) (some t2) (stiff t g2 b2 * (V (some s2) - V (some t2)))
  | .slack b _ _ => [(some b, pairAt w 0)]
  | .switch f u .closed => branch f u (pairAt w 0)
  | .switch _ _ .opened => []
  | .generator b P _ => [(some b, conj ((⟨P, w.getD 0 0⟩ : ℂ) / V (some b)))]
  | .load f u l =>
    branch f u (conj ((⟨l.P, l.Q⟩ : ℂ) / (V f - V u)) + ⟨l.IP, l.IQ⟩ + (1 - t) * l.Z⁻¹ * (V f - V u))
  | .voltageSource f u _ _ => branch f u (pairAt w 0)
  | .shunt b g s => [(some b, faded t g s * V (some b))]
  | .regulator f c u tr g b => xfmrDraws t V f none c none tr 0 g b (pairAt w 0) (pairAt w 2) ++ branch c u (pairAt w 4)
  | .fuse f i u => branch f i (stiff t 10000 10000 * (V f - V i)) ++ branch i u (pairAt w 0)
  | .capacitor f u .closed b => branch f u (faded t 0 b * (V f - V u))
  | .capacitor _ _ .opened _ => []

/-- Laws an element's own unknowns obey, as real numbers that must vanish. -/
noncomputable def Element.laws (t : ℝ) (V : Ref → ℂ) (w : List ℝ) : Element → List ℝ
  | .line .. => []
  | .unbalanced .. => []
  | .transformer fp fn tp tn tr ang g b => xfmrLaws t V fp fn tp tn tr ang g b (pairAt w 0) (pairAt w 2)
  | .centerTap _ p s1 _ s2 _ ratio .. =>
    both (V (some s1) - ((1 / ratioAt t ratio : ℝ) : ℂ) * V (some p)) ++
    both (V (some s2) + ((1 / ratioAt t ratio : ℝ) : ℂ) * V (some p))
  | .slack b vr vi => both (V (some b) - ⟨vr, vi⟩)
  | .switch f u .closed => both (-(V f - V u))
  | .switch _ _ .opened => []
  | .generator b _ Vset => [Vset ^ 2 - Complex.normSq (V (some b))]
  | .load .. => []
  | .voltageSource f u vr vi => both (⟨vr, vi⟩ - (V f - V u))
  | .shunt .. => []
  | .regulator f c u tr g b => xfmrLaws t V f none c none tr 0 g b (pairAt w 0) (pairAt w 2) ++ both (-(V c - V u))
  | .fuse _ i u => both (-(V i - V u))
  | .capacitor .. => []

/-- Kirchhoff's current law at every bus and every element's own laws. -/
def Kirchhoff (buses : ℕ) (t : ℝ) (V : Ref → ℂ) (es : List (Element × List ℝ)) : Prop :=
  (∀ k < buses, (((es.flatMap fun x => x.1.draws t V x.2).filter fun d => d.1 = some k).map Prod.snd).sum = 0) ∧
  ∀ x ∈ es, ∀ z ∈ x.1.laws t V x.2, z = 0

/-- Voltage at the four-index node `n` of a solution vector. -/
def Node.volt (v : ℕ → ℝ) (n : Node) : ℂ := ⟨readIdx v n.vr, readIdx v n.vi⟩

/-- The voltages of a solution vector, ground zero. -/
def Assignment.voltages (a : Assignment) (v : ℕ → ℝ) : Ref → ℂ := fun r => (nodeAt a.nodes r).volt v

/-- Each element with the values of its own unknowns in a solution vector. -/
def Assignment.owned (L : Library) (N : Network) (a : Assignment) (v : ℕ → ℝ) : List (Element × List ℝ) :=
  List.zipWith (fun e ps => (e, ((Element.unknowns L N.opt e).map (unknownIdx ps)).map (readIdx v))) N.elements a.parts

/-- The voltages where the device equations are defined: no constant power device at zero voltage, no vanishing scaled
ratio of a center-tap transformer. -/
def Element.RegularAt (t : ℝ) (V : Ref → ℂ) : Element → Prop
  | .generator b _ _ => V (some b) ≠ 0
  | .load f u l => l.P = 0 ∧ l.Q = 0 ∨ V f ≠ V u
  | .centerTap _ _ _ _ _ _ ratio .. => ratioAt t ratio ≠ 0
  | _ => True

end Verif
