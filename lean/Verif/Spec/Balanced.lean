import Verif.Spec.Symmetry
import Mathlib.Data.Complex.Basic
import Mathlib.Analysis.Real.Sqrt
import Mathlib.Analysis.SpecialFunctions.Trigonometric.Basic

/-!
# Balanced three-phase networks and their single-phase equivalents

Bus `k` of the single-phase network stands for the three buses `3k`, `3k + 1`, `3k + 2` of phases A, B, C, each a third of a turn behind the one before.
-/

namespace Verif

/-- One third of a turn backwards: phase B against phase A, phase C against phase B. -/
noncomputable def behind : ℂ := ⟨-1 / 2, -(Real.sqrt 3 / 2)⟩

/-- The reference of phase `p` of a bus; ground is common. -/
def Ref.phase (p : ℕ) (r : Ref) : Ref := Option.map (fun k => 3 * k + p) r

/-- An element with its buses renumbered by `φ`. -/
def Element.put (φ : ℕ → ℕ) : Element → Element
  | .line f u g b bl => .line (Option.map φ f) (Option.map φ u) g b bl
  | .unbalanced ph y sh => .unbalanced (ph.map fun p => (φ p.1, φ p.2)) y sh
  | .transformer fp fn tp tn tr ang g b => .transformer (Option.map φ fp) (Option.map φ fn) (Option.map φ tp) (Option.map φ tn) tr ang g b
  | .centerTap f p s1 t1 s2 t2 ratio g0 b0 g1 b1 g2 b2 => .centerTap (φ f) (φ p) (φ s1) (φ t1) (φ s2) (φ t2) ratio g0 b0 g1 b1 g2 b2
  | .slack b vr vi => .slack (φ b) vr vi
  | .switch f u s => .switch (Option.map φ f) (Option.map φ u) s
  | .generator b P Vset => .generator (φ b) P Vset
  | .load f u l => .load (Option.map φ f) (Option.map φ u) l
  | .voltageSource f u vr vi => .voltageSource (Option.map φ f) (Option.map φ u) vr vi
  | .shunt b g s => .shunt (φ b) g s
  | .regulator f c u tr g b => .regulator (Option.map φ f) (Option.map φ c) (Option.map φ u) tr g b
  | .fuse f i u => .fuse (Option.map φ f) (Option.map φ i) (Option.map φ u)
  | .capacitor f u sw b => .capacitor (Option.map φ f) (Option.map φ u) sw b

/-- The element in phase `p`: at the buses of the phase, its source turned. -/
noncomputable def Element.inPhase (p : ℕ) (e : Element) : Element := (e.turn (behind ^ p)).put fun k => 3 * k + p

/-- A load whose constant current is the phasor `I` in phase A and turned in the others. -/
noncomputable def loadIn (P Q : ℝ) (Z I : ℂ) (p : ℕ) : Load := ⟨P, Q, Z, (behind ^ p * I).re, (behind ^ p * I).im⟩

/-- A matrix with one number on the diagonal and one elsewhere: three conductors that are alike and alike to each other. -/
def alike {α : Type} (s m : α) (i j : ℕ) : α := if i = j then s else m

/-- An element of the single-phase equivalent and the balanced three-phase equipment it stands for. -/
inductive Threefold : Element → List Element → Prop
  /-- One element per phase. -/
  | copies (e : Element) (he : e.Turnable) : Threefold e [e.inPhase 0, e.inPhase 1, e.inPhase 2]
  /-- Loads to neutral or ground. -/
  | wyeLoad (f u : Ref) (P Q : ℝ) (Z I : ℂ) : Threefold (.load f u (loadIn P Q Z I 0))
      [.load (f.phase 0) (u.phase 0) (loadIn P Q Z I 0), .load (f.phase 1) (u.phase 1) (loadIn P Q Z I 1), .load (f.phase 2) (u.phase 2) (loadIn P Q Z I 2)]
  /-- Loads between phases take the same power as loads to ground with a third of the impedance. -/
  | deltaLoad (f : ℕ) (P Q : ℝ) (Z I : ℂ) : Threefold (.load (some f) none (loadIn P Q (Z / 3) (I * (1 - behind ^ 2)) 0))
      [.load (some (3 * f)) (some (3 * f + 1)) (loadIn P Q Z I 0), .load (some (3 * f + 1)) (some (3 * f + 2)) (loadIn P Q Z I 1),
        .load (some (3 * f + 2)) (some (3 * f)) (loadIn P Q Z I 2)]
  /-- Capacitors between phases act as three times the susceptance to ground. -/
  | deltaCapacitor (f : ℕ) (s : CapSwitch) (b : ℝ) : Threefold (.capacitor (some f) none s (3 * b))
      [.capacitor (some (3 * f)) (some (3 * f + 1)) s b, .capacitor (some (3 * f + 1)) (some (3 * f + 2)) s b,
        .capacitor (some (3 * f + 2)) (some (3 * f)) s b]
  /-- Coupled conductors act with their self admittance less the mutual one. -/
  | coupledLine (f u : ℕ) (ys ym : ℂ) (ss sm : ℝ) : Threefold (.line (some f) (some u) (ys - ym).re (ys - ym).im ((ss - sm) / 2))
      [.unbalanced [(3 * f, 3 * u), (3 * f + 1, 3 * u + 1), (3 * f + 2, 3 * u + 2)] (alike ys ym) (alike ss sm)]
  /-- Primary windings between phases divide the ratio by the root of three and turn by a twelfth. -/
  | deltaWye (f u : ℕ) (tr ang g b : ℝ) : Threefold (.transformer (some f) none (some u) none (tr / Real.sqrt 3) (ang - Real.pi / 6) g b)
      [.transformer (some (3 * f)) (some (3 * f + 1)) (some (3 * u)) none tr ang g b,
        .transformer (some (3 * f + 1)) (some (3 * f + 2)) (some (3 * u + 1)) none tr ang g b,
        .transformer (some (3 * f + 2)) (some (3 * f)) (some (3 * u + 2)) none tr ang g b]
  /-- Secondary windings between phases multiply the ratio by the root of three, turn by a twelfth, and act with three times their admittance. -/
  | wyeDelta (f u : ℕ) (tr ang g b : ℝ) : Threefold (.transformer (some f) none (some u) none (tr * Real.sqrt 3) (ang + Real.pi / 6) (3 * g) (3 * b))
      [.transformer (some (3 * f)) none (some (3 * u)) (some (3 * u + 1)) tr ang g b,
        .transformer (some (3 * f + 1)) none (some (3 * u + 1)) (some (3 * u + 2)) tr ang g b,
        .transformer (some (3 * f + 2)) none (some (3 * u + 2)) (some (3 * u)) tr ang g b]
  /-- Both between phases: the ratio stays, the admittance counts three times. -/
  | deltaDelta (f u : ℕ) (tr ang g b : ℝ) : Threefold (.transformer (some f) none (some u) none tr ang (3 * g) (3 * b))
      [.transformer (some (3 * f)) (some (3 * f + 1)) (some (3 * u)) (some (3 * u + 1)) tr ang g b,
        .transformer (some (3 * f + 1)) (some (3 * f + 2)) (some (3 * u + 1)) (some (3 * u + 2)) tr ang g b,
        .transformer (some (3 * f + 2)) (some (3 * f)) (some (3 * u + 2)) (some (3 * u)) tr ang g b]

/-- The second network is balanced and the first is its single-phase equivalent. -/
structure Equivalent (N M : Network) : Prop where
  plain : N.optimization = none
  plain' : M.optimization = none
  buses : M.buses = 3 * N.buses
  elements : ∃ ess, List.Forall₂ Threefold N.elements ess ∧ M.elements = ess.flatten

end Verif
