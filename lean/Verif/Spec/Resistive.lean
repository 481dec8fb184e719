import Verif.Spec.Kirchhoff
import Mathlib.Algebra.BigOperators.Group.Finset.Basic

/-!
# Networks of resistive equipment fed from slacks

Conditions an engineer can read off a circuit diagram: every branch has resistance, every bus is connected to something that fixes its
voltage, and no loop consists of ideal conductors only. Nothing here refers to equations, unknowns or indices.
-/

namespace Verif

/-- A linear element whose series branches have positive conductance and whose other resistances are not negative. Generators and constant
power are excluded. -/
def Element.Resistive : Element → Prop
  | .line _ _ g _ _ => 0 < g
  | .unbalanced ph y sh => (∀ i j, y i j = y j i) ∧ (∀ i j, sh i j = sh j i) ∧
      ∀ d : ℕ → ℝ, (∃ i < ph.length, d i ≠ 0) → 0 < ∑ i ∈ Finset.range ph.length, ∑ j ∈ Finset.range ph.length, d i * (y i j).re * d j
  | .transformer _ _ _ _ tr _ g _ => tr ≠ 0 ∧ 0 < g
  | .centerTap _ _ _ _ _ _ ratio g0 _ g1 _ g2 _ => ratio ≠ 0 ∧ 0 < g0 ∧ 0 < g1 ∧ 0 < g2
  | .generator .. => False
  | .load _ _ l => l.P = 0 ∧ l.Q = 0 ∧ 0 ≤ l.Z.re
  | .shunt _ g _ => 0 ≤ g
  | .regulator _ _ _ tr g _ => tr ≠ 0 ∧ 0 < g
  | _ => True

/-- The element connects two points so that the voltage of one fixes the voltage of the other. -/
def Element.Joins : Element → Ref → Ref → Prop
  | .line f u _ _ _, a, b => a = f ∧ b = u
  | .unbalanced ph _ _, a, b => ∃ p ∈ ph, a = some p.1 ∧ b = some p.2
  | .transformer .., _, _ => False
  | .centerTap f p s1 t1 s2 t2 .., a, b =>
    a = some f ∧ b = some p ∨ a = some p ∧ b = some s1 ∨ a = some p ∧ b = some s2 ∨ a = some s1 ∧ b = some t1 ∨ a = some s2 ∧ b = some t2
  | .slack k _ _, a, b => a = none ∧ b = some k
  | .switch f u .closed, a, b => a = f ∧ b = u
  | .switch _ _ .opened, _, _ => False
  | .generator .., _, _ => False
  | .load f u l, a, b => 0 < l.Z.re ∧ a = f ∧ b = u
  | .voltageSource f u _ _, a, b => a = f ∧ b = u
  | .shunt k g _, a, b => 0 < g ∧ a = none ∧ b = some k
  | .regulator f c u _ _ _, a, b => a = f ∧ b = c ∨ a = c ∧ b = u
  | .fuse f i u, a, b => a = f ∧ b = i ∨ a = i ∧ b = u
  | .capacitor .., _, _ => False

/-- Points whose voltage is fixed: ground, and everything that follows over joined points and over windings, where three terminals fix
the fourth. -/
inductive Held (es : List Element) : Ref → Prop
  | ground : Held es none
  | forth {e a b} : e ∈ es → e.Joins a b → Held es a → Held es b
  | back {e a b} : e ∈ es → e.Joins a b → Held es b → Held es a
  | primary {fp fn tp tn tr ang g b} : .transformer fp fn tp tn tr ang g b ∈ es → Held es tp → Held es tn → Held es fn → Held es fp
  | primaryNeg {fp fn tp tn tr ang g b} : .transformer fp fn tp tn tr ang g b ∈ es → Held es tp → Held es tn → Held es fp → Held es fn
  | secondary {fp fn tp tn tr ang g b} : .transformer fp fn tp tn tr ang g b ∈ es → Held es fp → Held es fn → Held es tn → Held es tp
  | secondaryNeg {fp fn tp tn tr ang g b} : .transformer fp fn tp tn tr ang g b ∈ es → Held es fp → Held es fn → Held es tp → Held es tn

/-- Ideal conductors of an element: branches whose current does not follow from their voltage. -/
def Element.rigid : Element → List (Ref × Ref)
  | .centerTap _ p s1 _ s2 .. => [(some s1, some p), (some s2, some p)]
  | .slack b _ _ => [(some b, none)]
  | .switch f u .closed => [(f, u)]
  | .voltageSource f u _ _ => [(f, u)]
  | .regulator _ c u _ _ _ => [(c, u)]
  | .fuse _ i u => [(i, u)]
  | _ => []

/-- A list of branches without loops: they can be removed one after the other, each time one that ends alone at a bus. -/
inductive Loopless : List (Ref × Ref) → Prop
  | nil : Loopless []
  | leaf {l₁ l₂ : List (Ref × Ref)} {f u : Ref} (k : ℕ) : Loopless (l₁ ++ l₂) → (∀ b ∈ l₁ ++ l₂, b.1 ≠ some k ∧ b.2 ≠ some k) →
      (f = some k ∧ u ≠ some k ∨ u = some k ∧ f ≠ some k) → Loopless (l₁ ++ (f, u) :: l₂)

/-- A network of resistive equipment in which every bus is held and ideal conductors form no loop. -/
structure Network.Sturdy (N : Network) : Prop where
  plain : N.optimization = none
  resistive : ∀ e ∈ N.elements, e.Resistive
  held : ∀ k < N.buses, Held N.elements (some k)
  loopless : Loopless (N.elements.flatMap Element.rigid)

end Verif
