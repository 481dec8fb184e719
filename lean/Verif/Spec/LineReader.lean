import Verif.Spec.GlmFile

/-!
# Lines and their conductors in a file
-/

namespace Verif.Glm

/-- `w` is the conductor that the configuration of the line `o` names for phase `p`. -/
def UsesConductor (objs : List (Txt × Obj)) (o : Obj) (p : Char) (w : Obj) : Prop :=
  ∃ k c n, o.attr "configuration".toList = some k ∧ lookup k objs = some c ∧ c.attr ("conductor_".toList ++ [p]) = some n ∧ lookup n objs = some w

/-- Every resistance of a conductor, with its unit or without, is a number with the property `P`. -/
def EachResistance (P : ℚ → Prop) (w : Obj) : Prop := ∀ a ∈ ["resistance", "conductor_resistance", "neutral_resistance"].map String.toList,
  ∀ t, w.attr a = some t → ∀ x, pyFloat t = some x ∨ pyFloat (removeNonnum t) = some x → P x

/-- A bare conductor has its resistance and its radius. -/
def CompleteBare (w : Obj) : Prop := (w.attr "resistance".toList).isSome ∧ (w.attr "geometric_mean_radius".toList).isSome

/-- The conductors of a line have resistances with the property `P`, and those of overhead and triplex lines are complete. -/
def ConductorsWith (P : ℚ → Prop) (objs : List (Txt × Obj)) (o : Obj) : Prop := ∀ p w, UsesConductor objs o p w → EachResistance P w ∧
  (o.cls ∈ ["overhead_line", "triplex_line"].map String.toList → CompleteBare w)

/-- A line has conductors for its phases: an overhead line exactly for those of A, B and C that it has, a triplex line for both 1 and 2, and an underground line for at
least one, since its own phases are not looked at. -/
def NamesPhases (objs : List (Txt × Obj)) (o : Obj) (phases : List Char) : Prop :=
  ∀ k c, o.attr "configuration".toList = some k → lookup k objs = some c →
    (o.cls = "overhead_line".toList → (∀ p ∈ "ABC".toList, (c.attr ("conductor_".toList ++ [p])).isSome ↔ p ∈ phases) ∧ ∃ p ∈ "ABC".toList, p ∈ phases) ∧
    (o.cls = "triplex_line".toList → ∀ p ∈ "12".toList, (c.attr ("conductor_".toList ++ [p])).isSome) ∧
    (o.cls ≠ "overhead_line".toList → o.cls ≠ "triplex_line".toList → ∃ p ∈ "ABC".toList, (c.attr ("conductor_".toList ++ [p])).isSome)

/-- The configuration of a line says how its conductors are spaced. Cables must have outer diameters. Nothing is needed for triplex lines. -/
def OwnSpacing (objs : List (Txt × Obj)) (o : Obj) : Prop := o.cls = "triplex_line".toList ∨
  (∀ k c, o.attr "configuration".toList = some k → lookup k objs = some c → (c.attr "spacing".toList).isSome) ∧
  (o.cls ≠ "overhead_line".toList → ∀ p ∈ "ABCN".toList, ∀ w, UsesConductor objs o p w → (w.attr "outer_diameter".toList).isSome)

end Verif.Glm
