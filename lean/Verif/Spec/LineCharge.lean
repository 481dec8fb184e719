import Verif.Spec.LineLaw

/-!
# The charging of lines of a file

The formulas of Kersting's book the program cites: susceptances in siemens per mile, potential coefficients in miles per microfarad.
-/

namespace Verif.Glm

/-- The susceptance of a cable with a concentric neutral of `k` strands, per mile. Overall diameter, diameter of a strand and diameter of the conductor, in
one unit. -/
noncomputable def concentricSusceptance (outer strand conductor : ℚ) (k : ℕ) : ℝ :=
  773619 / 10000000000 / (Real.log ((outer - strand) / conductor) - Real.log (k * strand / (outer - strand)) / k)

/-- The cables of the phases of an underground line have the susceptances `y`. -/
def CablesCharged (objs : List (Txt × Obj)) (o : Obj) (y : Char → ℝ) : Prop := ∃ c, Refers objs o "configuration".toList c ∧
  ∀ p ∈ conductorLetters c "ABC".toList, ∃ (w : Obj) (outer strand conductor : ℚ) (k : ℕ), Refers objs c ("conductor_".toList ++ [p]) w ∧
    Valued w "outer_diameter" outer ∧ Valued w "neutral_diameter" strand ∧ Valued w "neutral_strands" k ∧ Valued w "conductor_diameter" conductor ∧
    y p = concentricSusceptance outer strand conductor k

/-- The potential coefficient of two conductors of height `h` with the distance `D`, or of one with itself, all in feet, its radius being `r`. -/
noncomputable def potentialCoefficient (h D r : ℝ) (same : Prop) [Decidable same] : ℝ :=
  if same then 1117689 / 100000 * Real.log (2 * h / r) else 1117689 / 100000 * Real.log (Real.sqrt (D ^ 2 + (2 * h) ^ 2) / D)

/-- The phase conductors of an overhead line without neutral are all at one height and have the distances `D` and the diameters `δ`, in inches. Its potential
coefficients are those of conductors with radius `f · δ / 2`, in feet. -/
def WiresCharged (f : ℚ) (objs : List (Txt × Obj)) (o : Obj) (P : Char → Char → ℝ) : Prop :=
  ∃ (c s : Obj) (δ : Char → ℚ) (D : Char → Char → ℚ) (h : ℚ), Refers objs o "configuration".toList c ∧ Refers objs c "spacing".toList s ∧
    conductorLetters c "N".toList = [] ∧ 0 < h ∧
    (∀ p ∈ conductorLetters c "ABC".toList, Spaced s p 'E' h ∧ ∃ w, Refers objs c ("conductor_".toList ++ [p]) w ∧ Valued w "diameter" (δ p)) ∧
    (∀ p ∈ conductorLetters c "ABC".toList, ∀ q ∈ conductorLetters c "ABC".toList, p ≠ q → 0 < D p q ∧ Spaced s p q (D p q)) ∧
    ∀ p q, P p q = potentialCoefficient h (D p q) (f * δ p / 2 : ℚ) (p = q)

/-- Voltages at the ends of the phases of a line, the same at both. -/
def EndVoltages (ps : List Char) (pairs : List (ℕ × ℕ)) (V : Ref → ℂ) (U : Char → ℂ) : Prop :=
  ∀ i < ps.length, V (some (pairs.getD i (0, 0)).1) = U (ps.getD i 'A') ∧ V (some (pairs.getD i (0, 0)).2) = U (ps.getD i 'A')

end Verif.Glm
