import Verif.Spec.LineCharge
import Verif.Spec.GlmSound
import Verif.Model.LineReader

/-!
# Sound lines

Lines of a file with conductors for which everything is given that their matrices need.
-/

namespace Verif.Glm

/-- The ratings of a conductor, which are not used, are numbers if they are given. -/
def RatingsRead (w : Obj) : Prop := NumberIf w "rating.summer.continuous".toList ∧ NumberIf w "rating.summer.emergency".toList

/-- A bare conductor with this resistance, this radius and this diameter, which is half an inch if it is not given. -/
def SoundWire (r g δ : ℚ) (w : Obj) : Prop := Valued w "resistance" r ∧ Valued w "geometric_mean_radius" g ∧ 0 < r ∧ 0 < g ∧ 0 < δ ∧
  (Valued w "diameter" δ ∨ w.attr "diameter".toList = none ∧ δ = 1 / 2) ∧ RatingsRead w

/-- The heights of the conductors are given, and no two of them are further apart than the conductors are; or no height is given. -/
def HeightsFit (s : Obj) (ps : List Char) (D : Char → Char → ℚ) : Prop :=
  (∃ h : Char → ℚ, (∀ p ∈ ps, 0 < h p ∧ Spaced s p 'E' (h p)) ∧ ∀ p ∈ ps, ∀ q ∈ ps, p ≠ q → |h p - h q| ≤ D p q) ∨ ∀ p d, ¬ Spaced s p 'E' d

/-- The potential coefficients that the program computes for conductors with these letters and diameters and this spacing can be inverted. -/
def PotentialsInvert (s : Obj) (ps : List Char) (δ : Char → ℚ) : Prop := ∀ (wires : List BareWire) (T : Table), wires.map BareWire.phase = ps →
  (∀ w ∈ wires, w.diameter = some (δ w.phase)) → overheadSpacing s = .ok T →
  ('N' ∈ ps → potentialAt wires T (wires.length - 1) (wires.length - 1) ≠ 0) ∧ (potentialReduced wires T).det ≠ 0

/-- An overhead line. -/
def SoundOverhead (objs : List (Txt × Obj)) (o : Obj) (ph : Phases) : Prop :=
  ∃ (c s : Obj) (r g δ : Char → ℚ) (D : Char → Char → ℚ), Refers objs o "configuration".toList c ∧
    (∀ p ∈ conductorLetters c "ABCN".toList, ∃ w, Refers objs c ("conductor_".toList ++ [p]) w ∧ SoundWire (r p) (g p) (δ p) w) ∧
    Refers objs c "spacing".toList s ∧ WellSpaced s ∧
    (∀ p ∈ conductorLetters c "ABCN".toList, ∀ q ∈ conductorLetters c "ABCN".toList, p ≠ q → 0 < D p q ∧ Spaced s p q (D p q)) ∧
    (∀ x ∈ "ABCN".toList, (x ∈ conductorLetters c "ABCN".toList ↔ ∃ y d, Spaced s x y d)) ∧
    (∀ p ∈ "ABC".toList, p ∈ conductorLetters c "ABCN".toList ↔ p ∈ ph.phases) ∧ (∃ p ∈ "ABC".toList, p ∈ ph.phases) ∧
    (ph.hasNeutral = true → 'N' ∈ conductorLetters c "ABCN".toList) ∧
    HeightsFit s (conductorLetters c "ABCN".toList) D ∧ PotentialsInvert s (conductorLetters c "ABCN".toList) δ

/-- A triplex line. -/
def SoundTriplex (objs : List (Txt × Obj)) (o : Obj) : Prop :=
  ∃ (c : Obj) (r g : Char → ℚ) (d t : ℚ), Refers objs o "configuration".toList c ∧
    (∀ p ∈ "12N".toList, ∃ w, Refers objs c ("conductor_".toList ++ [p]) w ∧ Valued w "resistance" (r p) ∧ Valued w "geometric_mean_radius" (g p) ∧ 0 < r p ∧ 0 < g p ∧
      RatingsRead w) ∧
    Valued c "diameter" d ∧ Valued c "insulation_thickness" t ∧ 0 < d ∧ 0 ≤ t

/-- A cable with these data and a conductor of this diameter: the strands lie in the cable. -/
def SoundCable (k : ℕ) (x : CableData) (δ : ℚ) (w : Obj) : Prop := Valued w "outer_diameter" x.outer ∧ Valued w "neutral_diameter" x.strand ∧ Valued w "neutral_strands" k ∧
  Valued w "conductor_diameter" δ ∧ Valued w "conductor_gmr" x.g ∧ Valued w "conductor_resistance" x.r ∧ Valued w "neutral_gmr" x.gs ∧ Valued w "neutral_resistance" x.rs ∧
  0 < x.strand ∧ x.strand < x.outer ∧ 0 < δ ∧ 0 < x.g ∧ 0 < x.r ∧ 0 < x.gs ∧ 0 < x.rs ∧ RatingsRead w ∧
  Real.log ((x.outer - x.strand) / δ) ≠ Real.log (k * x.strand / (x.outer - x.strand)) / k

/-- A bare neutral beside cables: it has an outer diameter, which is not used. -/
def SoundNeutral (r g : ℚ) (w : Obj) : Prop := (w.attr "outer_diameter".toList).isSome ∧ Valued w "conductor_resistance" r ∧ Valued w "conductor_gmr" g ∧ 0 < r ∧ 0 < g ∧
  (∀ a ∈ ["outer_diameter", "neutral_diameter", "neutral_strands", "conductor_diameter", "neutral_gmr", "neutral_resistance"].map String.toList, NumberIf w a) ∧ RatingsRead w

/-- An underground line: its cables all have `k` strands and lie beside each other. -/
def SoundUnderground (objs : List (Txt × Obj)) (o : Obj) : Prop :=
  ∃ (c s : Obj) (k : ℕ) (x : Char → CableData) (δ : Char → ℚ) (r g : ℚ) (D : Char → Char → ℚ), Refers objs o "configuration".toList c ∧ 0 < k ∧
    (∀ p ∈ conductorLetters c "ABCN".toList, ∃ w, Refers objs c ("conductor_".toList ++ [p]) w ∧ if p = 'N' then SoundNeutral r g w else SoundCable k (x p) (δ p) w) ∧
    Refers objs c "spacing".toList s ∧ WellSpaced s ∧
    (∀ p ∈ conductorLetters c "ABCN".toList, ∀ q ∈ conductorLetters c "ABCN".toList, p ≠ q → 0 < D p q ∧ Spaced s p q (D p q) ∧ (q ≠ 'N' → (x q).own < D p q)) ∧
    (∀ y ∈ "ABCN".toList, (y ∈ conductorLetters c "ABCN".toList ↔ ∃ z d, Spaced s y z d)) ∧ conductorLetters c "ABC".toList ≠ []

/-- The conductors of a line are sound, and it has a length. -/
def SoundLine (objs : List (Txt × Obj)) (o : Obj) (ph : Phases) : Prop := (∃ m, Miles o m ∧ m ≠ 0) ∧
  if o.cls = "overhead_line".toList then SoundOverhead objs o ph else if o.cls = "triplex_line".toList then SoundTriplex objs o else SoundUnderground objs o

/-- The letters of the phases of a line: those of its conductors. -/
def lineLetters (objs : List (Txt × Obj)) (o : Obj) (p : Char) : Prop := ∃ c, Refers objs o "configuration".toList c ∧
  p ∈ conductorLetters c (if o.cls = "triplex_line".toList then "12".toList else "ABC".toList)

/-- The lines of the file are sound, and both ends have their phases. -/
def SoundLines (objs : List (Txt × Obj)) : Prop := ∀ o ∈ declaredLines objs, (∀ t ph, o.attr "phases".toList = some t → parsePhases t = .ok ph → SoundLine objs o ph) ∧
  ∀ p, lineLetters objs o p → Joins objs o p

end Verif.Glm
