import Verif.Spec.LineReader
import Verif.Spec.Glm
import Mathlib.Analysis.SpecialFunctions.Pow.Real

/-!
# The laws of lines of a file

Carson's equations for conductors over earth, with the constants of the program (60 Hz, 100 ohm meters): `0.0953` ohms per mile and `7.93402` for
overhead and triplex lines, `0.09327` and `7.95153` for cables in the ground. Distances and radii are in feet.
-/

namespace Verif.Glm

/-! ### What a file says -/

/-- The attribute `a` is a plain number without unit. -/
def Valued (o : Obj) (a : String) (x : ℚ) : Prop := ∃ t, o.attr a.toList = some t ∧ Numeral t x

/-- The object that attribute `a` names. -/
def Refers (objs : List (Txt × Obj)) (o : Obj) (a : Txt) (x : Obj) : Prop := ∃ n, o.attr a = some n ∧ lookup n objs = some x

/-- The letters for which a configuration names a conductor. -/
def conductorLetters (c : Obj) (ps : List Char) : List Char := ps.filter fun p => (c.attr ("conductor_".toList ++ [p])).isSome

/-- The length of a line, given in feet or in kilometres. -/
def Miles (o : Obj) (x : ℚ) : Prop := ∃ n y, Numeral n y ∧
  (o.attr "length".toList = some n ∧ x = y / 5280 ∨ o.attr "length".toList = some (n ++ "km".toList) ∧ x = 1000 * y / (1609344 / 1000))

/-- The distances an object gives are all numbers of feet greater than zero. -/
def WellSpaced (o : Obj) : Prop := ∀ x y : Char, [x, y].Sublist "ABCNE".toList → ∀ t, o.get ("distance_".toList ++ [x, y]) = .ok t → ∃ d, 0 < d ∧ Spaced o x y d

/-- The spacing of a configuration gives the distance `D` for every two of the conductors `ps`, and no distance for another conductor. -/
def SpacedBy (objs : List (Txt × Obj)) (c : Obj) (ps : List Char) (D : Char → Char → ℚ) : Prop := ∃ s, Refers objs c "spacing".toList s ∧ WellSpaced s ∧
  (∀ p ∈ ps, ∀ q ∈ ps, p ≠ q → 0 < D p q ∧ Spaced s p q (D p q)) ∧ ∀ x ∈ "ABCN".toList, (x ∈ ps ↔ ∃ y d, Spaced s x y d)

/-! ### Carson's equations -/

/-- The impedance of two conductors, or of one with itself, with earth return: ohms per mile. `r` and `g` are resistance and geometric mean radius, `D` the
distance of two conductors. -/
noncomputable def earthReturn {κ : Type} [DecidableEq κ] (R X : ℝ) (r g : κ → ℝ) (D : κ → κ → ℝ) (x y : κ) : ℂ :=
  if x = y then ⟨r x + R, 12134 / 100000 * (Real.log (1 / g x) + X)⟩ else ⟨R, 12134 / 100000 * (Real.log (1 / D x y) + X)⟩

/-- Conductors along a line: its phases, its grounded neutrals, all impedances, and the length. A conductor is a letter and whether it is a neutral. -/
structure LineSpan where
  phases : List Char
  neutrals : List Char
  z : Bool × Char → Bool × Char → ℂ
  miles : ℚ

/-- The voltage drop along conductor `x`, per mile, for the currents `J`. -/
noncomputable def LineSpan.drop (s : LineSpan) (J : Bool × Char → ℂ) (x : Bool × Char) : ℂ :=
  (s.phases.map fun q => s.z x (false, q) * J (false, q)).sum + (s.neutrals.map fun n => s.z x (true, n) * J (true, n)).sum

/-- With currents `I` in the phases and some currents in the neutrals, the phases have the voltage drops `U` and the neutrals, which are grounded at both
ends, have none. -/
def LineSpan.Law (s : LineSpan) (U I : Char → ℂ) : Prop := ∃ J : Bool × Char → ℂ, (∀ p ∈ s.phases, J (false, p) = I p) ∧
  (∀ p ∈ s.phases, U p = s.miles * s.drop J (false, p)) ∧ ∀ n ∈ s.neutrals, s.drop J (true, n) = 0

/-! ### Lines of a file -/

/-- The conductors of an overhead line: for its phases, and a neutral if its phases name one. -/
def OverheadSpan (objs : List (Txt × Obj)) (o : Obj) (ph : Phases) (s : LineSpan) : Prop :=
  ∃ (c : Obj) (r g : Char → ℚ) (D : Char → Char → ℚ), Refers objs o "configuration".toList c ∧
    (∀ p ∈ conductorLetters c "ABCN".toList, ∃ w, Refers objs c ("conductor_".toList ++ [p]) w ∧ Valued w "resistance" (r p) ∧ Valued w "geometric_mean_radius" (g p) ∧ 0 < r p) ∧
    SpacedBy objs c (conductorLetters c "ABCN".toList) D ∧ (∀ p ∈ "ABC".toList, p ∈ conductorLetters c "ABCN".toList ↔ p ∈ ph.phases) ∧
    s.phases = conductorLetters c "ABC".toList ∧ s.neutrals = (if ph.hasNeutral then conductorLetters c "N".toList else []) ∧
    s.z = earthReturn (953 / 10000) (793402 / 100000) (fun x => (r x.2 : ℝ)) (fun x => (g x.2 : ℝ)) (fun x y => (D x.2 y.2 : ℝ)) ∧ Miles o s.miles

/-- The conductors of a triplex line. The insulation of two phases lies between them, that of one between it and the neutral. -/
def TriplexSpan (objs : List (Txt × Obj)) (o : Obj) (s : LineSpan) : Prop :=
  ∃ (c : Obj) (r g : Char → ℚ) (d t : ℚ), Refers objs o "configuration".toList c ∧
    (∀ p ∈ "12N".toList, ∃ w, Refers objs c ("conductor_".toList ++ [p]) w ∧ Valued w "resistance" (r p) ∧ Valued w "geometric_mean_radius" (g p) ∧ 0 < r p) ∧
    Valued c "diameter" d ∧ Valued c "insulation_thickness" t ∧ s.phases = "12".toList ∧ s.neutrals = "N".toList ∧
    s.z = earthReturn (953 / 10000) (793402 / 100000) (fun x => (r x.2 : ℝ)) (fun x => (g x.2 : ℝ))
      (fun x y => (((if x.1 || y.1 then d + t else d + 2 * t) / 12 : ℚ) : ℝ)) ∧ Miles o s.miles

/-- A cable with a concentric neutral of `k` strands. -/
structure CableData where
  outer : ℚ
  strand : ℚ
  g : ℚ
  r : ℚ
  gs : ℚ
  rs : ℚ

/-- The distance of a conductor and the strands around it, in feet; the diameters are in inches. -/
def CableData.own (x : CableData) : ℚ := (x.outer - x.strand) / 24

/-- The cables of an underground line, all with `k` strands, and a bare neutral if there is one: the strands of a cable are one conductor of their mean radius. -/
def CableSpan (objs : List (Txt × Obj)) (o : Obj) (s : LineSpan) : Prop :=
  ∃ (c : Obj) (k : ℕ) (x : Char → CableData) (r g : ℚ) (D : Char → Char → ℚ), Refers objs o "configuration".toList c ∧ 0 < k ∧
    (∀ p ∈ conductorLetters c "ABCN".toList, ∃ w, Refers objs c ("conductor_".toList ++ [p]) w ∧ (w.attr "outer_diameter".toList).isSome ∧
      if p = 'N' then Valued w "conductor_resistance" r ∧ Valued w "conductor_gmr" g ∧ 0 < r
      else Valued w "outer_diameter" (x p).outer ∧ Valued w "neutral_diameter" (x p).strand ∧ Valued w "neutral_strands" k ∧ Valued w "conductor_gmr" (x p).g ∧
        Valued w "conductor_resistance" (x p).r ∧ Valued w "neutral_gmr" (x p).gs ∧ Valued w "neutral_resistance" (x p).rs ∧ 0 < (x p).r ∧ 0 < (x p).rs) ∧
    SpacedBy objs c (conductorLetters c "ABCN".toList) D ∧
    s.phases = conductorLetters c "ABC".toList ∧ s.phases ≠ [] ∧ s.neutrals = conductorLetters c "ABCN".toList ∧
    s.z = earthReturn (9327 / 100000) (795153 / 100000)
      (fun y => if y.1 then (if y.2 = 'N' then (r : ℝ) else ((x y.2).rs / k : ℚ)) else ((x y.2).r : ℝ))
      (fun y => if y.1 then (if y.2 = 'N' then (g : ℝ) else (((x y.2).gs * k * (x y.2).own ^ (k - 1) : ℚ) : ℝ) ^ (1 / (k : ℝ))) else ((x y.2).g : ℝ))
      (fun y w => if y.1 = w.1 then (D y.2 w.2 : ℝ) else if y.2 = w.2 then ((x y.2).own : ℝ)
        else ((D y.2 w.2 : ℝ) ^ k - (if (if y.1 then y.2 else w.2) = 'N' then 0 else ((x (if y.1 then y.2 else w.2)).own : ℝ)) ^ k) ^ (1 / (k : ℝ))) ∧ Miles o s.miles

/-- The conductors of a line. -/
def FileSpan (objs : List (Txt × Obj)) (o : Obj) (ph : Phases) (s : LineSpan) : Prop :=
  if o.cls = "overhead_line".toList then OverheadSpan objs o ph s else if o.cls = "triplex_line".toList then TriplexSpan objs o s else CableSpan objs o s

end Verif.Glm
