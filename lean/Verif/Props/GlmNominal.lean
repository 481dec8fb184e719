import Verif.Props.GlmFile

/-!
# C99: the nominal voltages of the buses of a GridLAB-D file
-/

namespace Verif.Glm

section File

variable {M : Type} {readLine : LineReader M} {schedules : List (Txt × Txt)} {objs : List (Txt × Obj)} {g : Grid M}

/-- **C99, partial.** Every bus of a node has the voltage its node has in the file, if the node is a source or is not the parent of another node or
meter. Missing: nodes with such children, see `C99_child_voltage_fails`. -/
theorem C99_nominal_partial (hR : Keeps readLine objs) (hO : OuterFile objs) (hk : (objs.map Prod.fst).Nodup)
    (h : parseGrid readLine objs schedules = .ok g) :
    List.Forall₂ (fun (x : (Txt × Obj) × Char) (b : Txt × Char × Phasor) => b.1 = x.1.1 ∧ b.2.1 = x.2 ∧
      (isSwing x.1.2 = true ∨ x.1.1 ∉ parentNames objs → placeVoltage x.1.2 x.2 = some b.2.2))
      ((declaredPlaces objs).filter fun x => (x.1.2.attr "parent".toList).isNone) (outerNominals g) := by
  obtain ⟨s, groups, hr⟩ := parseGrid_read hR hO h
  exact hr.nominals hk

end File

/-- The feeder: all buses but those of `n2`, which has the meter `m2` as a child. -/
example : parentNames feeder = ["n2".toList] ∧ ∃ g, parseGrid noLines feeder [] = .ok g ∧
    (∃ b ∈ outerNominals g, b.1 = "n1".toList ∧ b.2.1 = 'B' ∧ b.2.2 = .given (-1200, -2078)) ∧
    List.Forall₂ (fun (x : (Txt × Obj) × Char) (b : Txt × Char × Phasor) => b.1 = x.1.1 ∧ b.2.1 = x.2 ∧
      (isSwing x.1.2 = true ∨ x.1.1 ∉ parentNames feeder → placeVoltage x.1.2 x.2 = some b.2.2))
      ((declaredPlaces feeder).filter fun x => (x.1.2.attr "parent".toList).isNone) (outerNominals g) := by
  obtain ⟨g, hg, h⟩ := read_of_check (objs := feeder)
    (p := fun g => ∃ b ∈ outerNominals g, b.1 = "n1".toList ∧ b.2.1 = 'B' ∧ b.2.2 = .given (-1200, -2078)) (by decide +kernel)
  exact ⟨by decide +kernel, g, hg, h, C99_nominal_partial noLines_keeps feeder_outer feeder_keys hg⟩

/-- **C99 fails.** A node of 2400 V with a meter of 2300 V has buses of 2300 V. -/
theorem C99_child_voltage_fails : ∃ g, parseGrid noLines [
      fileObject "node" [("name", "n1"), ("phases", "AN"), ("nominal_voltage", "2400")],
      fileObject "meter" [("name", "m1"), ("phases", "AN"), ("nominal_voltage", "2300"), ("parent", "n1")]] [] = .ok g ∧
    outerNominals g = [("n1".toList, 'A', .nominal 2300 'A')] := by
  exact read_of_check (p := fun g => outerNominals g = [("n1".toList, 'A', .nominal 2300 'A')]) (by decide +kernel)

end Verif.Glm
