import Verif.Spec.GlmDevices

/-!
# The buses and slack generators a GridLAB-D file asks for
-/

namespace Verif.Glm

/-- An object that is a place of its own: a node, or a load without parent. -/
def isPlace (o : Obj) : Bool := isNodeObj o || isLoadObj o && (o.attr "parent".toList).isNone

/-- The text of the phases has the mark of a split phase. -/
def isSplit (o : Obj) : Bool := 'S' ∈ stripBy (· = '|') (stripBy (· = '"') ((o.attr "phases".toList).getD []))

/-- The phases of a place: the two hot wires if it is a triplex meter or a load of split phase, otherwise those it lists. -/
def placePhases (o : Obj) : List Char :=
  (if o.cls = "triplex_meter".toList ∧ ¬ hasPower o ∨ isLoadObj o ∧ isSplit o then ['1', '2'] else objPhases o).filter
    (· ∈ ['A', 'B', 'C', '1', '2'])

/-- The phases of the places of a file. -/
def declaredPlaces (objs : List (Txt × Obj)) : List ((Txt × Obj) × Char) :=
  (objs.filter fun x => isPlace x.2).flatMap fun x => (placePhases x.2).map fun p => (x, p)

/-- A source. -/
def isSwing (o : Obj) : Bool := o.cls ∈ ["node", "meter"].map String.toList ∧ o.attr "bustype".toList = some "SWING".toList

/-- The voltage of a source: that given for the phase, otherwise the nominal voltage at the angle of the phase. -/
def swingVoltage (o : Obj) (p : Char) : Option Phasor :=
  match (if p ∈ ['A', 'B', 'C'] then (o.attr ("voltage_".toList ++ [p])).bind pyComplex else none) with
  | some z => some (.given z)
  | none => ((o.attr "nominal_voltage".toList).bind pyFloat).map fun m => .nominal m p

/-- The voltage of a place: for a node or meter that of a source, for a load or triplex meter the nominal voltage at the angle of the phase. -/
def placeVoltage (o : Obj) (p : Char) : Option Phasor :=
  if o.cls ∈ ["node", "meter"].map String.toList then swingVoltage o p
  else ((o.attr "nominal_voltage".toList).bind pyFloat).map fun m => .nominal m p

variable {M : Type}

/-- The buses that belong to nodes, with their phases. -/
def outerBuses (g : Grid M) : List (Txt × Char) := (g.buses.filter fun x => !x.virtual).map fun x => (x.name, x.phase)

/-- The buses that belong to nodes, with their nominal voltages. -/
def outerNominals (g : Grid M) : List (Txt × Char × Phasor) := (g.buses.filter fun x => !x.virtual).map fun x => (x.name, x.phase, x.nominal)

/-- No object lists a phase twice. -/
def PhasesOnce (objs : List (Txt × Obj)) : Prop := ∀ name o, (name, o) ∈ objs → isPlace o = true → (placePhases o).Nodup

end Verif.Glm
