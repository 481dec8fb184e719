import Verif.Model.Glm

/-!
# Reading one GridLAB-D object: phases, switch and fuse wires, lengths, conductors

`/repo/src/ditto/readers/gridlabd/helpers.py` 5-38, `read.py` 199-216, 680-818, 880-922, 1146-1219. A phase is a character.
-/

namespace Verif.Glm

/-! ### Phases -/

/-- What `parse_phases` returns (`helpers.py` 38). -/
structure Phases where
  phases : List Char
  isDelta : Bool
  isTriplex : Bool
  hasNeutral : Bool
  deriving DecidableEq, Repr

/-- One turn of the loop of `parse_phases` (`helpers.py` 16-29). -/
def phaseStep (s : Phases) (c : Char) : Phases :=
  if c = 'N' then { s with hasNeutral := true }
  else if c = 'S' then { s with isTriplex := true }
  else if c = 'D' then s
  else if c = 'G' then s
  else { s with phases := s.phases ++ [c] }

/-- `parse_phases` (`helpers.py` 5-38). -/
def parsePhases (t : Txt) : Py Phases :=
  let s := (stripBy (· = '|') (stripBy (· = '"') t)).foldl phaseStep ⟨[], false, false, false⟩
  let s := if !s.hasNeutral && !s.isTriplex then { s with isDelta := true } else s
  if s.phases.length = 0 then .error .raised
  else if s.isTriplex && (decide (1 < s.phases.length) || s.isDelta) then .error .raised
  else .ok s

/-! ### Fuses and switches -/

/-- A `Wire` of a fuse or switch: its phase and `is_open`, which stays `None` if it is never set (`wire.py` 15, 56-59). -/
structure PhaseWire where
  phase : Char
  isOpen : Option Bool
  deriving DecidableEq, Repr

/-- `try: status = obj["phase_X_…"] … except AttributeError: pass` (`read.py` 704-740, 767-802). -/
def attributeWire (o : Obj) (suffix : Txt) (opens : List Txt) (p : Char) : List PhaseWire :=
  match o.get ("phase_".toList ++ [p] ++ suffix) with
  | .ok status => [⟨p, some (status ∈ opens)⟩]
  | .error _ => []

/-- `for p in phases: …; if obj["status"] == "OPEN": …` inside one `try` (`read.py` 742-753, 804-815): the wire is in the list before
the status is asked for, and a missing status ends the loop. -/
def listedWires (o : Obj) : List Char → List PhaseWire
  | [] => []
  | p :: ps => match o.get "status".toList with
    | .ok status => ⟨p, some (status = "OPEN".toList)⟩ :: listedWires o ps
    | .error _ => [⟨p, none⟩]

/-- The wires of a fuse or switch (`read.py` 703-755, 766-817). -/
def deviceWires (o : Obj) (suffix : Txt) (opens : List Txt) (phases : List Char) : List PhaseWire :=
  let wires := ['A', 'B', 'C'].flatMap (attributeWire o suffix opens)
  if wires.length = 0 then listedWires o phases else wires

/-- The wires of a fuse (`read.py` 703-755). -/
def fuseWires (o : Obj) (phases : List Char) : List PhaseWire :=
  deviceWires o "_status".toList ["BLOWN".toList, "OPEN".toList] phases

/-- The wires of a switch or recloser (`read.py` 766-817). -/
def switchWires (o : Obj) (phases : List Char) : List PhaseWire := deviceWires o "_state".toList ["OPEN".toList] phases

/-! ### Lengths and conductors -/

/-- `float(x)` in the reader (`read.py` 208, 887, 895, 912): `ValueError` if it is no number. -/
def floatOf (t : Txt) : Py ℚ := match pyFloat t with
  | some x => .ok x
  | none => .error .value

/-- `complex(x)` in the reader (`read.py` 277-288): `ValueError` if it is no number. -/
def complexOf (t : Txt) : Py (ℚ × ℚ) := match pyComplex t with
  | some x => .ok x
  | none => .error .value

/-- `parse_line_length` (`read.py` 199-211): the length in metres, and the line, whose attribute may have been rewritten. -/
def parseLineLength (o : Obj) : Py (ℚ × Obj) := match o.get "length".toList with
  | .error _ => .error .raised
  | .ok t =>
    if (find "km".toList t).isSome then do
      let x ← floatOf (removeNonnum t)
      .ok (x * 1000, { o with attrs := store "length".toList (removeNonnum t) o.attrs })
    else do
      let x ← floatOf t
      .ok (x * (3048 / 10000), o)

/-- An attribute of a conductor that may carry a unit (`read.py` 892-899, 900-910, 1180-1191): with the unit, the attribute is
rewritten without it and its value is multiplied by `factor`. -/
def unitAttribute (o : Obj) (k unit : Txt) (factor : ℚ) : Py (Option ℚ × Obj) := match o.get k with
  | .error _ => .ok (none, o)
  | .ok t =>
    if (find unit t).isSome then do
      let x ← floatOf (removeNonnum t)
      .ok (some (x * factor), { o with attrs := store k (removeNonnum t) o.attrs })
    else do
      let x ← floatOf t
      .ok (some x, o)

/-- `try: … = float(obj[k]) except AttributeError: pass` (`read.py` 886-889, 911-922). -/
def floatAttribute (o : Obj) (k : Txt) : Py (Option ℚ) := match o.get k with
  | .error _ => .ok none
  | .ok t => do
    let x ← floatOf t
    .ok (some x)

/-- The attributes of a bare wire the impedance is computed from (`wire.py` 15-19). Diameter in inches, radius in feet,
resistance in ohms per mile. -/
structure BareWire where
  phase : Char
  diameter : Option ℚ
  gmr : Option ℚ
  resistance : Option ℚ
  deriving DecidableEq, Repr

/-- The body of the loop over the conductors of an overhead line (`read.py` 881-922), the ratings left out: the wire and the
conductor object, which may have been rewritten. -/
def overheadConductor (o : Obj) (p : Char) : Py (BareWire × Obj) := do
  let d ← floatAttribute o "diameter".toList
  let (gmr, o) ← unitAttribute o "geometric_mean_radius".toList "cm".toList (1 / (3048 / 100))
  let (r, o) ← unitAttribute o "resistance".toList "Ohm/km".toList (1609344 / 1000000)
  .ok (⟨p, some (d.getD (1 / 2)), gmr, r⟩, o)

end Verif.Glm
