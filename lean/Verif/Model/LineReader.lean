import Verif.Model.LineImpedance
import Verif.Model.GlmReader
import Verif.Model.UnbalancedLine
import Mathlib.Analysis.SpecialFunctions.Pow.Real

/-!
# Reading lines: overhead, triplex and underground

`/repo/src/ditto/readers/gridlabd/read.py` 825-1252 and the functions of `line_impedance.py` it calls. The object of the line, whose attribute
`length` may be rewritten, is read only once, so this rewriting is left out. A line without the attribute `configuration` raises here; in the code
only the first such line does, a later one gets the configuration of the line before it. Where numpy would go on with `nan`, `inf` or the logarithm of
a negative number, the model raises.
-/

namespace Verif.Glm

/-! ### Conductors -/

/-- The conductors a configuration names, with their phases (`read.py` 849-878, 1001-1029, 1112-1144). -/
def conductorNames (c : Obj) (ps : List Char) : List (Char × Txt) :=
  ps.filterMap fun p => (c.attr ("conductor_".toList ++ [p])).map fun n => (p, n)

/-- The ratings of a conductor (`read.py` 911-922, 1064-1075, 1208-1219), which are not kept. -/
def readRatings (o : Obj) : Py Unit := do
  let _ ← floatAttribute o "rating.summer.continuous".toList
  let _ ← floatAttribute o "rating.summer.emergency".toList
  .ok ()

/-- The loop over the conductors of a line (`read.py` 881-922, 1043-1075, 1148-1219): the wires, and the objects with the conductors as they are
rewritten. -/
def readWires {α : Type} (read : Obj → Char → Py (α × Obj)) : List (Txt × Obj) → List (Char × Txt) → Py (List α × List (Txt × Obj))
  | objs, [] => .ok ([], objs)
  | objs, (p, n) :: rest => match lookup n objs with
    | none => .error .key
    | some o => do
      let w ← read o p
      readRatings w.2
      let r ← readWires read (store n w.2 objs) rest
      .ok (w.1 :: r.1, r.2)

/-- A wire of a triplex line (`read.py` 1043-1062). Radius in feet, resistance in ohms per mile. -/
structure TriplexWire where
  phase : Char
  gmr : Option ℚ
  resistance : Option ℚ
  deriving DecidableEq, Repr

/-- The body of the loop over the conductors of a triplex line (`read.py` 1043-1062). -/
def triplexConductor (o : Obj) (p : Char) : Py (TriplexWire × Obj) := do
  let gmr ← floatAttribute o "geometric_mean_radius".toList
  let r ← floatAttribute o "resistance".toList
  .ok (⟨p, gmr, r⟩, o)

/-- A cable (`read.py` 1148-1206). Diameters in inches, radii in feet, resistances in ohms per mile. Missing diameters of the cable and of its
conductor are missing attributes, everything else is `None` if it is missing (`wire.py` 16-35). -/
structure CableWire where
  phase : Char
  outer : Option ℚ
  strand : Option ℚ
  strands : Option ℤ
  conductor : Option ℚ
  gmr : Option ℚ
  resistance : Option ℚ
  strandGmr : Option ℚ
  strandResistance : Option ℚ
  deriving DecidableEq, Repr

/-- `int(x)` of a number (`read.py` 1163-1164): towards zero. -/
def truncate (x : ℚ) : ℤ := x.num.tdiv x.den

/-- The body of the loop over the conductors of an underground line (`read.py` 1148-1206). -/
def undergroundConductor (o : Obj) (p : Char) : Py (CableWire × Obj) := do
  let outer ← floatAttribute o "outer_diameter".toList
  let strand ← floatAttribute o "neutral_diameter".toList
  let strands ← floatAttribute o "neutral_strands".toList
  let conductor ← floatAttribute o "conductor_diameter".toList
  let gmr ← floatAttribute o "conductor_gmr".toList
  let r ← unitAttribute o "conductor_resistance".toList "Ohm/km".toList (1609344 / 1000000)
  let strandGmr ← floatAttribute o "neutral_gmr".toList
  let strandResistance ← floatAttribute o "neutral_resistance".toList
  .ok (⟨p, outer, strand, strands.map truncate, conductor, gmr, r.1, strandGmr, strandResistance⟩, r.2)

/-! ### Spacing -/

/-- `n_entries` before the earth is taken off (`line_impedance.py` 71-76). -/
def spacedEntries (T : Table) : ℕ :=
  Nat.sqrt (((List.range 5).flatMap fun i => (List.range 5).map fun j => (i, j)).countP fun p => T p.1 p.2 ≠ -1)

/-- `has_earth` (`line_impedance.py` 77): a number in the last row. -/
def hasEarth (T : Table) : Bool := (List.range 5).any fun j => -1 < T 4 j

/-- `max_from` and `max_to` (`line_impedance.py` 64-67): the two conductors with the largest distance, the first such pair in the order of the loop. -/
def furthest (T : Table) : Option (ℕ × ℕ) :=
  [(0, 1), (0, 2), (0, 3), (1, 2), (1, 3), (2, 3)].foldl (fun m p =>
    if T p.1 p.2 = -1 then m
    else match m with
      | none => some p
      | some q => if T q.1 q.2 < T p.1 p.2 then some p else some q) none

/-- The places of the wires (`line_impedance.py` 79-293), which are not used: only that finding them raises for two spaced conductors, if the line
has another conductor, or if their heights are further apart than they are. For other numbers of conductors exceptions are caught. -/
def placeWires (T : Table) (ps : List Char) : Py Unit :=
  if spacedEntries T - (if hasEarth T then 1 else 0) = 2 ∧ ps ≠ [] then
    match furthest T with
    | none => .error .key
    | some (a, b) =>
      if ps.any fun p => revLookup p ≠ some a ∧ revLookup p ≠ some b then .error .key
      else if hasEarth T ∧ ¬ |T a 4 - T b 4| ≤ T a b then .error .value
      else .ok ()
  else .ok ()

/-- The distance of two cables (`line_impedance.py` 305-308): for zero the code takes the mean of two outer diameters. Without wires `%` raises. -/
def touching (outers : List ℚ) (p : ℕ × ℕ) (d : ℚ) : Py ℚ :=
  if d ≠ 0 then .ok d
  else if outers = [] then .error .value
  else .ok ((outers.getD (p.1 % outers.length) 0 + outers.getD (p.2 % outers.length) 0) / 2)

/-- One turn of the loops of `compute_underground_spacing` (`line_impedance.py` 299-314). -/
def undergroundSpacingStep (outers : List ℚ) (o : Obj) (T : Table) (p : ℕ × ℕ) : Py Table := match o.get (distanceName p.1 p.2) with
  | .error _ => .ok T
  | .ok t => do
    let d ← floatOf (removeNonnum t)
    let d ← touching outers p d
    .ok ((((T.put p.1 p.2 d).put p.2 p.1 d).put p.1 p.1 0).put p.2 p.2 0)

/-- `compute_underground_spacing` (`line_impedance.py` 297-480); the places of the wires, whose computation raises nothing for three and four
conductors and nothing else for two, are left out. -/
def undergroundSpacing (outers : List ℚ) (o : Obj) : Py Table :=
  spacingPairs.foldlM (undergroundSpacingStep outers o) fun _ _ => -1

/-! ### Charging of overhead lines -/

/-- An entry of `P_primitive` (`line_impedance.py` 487-533) by the positions of the wires. -/
noncomputable def potentialAt (wires : List BareWire) (T : Table) (i j : ℕ) : ℝ :=
  let w := wires.getD i ⟨' ', none, none, none⟩
  let a := (revLookup w.phase).getD 0
  let b := (revLookup (wires.getD j ⟨' ', none, none, none⟩).phase).getD 0
  1117689 / 100000 * Real.log (imageDistance T a b / ((if i = j then (w.diameter.getD 0 : ℝ) / 2 else 0) + T a b))

/-- No root of a negative number and no logarithm of a number that is not positive (`line_impedance.py` 501-533). -/
def ChargingReadable (wires : List BareWire) (T : Table) : Prop :=
  (∀ w ∈ wires, ∃ d, w.diameter = some d ∧ 0 < d) ∧
  (∀ u ∈ wires, ∀ v ∈ wires, u.phase ≠ v.phase → ∀ a b, revLookup u.phase = some a → revLookup v.phase = some b →
    0 < T a b ∧ (v.phase = 'N' → (T a 4 - T 3 4) ^ 2 ≤ T a 3 ^ 2 ∧ (T a 4 - T 3 4) ^ 2 < T a 3 ^ 2 + (T a 4 + T 3 4) ^ 2)) ∧
  ∀ u ∈ wires, ∀ a, revLookup u.phase = some a → T a a = 0 ∧ T a 4 ≠ 0

/-- `P_abc` (`line_impedance.py` 535-546). The neutral is the last wire. -/
noncomputable def potentialReduced (wires : List BareWire) (T : Table) :
    Matrix (Fin (wires.filter (·.phase ≠ 'N')).length) (Fin (wires.filter (·.phase ≠ 'N')).length) ℝ := fun i j =>
  if 'N' ∈ wires.map BareWire.phase then
    let m := wires.length - 1
    potentialAt wires T i j - potentialAt wires T i m * (potentialAt wires T m m)⁻¹ * potentialAt wires T m j
  else potentialAt wires T i j

/-- `compute_overhead_capacitance` (`line_impedance.py` 482-556): the imaginary part. -/
noncomputable def overheadCharging (wires : List BareWire) (T : Table) :
    Py (Matrix (Fin (wires.filter (·.phase ≠ 'N')).length) (Fin (wires.filter (·.phase ≠ 'N')).length) ℝ) :=
  open Classical in
  if ¬ ChargingReadable wires T then .error .value
  else if 'N' ∈ wires.map BareWire.phase ∧ potentialAt wires T (wires.length - 1) (wires.length - 1) = 0 then .error .value
  else if (potentialReduced wires T).det = 0 then .error .value
  else .ok (chargingOfPotential (potentialReduced wires T))

/-! ### Triplex lines -/

/-- `wire_map` (`line_impedance.py` 718). -/
def triplexIndex (p : Char) : Option ℕ := ['1', '2', 'N'].findIdx? (· = p)

/-- The wire with this index (`line_impedance.py` 730, 746). -/
def triplexAt (wires : List TriplexWire) (a : ℕ) : Option TriplexWire := wires.find? fun w => triplexIndex w.phase = some a

/-- The matrix of `compute_triplex_impedance` (`line_impedance.py` 715-757): `d` has the distances between the phases, and between phases and neutral,
in feet. -/
noncomputable def triplexPrimitive (wires : List TriplexWire) (d : Option (ℚ × ℚ)) : Matrix (Fin 3) (Fin 3) ℂ := fun a b =>
  match triplexAt wires a, triplexAt wires b with
  | some u, some v =>
    if a = b then match u.resistance, u.gmr with
      | some r, some g => selfImpedance false r g
      | _, _ => 0
    else match d with
      | some d => mutualImpedance false (if u.phase = 'N' ∨ v.phase = 'N' then (d.2 : ℝ) else (d.1 : ℝ))
      | none => 0
  | _, _ => 0

/-- No logarithm of a number that is not positive (`line_impedance.py` 735-754). -/
def TriplexReadable (wires : List TriplexWire) (d : Option (ℚ × ℚ)) : Prop :=
  (∀ w ∈ wires, ∀ r g, w.resistance = some r → w.gmr = some g → 0 < g) ∧ ∀ x, d = some x → 0 < x.1 ∧ 0 < x.2

/-- `compute_triplex_impedance` (`line_impedance.py` 715-767), ohms per mile: the neutral is always eliminated. -/
noncomputable def triplexImpedance (wires : List TriplexWire) (d : Option (ℚ × ℚ)) : Py (Matrix (Fin 2) (Fin 2) ℂ) :=
  open Classical in
  if ¬ TriplexReadable wires d then .error .value
  else
    let M := triplexPrimitive wires d
    kronReduction (M.submatrix (Fin.castAdd 1) (Fin.castAdd 1)) (M.submatrix (Fin.castAdd 1) (Fin.natAdd 2))
      (M.submatrix (Fin.natAdd 2) (Fin.castAdd 1)) (M.submatrix (Fin.natAdd 2) (Fin.natAdd (m := 1) 2))

/-- The distances between the wires of a triplex line, in feet (`read.py` 1031-1041, `line_impedance.py` 719-727). The insulation and the diameter of
the configuration are those of its last wire. -/
def triplexDistances (c : Obj) (wires : List TriplexWire) : Py (Option (ℚ × ℚ)) := do
  let t ← floatAttribute c "insulation_thickness".toList
  let d ← floatAttribute c "diameter".toList
  match wires, t, d with
  | _ :: _, some t, some d => .ok (some ((d + 2 * t) / 12, (d + t) / 12))
  | _, _, _ => .ok none

/-! ### Underground lines -/

/-- What `compute_underground_impedance` gathers for a wire (`line_impedance.py` 652-672): distance between a conductor and its neutral in feet, number of
strands, resistance and radius of the conductor and of the neutral. -/
structure Cable where
  own : ℚ
  k : ℕ
  r : ℚ
  gmr : ℚ
  rn : ℚ
  gmrn : ℝ

/-- A conductor with concentric neutral (`line_impedance.py` 658-672; `_shield_gmr` is never set). With zero or a negative number of strands the model
raises. -/
noncomputable def phaseCable (w : CableWire) : Py Cable :=
  match w.outer, w.strand, w.strands, w.gmr, w.resistance, w.strandGmr, w.strandResistance with
  | some outer, some strand, some k, some gmr, some r, some gs, some rs =>
    if k ≤ 0 then .error .value
    else
      let own := (outer - strand) / 24
      .ok ⟨own, k.toNat, r, gmr, rs / k, ((gs * k * own ^ (k.toNat - 1) : ℚ) : ℝ) ^ (1 / (k.toNat : ℝ))⟩
  | _, _, _, _, _, _, _ => .error .type

/-- A neutral of its own (`line_impedance.py` 653-656). -/
noncomputable def neutralCable (w : CableWire) : Py Cable := match w.gmr, w.resistance with
  | some gmr, some r => .ok ⟨0, 1, 0, 0, r, gmr⟩
  | _, _ => .error .type

/-- The data of a wire of an underground line (`line_impedance.py` 652-672). -/
noncomputable def cableOf (w : CableWire) : Py Cable := if w.phase = 'N' then neutralCable w else phaseCable w

/-- `conductor_neutral_distances[i][j]` (`line_impedance.py` 674-682): `k` is the number of strands of the last conductor. -/
noncomputable def neutralDistance (cables : List Cable) (k : ℕ) (D : ℕ → ℕ → ℝ) (i j : ℕ) : ℝ :=
  let own := fun i => ((cables.getD i ⟨0, 0, 0, 0, 0, 0⟩).own : ℝ)
  if i = j then own i else (D i j ^ k - own j ^ k) ^ (1 / (k : ℝ))

/-- The matrix `_Z` (`line_impedance.py` 684-706): the first `n` wires, the conductors, and then the neutral of every wire. -/
noncomputable def cablePrimitive (n : ℕ) (cables : List Cable) (k : ℕ) (D : ℕ → ℕ → ℝ) :
    Matrix (Fin n ⊕ Fin cables.length) (Fin n ⊕ Fin cables.length) ℂ := fun a b =>
  let c := fun i => cables.getD i ⟨0, 0, 0, 0, 0, 0⟩
  match a, b with
  | .inl i, .inl j => if i = j then selfImpedance true (c i).r (c i).gmr else mutualImpedance true (D i j)
  | .inl i, .inr j => mutualImpedance true (neutralDistance cables k D i j)
  | .inr i, .inl j => mutualImpedance true (neutralDistance cables k D j i)
  | .inr i, .inr j => if i = j then selfImpedance true (c i).rn (c i).gmrn else mutualImpedance true (D i j)

/-- No lookup fails, and no root or logarithm of a number that is not positive (`line_impedance.py` 652-706). -/
def CablesReadable (n : ℕ) (cables : List Cable) (k : ℕ) (T : Table) : Prop :=
  (∀ i < n, ∀ c, cables[i]? = some c → 0 < c.gmr ∧ 0 < c.own) ∧ (∀ c ∈ cables, 0 < c.gmrn) ∧
  (∀ i < cables.length, ∀ j < cables.length, i ≠ j → ∃ d, stripedDistance T i j = some d ∧ 0 < d) ∧
  ∀ i < n, ∀ j < cables.length, i ≠ j → ∀ d c, stripedDistance T i j = some d → cables[j]? = some c → c.own ^ k < d ^ k

/-- `compute_underground_impedance` (`line_impedance.py` 644-713), ohms per mile. The neutral of its own, if there is one, is the last wire. -/
noncomputable def undergroundImpedance (wires : List CableWire) (T : Table) :
    Py (Matrix (Fin (wires.filter (·.phase ≠ 'N')).length) (Fin (wires.filter (·.phase ≠ 'N')).length) ℂ) :=
  open Classical in do
    let cables ← wires.mapM cableOf
    let n := (wires.filter (·.phase ≠ 'N')).length
    let k := (cables.getD (n - 1) ⟨0, 0, 0, 0, 0, 0⟩).k
    if ¬ CablesReadable n cables k T then .error .value
    else
      let M := cablePrimitive n cables k fun i j => (stripedDistance T i j).getD 1
      kronReduction M.toBlocks₁₁ M.toBlocks₁₂ M.toBlocks₂₁ M.toBlocks₂₂

/-- The susceptance of a wire of an underground line (`line_impedance.py` 561-590), `none` for a neutral of its own. -/
noncomputable def wireSusceptance (w : CableWire) : Py (Option ℝ) :=
  open Classical in
  if w.phase = 'N' then .ok none
  else match w.outer, w.strand, w.strands, w.conductor with
    | some outer, some strand, some k, some conductor =>
      if 0 < k ∧ 0 < strand ∧ strand < outer ∧ 0 < conductor ∧
          Real.log (((outer - strand : ℚ) : ℝ) / 2 / ((conductor : ℝ) / 2)) - 1 / (k : ℝ) * Real.log ((k : ℝ) * ((strand : ℝ) / 2) / (((outer - strand : ℚ) : ℝ) / 2)) ≠ 0
      then .ok (some (cableSusceptance outer strand k conductor)) else .error .value
    | _, _, _, _ => .error .type

/-- `compute_underground_capacitance` (`line_impedance.py` 558-595): the imaginary part. -/
noncomputable def undergroundCharging (wires : List CableWire) : Py (Matrix (Fin 3) (Fin 3) ℝ) := do
  let b ← wires.mapM wireSusceptance
  .ok (cableMatrix b)

/-! ### Lines -/

/-- What is kept of a line (`read.py` 834, 943, 951, 986, 1086, 1097, 1243, 1250): impedance and shunt admittance per meter, and the length in meters. -/
structure LineData where
  n : ℕ
  Z : Matrix (Fin n) (Fin n) ℂ
  S : ℕ → ℕ → Option ℂ
  length : ℚ

/-- The configuration of a line (`read.py` 847-848, 999-1000, 1110-1111). -/
def configurationOf (objs : List (Txt × Obj)) (o : Obj) : Py Obj := match o.attr "configuration".toList with
  | none => .error .raised
  | some n => match lookup n objs with
    | none => .error .key
    | some c => .ok c

/-- The table of distances of an overhead line (`read.py` 924-931); `v` is the one of the line before it, which is kept if the configuration has no
spacing. -/
def overheadTable (v : Option Table) (objs : List (Txt × Obj)) (c : Obj) (ps : List Char) : Py (Option Table) := match c.attr "spacing".toList with
  | none => .ok v
  | some n => match lookup n objs with
    | none => .error .key
    | some s => do
      let T ← overheadSpacing s
      placeWires T ps
      .ok (some T)

/-- `distances` where it is used (`read.py` 940, 1240): not set before the first line. -/
def tableSet : Option Table → Py Table
  | some T => .ok T
  | none => .error .raised

/-- An overhead line (`read.py` 825-977). The last result is the variable `distances`. -/
noncomputable def readOverhead (v : Option Table) (objs : List (Txt × Obj)) (o : Obj) (ph : Phases) :
    Py (((List Char × LineData) × List (Txt × Obj)) × Option Table) := do
  let len ← parseLineLength o
  let c ← configurationOf objs o
  let r ← readWires overheadConductor objs (conductorNames c "ABCN".toList)
  let v' ← overheadTable v r.2 c (r.1.map BareWire.phase)
  let T ← tableSet v'
  let Z ← overheadImpedance r.1 T ph.phases ph.hasNeutral
  let B ← overheadCharging r.1 T
  .ok ((((r.1.map BareWire.phase).filter (· ≠ 'N'), ⟨_, perMeter Z, shuntPerMeter B, len.1⟩), r.2), v')

/-- A triplex line (`read.py` 979-1088); the constructor of `Line` leaves its shunt admittance `None` (`line.py` 37). -/
noncomputable def readTriplexLine (objs : List (Txt × Obj)) (o : Obj) : Py ((List Char × LineData) × List (Txt × Obj)) := do
  let len ← parseLineLength o
  let c ← configurationOf objs o
  let r ← readWires triplexConductor objs (conductorNames c "12N".toList)
  let d ← triplexDistances c r.1
  let Z ← triplexImpedance r.1 d
  .ok (((r.1.map TriplexWire.phase).filter (· ≠ 'N'), ⟨_, perMeter Z, fun _ _ => none, len.1⟩), r.2)

/-- The table of distances of an underground line (`read.py` 1221-1231): a wire without outer diameter raises an `AttributeError`, which is caught, and
the table stays that of the line before. -/
def undergroundTable (v : Option Table) (objs : List (Txt × Obj)) (c : Obj) (wires : List CableWire) : Py (Option Table) :=
  match c.attr "spacing".toList with
  | none => .ok v
  | some n => match lookup n objs with
    | none => .error .key
    | some s =>
      if wires.any fun w => w.outer.isNone then .ok v
      else do
        let T ← undergroundSpacing (wires.filterMap CableWire.outer) s
        .ok (some T)

/-- An underground line (`read.py` 1090-1252). -/
noncomputable def readUnderground (v : Option Table) (objs : List (Txt × Obj)) (o : Obj) :
    Py (((List Char × LineData) × List (Txt × Obj)) × Option Table) := do
  let len ← parseLineLength o
  let c ← configurationOf objs o
  let r ← readWires undergroundConductor objs (conductorNames c "ABCN".toList)
  let v' ← undergroundTable v r.2 c r.1
  let T ← tableSet v'
  let Z ← undergroundImpedance r.1 T
  let B ← undergroundCharging r.1
  .ok ((((r.1.map CableWire.phase).filter (· ≠ 'N'), ⟨_, perMeter Z, shuntPerMeter B, len.1⟩), r.2), v')

/-- A line, with the variable `distances` before and after (`read.py` 825-1252). -/
noncomputable def readLineVar (v : Option Table) (objs : List (Txt × Obj)) (o : Obj) (ph : Phases) :
    Py (((List Char × LineData) × List (Txt × Obj)) × Option Table) :=
  if o.cls = "overhead_line".toList then readOverhead v objs o ph
  else if o.cls = "triplex_line".toList then do
    let r ← readTriplexLine objs o
    .ok (r, v)
  else readUnderground v objs o

/-- The lines of a file one after another (`read.py` 237-248, 825-1252), with the variable `distances` kept between them. Other objects change neither
`distances` nor what lines read, and are left out. -/
noncomputable def readLinesVar : Option Table → List (Txt × Obj) → List (Obj × Phases) → Py (List (List Char × LineData))
  | _, _, [] => .ok []
  | v, objs, x :: xs => do
    let r ← readLineVar v objs x.1 x.2
    let rest ← readLinesVar r.2 r.1.2 xs
    .ok (r.1.1 :: rest)

/-- The reading of lines where every line sets `distances` itself (`read.py` 825-1252); with `distances` of another line before it, a line without spacing
would get that. -/
noncomputable def lineReader : LineReader LineData := fun objs o ph => do
  let r ← readLineVar none objs o ph
  .ok r.1

/-- The lines of a file one after another (`read.py` 825-1252), each with `distances` of its own. -/
noncomputable def readLines : List (Txt × Obj) → List (Obj × Phases) → Py (List (List Char × LineData))
  | _, [] => .ok []
  | objs, x :: xs => do
    let r ← lineReader objs x.1 x.2
    let rest ← readLines r.2 xs
    .ok (r.1 :: rest)

/-- The construction of `UnbalancedLine` from what is kept of a line (`threephaseparser.py` 313-325, with `enable_line_capacitance`, which is the
default). -/
noncomputable def lineMade (d : LineData) (phases : List (ℕ × ℕ)) : Except String Element := makeUnbalanced exactInverse d.Z d.S d.length phases

/-- The construction of `UnbalancedLine` from what is kept of a line without `enable_line_capacitance` (`threephaseparser.py` 313-325). -/
noncomputable def seriesMade (d : LineData) (phases : List (ℕ × ℕ)) : Except String Element := makeUnbalanced exactInverse d.Z (fun _ _ => none) d.length phases

end Verif.Glm
