import Verif.Model.GlmObjects
import Mathlib.LinearAlgebra.Matrix.NonsingularInverse
import Mathlib.Analysis.SpecialFunctions.Log.Basic
import Mathlib.Analysis.SpecialFunctions.Sqrt
import Mathlib.Analysis.Complex.Norm

/-!
# Impedance and charging of lines from conductors and spacing

`/repo/src/ditto/readers/gridlabd/line_impedance.py` and the places in `read.py` that call it. Numbers of the file are
rational, computed ones real or complex. Where numpy would go on with `nan` or `inf`, which `UnbalancedLine` refuses later
(`unbalanced_line.py` 66-74), the model raises at once.
-/

namespace Verif.Glm

/-! ### Spacing -/

/-- `lookup` (`line_impedance.py` 10-11). -/
def spacingLetters : List Char := ['A', 'B', 'C', 'N', 'E']

/-- `rev_lookup` (`line_impedance.py` 13); `none` is a `KeyError`. -/
def revLookup (p : Char) : Option ℕ := spacingLetters.findIdx? (· = p)

/-- The array `distances`, five by five (`line_impedance.py` 49). -/
abbrev Table := ℕ → ℕ → ℚ

/-- `distances[i][j] = v` (`line_impedance.py` 60-63). -/
def Table.put (T : Table) (i j : ℕ) (v : ℚ) : Table := fun a b => if a = i ∧ b = j then v else T a b

/-- The name `"distance_%s%s" % (lookup[i], lookup[j])` (`line_impedance.py` 53). -/
def distanceName (i j : ℕ) : Txt := "distance_".toList ++ [spacingLetters.getD i ' ', spacingLetters.getD j ' ']

/-- The pairs of the two loops (`line_impedance.py` 51-52). -/
def spacingPairs : List (ℕ × ℕ) := [(0, 1), (0, 2), (0, 3), (0, 4), (1, 2), (1, 3), (1, 4), (2, 3), (2, 4), (3, 4)]

/-- One turn of the loops (`line_impedance.py` 53-69). Writing the text back without its unit has no effect on a later reading and is
left out. -/
def overheadSpacingStep (o : Obj) (T : Table) (p : ℕ × ℕ) : Py Table := match o.get (distanceName p.1 p.2) with
  | .error _ => .ok T
  | .ok t => do
    let d ← floatOf (removeNonnum t)
    if d = 0 then .ok T else .ok ((((T.put p.1 p.2 d).put p.2 p.1 d).put p.1 p.1 0).put p.2 p.2 0)

/-- `compute_overhead_spacing` (`line_impedance.py` 45-295). The positions `X`, `Y` it sets on the wires are not used for the power flow
and are left out; for two spaced conductors their computation raises if the line has another conductor, and this is left out
too. -/
def overheadSpacing (o : Obj) : Py Table := spacingPairs.foldlM (overheadSpacingStep o) fun _ _ => -1

/-- `~np.all(distances, axis=0, where=[-1])` (`read.py` 940, 1240): the columns with a zero, in order. The rows are chosen the
same way. -/
def columnsKept (T : Table) : List ℕ := (List.range 5).filter fun j => (List.range 5).any fun i => T i j = 0

/-- `~np.all(distances, axis=1, where=[-1])` (`read.py` 940, 1240). -/
def rowsKept (T : Table) : List ℕ := (List.range 5).filter fun i => (List.range 5).any fun j => T i j = 0

/-- `striped_distances[i][j]` (`read.py` 940, 1240; `line_impedance.py` 617); `none` is an `IndexError`. -/
def stripedDistance (T : Table) (i j : ℕ) : Option ℚ := match (rowsKept T)[i]?, (columnsKept T)[j]? with
  | some a, some b => some (T a b)
  | _, _ => none

/-! ### Impedances -/

/-- `calc_Zii` (`line_impedance.py` 807-819), ohms per mile. -/
noncomputable def selfImpedance (underground : Bool) (r gmr : ℝ) : ℂ :=
  ⟨r + if underground then 9327 / 100000 else 9530 / 100000,
   12134 / 100000 * (Real.log (1 / gmr) + if underground then 795153 / 100000 else 793402 / 100000)⟩

/-- `calc_Zij` (`line_impedance.py` 821-833), ohms per mile. -/
noncomputable def mutualImpedance (underground : Bool) (d : ℝ) : ℂ :=
  ⟨if underground then 9327 / 100000 else 9530 / 100000,
   12134 / 100000 * (Real.log (1 / d) + if underground then 795153 / 100000 else 793402 / 100000)⟩

/-- `kron_reduction` (`line_impedance.py` 835-842); `np.linalg.inv` raises for a singular matrix. -/
noncomputable def kronReduction {K m k : Type} [Field K] [Fintype k] [DecidableEq k] (Zij : Matrix m m K) (Zin : Matrix m k K)
    (Znj : Matrix k m K) (Znn : Matrix k k K) : Py (Matrix m m K) :=
  open Classical in
  if Znn.det = 0 then .error .value else .ok (Zij - Zin * Znn⁻¹ * Znj)

/-- Position in the list of wires of the wire with index `a` in the matrix (`line_impedance.py` 600-602, 621). -/
def wireAt (wires : List BareWire) (a : ℕ) : Option ℕ := wires.findIdx? fun w => revLookup w.phase = some a

/-- The impedance of a wire with itself (`line_impedance.py` 604-614). -/
noncomputable def wireImpedance (w : BareWire) : ℂ := match w.resistance, w.gmr with
  | some r, some g => selfImpedance false r g
  | _, _ => 0

/-- The double loop of `compute_overhead_impedance` (`line_impedance.py` 598-623): the row and column of an entry are given by the
phases of its wires, its distance by their positions in the list. Wires have different phases, so no entry is set twice. -/
noncomputable def overheadPrimitive (wires : List BareWire) (T : Table) : Matrix (Fin 4) (Fin 4) ℂ := fun a b =>
  match wireAt wires a, wireAt wires b with
  | some i, some j =>
    if i = j then wireImpedance (wires.getD i ⟨' ', none, none, none⟩) else mutualImpedance false ((stripedDistance T i j).getD 1)
  | _, _ => 0

/-- No lookup fails and no logarithm is taken of a number that is not positive (`line_impedance.py` 599-623). -/
def OverheadReadable (wires : List BareWire) (T : Table) : Prop :=
  (∀ w ∈ wires, ∃ a < 4, revLookup w.phase = some a) ∧
  (∀ w ∈ wires, ∀ r g, w.resistance = some r → w.gmr = some g → 0 < g) ∧
  ∀ i < wires.length, ∀ j < wires.length, i ≠ j → ∃ d, stripedDistance T i j = some d ∧ 0 < d

/-- The phases a line keeps, in order (`line_impedance.py` 636-640). -/
def keptPhases (phases : List Char) : List (Fin 3) := [(0 : Fin 3), 1, 2].filter fun i => spacingLetters.getD i ' ' ∈ phases

/-- `compute_overhead_impedance` (`line_impedance.py` 597-642), ohms per mile; the size of the matrix is the number of phases kept. -/
noncomputable def overheadImpedance (wires : List BareWire) (T : Table) (phases : List Char) (hasNeutral : Bool) :
    Py (Matrix (Fin (keptPhases phases).length) (Fin (keptPhases phases).length) ℂ) :=
  open Classical in
  if ¬ OverheadReadable wires T then .error .value
  else do
    let M := overheadPrimitive wires T
    let R : Matrix (Fin 3) (Fin 3) ℂ ← if hasNeutral then
        kronReduction (M.submatrix (Fin.castAdd 1) (Fin.castAdd 1)) (M.submatrix (Fin.castAdd 1) (Fin.natAdd 3))
          (M.submatrix (Fin.natAdd 3) (Fin.castAdd 1)) (M.submatrix (Fin.natAdd 3) (Fin.natAdd (m := 1) 3))
      else .ok (M.submatrix (Fin.castAdd 1) (Fin.castAdd 1))
    .ok (R.submatrix (keptPhases phases).get (keptPhases phases).get)

/-- `convert_Z_matrix_per_mile_to_per_meter` (`read.py` 213-216, 32). -/
noncomputable def perMeter {n : Type} (Z : Matrix n n ℂ) : Matrix n n ℂ := fun i j => Z i j / ((1609344 / 1000 : ℝ) : ℂ)

/-- `try_load_direct_line_impedance` and `try_load_direct_line_capacitance` (`line_impedance.py` 769-805): `hasattr` asks for `z11`
where the object has `_z11`, so there never is a direct matrix. -/
def directMatrix (_ : Obj) : Option (Matrix (Fin 3) (Fin 3) ℂ) := none

/-! ### Charging -/

/-- The distance of a conductor to the image of another (`line_impedance.py` 504-524), in feet. A phase pair is what is not with the
neutral; the neutral with itself is treated like a phase with itself. The root of a negative number is `nan` in the code and
zero here. -/
noncomputable def imageDistance (T : Table) (i j : ℕ) : ℝ :=
  if i = j then Real.sqrt (0 ^ 2 + (2 * T i 4 : ℝ) ^ 2)
  else if i ≠ 3 ∧ j ≠ 3 then Real.sqrt ((T i j : ℝ) ^ 2 + (2 * T i 4 : ℝ) ^ 2)
  else Real.sqrt (Real.sqrt ((T i 3 : ℝ) ^ 2 - (T i 4 - T 3 4 : ℝ) ^ 2) ^ 2 + (T i 4 + T 3 4 : ℝ) ^ 2)

/-- The potential coefficients before reduction (`line_impedance.py` 487-533), rows and columns in the order of the wires. The
diameter is in inches, the distances in feet. A missing diameter ends the function before. Where a distance is not given, the code
takes the complex logarithm of a negative number; the model is meant for spacings that give all distances. -/
noncomputable def potentialPrimitive (wires : List BareWire) (T : Table) : Matrix (Fin wires.length) (Fin wires.length) ℝ := fun i j =>
  let a := (revLookup (wires.get i).phase).getD 0
  let b := (revLookup (wires.get j).phase).getD 0
  1117689 / 100000 * Real.log (imageDistance T a b / ((if i = j then ((wires.get i).diameter.getD 0 : ℝ) / 2 else 0) + T a b))

/-- The reduction of the neutral, the last conductor (`line_impedance.py` 535-546); the neutral's own coefficient is a number. -/
noncomputable def reducedPotential {n : ℕ} (P : Matrix (Fin (n + 1)) (Fin (n + 1)) ℝ) : Matrix (Fin n) (Fin n) ℝ := fun i j =>
  P i.castSucc j.castSucc - P i.castSucc (Fin.last n) * (P (Fin.last n) (Fin.last n))⁻¹ * P (Fin.last n) j.castSucc

/-- The end of `compute_overhead_capacitance` (`line_impedance.py` 548-556): susceptance per mile from potential coefficients, divided by
two. The result is the imaginary part. -/
noncomputable def chargingOfPotential {n : ℕ} (P : Matrix (Fin n) (Fin n) ℝ) : Matrix (Fin n) (Fin n) ℝ := fun i j =>
  2 * Real.pi * 60 * (1 / 1000000) * P⁻¹ i j / 2

/-- The susceptance of one cable with concentric neutral (`line_impedance.py` 567-587): overall diameter, strand diameter, number of strands,
conductor diameter, all in inches. `hasattr(wire, "_shield_gmr")` never holds. -/
noncomputable def cableSusceptance (outer strand : ℝ) (k : ℝ) (conductor : ℝ) : ℝ :=
  let Rb := (outer - strand) / 2
  773619 / 10000 * (1 / 1000000) / (Real.log (Rb / (conductor / 2)) - 1 / k * Real.log (k * (strand / 2) / Rb))

/-- What `compute_underground_capacitance` puts on the diagonal for a cable (`line_impedance.py` 589-595): half of it. -/
noncomputable def cableCharging (outer strand : ℝ) (k : ℝ) (conductor : ℝ) : ℝ := cableSusceptance outer strand k conductor / 2

/-- What `compute_underground_capacitance` returns (`line_impedance.py` 558-595), the imaginary part: `b` has the susceptance of each
wire in order, `none` for the neutral. -/
noncomputable def cableMatrix (b : List (Option ℝ)) : Matrix (Fin 3) (Fin 3) ℝ := fun i j =>
  if i = j then ((b.getD i none).getD 0) / 2 else 0

/-- The shunt matrix handed to `UnbalancedLine` (`read.py` 213-216, 950-951, 1250; `threephaseparser.py` 316-319 with
`enable_line_capacitance`): per meter instead of per mile. -/
noncomputable def shuntPerMeter {n : ℕ} (B : Matrix (Fin n) (Fin n) ℝ) (i j : ℕ) : Option ℂ :=
  if h : i < n ∧ j < n then some (Complex.I * ((B ⟨i, h.1⟩ ⟨j, h.2⟩ / (1609344 / 1000) : ℝ) : ℂ)) else none

end Verif.Glm
