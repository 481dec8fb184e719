import Verif.Model.Raw
import Verif.Model.GlmReader
import Mathlib.Data.Char
import Mathlib.Data.List.Sort
import Mathlib.Data.List.Lex
import Mathlib.Data.Prod.Lex

/-!
# The text of a RAW file: `Data.read`

`/repo/src/logic/network/parsers/raw/Data.py` 35-228, 290-771 and the record classes 777-1972, the python module `csv` as far
as `Data.py` uses it, and the lines of `parser.py` and `data_classes.py` that hand the records on.

Text is a list of characters with `\n` at line ends (`open` in text mode turns other line ends into `\n`). Numbers are
rational and not rounded. Fields of a record that nothing reads later (names, areas, zones, owners, ratings, control targets)
are checked as the code checks them, but not kept.
-/

namespace Verif.Raw

open Glm (strip cutAt pyFloat)

/-- A row of fields (`Data.py` 305-310). -/
abbrev Row := List Txt

/-! ### Lines and fields -/

/-- The states of the `csv` reader between characters (`Data.py` 305-309). -/
inductive CsvState
  | startRecord
  | startField
  | inField
  | inQuoted
  | quoteInQuoted
  deriving DecidableEq, Repr

/-- `csv.reader(lines, delimiter, quotechar="'", skipinitialspace=True)` (`Data.py` 305-309) over the whole text: `d` is the
delimiter, `f` the field read so far, `r` the fields of the row read so far. A line end inside quotes belongs to the field; a
quote that is never closed ends with the file; two quotes inside quotes are one quote; an empty line is a row without fields.
The limit of `csv` on the length of a field is not modelled. -/
def csvGo (d : Char) : CsvState → Txt → Row → Txt → List Row
  | .startRecord, _, _, [] => []
  | .startField, f, r, [] => [r ++ [f]]
  | .inField, f, r, [] => [r ++ [f]]
  | .inQuoted, f, r, [] => [r ++ [f]]
  | .quoteInQuoted, f, r, [] => [r ++ [f]]
  | .startRecord, f, r, c :: cs =>
    if c = '\n' then r :: csvGo d .startRecord [] [] cs
    else if c = '\'' then csvGo d .inQuoted f r cs
    else if c = ' ' then csvGo d .startField f r cs
    else if c = d then csvGo d .startField [] (r ++ [f]) cs
    else csvGo d .inField (f ++ [c]) r cs
  | .startField, f, r, c :: cs =>
    if c = '\n' then (r ++ [f]) :: csvGo d .startRecord [] [] cs
    else if c = '\'' then csvGo d .inQuoted f r cs
    else if c = ' ' then csvGo d .startField f r cs
    else if c = d then csvGo d .startField [] (r ++ [f]) cs
    else csvGo d .inField (f ++ [c]) r cs
  | .inField, f, r, c :: cs =>
    if c = '\n' then (r ++ [f]) :: csvGo d .startRecord [] [] cs
    else if c = d then csvGo d .startField [] (r ++ [f]) cs
    else csvGo d .inField (f ++ [c]) r cs
  | .inQuoted, f, r, c :: cs =>
    if c = '\'' then csvGo d .quoteInQuoted f r cs
    else csvGo d .inQuoted (f ++ [c]) r cs
  | .quoteInQuoted, f, r, c :: cs =>
    if c = '\'' then csvGo d .inQuoted (f ++ [c]) r cs
    else if c = d then csvGo d .startField [] (r ++ [f]) cs
    else if c = '\n' then (r ++ [f]) :: csvGo d .startRecord [] [] cs
    else csvGo d .inField (f ++ [c]) r cs

/-- `find_delim` (`Data.py` 290-296): a comma if the first line has one, else a space. -/
def findDelim (s : Txt) : Char := if ',' ∈ s.takeWhile (· ≠ '\n') then ',' else ' '

/-- The rows of a text (`Data.py` 298-310): an empty text has no `lines[0]`. -/
def rowsOf (s : Txt) : Py (List Row) :=
  if s = [] then .error .index else .ok ((csvGo (findDelim s) .startRecord [] [] s).map fun r => r.map strip)

/-! ### Fields -/

/-- `row[k]` (as in `Data.py` 846-880). -/
def cell (row : Row) (k : ℕ) : Py Txt := match row[k]? with
  | some t => .ok t
  | none => .error .index

/-- `int(token)` (`val_type(token)`, `Data.py` 40). -/
def toInt (t : Txt) : Py ℤ := match Glm.intOf t with
  | .ok n => .ok n
  | .error _ => .error .value

/-- `float(token)` (`val_type(token)`, `Data.py` 40). -/
def toFloat (t : Txt) : Py ℚ := match pyFloat t with
  | some x => .ok x
  | none => .error .value

/-- `re.search(r'\d+', token).group()` (`Data.py` 39): the first run of digits, `AttributeError` if there is none. -/
def digitsIn (t : Txt) : Py Txt :=
  let r := t.dropWhile fun c => !c.isDigit
  if r = [] then .error .attribute else .ok (r.takeWhile Char.isDigit)

/-- `parse_token` (`Data.py` 35-50) with the conversion `conv`: the default for an empty token, an exception if there is no
default. -/
def parseToken {α : Type} (conv : Txt → Py α) (default : Option α) (t : Txt) : Py α :=
  if t = [] then
    match default with
    | some a => .ok a
    | none => .error .missing
  else conv t

/-- `parse_token(row[k], int, default)` (`Data.py` 35-51). -/
def intAt (row : Row) (k : ℕ) (default : Option ℤ) : Py ℤ := do
  let t ← cell row k
  parseToken toInt default t

/-- `parse_token(row[k], float, default)` (`Data.py` 35-51). -/
def floatAt (row : Row) (k : ℕ) (default : Option ℚ) : Py ℚ := do
  let t ← cell row k
  parseToken toFloat default t

/-- `parse_token(row[k], str, default)` (`Data.py` 35-51). -/
def textAt (row : Row) (k : ℕ) (default : Option Txt) : Py Txt := do
  let t ← cell row k
  parseToken .ok default t

/-- The conversions of fields that are read and not kept (`Data.py` 38-40). -/
inductive Kind
  | int
  | float
  | text
  /-- `float` with `isIntFloat`. -/
  | digits
  deriving DecidableEq, Repr

/-- What reading a field that is not kept can raise (`Data.py` 35-50). -/
def checkToken (k : Kind) (optional : Bool) (t : Txt) : Py Unit :=
  if t = [] then (if optional then .ok () else .error .missing)
  else
    match k with
    | .int => (toInt t).map fun _ => ()
    | .float => (toFloat t).map fun _ => ()
    | .text => .ok ()
    | .digits => (digitsIn t).map fun _ => ()

/-- Reading fields that are not kept, one after another (`Data.py` 35-51). -/
def checkFields (row : Row) : List (ℕ × Kind × Bool) → Py Unit
  | [] => .ok ()
  | (k, kind, optional) :: fs => do
    let t ← cell row k
    checkToken kind optional t
    checkFields row fs

/-- `pad_row` (`Data.py` 55-77, 118-143): a row with too few fields is refused, comments are cut off every field. -/
def padRow (row : Row) (n : ℕ) : Py Row :=
  if row.length < n then .error .missing else .ok (row.map fun t => cutAt "/".toList t)

/-- `make_full_row` (`Data.py` 81-87) and the like (1031-1033, 1097-1099, 1126-1128): blanks up to `n` fields. -/
def fullRow (row : Row) (n : ℕ) : Row := row ++ List.replicate (n - row.length) []

/-! ### Records -/

/-- `Bus` (`Data.py` 827-891). -/
structure BusRow where
  i : ℤ
  ide : ℤ
  vm : ℚ
  va : ℚ
  baskv : ℚ
  deriving DecidableEq, Repr

/-- Number of fields of a bus row (`Data.py` 855-861). -/
def busWidth (v : ℤ) : ℕ := if v = 34 ∨ v = 33 then 13 else if v = 30 then 11 else 9

/-- `Bus.read_from_row` (`Data.py` 854-891). In version 30 the shunt `GL`, `BL` of the bus is read and not used by
`parse_raw`. The voltage limits (882-886) are never read: `id` there is the python function. -/
def readBus (v : ℤ) (row : Row) : Py BusRow := do
  let row ← padRow row (busWidth v)
  if v = 30 then
    let i ← intAt row 0 none
    let baskv ← floatAt row 2 (some 0)
    let ide ← intAt row 3 (some 1)
    checkFields row [(4, .float, true), (5, .float, true), (6, .int, true), (7, .int, true)]
    let vm ← floatAt row 8 (some 1)
    let va ← floatAt row 9 (some 0)
    checkFields row [(10, .int, true)]
    .ok ⟨i, ide, vm, va, baskv⟩
  else
    let i ← intAt row 0 none
    checkFields row [(4, .int, true)]
    let vm ← floatAt row 7 (some 1)
    let va ← floatAt row 8 (some 0)
    let baskv ← floatAt row 2 (some 0)
    let ide ← intAt row 3 (some 1)
    checkFields row [(5, .int, true), (6, .int, true)]
    .ok ⟨i, ide, vm, va, baskv⟩

/-- `Load` (`Data.py` 894-955). -/
structure LoadRow where
  i : ℤ
  id : Txt
  status : ℤ
  pl : ℚ
  ql : ℚ
  ip : ℚ
  iq : ℚ
  yp : ℚ
  yq : ℚ
  deriving DecidableEq, Repr

/-- `Load.read_from_row` (`Data.py` 929-955). -/
def readLoad (v : ℤ) (row : Row) : Py LoadRow := do
  let i ← intAt row 0 none
  let id ← textAt row 1 (some ['1'])
  let status ← intAt row 2 (some 1)
  let pl ← floatAt row 5 (some 0)
  let ql ← floatAt row 6 (some 0)
  checkFields row [(3, .int, true), (4, .int, true)]
  let ip ← floatAt row 7 (some 0)
  let iq ← floatAt row 8 (some 0)
  let yp ← floatAt row 9 (some 0)
  let yq ← floatAt row 10 (some 0)
  checkFields row [(11, .int, true)]
  if v ≠ 30 then checkFields row [(12, .int, true)] else .ok ()
  .ok ⟨i, strip id, status, pl, ql, ip, iq, yp, yq⟩

/-- `FixedShunt` (`Data.py` 958-987). -/
structure FixedRow where
  i : ℤ
  id : Txt
  status : ℤ
  gl : ℚ
  bl : ℚ
  deriving DecidableEq, Repr

/-- `FixedShunt.read_from_row` (`Data.py` 980-987). -/
def readFixed (row : Row) : Py FixedRow := do
  let i ← intAt row 0 none
  let id ← textAt row 1 (some ['1'])
  let status ← intAt row 2 (some 1)
  let gl ← floatAt row 3 (some 0)
  let bl ← floatAt row 4 (some 0)
  .ok ⟨i, strip id, status, gl, bl⟩

/-- `Generator` (`Data.py` 990-1061). -/
structure GenRow where
  i : ℤ
  id : Txt
  pg : ℚ
  qg : ℚ
  qt : ℚ
  qb : ℚ
  vs : ℚ
  stat : ℤ
  wmod : ℤ
  wpf : ℚ
  deriving DecidableEq, Repr

/-- The wind machine mode and power factor (`Data.py` 1028-1030): the last two fields of a row of more than 26 fields. -/
def readWind (v : ℤ) (row : Row) : Py (ℤ × ℚ) :=
  if v ≠ 30 ∧ 26 < row.length then do
    let m ← cell row (row.length - 2)
    let wmod ← parseToken (fun t => do
      let ds ← digitsIn t
      toInt ds) (some 0) m
    let wpf ← floatAt row (row.length - 1) (some 0)
    .ok (wmod, wpf)
  else .ok (0, 1)

/-- `Generator.read_from_row` (`Data.py` 1024-1061); `none` is the record of a row of less than 16 fields, whose bus stays
`None`. -/
def readGen (v : ℤ) (row : Row) : Py (Option GenRow) :=
  if row.length < 16 then .ok none
  else do
    let w ← readWind v row
    let row := fullRow row 28
    let i ← intAt row 0 none
    let id ← textAt row 1 (some ['1'])
    let pg ← floatAt row 2 (some 0)
    let qg ← floatAt row 3 (some 0)
    let qt ← floatAt row 4 (some 9999)
    let qb ← floatAt row 5 (some (-9999))
    let stat ← intAt row 14 (some 1)
    checkFields row [(16, .float, true), (17, .float, true)]
    let vs ← floatAt row 6 (some 1)
    checkFields row [(7, .int, true), (8, .float, true), (9, .float, true), (10, .float, true), (11, .float, true),
      (12, .float, true), (13, .float, true), (15, .float, true), (18, .int, true), (19, .digits, true), (20, .int, true),
      (21, .digits, true), (22, .int, true), (23, .digits, true), (24, .int, true), (25, .digits, true)]
    .ok (some ⟨i, strip id, pg, qg, qt, qb, vs, stat, w.1, w.2⟩)

/-- `NontransformerBranch` (`Data.py` 1063-1157). -/
structure BranchRow where
  i : ℤ
  j : ℤ
  ckt : Txt
  r : ℚ
  x : ℚ
  b : ℚ
  gi : ℚ
  bi : ℚ
  gj : ℚ
  bj : ℚ
  st : ℤ
  deriving DecidableEq, Repr

/-- The columns of a branch row that follow the ratings: line shunts, status, then fields that are not used (`Data.py` 1096-1157). -/
structure BranchColumns where
  width : ℕ
  ratings : List (ℕ × Kind × Bool)
  st : ℕ
  shunts : ℕ
  rest : List (ℕ × Kind × Bool)

/-- The layouts of branch rows (`Data.py` 1096-1125 and 1126-1157). -/
def branchColumns (v : ℤ) : BranchColumns :=
  if v = 34 then
    { width := 34, ratings := [(6, .text, true), (7, .float, true), (8, .float, true), (9, .float, true)], st := 23, shunts := 19,
      rest := [(24, .int, true), (25, .float, true), (26, .float, true), (27, .float, true), (28, .float, true),
        (29, .float, true), (30, .float, true), (31, .float, true), (32, .float, true), (33, .float, true)] }
  else
    { width := 24, ratings := [(6, .float, true), (7, .float, true), (8, .float, true)], st := 13, shunts := 9,
      rest := [(14, .int, true), (15, .float, true), (16, .float, true), (17, .float, true), (18, .float, true),
        (19, .float, true), (20, .float, true), (21, .float, true), (22, .float, true), (23, .float, true)] }

/-- `NontransformerBranch.read_from_row` (`Data.py` 1095-1157). -/
def readBranch (v : ℤ) (row : Row) : Py BranchRow := do
  let cs := branchColumns v
  let row := fullRow row cs.width
  let i ← intAt row 0 none
  let j ← intAt row 1 none
  let ckt ← textAt row 2 (some ['1'])
  let r ← floatAt row 3 none
  let x ← floatAt row 4 none
  let b ← floatAt row 5 (some 0)
  checkFields row cs.ratings
  let st ← intAt row cs.st none
  let gi ← floatAt row cs.shunts (some 0)
  let bi ← floatAt row (cs.shunts + 1) (some 0)
  let gj ← floatAt row (cs.shunts + 2) (some 0)
  let bj ← floatAt row (cs.shunts + 3) (some 0)
  checkFields row cs.rest
  .ok ⟨i, j, strip ckt, r, x, b, gi, bi, gj, bj, st⟩

/-- The entries of a winding that are used (`Data.py` 1249-1266, 1403-1462). -/
structure WindingRow where
  windv : ℚ
  nomv : ℚ
  ang : ℚ
  cod : ℚ
  rma : ℚ
  rmi : ℚ
  ntp : ℚ
  deriving DecidableEq, Repr

/-- A winding row (`Data.py` 1249-1266, 1403-1421, 1423-1441). -/
def readWinding (v : ℤ) (row : Row) : Py WindingRow := do
  let windv ← floatAt row 0 (some 1)
  let nomv ← floatAt row 1 (some 0)
  let ang ← floatAt row 2 (some 0)
  checkFields row [(3, .float, true), (4, .float, true), (5, .float, true)]
  let cod ← floatAt row 6 (some 0)
  checkFields row [(7, .float, true)]
  let rma ← floatAt row 8 (some (11 / 10))
  let rmi ← floatAt row 9 (some (9 / 10))
  checkFields row [(10, .float, true), (11, .float, true)]
  let ntp ← floatAt row 12 (some 33)
  checkFields row [(13, .float, true), (14, .float, true), (15, .float, true)]
  if v = 33 ∨ v = 34 then checkFields row [(16, .float, true)] else .ok ()
  .ok ⟨windv, nomv, ang, cod, rma, rmi, ntp⟩

/-- The third winding row (`Data.py` 1443-1462): `CR3`, `CX3` are taken out of the first row of the transformer. -/
def readWinding3 (v : ℤ) (first row : Row) : Py WindingRow := do
  let windv ← floatAt row 0 (some 1)
  let nomv ← floatAt row 1 (some 0)
  let ang ← floatAt row 2 (some 0)
  checkFields row [(3, .float, true), (4, .float, true), (5, .float, true)]
  let cod ← floatAt row 6 (some 0)
  checkFields row [(7, .float, true)]
  let rma ← floatAt row 8 (some (11 / 10))
  let rmi ← floatAt row 9 (some (9 / 10))
  checkFields row [(10, .float, true), (11, .float, true)]
  let ntp ← floatAt row 12 (some 33)
  checkFields row [(13, .float, true)]
  if 14 < first.length then checkFields first [(14, .float, true)] else .ok ()
  if 15 < first.length then checkFields first [(15, .float, true)] else .ok ()
  if v = 33 ∨ v = 34 then checkFields row [(16, .float, true)] else .ok ()
  .ok ⟨windv, nomv, ang, cod, rma, rmi, ntp⟩

/-- The common part of the first row of a transformer (`Data.py` 1223-1242, 1367-1387). -/
structure CodesRow where
  cw : ℤ
  cz : ℤ
  cm : ℤ
  mag1 : ℚ
  mag2 : ℚ
  stat : ℤ
  deriving DecidableEq, Repr

/-- The first row of a transformer from its fifth field on (`Data.py` 1223-1242, 1367-1387). -/
def readCodes (v : ℤ) (row : Row) : Py CodesRow := do
  let cw ← intAt row 4 (some 1)
  let cz ← intAt row 5 (some 1)
  let cm ← intAt row 6 (some 1)
  let mag1 ← floatAt row 7 (some 0)
  let mag2 ← floatAt row 8 (some 0)
  checkFields row [(9, .int, true), (10, .text, true)]
  let stat ← intAt row 11 (some 1)
  checkFields row [(12, .int, true), (13, .float, true)]
  if 15 < row.length then checkFields row [(14, .int, true), (15, .float, true)] else .ok ()
  if 17 < row.length then checkFields row [(16, .int, true), (17, .float, true)] else .ok ()
  if 19 < row.length then checkFields row [(18, .int, true), (19, .float, true)] else .ok ()
  if v = 33 ∨ v = 34 then checkFields row [(20, .text, true)] else .ok ()
  .ok ⟨cw, cz, cm, mag1, mag2, stat⟩

/-- `Two_xfmr` (`Data.py` 1163-1271); the bus numbers are still text. -/
structure TwoRow where
  i : Txt
  j : Txt
  ckt : Txt
  codes : CodesRow
  r : ℚ
  x : ℚ
  sbase : ℚ
  w1 : WindingRow
  windv2 : ℚ
  nomv2 : ℚ
  deriving DecidableEq, Repr

/-- `Two_xfmr.read_from_row` (`Data.py` 1214-1271). -/
def readTwo (v : ℤ) (row row2 row3 row4 : Row) : Py TwoRow := do
  let i ← textAt row 0 none
  let j ← textAt row 1 none
  let ckt ← textAt row 3 none
  let codes ← readCodes v row
  let r ← floatAt row2 0 (some 0)
  let x ← floatAt row2 1 none
  let sbase ← floatAt row2 2 (some 100)
  let w1 ← readWinding v row3
  let windv2 ← floatAt row4 0 (some 1)
  let nomv2 ← floatAt row4 1 (some 0)
  .ok ⟨i, j, ckt, codes, r, x, sbase, w1, windv2, nomv2⟩

/-- An impedance between two windings with its base (`Data.py` 1390-1398). -/
structure ImpedanceRow where
  r : ℚ
  x : ℚ
  sbase : ℚ
  deriving DecidableEq, Repr

/-- Three fields of the second row of a three-winding transformer (`Data.py` 1390-1398). -/
def readImpedance (row : Row) (k : ℕ) : Py ImpedanceRow := do
  let r ← floatAt row k (some 0)
  let x ← floatAt row (k + 1) (some 0)
  let s ← floatAt row (k + 2) (some 0)
  .ok ⟨r, x, s⟩

/-- `Three_xfmr` (`Data.py` 1275-1462). -/
structure ThreeRow where
  i : ℤ
  j : ℤ
  k : ℤ
  ckt : Txt
  codes : CodesRow
  z12 : ImpedanceRow
  z23 : ImpedanceRow
  z31 : ImpedanceRow
  w1 : WindingRow
  w2 : WindingRow
  w3 : WindingRow
  deriving DecidableEq, Repr

/-- `parse_token(token, int, '')` (`Data.py` 1363-1364): `int('')` raises `ValueError`. -/
def busNumber (row : Row) (k : ℕ) : Py ℤ := do
  let t ← cell row k
  toInt t

/-- `Three_xfmr.read_from_row` (`Data.py` 1361-1462). -/
def readThree (v : ℤ) (row row2 row3 row4 row5 : Row) : Py ThreeRow := do
  let i ← busNumber row 0
  let j ← busNumber row 1
  let k ← intAt row 2 (some 0)
  let ckt ← textAt row 3 (some ['1'])
  let codes ← readCodes v row
  let z12 ← readImpedance row2 0
  let z23 ← readImpedance row2 3
  let z31 ← readImpedance row2 6
  checkFields row2 [(9, .float, true), (10, .float, true)]
  let w1 ← readWinding v row3
  let w2 ← readWinding v row4
  let w3 ← readWinding3 v row row5
  .ok ⟨i, j, k, ckt, codes, z12, z23, z31, w1, w2, w3⟩

/-- `SwitchedShunt` (`Data.py` 1513-1602). -/
structure SwitchedRow where
  i : ℤ
  modsw : ℤ
  stat : ℤ
  vswhi : ℚ
  vswlo : ℚ
  binit : ℚ
  blocks : List (ℤ × ℚ)
  deriving DecidableEq, Repr

/-- The blocks `(n, b)` from column `k` on (`Data.py` 1552-1567, 1587-1602). -/
def readBlocks (row : Row) (k : ℕ) : ℕ → Py (List (ℤ × ℚ))
  | 0 => .ok []
  | m + 1 => do
    let n ← intAt row k (some 0)
    let b ← floatAt row (k + 1) (some 0)
    let rest ← readBlocks row (k + 2) m
    .ok ((n, b) :: rest)

/-- `SwitchedShunt.read_from_row` (`Data.py` 1545-1602). Other versions than 30, 32, 33, 34 read nothing and leave the bus
`None`; here `none`. -/
def readSwitched (v : ℤ) (row : Row) : Py (Option SwitchedRow) :=
  if v = 32 ∨ v = 33 ∨ v = 34 then do
    let row := fullRow row 26
    let i ← intAt row 0 none
    let stat ← intAt row 3 (some 1)
    let binit ← floatAt row 9 (some 0)
    let blocks ← readBlocks row 10 8
    let modsw ← intAt row 1 (some 1)
    checkFields row [(2, .int, true)]
    let vswhi ← floatAt row 4 (some 1)
    let vswlo ← floatAt row 5 (some 1)
    checkFields row [(6, .int, true), (7, .float, true)]
    .ok (some ⟨i, modsw, stat, vswhi, vswlo, binit, blocks⟩)
  else if v = 30 then do
    let row := fullRow row 24
    let i ← intAt row 0 none
    let modsw ← intAt row 1 (some 1)
    let vswhi ← floatAt row 2 (some 1)
    let vswlo ← floatAt row 3 (some 1)
    checkFields row [(4, .int, true), (5, .float, true)]
    let binit ← floatAt row 7 (some 0)
    let blocks ← readBlocks row 8 8
    .ok (some ⟨i, modsw, 1, vswhi, vswlo, binit, blocks⟩)
  else .ok none

/-! ### Sections -/

/-- What `read_from_rows` collects (`Data.py` 168-193), as far as `parse_raw` uses it. A dictionary is the list of its values in the
order of insertion. A generator without bus is `none`. -/
structure RawFile where
  sbase : ℚ
  rev : ℤ
  buses : List BusRow := []
  slack : List ℤ := []
  loads : List LoadRow := []
  fixed : List FixedRow := []
  gens : List (Option GenRow) := []
  branches : List BranchRow := []
  two : List TwoRow := []
  three : List ThreeRow := []
  switched : List SwitchedRow := []
  deriving DecidableEq, Repr

/-- `d[key(a)] = a` on a dictionary of values with their keys (`Data.py` 388, 409, …): a value with the same key is
replaced in its place. -/
def put {α κ : Type} [DecidableEq κ] (key : α → κ) (l : List α) (a : α) : List α :=
  if l.any (fun b => key b = key a) then l.map fun b => if key b = key a then a else b else l ++ [a]

/-- `' '.join(row)` (`Data.py` 327). -/
def joined : Row → Txt
  | [] => []
  | [t] => t
  | t :: ts => t ++ ' ' :: joined ts

/-- `row_is_section_end` (`Data.py` 326-333). -/
def isSectionEnd (row : Row) : Bool := cutAt " /".toList (joined row) = ['0']

/-- `row[0][0]`; `IndexError` for a row without fields and for an empty first field (`Data.py` 336, 381). -/
def firstChar (row : Row) : Option Char := match row with
  | (c :: _) :: _ => some c
  | _ => none

/-- The loop over a section (for example `Data.py` 367-391). Rows that start with `@` are passed over, `q` or `Q` ends the file
(`row_is_file_end`, 316-323), a terminator the section. `record` reads a record at `row`, looking at the rows after it, and tells how many of these
belong to it; the first argument counts the rows still to be passed over. The result is what was collected and the rows after
the section, `none` at the end of the file. -/
def sectionLoop (record : RawFile → Row → List Row → Py (RawFile × ℕ)) :
    ℕ → RawFile → List Row → Py (RawFile × Option (List Row))
  | _, _, [] => .error .index
  | n + 1, f, _ :: rest => sectionLoop record n f rest
  | 0, f, row :: rest =>
    match firstChar row with
    | none => .error .index
    | some c =>
      if c = '@' then sectionLoop record 0 f rest
      else if c = 'q' ∨ c = 'Q' then .ok (f, none)
      else if isSectionEnd row then .ok (f, some rest)
      else
        match record f row rest with
        | .error e => .error e
        | .ok (f', k) => sectionLoop record k f' rest

/-- System-wide data of version 34 (`Data.py` 359-366): passed over, without regard to `@`. An empty first field ends the file. -/
def systemLoop : List Row → Py (Option (List Row))
  | [] => .error .index
  | [] :: _ => .error .index
  | (t :: ts) :: rest =>
    if t.take 1 = [] ∨ t.take 1 = ['q'] ∨ t.take 1 = ['Q'] then .ok none
    else if isSectionEnd (t :: ts) then .ok (some rest)
    else systemLoop rest

/-- The sections at the end (`Data.py` 731-771): passed over. The row that is tested is the one before rows with `@` are passed
over, so the row after them is not looked at. `skipped` tells whether the rows before started with `@`. -/
def trailingLoop : Bool → List Row → Py (Option (List Row))
  | _, [] => .error .index
  | skipped, row :: rest =>
    match firstChar row with
    | none => .error .index
    | some c =>
      if c = '@' then trailingLoop true rest
      else if skipped then trailingLoop false rest
      else if c = 'q' ∨ c = 'Q' then .ok none
      else if isSectionEnd row then .ok (some rest)
      else trailingLoop false rest

/-- A section: from what was collected and the rows still there (`Data.py` 359-771). -/
abbrev Section := RawFile → List Row → Py (RawFile × Option (List Row))

/-- A section of one-row records (as `Data.py` 367-391). -/
def ofRow (record : RawFile → Row → Py RawFile) : Section :=
  sectionLoop (fun f row _ => (record f row).map fun f' => (f', 0)) 0

/-- Bus data (`Data.py` 367-391). -/
def busSection (v : ℤ) : Section := ofRow fun f row => do
  let b ← readBus v row
  .ok { f with buses := put BusRow.i f.buses b, slack := if b.ide = 3 then f.slack ++ [b.i] else f.slack }

/-- Load data (`Data.py` 393-409). -/
def loadSection (v : ℤ) : Section := ofRow fun f row => do
  let l ← readLoad v row
  .ok { f with loads := put (fun l => (l.i, l.id)) f.loads l }

/-- Fixed shunt data (`Data.py` 410-427). -/
def fixedSection : Section := ofRow fun f row => do
  let s ← readFixed row
  .ok { f with fixed := put (fun s => (s.i, s.id)) f.fixed s }

/-- The key of a generator; one without bus keeps the identifier `'1'` (`Data.py` 992-994). -/
def genKey (g : Option GenRow) : Option ℤ × Txt := match g with
  | some g => (some g.i, g.id)
  | none => (none, ['1'])

/-- Generator data (`Data.py` 428-444). -/
def genSection (v : ℤ) : Section := ofRow fun f row => do
  let g ← readGen v row
  .ok { f with gens := put genKey f.gens g }

/-- Branch data (`Data.py` 445-464). -/
def branchSection (v : ℤ) : Section := ofRow fun f row => do
  let b ← readBranch v row
  .ok { f with branches := put (fun b => (b.i, b.j, b.ckt)) f.branches b }

/-- A section whose rows are passed over (`Data.py` 466-480, 614-627). -/
def skipSection : Section := ofRow fun f _ => .ok f

/-- One transformer (`Data.py` 497-514): four rows for two windings, five for three. The third field decides. -/
def readTransformer (v : ℤ) (f : RawFile) (row : Row) (rest : List Row) : Py (RawFile × ℕ) := do
  let k ← cell row 2
  if k = ['0'] then
    match rest with
    | row2 :: row3 :: row4 :: _ => do
      let x ← readTwo v row row2 row3 row4
      .ok ({ f with two := put (fun x => (x.i, x.j, x.ckt)) f.two x }, 3)
    | _ => .error .index
  else
    match rest with
    | row2 :: row3 :: row4 :: row5 :: _ => do
      let x ← readThree v row row2 row3 row4 row5
      .ok ({ f with three := put (fun x => (x.i, x.j, x.k, x.ckt)) f.three x }, 4)
    | _ => .error .index

/-- Transformer data (`Data.py` 482-514). -/
def xfmrSection (v : ℤ) : Section := sectionLoop (readTransformer v) 0

/-- A section of one-row records that are read and not used (as `Data.py` 516-533). -/
def checkSection (checks : List (ℕ × Kind × Bool)) : Section := ofRow fun f row => (checkFields row checks).map fun _ => f

/-- Area data (`Data.py` 516-533, 1485-1492). -/
def areaSection : Section :=
  checkSection [(0, .int, false), (1, .int, true), (2, .float, true), (3, .float, true), (4, .text, true)]

/-- The fields of the three rows of a two-terminal line (`Data.py` 1658-1708). -/
def twoTerminalFields : List (List (ℕ × Kind × Bool)) :=
  [[(0, .text, false), (1, .int, true), (2, .float, false), (3, .float, false), (4, .float, false), (5, .float, true),
      (6, .float, true), (7, .float, true), (8, .text, true), (9, .float, true), (10, .int, true), (11, .float, true)],
    [(0, .int, false), (1, .int, false), (2, .float, false), (3, .float, false), (4, .float, false), (5, .float, false),
      (6, .float, false), (7, .float, true), (8, .float, true), (9, .float, true), (10, .float, true), (11, .float, true),
      (12, .text, true), (13, .int, true), (14, .int, true), (15, .text, true), (16, .float, true)],
    [(0, .int, false), (1, .int, false), (2, .float, false), (3, .float, false), (4, .float, false), (5, .float, false),
      (6, .float, false), (7, .float, false), (8, .float, false), (9, .float, false), (10, .float, false), (11, .float, false),
      (12, .float, false), (13, .int, false), (14, .int, false), (15, .text, false), (16, .float, false)]]

/-- A record of three rows that is read and not used; the first row is filled up to `n` fields (as `Data.py` 535-554). -/
def checkThree (n : ℕ) (fields : List (List (ℕ × Kind × Bool))) (f : RawFile) (row : Row) (rest : List Row) : Py (RawFile × ℕ) :=
  match rest with
  | row2 :: row3 :: _ => do
    checkFields (fullRow row n) (fields.getD 0 [])
    checkFields row2 (fields.getD 1 [])
    checkFields row3 (fields.getD 2 [])
    .ok (f, 2)
  | _ => .error .index

/-- Two-terminal DC line data (`Data.py` 535-554). -/
def twoTerminalSection : Section := sectionLoop (checkThree 0 twoTerminalFields) 0

/-- The fields of the three rows of a VSC line (`Data.py` 1749-1800). -/
def vscFields : List (List (ℕ × Kind × Bool)) :=
  let terminal := [(0, Kind.text, false), (1, .int, false), (2, .int, true), (3, .float, false), (4, .float, true), (5, .float, true),
    (6, .float, true), (7, .float, true), (8, .float, true), (9, .float, true), (10, .float, true), (11, .float, true),
    (12, .float, true), (13, .text, true), (14, .float, true)]
  [[(0, .text, false), (1, .int, true), (2, .float, false), (3, .float, true), (4, .float, true), (5, .float, true),
      (6, .float, true), (7, .float, true), (8, .float, true), (9, .float, true), (10, .float, true)], terminal, terminal]

/-- VSC DC line data (`Data.py` 555-575, 1750-1756). -/
def vscSection : Section := sectionLoop (checkThree 11 vscFields) 0

/-- Switched shunt data (`Data.py` 576-593, 713-730). -/
def switchedSection (v : ℤ) : Section := ofRow fun f row => do
  let s ← readSwitched v row
  match s with
  | some s => .ok { f with switched := put SwitchedRow.i f.switched s }
  | none => .ok f

/-- Impedance correction tables (`Data.py` 594-613, 1817-1844). The version 3 the code mentions is not modelled. -/
def correctionSection (v : ℤ) : Section := ofRow fun f row =>
  if v = 34 then .ok f
  else (checkFields (fullRow row 23) ((0, .int, false) :: (List.range 22).map fun k => (k + 1, .float, true))).map fun _ => f

/-- Multi-section line data (`Data.py` 628-644, 1944-1972). -/
def multiSection : Section := ofRow fun f row =>
  let row := if row.length < 5 then row else fullRow row 13
  (checkFields row ([(0, .int, false), (1, .int, false), (2, .text, true), (3, .int, true), (4, .int, false)] ++
    ((List.range 8).filter fun k => k + 5 < row.length).map fun k => (k + 5, .int, true))).map fun _ => f

/-- Zone data (`Data.py` 645-661, 1506-1511). -/
def zoneSection : Section := checkSection [(0, .int, false), (1, .text, true)]

/-- Interarea transfer data (`Data.py` 662-678, 1877-1881). -/
def interareaSection : Section := checkSection [(0, .int, false), (1, .int, false), (2, .text, true), (3, .float, true)]

/-- Owner data (`Data.py` 679-695, 1861-1863). -/
def ownerSection : Section := checkSection [(0, .int, false), (1, .text, true)]

/-- FACTS device data (`Data.py` 696-712, 1908-1930). -/
def factsSection (v : ℤ) : Section :=
  checkSection ([(0, .text, false), (1, .int, false), (2, .int, false), (3, .int, false), (4, .float, true), (5, .float, true),
    (6, .float, true), (7, .float, true), (8, .float, true), (9, .float, true), (10, .float, true), (11, .float, true),
    (12, .float, true), (13, .float, true), (14, .float, true), (15, .int, true), (16, .float, true), (17, .float, true),
    (18, .int, true)] ++ if v = 30 then [] else [(19, .int, true), (20, .text, true)])

/-- The sections of a file in their order (`Data.py` 359-771). -/
def sections (v : ℤ) : List Section :=
  (if v = 34 then [fun f rows => (systemLoop rows).map fun r => (f, r)] else []) ++ [busSection v, loadSection v] ++
  (if v = 30 then [] else [fixedSection]) ++ [genSection v, branchSection v] ++
  (if v = 34 then [skipSection] else []) ++ [xfmrSection v, areaSection, twoTerminalSection, vscSection] ++
  (if v = 30 then [switchedSection v] else []) ++
  [correctionSection v, skipSection, multiSection, zoneSection, interareaSection, ownerSection, factsSection v] ++
  (if v = 30 then [] else [switchedSection v]) ++
  (if v = 33 ∨ v = 34 then [fun f rows => (trailingLoop false rows).map fun r => (f, r)] else []) ++
  (if v = 34 then List.replicate 2 fun f rows => (trailingLoop false rows).map fun r => (f, r) else [])

/-- One section after another, up to the end of the file (`Data.py` 359-771). -/
def runSections : List Section → RawFile → List Row → Py RawFile
  | [], f, _ => .ok f
  | s :: ss, f, rows =>
    match s f rows with
    | .error e => .error e
    | .ok (f', none) => .ok f'
    | .ok (f', some rest) => runSections ss f' rest

/-- `CaseIdentification.read_from_rows` (`Data.py` 815-824): the first row that does not start with `@`. -/
def identification : List Row → Py Row
  | [] => .error .index
  | row :: rest =>
    match firstChar row with
    | none => .error .index
    | some c => if c = '@' then identification rest else .ok row

/-- `read_record_1_from_row` (`Data.py` 791-809): the base and the version. -/
def readIdentification (short : Bool) (row : Row) : Py (ℚ × ℤ) :=
  if short then do
    checkFields row [(0, .int, true)]
    let sbase ← floatAt row 1 none
    .ok (sbase, 30)
  else do
    let row ← padRow (row.take 6) 6
    let sbase ← floatAt row 1 none
    checkFields row [(0, .int, true)]
    let rev ← intAt row 2 (some 33)
    checkFields row [(3, .int, true), (4, .int, true), (5, .float, true)]
    .ok (sbase, rev)

/-- `read_from_rows` (`Data.py` 343-771). -/
def readRows (rows : List Row) : Py RawFile :=
  match rows with
  | [] => .error .index
  | row :: rest =>
    match firstChar row with
    | none => .error .index
    | some c =>
      match (if c = '@' then rest else row :: rest) with
      | row1 :: _ :: _ :: body =>
        match identification rows with
        | .error e => .error e
        | .ok id =>
          match readIdentification (row1.length = 2) id with
          | .error e => .error e
          | .ok (sbase, rev) => runSections (sections rev) { sbase := sbase, rev := rev } body
      | _ => .error .index

/-- `Data.read` (`Data.py` 298-311). -/
def readText (s : Txt) : Py RawFile :=
  match rowsOf s with
  | .error e => .error e
  | .ok rows => readRows rows

/-! ### From the file to the case -/

/-- A bus (`parser.py` 103-113). -/
def BusRow.toRec (b : BusRow) : BusRec := ⟨b.i, b.ide, b.vm, b.va, b.baskv⟩

/-- A load (`parser.py` 339-342). -/
def LoadRow.toRec (l : LoadRow) : LoadRec := ⟨l.i, l.status, l.pl, l.ql, l.ip, l.iq, l.yp, l.yq⟩

/-- A fixed shunt (`parser.py` 327-328). -/
def FixedRow.toRec (s : FixedRow) : FixedRec := ⟨s.i, s.status, s.gl, s.bl⟩

/-- A generator (`parser.py` 151-182). -/
def GenRow.toRec (g : GenRow) : GenRec := ⟨g.i, g.pg, g.qg, g.qt, g.qb, g.vs, g.stat, g.wmod, g.wpf⟩

/-- A branch (`parser.py` 361-365). -/
def BranchRow.toRec (b : BranchRow) : BranchRec := ⟨b.i, b.j, b.r, b.x, b.b, b.gi, b.bi, b.gj, b.bj, b.st⟩

/-- The winding entries of a record (`data_classes.py` 372-388). -/
def WindingRow.toRec (w : WindingRow) : Winding := ⟨w.windv, w.nomv, w.ang, w.cod, w.rma, w.rmi, w.ntp⟩

/-- The impedance entries of a record (`data_classes.py` 369-371). -/
def ImpedanceRow.toRec (z : ImpedanceRow) : Impedance := ⟨z.r, z.x, z.sbase⟩

/-- A two-winding transformer (`parser.py` 386-408, `data_classes.py` 355-356): here the bus numbers become numbers. -/
def TwoRow.toRec (x : TwoRow) : Py TwoRec := do
  let i ← toInt x.i
  let j ← toInt x.j
  .ok { i := i, j := j, stat := x.codes.stat, cw := x.codes.cw, cz := x.codes.cz, cm := x.codes.cm, mag1 := x.codes.mag1,
        mag2 := x.codes.mag2, z12 := ⟨x.r, x.x, x.sbase⟩, w1 := x.w1.toRec, windv2 := x.windv2, nomv2 := x.nomv2 }

/-- A three-winding transformer (`parser.py` 424-450). -/
def ThreeRow.toRec (x : ThreeRow) : ThreeRec :=
  { i := x.i, j := x.j, k := x.k, stat := x.codes.stat, cw := x.codes.cw, cz := x.codes.cz, cm := x.codes.cm,
    mag1 := x.codes.mag1, mag2 := x.codes.mag2, z12 := x.z12.toRec, z23 := x.z23.toRec, z31 := x.z31.toRec,
    w1 := x.w1.toRec, w2 := x.w2.toRec, w3 := x.w3.toRec }

/-- A switched shunt (`parser.py` 242-249). -/
def SwitchedRow.toRec (s : SwitchedRow) : SwitchedRec :=
  ⟨s.i, s.modsw, s.stat, s.vswhi, s.vswlo, s.binit, s.blocks.map fun nb => (nb.1, (nb.2 : ℝ))⟩

/-- `sorted(values, key=…)` (`Data.py` 195-228). -/
def sortedBy {α κ : Type} [LinearOrder κ] (key : α → κ) (l : List α) : List α := l.insertionSort fun a b => key a ≤ key b

/-- `get_generators` (`Data.py` 206-208): a key with `None` cannot be compared with another key. A generator without bus that is the
only one is at none of the buses and is dropped by `parse_raw` (`parser.py` 153, 190). -/
def sortedGens (l : List (Option GenRow)) : Py (List GenRow) :=
  if none ∈ l then (if l.length = 1 then .ok [] else .error .type)
  else .ok (sortedBy (fun g : GenRow => toLex (g.i, g.id)) (l.filterMap id))

/-- The case `parse_raw` works on (`parser.py` 66-68, 80-113, 151-450, `Data.py` 195-228). A version other than 30, 32, 33, 34 leaves `b` unbound
(`parser.py` 105-112). The bus numbers of two-winding transformers are converted at the start here, in the middle of `parse_raw` there.
`Case.slackBuses` takes the buses of type 3 that are kept; `slack_buses` has also those that were replaced by a later row of the same
number. -/
def RawFile.toCase (f : RawFile) : Py Case :=
  if f.rev ∉ ([30, 32, 33, 34] : List ℤ) ∧ f.buses ≠ [] then .error .unbound
  else do
    let gens ← sortedGens f.gens
    let two ← mapPy TwoRow.toRec (sortedBy (fun x : TwoRow => toLex (x.i, toLex (x.j, x.ckt))) f.two)
    .ok { sbase := f.sbase
          buses := (sortedBy BusRow.i f.buses).map BusRow.toRec
          generators := gens.map GenRow.toRec
          switched := (sortedBy SwitchedRow.i f.switched).map SwitchedRow.toRec
          fixed := (sortedBy (fun s : FixedRow => toLex (s.i, s.id)) f.fixed).map FixedRow.toRec
          loads := (sortedBy (fun l : LoadRow => toLex (l.i, l.id)) f.loads).map LoadRow.toRec
          branches := (sortedBy (fun b : BranchRow => toLex (b.i, toLex (b.j, b.ckt))) f.branches).map BranchRow.toRec
          two := two
          three := (sortedBy (fun x : ThreeRow => toLex (x.i, toLex (x.j, toLex (x.k, x.ckt)))) f.three).map ThreeRow.toRec }

/-- `parse_raw` on the text of a file (`parser.py` 64-472). -/
noncomputable def parseRawText (s : Txt) : Py Out :=
  match readText s with
  | .error e => .error e
  | .ok f =>
    match f.toCase with
    | .error e => .error e
    | .ok c => parseRaw c

end Verif.Raw
