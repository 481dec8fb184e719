import Verif.Model.RawText
import Verif.Spec.Numbers

/-!
# What it means to write a case down in a RAW file

A grammar of lines, rows and sections, and the columns of the records as the format names them (versions 32, 33 and 34; the
headings of version 34 are those of the `@!` lines of `/repo/test/data/positive_seq/GS-4_prior_solution.RAW`). The only things taken over
from the model are the types of rows and of records; nothing here refers to how a file is read.
-/

namespace Verif.Raw

open Glm (Blank Number Sign decimal)

/-! ### Lines -/

/-- Content between quotes, as it is written: a quote is written twice. -/
def doubled (t : Txt) : Txt := t.flatMap fun c => if c = '\'' then ['\'', '\''] else [c]

/-- Neither the first nor the last character is white space. -/
def Trimmed (t : Txt) : Prop := (∀ c ∈ t.head?, Glm.isSpace c = false) ∧ ∀ c ∈ t.getLast?, Glm.isSpace c = false

/-- A field as it is written in a line, and its content: plain, or between quotes; white space around the content is free. -/
inductive Field : Txt → Txt → Prop
  | plain (l t r : Txt) (hl : Blank l) (hr : Blank r) (ht : Trimmed t) (hc : ',' ∉ t) (hq : t.head? ≠ some '\'')
      (hn : '\n' ∉ l ++ t ++ r) : Field (l ++ t ++ r) t
  | quoted (a b : ℕ) (l t r : Txt) (hl : Blank l) (hr : Blank r) (ht : Trimmed t) (hn : '\n' ∉ l ++ t ++ r) :
      Field (List.replicate a ' ' ++ '\'' :: doubled (l ++ t ++ r) ++ '\'' :: List.replicate b ' ') t

/-- A line and the contents of its fields: the fields are separated by commas. -/
inductive Line : Txt → Row → Prop
  | last {w t : Txt} (h : Field w t) : Line w [t]
  | more {w t l : Txt} {ts : Row} (h : Field w t) (hl : Line l ts) : Line (w ++ ',' :: l) (t :: ts)

/-- A text and its rows: lines with line ends, the last one with or without; a blank line has no fields. -/
inductive TextOf : Txt → List Row → Prop
  | nil : TextOf [] []
  | last {l : Txt} {r : Row} (h : Line l r) (hne : l ≠ []) : TextOf l [r]
  | line {l s : Txt} {r : Row} {rs : List Row} (h : Line l r) (hne : l ≠ []) (hs : TextOf s rs) : TextOf (l ++ '\n' :: s) (r :: rs)
  | blank {s : Txt} {rs : List Row} (hs : TextOf s rs) : TextOf ('\n' :: s) ([] :: rs)

/-! ### Columns -/

/-- What a column holds. -/
inductive Content
  | integer
  | number
  | text
  deriving DecidableEq

/-- A heading with what the column holds. -/
abbrev Heading := String × Content

/-- An integer as it is written. -/
def Integer (t : Txt) (n : ℤ) : Prop := ∃ s ds k, Sign s k ∧ ds ≠ [] ∧ (∀ c ∈ ds, c.isDigit = true) ∧ t = s ++ ds ∧ n = k * decimal ds

/-- The text is such a content. -/
def Content.Holds : Content → Txt → Prop
  | .integer, t => ∃ n, Integer t n
  | .number, t => ∃ x, Number t x
  | .text, _ => True

/-- The field of a row under a heading; a field that is not there is blank. -/
def under (cols : List Heading) (row : Row) (name : String) : Txt := row.getD ((cols.map Prod.fst).idxOf name) []

/-- A field states an integer; a blank field the default. -/
def Int' (default : Option ℤ) (t : Txt) (n : ℤ) : Prop := t = [] ∧ default = some n ∨ Integer t n

/-- A field states a number; a blank field the default. -/
def Num (default : Option ℚ) (t : Txt) (x : ℝ) : Prop := ∃ q : ℚ, x = q ∧ (t = [] ∧ default = some q ∨ Number t q)

/-- A row under headings: what is written fits the columns, there are at least `n` fields, the required fields are not
blank. -/
structure Fits (cols : List Heading) (n : ℕ) (required : List String) (row : Row) : Prop where
  typed : ∀ (k : ℕ) (c : Heading) (t : Txt), cols[k]? = some c → row[k]? = some t → t = [] ∨ c.2.Holds t
  width : n ≤ row.length
  filled : ∀ name ∈ required, under cols row name ≠ []

/-- Owners and their shares. -/
def ownerColumns : List Heading :=
  [("O1", .integer), ("F1", .number), ("O2", .integer), ("F2", .number), ("O3", .integer), ("F3", .number), ("O4", .integer), ("F4", .number)]

/-- Twelve ratings. -/
def ratingColumns : List Heading :=
  [("RATE1", .number), ("RATE2", .number), ("RATE3", .number), ("RATE4", .number), ("RATE5", .number), ("RATE6", .number),
    ("RATE7", .number), ("RATE8", .number), ("RATE9", .number), ("RATE10", .number), ("RATE11", .number), ("RATE12", .number)]

/-- Case identification. -/
def caseColumns : List Heading :=
  [("IC", .integer), ("SBASE", .number), ("REV", .integer), ("XFRRAT", .integer), ("NXFRAT", .integer), ("BASFRQ", .number)]

/-- Bus data. -/
def busColumns (v : ℤ) : List Heading :=
  [("I", .integer), ("NAME", .text), ("BASKV", .number), ("IDE", .integer), ("AREA", .integer), ("ZONE", .integer),
    ("OWNER", .integer), ("VM", .number), ("VA", .number)] ++
  if v = 32 then [] else [("NVHI", .number), ("NVLO", .number), ("EVHI", .number), ("EVLO", .number)]

/-- Load data; later columns are left out. -/
def loadColumns : List Heading :=
  [("I", .integer), ("ID", .text), ("STATUS", .integer), ("AREA", .integer), ("ZONE", .integer), ("PL", .number), ("QL", .number),
    ("IP", .number), ("IQ", .number), ("YP", .number), ("YQ", .number), ("OWNER", .integer), ("SCALE", .integer)]

/-- Fixed shunt data. -/
def fixedColumns : List Heading :=
  [("I", .integer), ("ID", .text), ("STATUS", .integer), ("GL", .number), ("BL", .number)]

/-- Generator data. -/
def genColumns : List Heading :=
  [("I", .integer), ("ID", .text), ("PG", .number), ("QG", .number), ("QT", .number), ("QB", .number), ("VS", .number),
    ("IREG", .integer), ("MBASE", .number), ("ZR", .number), ("ZX", .number), ("RT", .number), ("XT", .number), ("GTAP", .number),
    ("STAT", .integer), ("RMPCT", .number), ("PT", .number), ("PB", .number)] ++ ownerColumns ++ [("WMOD", .integer), ("WPF", .number)]

/-- Branch data. -/
def branchHeadings (v : ℤ) : List Heading :=
  [("I", .integer), ("J", .integer), ("CKT", .text), ("R", .number), ("X", .number), ("B", .number)] ++
  (if v = 34 then ("NAME", .text) :: ratingColumns else [("RATEA", .number), ("RATEB", .number), ("RATEC", .number)]) ++
  [("GI", .number), ("BI", .number), ("GJ", .number), ("BJ", .number), ("ST", .integer), ("MET", .integer), ("LEN", .number)] ++ ownerColumns

/-- First row of a transformer. -/
def xfmrColumns (v : ℤ) : List Heading :=
  [("I", .integer), ("J", .integer), ("K", .integer), ("CKT", .text), ("CW", .integer), ("CZ", .integer), ("CM", .integer),
    ("MAG1", .number), ("MAG2", .number), ("NMETR", .integer), ("NAME", .text), ("STAT", .integer)] ++ ownerColumns ++
  (if v = 32 then [] else [("VECGRP", .text)]) ++ if v = 34 then [("ZCOD", .integer)] else []

/-- Second row of a transformer. -/
def impedanceColumns : List Heading :=
  [("R1-2", .number), ("X1-2", .number), ("SBASE1-2", .number), ("R2-3", .number), ("X2-3", .number), ("SBASE2-3", .number),
    ("R3-1", .number), ("X3-1", .number), ("SBASE3-1", .number), ("VMSTAR", .number), ("ANSTAR", .number)]

/-- A row of a winding. -/
def windingColumns (v : ℤ) : List Heading :=
  [("WINDV", .number), ("NOMV", .number), ("ANG", .number)] ++
  (if v = 34 then ratingColumns else [("RATA", .number), ("RATB", .number), ("RATC", .number)]) ++
  [("COD", .integer), ("CONT", .integer), ("RMA", .number), ("RMI", .number), ("VMA", .number), ("VMI", .number), ("NTP", .integer),
    ("TAB", .integer), ("CR", .number), ("CX", .number)] ++ if v = 32 then [] else [("CNXA", .number)]

/-- Numbers and susceptances of the blocks of a switched shunt. -/
def blockHeadings : List (String × String) :=
  [("N1", "B1"), ("N2", "B2"), ("N3", "B3"), ("N4", "B4"), ("N5", "B5"), ("N6", "B6"), ("N7", "B7"), ("N8", "B8")]

/-- Switched shunt data. -/
def switchedColumns : List Heading :=
  [("I", .integer), ("MODSW", .integer), ("ADJM", .integer), ("STAT", .integer), ("VSWHI", .number), ("VSWLO", .number),
    ("SWREM", .integer), ("RMPCT", .number), ("RMIDNT", .text), ("BINIT", .number)] ++
  blockHeadings.flatMap fun nb => [(nb.1, .integer), (nb.2, .number)]

/-- Area data. -/
def areaColumns : List Heading := [("I", .integer), ("ISW", .integer), ("PDES", .number), ("PTOL", .number), ("ARNAME", .text)]

/-- Zone data. -/
def zoneColumns : List Heading := [("I", .integer), ("ZONAME", .text)]

/-- Owner data. -/
def ownerDataColumns : List Heading := [("I", .integer), ("OWNAME", .text)]

/-- Interarea transfer data. -/
def interareaColumns : List Heading := [("ARFROM", .integer), ("ARTO", .integer), ("TRID", .text), ("PTRAN", .number)]

/-- Multi-section line data. -/
def multiColumns : List Heading :=
  [("I", .integer), ("J", .integer), ("ID", .text), ("MET", .integer), ("DUM1", .integer), ("DUM2", .integer), ("DUM3", .integer),
    ("DUM4", .integer), ("DUM5", .integer), ("DUM6", .integer), ("DUM7", .integer), ("DUM8", .integer), ("DUM9", .integer)]

/-- FACTS device data. -/
def factsColumns : List Heading :=
  [("NAME", .text), ("I", .integer), ("J", .integer), ("MODE", .integer), ("PDES", .number), ("QDES", .number), ("VSET", .number),
    ("SHMX", .number), ("TRMX", .number), ("VTMN", .number), ("VTMX", .number), ("VSMX", .number), ("IMX", .number), ("LINX", .number),
    ("RMPCT", .number), ("OWNER", .integer), ("SET1", .number), ("SET2", .number), ("VSREF", .integer), ("REMOT", .integer), ("MNAME", .text)]

/-- Impedance correction data: numbers of a table. -/
def correctionColumns : List Heading :=
  ("I", .integer) :: [("T1", .number), ("F1", .number), ("T2", .number), ("F2", .number), ("T3", .number), ("F3", .number), ("T4", .number),
    ("F4", .number), ("T5", .number), ("F5", .number), ("T6", .number), ("F6", .number), ("T7", .number), ("F7", .number), ("T8", .number),
    ("F8", .number), ("T9", .number), ("F9", .number), ("T10", .number), ("F10", .number), ("T11", .number), ("F11", .number)]

/-- First row of a two-terminal DC line. -/
def dcColumns : List Heading :=
  [("NAME", .text), ("MDC", .integer), ("RDC", .number), ("SETVL", .number), ("VSCHD", .number), ("VCMOD", .number), ("RCOMP", .number),
    ("DELTI", .number), ("METER", .text), ("DCVMIN", .number), ("CCCITMX", .integer), ("CCCACC", .number)]

/-- The converters of a two-terminal DC line, second and third row. -/
def converterColumns : List Heading :=
  [("IP", .integer), ("NB", .integer), ("ANMX", .number), ("ANMN", .number), ("RC", .number), ("XC", .number), ("EBAS", .number),
    ("TR", .number), ("TAP", .number), ("TMX", .number), ("TMN", .number), ("STP", .number), ("IC", .integer), ("IF", .integer),
    ("IT", .integer), ("ID", .text), ("XCAP", .number)]

/-- First row of a VSC DC line. -/
def vscColumns : List Heading := [("NAME", .text), ("MDC", .integer), ("RDC", .number)] ++ ownerColumns

/-- The converters of a VSC DC line, second and third row. -/
def vscConverterColumns : List Heading :=
  [("IBUS", .integer), ("TYPE", .integer), ("MODE", .integer), ("DCSET", .number), ("ACSET", .number), ("ALOSS", .number), ("BLOSS", .number),
    ("MINLOSS", .number), ("SMAX", .number), ("IMAX", .number), ("PWF", .number), ("MAXQ", .number), ("MINQ", .number),
    ("REMOT", .integer), ("RMPCT", .number)]

/-! ### Records -/

/-- An identifier; blank means `1`. -/
def identifier (t : Txt) : Txt := if t = [] then ['1'] else t

/-- A bus record states this bus. -/
structure StatesBus (v : ℤ) (row : Row) (b : BusRec) : Prop where
  i : Int' none (under (busColumns v) row "I") b.i
  ide : Int' (some 1) (under (busColumns v) row "IDE") b.ide
  vm : Num (some 1) (under (busColumns v) row "VM") b.vm
  va : Num (some 0) (under (busColumns v) row "VA") b.va
  baskv : Num (some 0) (under (busColumns v) row "BASKV") b.baskv

/-- A load record states this load. -/
structure StatesLoad (row : Row) (l : LoadRec) : Prop where
  i : Int' none (under loadColumns row "I") l.i
  status : Int' (some 1) (under loadColumns row "STATUS") l.status
  pl : Num (some 0) (under loadColumns row "PL") l.pl
  ql : Num (some 0) (under loadColumns row "QL") l.ql
  ip : Num (some 0) (under loadColumns row "IP") l.ip
  iq : Num (some 0) (under loadColumns row "IQ") l.iq
  yp : Num (some 0) (under loadColumns row "YP") l.yp
  yq : Num (some 0) (under loadColumns row "YQ") l.yq

/-- A fixed shunt record states this shunt. -/
structure StatesFixed (row : Row) (s : FixedRec) : Prop where
  i : Int' none (under fixedColumns row "I") s.i
  status : Int' (some 1) (under fixedColumns row "STATUS") s.status
  gl : Num (some 0) (under fixedColumns row "GL") s.gl
  bl : Num (some 0) (under fixedColumns row "BL") s.bl

/-- A generator record states this machine. -/
structure StatesGen (row : Row) (g : GenRec) : Prop where
  i : Int' none (under genColumns row "I") g.i
  pg : Num (some 0) (under genColumns row "PG") g.pg
  qg : Num (some 0) (under genColumns row "QG") g.qg
  qt : Num (some 9999) (under genColumns row "QT") g.qt
  qb : Num (some (-9999)) (under genColumns row "QB") g.qb
  vs : Num (some 1) (under genColumns row "VS") g.vs
  stat : Int' (some 1) (under genColumns row "STAT") g.stat
  wmod : Int' (some 0) (under genColumns row "WMOD") g.wmod
  wpf : Num (some 1) (under genColumns row "WPF") g.wpf

/-- A branch record states this branch. -/
structure StatesBranch (v : ℤ) (row : Row) (rec : BranchRec) : Prop where
  i : Int' none (under (branchHeadings v) row "I") rec.i
  j : Int' none (under (branchHeadings v) row "J") rec.j
  r : Num none (under (branchHeadings v) row "R") rec.r
  x : Num none (under (branchHeadings v) row "X") rec.x
  b : Num (some 0) (under (branchHeadings v) row "B") rec.b
  gi : Num (some 0) (under (branchHeadings v) row "GI") rec.gi
  bi : Num (some 0) (under (branchHeadings v) row "BI") rec.bi
  gj : Num (some 0) (under (branchHeadings v) row "GJ") rec.gj
  bj : Num (some 0) (under (branchHeadings v) row "BJ") rec.bj
  st : Int' (some 1) (under (branchHeadings v) row "ST") rec.st

/-- Turns, nominal voltage and angle of a winding. -/
structure StatesTurns (v : ℤ) (row : Row) (w : Winding) : Prop where
  windv : Num none (under (windingColumns v) row "WINDV") w.windv
  nomv : Num (some 0) (under (windingColumns v) row "NOMV") w.nomv
  ang : Num (some 0) (under (windingColumns v) row "ANG") w.ang

/-- Tap control of a winding. -/
structure StatesControl (v : ℤ) (row : Row) (w : Winding) : Prop where
  cod : Num (some 0) (under (windingColumns v) row "COD") w.cod
  rma : Num (some (11 / 10)) (under (windingColumns v) row "RMA") w.rma
  rmi : Num (some (9 / 10)) (under (windingColumns v) row "RMI") w.rmi
  ntp : Num (some 33) (under (windingColumns v) row "NTP") w.ntp

/-- The rows of a two-winding transformer state this transformer. Tap control is treated apart. -/
structure StatesTwo (v : ℤ) (r1 r2 r3 r4 : Row) (rec : TwoRec) : Prop where
  i : Int' none (under (xfmrColumns v) r1 "I") rec.i
  j : Int' none (under (xfmrColumns v) r1 "J") rec.j
  cw : Int' (some 1) (under (xfmrColumns v) r1 "CW") rec.cw
  cz : Int' (some 1) (under (xfmrColumns v) r1 "CZ") rec.cz
  cm : Int' (some 1) (under (xfmrColumns v) r1 "CM") rec.cm
  mag1 : Num (some 0) (under (xfmrColumns v) r1 "MAG1") rec.mag1
  mag2 : Num (some 0) (under (xfmrColumns v) r1 "MAG2") rec.mag2
  stat : Int' (some 1) (under (xfmrColumns v) r1 "STAT") rec.stat
  r : Num (some 0) (under impedanceColumns r2 "R1-2") rec.z12.r
  x : Num none (under impedanceColumns r2 "X1-2") rec.z12.x
  sbase : Num none (under impedanceColumns r2 "SBASE1-2") rec.z12.sbase
  w1 : StatesTurns v r3 rec.w1
  windv2 : Num none (under (windingColumns v) r4 "WINDV") rec.windv2
  nomv2 : Num (some 0) (under (windingColumns v) r4 "NOMV") rec.nomv2

/-- The rows of a three-winding transformer state this transformer. -/
structure StatesThree (v : ℤ) (r1 r2 r3 r4 r5 : Row) (x : ThreeRec) : Prop where
  i : Int' none (under (xfmrColumns v) r1 "I") x.i
  j : Int' none (under (xfmrColumns v) r1 "J") x.j
  k : Int' none (under (xfmrColumns v) r1 "K") x.k
  cw : Int' (some 1) (under (xfmrColumns v) r1 "CW") x.cw
  cz : Int' (some 1) (under (xfmrColumns v) r1 "CZ") x.cz
  cm : Int' (some 1) (under (xfmrColumns v) r1 "CM") x.cm
  mag1 : Num (some 0) (under (xfmrColumns v) r1 "MAG1") x.mag1
  mag2 : Num (some 0) (under (xfmrColumns v) r1 "MAG2") x.mag2
  stat : Int' (some 1) (under (xfmrColumns v) r1 "STAT") x.stat
  r12 : Num (some 0) (under impedanceColumns r2 "R1-2") x.z12.r
  x12 : Num none (under impedanceColumns r2 "X1-2") x.z12.x
  sbase12 : Num none (under impedanceColumns r2 "SBASE1-2") x.z12.sbase
  r23 : Num (some 0) (under impedanceColumns r2 "R2-3") x.z23.r
  x23 : Num none (under impedanceColumns r2 "X2-3") x.z23.x
  sbase23 : Num none (under impedanceColumns r2 "SBASE2-3") x.z23.sbase
  r31 : Num (some 0) (under impedanceColumns r2 "R3-1") x.z31.r
  x31 : Num none (under impedanceColumns r2 "X3-1") x.z31.x
  sbase31 : Num none (under impedanceColumns r2 "SBASE3-1") x.z31.sbase
  w1 : StatesTurns v r3 x.w1
  w2 : StatesTurns v r4 x.w2
  w3 : StatesTurns v r5 x.w3

/-- A switched shunt record states this shunt. -/
structure StatesSwitched (row : Row) (s : SwitchedRec) : Prop where
  i : Int' none (under switchedColumns row "I") s.i
  modsw : Int' (some 1) (under switchedColumns row "MODSW") s.modsw
  stat : Int' (some 1) (under switchedColumns row "STAT") s.stat
  vswhi : Num (some 1) (under switchedColumns row "VSWHI") s.vswhi
  vswlo : Num (some 1) (under switchedColumns row "VSWLO") s.vswlo
  binit : Num (some 0) (under switchedColumns row "BINIT") s.binit
  blocks : List.Forall₂ (fun h nb => Int' (some 0) (under switchedColumns row h.1) nb.1 ∧
    Num (some 0) (under switchedColumns row h.2) nb.2) blockHeadings s.blocks

/-! ### Sections -/

/-- A row that starts with `@`. -/
def Comment (r : Row) : Prop := ∃ t ts, r = ('@' :: t) :: ts

/-- The end of a section: `0`, alone or before a comment. -/
def Terminator (r : Row) : Prop := r = [['0']] ∨ ∃ t ts, r = ('0' :: ' ' :: '/' :: t) :: ts

/-- The end of the file. -/
def FileEnd (r : Row) : Prop := ∃ c t ts, r = (c :: t) :: ts ∧ (c = 'q' ∨ c = 'Q')

/-- A row a record can begin with: it is not blank, and it is not taken for one of the above. -/
def Opening (r : Row) : Prop :=
  ∃ c t ts, r = (c :: t) :: ts ∧ c ≠ '@' ∧ c ≠ 'q' ∧ c ≠ 'Q' ∧ c :: t ≠ ['0'] ∧ ¬ ['0', ' ', '/'] <+: c :: t

/-- The rows of a section with its records, and the rows after the section. -/
inductive Lists : List (List Row) → List Row → List Row → Prop
  | stop {t : Row} {rest : List Row} (ht : Terminator t) : Lists [] (t :: rest) rest
  | comment {c : Row} {items : List (List Row)} {rows rest : List Row} (hc : Comment c) (h : Lists items rows rest) : Lists items (c :: rows) rest
  | item {r : Row} {rs : List Row} {items : List (List Row)} {rows rest : List Row} (hr : Opening r) (h : Lists items rows rest) :
      Lists ((r :: rs) :: items) (r :: (rs ++ rows)) rest

/-- The rows of sections, one after the other, with what comes at last. The file may end when no more records follow. -/
inductive LaysOut (tail : List Row → Prop) : List (List (List Row)) → List Row → Prop
  | done {rows : List Row} (h : tail rows) : LaysOut tail [] rows
  | early {secs : List (List (List Row))} {cs rest : List Row} {q : Row} (hne : secs ≠ []) (he : ∀ s ∈ secs, s = []) (hc : ∀ c ∈ cs, Comment c)
      (hq : FileEnd q) : LaysOut tail secs (cs ++ q :: rest)
  | sect {items : List (List Row)} {secs : List (List (List Row))} {rows rest : List Row} (h : Lists items rows rest)
      (hs : LaysOut tail secs rest) : LaysOut tail (items :: secs) rows

/-- What may follow the sections that are used: in version 32 anything, else rows without meaning here up to the end of the file. The last row
before the end is no comment. -/
def Tail (v : ℤ) (rows : List Row) : Prop :=
  v ≠ 32 → ∃ pre q rest, rows = pre ++ q :: rest ∧ FileEnd q ∧ (∀ r ∈ pre, ∃ c t ts, r = (c :: t) :: ts) ∧ ∀ r ∈ pre.getLast?, ¬ Comment r

/-- The rows of a two-winding transformer. -/
structure TwoRows where
  r1 : Row
  r2 : Row
  r3 : Row
  r4 : Row

/-- The rows of a three-winding transformer. -/
structure ThreeRows where
  r1 : Row
  r2 : Row
  r3 : Row
  r4 : Row
  r5 : Row

/-- Three rows of a DC line. -/
structure DcRows where
  r1 : Row
  r2 : Row
  r3 : Row

/-- The records of a case, as rows. -/
structure Document where
  system : List Row := []
  buses : List Row := []
  loads : List Row := []
  fixed : List Row := []
  generators : List Row := []
  branches : List Row := []
  switching : List Row := []
  transformers : List (TwoRows ⊕ ThreeRows) := []
  areas : List Row := []
  twoTerminal : List DcRows := []
  vsc : List DcRows := []
  corrections : List Row := []
  multiTerminal : List Row := []
  multiSection : List Row := []
  zones : List Row := []
  interarea : List Row := []
  owners : List Row := []
  facts : List Row := []
  switched : List Row := []

/-- The two-winding transformers. -/
def Document.two (d : Document) : List TwoRows := d.transformers.filterMap Sum.getLeft?

/-- The three-winding transformers. -/
def Document.three (d : Document) : List ThreeRows := d.transformers.filterMap Sum.getRight?

/-- Records of one row. -/
def single (l : List Row) : List (List Row) := l.map fun r => [r]

/-- The rows of a transformer. -/
def transformerRows : TwoRows ⊕ ThreeRows → List Row
  | .inl x => [x.r1, x.r2, x.r3, x.r4]
  | .inr x => [x.r1, x.r2, x.r3, x.r4, x.r5]

/-- The sections in the order of the format. -/
def Document.sections (v : ℤ) (d : Document) : List (List (List Row)) :=
  (if v = 34 then [single d.system] else []) ++ [single d.buses, single d.loads, single d.fixed, single d.generators, single d.branches] ++
  (if v = 34 then [single d.switching] else []) ++
  [d.transformers.map transformerRows, single d.areas, d.twoTerminal.map fun x => [x.r1, x.r2, x.r3], d.vsc.map fun x => [x.r1, x.r2, x.r3],
    single d.corrections, single d.multiTerminal, single d.multiSection, single d.zones, single d.interarea, single d.owners,
    single d.facts, single d.switched]

/-- The first row of a file and its six fields; the last field may be followed by a comment, further fields do not count. -/
inductive HeaderRow : Row → Row → Prop
  | plain (r more : Row) (h : r.length = 6) : HeaderRow (r ++ more) r
  | comment (r more : Row) (t b c : Txt) (h : r.length = 5) (hb : Blank b) (ht : t = [] → b = []) : HeaderRow (r ++ (t ++ b ++ '/' :: c) :: more) (r ++ [t])

/-- The rows of a file: the case identification with base and version, two rows of title, the sections. One comment may stand before. -/
def FileOf (v : ℤ) (sbase : ℝ) (d : Document) (rows : List Row) : Prop :=
  ∃ first header fields title1 title2 body, rows = first ++ header :: title1 :: title2 :: body ∧ (first = [] ∨ ∃ c, Comment c ∧ first = [c]) ∧
    HeaderRow header fields ∧ Fits caseColumns 6 ["IC", "SBASE"] fields ∧ Num none (under caseColumns fields "SBASE") sbase ∧
    Int' (some 33) (under caseColumns fields "REV") v ∧ LaysOut (Tail v) (d.sections v) body

/-! ### Sound documents -/

/-- A generator record: of the owners and the wind machine fields, either at most the owners are given or all. -/
structure FitsGen (row : Row) : Prop where
  fits : Fits genColumns 16 ["I"] row
  wind : row.length ≤ 26 ∨ row.length = 28 ∧ under genColumns row "WPF" ≠ [] ∧ ∀ c ∈ under genColumns row "WMOD", c.isDigit = true

/-- The rows of a two-winding transformer; the third bus is `0`. -/
structure FitsTwo (v : ℤ) (x : TwoRows) : Prop where
  r1 : Fits (xfmrColumns v) (if v = 32 then 14 else 21) ["I", "J", "CKT"] x.r1
  k : under (xfmrColumns v) x.r1 "K" = ['0']
  r2 : Fits impedanceColumns 3 ["X1-2", "SBASE1-2"] x.r2
  r3 : Fits (windingColumns v) (if v = 32 then 16 else 17) ["WINDV"] x.r3
  r4 : Fits (windingColumns v) 2 ["WINDV"] x.r4

/-- The rows of a three-winding transformer. -/
structure FitsThree (v : ℤ) (x : ThreeRows) : Prop where
  r1 : Fits (xfmrColumns v) (if v = 32 then 14 else 21) ["I", "J", "K"] x.r1
  k : under (xfmrColumns v) x.r1 "K" ≠ ['0']
  r2 : Fits impedanceColumns 11 ["X1-2", "SBASE1-2", "X2-3", "SBASE2-3", "X3-1", "SBASE3-1"] x.r2
  r3 : Fits (windingColumns v) (if v = 32 then 16 else 17) ["WINDV"] x.r3
  r4 : Fits (windingColumns v) (if v = 32 then 16 else 17) ["WINDV"] x.r4
  r5 : Fits (windingColumns v) (if v = 32 then 16 else 17) ["WINDV"] x.r5

/-- Two rows name the same thing: the same bus numbers and the same identifiers. -/
def SameName (cols : List Heading) (numbers identifiers : List String) (r r' : Row) : Prop :=
  (∀ name ∈ numbers, ∃ n, Integer (under cols r name) n ∧ Integer (under cols r' name) n) ∧
  ∀ name ∈ identifiers, identifier (under cols r name) = identifier (under cols r' name)

/-- Every record of a document fits its columns, fields have no white space around them, and no two records of a kind have the same name. -/
structure Document.Sound (v : ℤ) (d : Document) : Prop where
  buses : ∀ r ∈ d.buses, Fits (busColumns v) (busColumns v).length ["I"] r
  loads : ∀ r ∈ d.loads, Fits loadColumns 13 ["I"] r
  fixed : ∀ r ∈ d.fixed, Fits fixedColumns 5 ["I"] r
  generators : ∀ r ∈ d.generators, FitsGen r
  branches : ∀ r ∈ d.branches, Fits (branchHeadings v) 0 ["I", "J", "R", "X", "ST"] r
  two : ∀ x ∈ d.two, FitsTwo v x
  three : ∀ x ∈ d.three, FitsThree v x
  switched : ∀ r ∈ d.switched, Fits switchedColumns 0 ["I"] r
  areas : ∀ r ∈ d.areas, Fits areaColumns 5 ["I"] r
  twoTerminal : ∀ x ∈ d.twoTerminal, Fits dcColumns 12 ["NAME", "RDC", "SETVL", "VSCHD"] x.r1 ∧
    Fits converterColumns 17 ["IP", "NB", "ANMX", "ANMN", "RC", "XC", "EBAS"] x.r2 ∧
    Fits converterColumns 17 (converterColumns.map Prod.fst) x.r3
  vsc : ∀ x ∈ d.vsc, Fits vscColumns 0 ["NAME", "RDC"] x.r1 ∧ Fits vscConverterColumns 15 ["IBUS", "TYPE", "DCSET"] x.r2 ∧
    Fits vscConverterColumns 15 ["IBUS", "TYPE", "DCSET"] x.r3
  corrections : v ≠ 34 → ∀ r ∈ d.corrections, Fits correctionColumns 0 ["I"] r
  multiSection : ∀ r ∈ d.multiSection, Fits multiColumns 5 ["I", "J", "DUM1"] r
  zones : ∀ r ∈ d.zones, Fits zoneColumns 2 ["I"] r
  interarea : ∀ r ∈ d.interarea, Fits interareaColumns 4 ["ARFROM", "ARTO"] r
  owners : ∀ r ∈ d.owners, Fits ownerDataColumns 2 ["I"] r
  facts : ∀ r ∈ d.facts, Fits factsColumns 21 ["NAME", "I", "J", "MODE"] r
  clean : ∀ r ∈ d.loads ++ d.fixed ++ d.generators ++ d.branches, ∀ t ∈ r, Trimmed t
  busNames : d.buses.Pairwise fun r r' => ¬ SameName (busColumns v) ["I"] [] r r'
  loadNames : d.loads.Pairwise fun r r' => ¬ SameName loadColumns ["I"] ["ID"] r r'
  fixedNames : d.fixed.Pairwise fun r r' => ¬ SameName fixedColumns ["I"] ["ID"] r r'
  generatorNames : d.generators.Pairwise fun r r' => ¬ SameName genColumns ["I"] ["ID"] r r'
  branchNames : d.branches.Pairwise fun r r' => ¬ SameName (branchHeadings v) ["I", "J"] ["CKT"] r r'
  twoNames : d.two.Pairwise fun x x' => ¬ SameName (xfmrColumns v) ["I", "J"] ["CKT"] x.r1 x'.r1
  threeNames : d.three.Pairwise fun x x' => ¬ SameName (xfmrColumns v) ["I", "J", "K"] ["CKT"] x.r1 x'.r1
  switchedNames : d.switched.Pairwise fun r r' => ¬ SameName switchedColumns ["I"] [] r r'

/-- These are the things the records state, in some order. -/
def Listed {α β : Type} (states : α → β → Prop) (records : List α) (things : List β) : Prop :=
  ∃ l, l.Perm things ∧ List.Forall₂ states records l

/-- The case a document states, apart from tap control. -/
structure Document.Means (v : ℤ) (d : Document) (c : Case) : Prop where
  buses : Listed (StatesBus v) d.buses c.buses
  loads : Listed StatesLoad d.loads c.loads
  fixed : Listed StatesFixed d.fixed c.fixed
  generators : Listed StatesGen d.generators c.generators
  branches : Listed (StatesBranch v) d.branches c.branches
  two : Listed (fun x rec => StatesTwo v x.r1 x.r2 x.r3 x.r4 rec ∧ (v ≠ 34 → StatesControl v x.r3 rec.w1)) d.two c.two
  three : Listed (fun x rec => StatesThree v x.r1 x.r2 x.r3 x.r4 x.r5 rec) d.three c.three
  switched : Listed StatesSwitched d.switched c.switched

/-- The same records in another order within their sections. -/
structure Document.Rearranged (d d' : Document) : Prop where
  buses : d.buses.Perm d'.buses
  loads : d.loads.Perm d'.loads
  fixed : d.fixed.Perm d'.fixed
  generators : d.generators.Perm d'.generators
  branches : d.branches.Perm d'.branches
  two : d.two.Perm d'.two
  three : d.three.Perm d'.three
  switched : d.switched.Perm d'.switched

end Verif.Raw
