import Verif.Model.Placement
import Mathlib.Analysis.SpecialFunctions.Sqrt
import Mathlib.Analysis.SpecialFunctions.Trigonometric.Basic

/-!
# Loading a RAW case: `parse_raw`

`/repo/src/logic/network/parsers/raw/parser.py` 27-50, 64-472, `data_classes.py` 46-488, `parse_transformers.py`,
`/repo/src/logic/network/networkloader.py` 64-86, and the constructors of the components.

The input is what `Data.read` leaves in `data.raw`: the records in the order of the `get_*` methods (`Data.py` 195-228).
The text reader `Data.py` is in `RawText.lean`. A record keeps the fields `parse_raw` uses; ratings, owners, areas,
zones and names are left out. Python numbers are reals, identifiers integers. A python exception is a value of `Err`.
-/

namespace Verif.Raw

/-- The exceptions python raises on the way (in `parser.py` 64-500, `data_classes.py`, `parse_transformers.py` 100-410). -/
inductive Err
  | key
  | attribute
  | zeroDivision
  | value
  | index
  | missing
  | type
  | unbound
  deriving DecidableEq, Repr

/-- A python computation that may raise (as in `parser.py` 64-500). -/
abbrev Py := Except Err

/-- Division of numbers, `ZeroDivisionError` at zero (as in `data_classes.py` 204, `parse_transformers.py` 152). -/
noncomputable def pyDiv (a b : ℝ) : Py ℝ := if b = 0 then .error .zeroDivision else .ok (a / b)

/-- `math.sqrt`, `ValueError` below zero (`data_classes.py` 204, 210, `parse_transformers.py` 152, 170, 344, 369). -/
noncomputable def pySqrt (a : ℝ) : Py ℝ := if a < 0 then .error .value else .ok (Real.sqrt a)

/-- A loop that appends one result per item and stops at the first exception (as the loop of `parser.py` 103-121). -/
def mapPy {α β : Type} (f : α → Py β) : List α → Py (List β)
  | [] => .ok []
  | a :: as =>
    match f a with
    | .error e => .error e
    | .ok b =>
      match mapPy f as with
      | .error e => .error e
      | .ok bs => .ok (b :: bs)

/-- A loop over a state that stops at the first exception (as the loop of `parser.py` 151-222). -/
def foldPy {α σ : Type} (f : σ → α → Py σ) : σ → List α → Py σ
  | s, [] => .ok s
  | s, a :: as =>
    match f s a with
    | .error e => .error e
    | .ok s' => foldPy f s' as

/-! ### Records -/

/-- `Bus_data` (`data_classes.py` 46-63). -/
structure BusRec where
  i : ℤ
  ide : ℤ
  vm : ℝ
  va : ℝ
  baskv : ℝ

/-- `Generator_data` and `Slack_generator_data` (`data_classes.py` 165-200, 239-274). -/
structure GenRec where
  i : ℤ
  pg : ℝ
  qg : ℝ
  qt : ℝ
  qb : ℝ
  vs : ℝ
  stat : ℤ
  wmod : ℤ
  wpf : ℝ

/-- `Switched_shunt_data` (`data_classes.py` 112-141); the blocks are `(n1, b1), …, (n8, b8)`. -/
structure SwitchedRec where
  i : ℤ
  modsw : ℤ
  stat : ℤ
  vswhi : ℝ
  vswlo : ℝ
  binit : ℝ
  blocks : List (ℤ × ℝ)

/-- `Fixed_shunt_data` (`data_classes.py` 98-105). -/
structure FixedRec where
  i : ℤ
  status : ℤ
  gl : ℝ
  bl : ℝ

/-- `Load_data` (`data_classes.py` 74-91). -/
structure LoadRec where
  i : ℤ
  status : ℤ
  pl : ℝ
  ql : ℝ
  ip : ℝ
  iq : ℝ
  yp : ℝ
  yq : ℝ

/-- `Branch_data` (`data_classes.py` 285-315). -/
structure BranchRec where
  i : ℤ
  j : ℤ
  r : ℝ
  x : ℝ
  b : ℝ
  gi : ℝ
  bi : ℝ
  gj : ℝ
  bj : ℝ
  st : ℤ

/-- The winding entries of a transformer record: turns and tap control (`data_classes.py` 372-388, 434-477). -/
structure Winding where
  windv : ℝ
  nomv : ℝ
  ang : ℝ
  cod : ℝ
  rma : ℝ
  rmi : ℝ
  ntp : ℝ

/-- The impedance between two windings and its power base (`data_classes.py` 369-371, 422-430). -/
structure Impedance where
  r : ℝ
  x : ℝ
  sbase : ℝ

/-- `Two_xfmr_data` (`data_classes.py` 350-391). -/
structure TwoRec where
  i : ℤ
  j : ℤ
  stat : ℤ
  cw : ℤ
  cz : ℤ
  cm : ℤ
  mag1 : ℝ
  mag2 : ℝ
  z12 : Impedance
  w1 : Winding
  windv2 : ℝ
  nomv2 : ℝ

/-- `Three_xfmr_data` (`data_classes.py` 401-482). -/
structure ThreeRec where
  i : ℤ
  j : ℤ
  k : ℤ
  stat : ℤ
  cw : ℤ
  cz : ℤ
  cm : ℤ
  mag1 : ℝ
  mag2 : ℝ
  z12 : Impedance
  z23 : Impedance
  z31 : Impedance
  w1 : Winding
  w2 : Winding
  w3 : Winding

/-- What `Data.read` leaves in `data.raw` (`Data.py` 168-228). -/
structure Case where
  sbase : ℝ
  buses : List BusRec
  generators : List GenRec
  switched : List SwitchedRec
  fixed : List FixedRec
  loads : List LoadRec
  branches : List BranchRec
  two : List TwoRec
  three : List ThreeRec

/-- `data.raw.slack_buses` (`Data.py` 389-391): the buses of type 3. -/
def Case.slackBuses (c : Case) : List ℤ := (c.buses.filter fun b => b.ide = 3).map BusRec.i

/-- `PV_list` (`parser.py` 98, 116-117). -/
def Case.pvList (c : Case) : List ℤ := (c.buses.filter fun b => b.ide = 2).map BusRec.i

/-- `offline_bus` (`parser.py` 102, 118-119). -/
def Case.offline (c : Case) : List ℤ := (c.buses.filter fun b => b.ide = 4).map BusRec.i

/-- The keys of `all_bus_key` (`parser.py` 120-121, `data_classes.py` 68-71). -/
def Case.online (c : Case) : List ℤ := (c.buses.filter fun b => b.ide ≠ 4).map BusRec.i

/-- `all_bus_key[i]`; the bus object is represented by its number (`bus.py` 41-48). -/
def Case.bus (c : Case) (i : ℤ) : Py ℤ := if i ∈ c.online then .ok i else .error .key

/-- `search_case_data['buses'][i]` (`parser.py` 113). -/
def Case.busRec (c : Case) (i : ℤ) : Py BusRec :=
  match c.buses.find? fun b => b.i = i with
  | some b => .ok b
  | none => .error .key

/-! ### Loaded objects -/

/-- A `Slack` (`slack.py` 42-51). -/
structure SlackAt where
  bus : ℤ
  Vset : ℝ
  ang : ℝ
  Pinit : ℝ
  Qinit : ℝ

/-- A `Generator` at a bus (`generator.py` 53-62). -/
structure GenAt where
  bus : ℤ
  g : Generator

/-- A `Load` between a bus and ground (`load.py` 55-91). -/
structure LoadAt where
  bus : ℤ
  l : Load

/-- A `Shunt` (`shunt.py` 42-46). -/
structure ShuntAt where
  bus : ℤ
  G : ℝ
  B : ℝ

/-- A `Line` (`line.py` 98-112). -/
structure LineAt where
  f : ℤ
  t : ℤ
  G : ℝ
  B : ℝ
  Bl : ℝ

/-- A `Transformer` whose negative terminals are grounded (`transformer.py` 71-90); `ang` is `ang_rad`. -/
structure XfmrAt where
  f : ℤ
  t : ℤ
  r : ℝ
  x : ℝ
  tr : ℝ
  ang : ℝ
  G : ℝ
  B : ℝ
  Gsh : ℝ
  Bsh : ℝ

/-- `integrated_data` (`parser.py` 71, 472). -/
structure Out where
  buses : List ℤ
  slack : List SlackAt
  generators : List GenAt
  loads : List LoadAt
  shunts : List ShuntAt
  branches : List LineAt
  xfmrs : List XfmrAt

/-! ### Generators -/

/-- `almostEqual` (`parser.py` 27-28); also the test of `data_classes.py` 219. -/
noncomputable def almostEqual (a b : ℝ) : Bool := |b - a| < 1 / 1000000

/-- `np.sign` (`data_classes.py` 212-216). -/
noncomputable def pySign (a : ℝ) : ℝ := if a < 0 then -1 else if a = 0 then 0 else 1

/-- `math.sqrt(math.pow(pg / wpf, 2) - math.pow(pg, 2))` (`data_classes.py` 204, 210). -/
noncomputable def windQ (g : GenRec) : Py ℝ :=
  match pyDiv g.pg g.wpf with
  | .error e => .error e
  | .ok q => pySqrt (q ^ 2 - g.pg ^ 2)

/-- The adjustments of the limits by the wind machine mode (`data_classes.py` 203-216). In mode 2 the limits are written
to the attributes `qT` and `qB`, which nothing reads; `qt` and `qb` stay as they are. -/
noncomputable def windLimits (g : GenRec) : Py GenRec :=
  if g.wmod = 2 then
    match windQ g with
    | .error e => .error e
    | .ok _ => .ok g
  else if g.wmod = 3 then
    match windQ g with
    | .error e => .error e
    | .ok q =>
      let s := if 0 < g.wpf then pySign g.pg * q else -pySign g.pg * q
      .ok { g with qt := s, qb := s }
  else .ok g

/-- `Generator_data.__init__` (`data_classes.py` 167-220). -/
noncomputable def genData (g : GenRec) : Py GenRec :=
  match windLimits g with
  | .error e => .error e
  | .ok h => .ok (if almostEqual h.qb h.qt then { h with qg := h.qt } else h)

/-- `Generator_data.integrate` (`data_classes.py` 222-226), then `Generator.__init__` (`generator.py` 55-62). -/
noncomputable def genIntegrate (c : Case) (g : GenRec) : Py GenAt :=
  match c.bus g.i with
  | .error e => .error e
  | .ok b => .ok ⟨b, Generator.make (g.pg / 100) g.vs (g.qt / 100) (g.qb / 100) (g.qg / 100)⟩

/-- `Generator_data.integrate` with `isGenerator = False` (`data_classes.py` 228-231). -/
noncomputable def genLoad (c : Case) (g : GenRec) : Py LoadAt :=
  match c.bus g.i with
  | .error e => .error e
  | .ok b => .ok ⟨b, { P := -g.pg / 100, Q := -g.qg / 100, Z := 0, IP := 0, IQ := 0 }⟩

/-- What the generator loop builds (`parser.py` 130-147). `voltage_controlling_bus` and the keys of `gen_dic` are the
buses of `gens` (221-223, 305-308); the keys of `search_case_data['slack_generators']` and of `slack_dic` are the buses of
`slack` (164-166, 173). -/
structure GenState where
  slack : List SlackAt
  gens : List GenAt
  loads : List LoadAt

/-- `g.i in voltage_controlling_bus` (`parser.py` 199, 271). -/
def controlling (gens : List GenAt) (i : ℤ) : Bool := gens.any fun x => x.bus = i

/-- `integrated_data['slack'][slack_dic[i]].Pinit += pg / sbase` (`parser.py` 169). -/
noncomputable def addPinit (sbase : ℝ) (i : ℤ) (pg : ℝ) (l : List SlackAt) : Py (List SlackAt) :=
  match pyDiv pg sbase with
  | .error e => .error e
  | .ok p => .ok (l.map fun s => if s.bus = i then { s with Pinit := s.Pinit + p } else s)

/-- A generator at a slack bus (`parser.py` 153-173, `data_classes.py` 261, 276-278, `slack.py` 42-51). -/
noncomputable def slackStep (c : Case) (s : GenState) (g : GenRec) : Py GenState :=
  match c.busRec g.i with
  | .error e => .error e
  | .ok b =>
    if g.i ∉ c.offline ∧ g.stat = 1 then
      if s.slack.any fun x => x.bus = g.i then
        match addPinit c.sbase g.i g.pg s.slack with
        | .error e => .error e
        | .ok l => .ok { s with slack := l }
      else
        match c.bus g.i with
        | .error e => .error e
        | .ok k => .ok { s with slack := s.slack ++ [⟨k, g.vs, b.va * Real.pi / 180, g.pg / 100, g.qg / 100⟩] }
    else .ok s

/-- A generator elsewhere (`parser.py` 175-230). A second generator at a controlling bus reaches line 203,
`generators[idx].Pmax += …`: `Generator` has no attribute `Pmax` (`generator.py` 53-62), so python raises there, after
line 202 has changed `P`. -/
noncomputable def pvStep (c : Case) (s : GenState) (gen : GenRec) : Py GenState :=
  match genData gen with
  | .error e => .error e
  | .ok g =>
    if g.i ∈ c.pvList ∧ g.stat = 1 then
      if almostEqual g.qt g.qb = true ∧ gen.wmod ≠ 2 then
        match genLoad c g with
        | .error e => .error e
        | .ok l => .ok { s with loads := s.loads ++ [l] }
      else if g.pg = 0 ∧ g.qt = 0 ∧ g.qb = 0 then .ok s
      else if controlling s.gens g.i then .error .attribute
      else
        match genIntegrate c g with
        | .error e => .error e
        | .ok x => .ok { s with gens := s.gens ++ [x] }
    else .ok s

/-- The generator loop body (`parser.py` 151-230). -/
noncomputable def genStep (c : Case) (s : GenState) (g : GenRec) : Py GenState :=
  if g.i ∈ c.slackBuses then slackStep c s g else pvStep c s g

/-! ### Shunts and loads -/

/-- The loop of `compute_bmin_bmax` (`parser.py` 43-49): it stops at the first block that is zero. -/
noncomputable def bminBmaxLoop : ℝ × ℝ → List ℝ → ℝ × ℝ
  | m, [] => m
  | m, b :: bs =>
    if 0 < b then bminBmaxLoop (m.1, m.2 + b) bs
    else if b < 0 then bminBmaxLoop (m.1 + b, m.2) bs
    else m

/-- `compute_bmin_bmax` (`parser.py` 31-50). -/
noncomputable def bminBmax (blocks : List (ℤ × ℝ)) : ℝ × ℝ :=
  bminBmaxLoop (0, 0) (blocks.map fun nb => (nb.1 : ℝ) * nb.2)

/-- The `Generator_data` made of a continuous switched shunt (`parser.py` 263-304). -/
noncomputable def continuousGen (s : SwitchedRec) : GenRec :=
  let m := bminBmax s.blocks
  { i := s.i, pg := 0, qg := s.binit * s.vswhi ^ 2, qt := m.2 * s.vswhi ^ 2, qb := m.1 * s.vswhi ^ 2,
    vs := (s.vswhi + s.vswlo) / 2, stat := s.stat, wmod := 0, wpf := 1 }

/-- The switched shunt loop body (`parser.py` 240-319, `data_classes.py` 143-162, `shunt.py` 45-46). A continuous shunt
at a bus that already has a generator reaches line 279, `generators[gen_id].RMPCT += …`: `Generator` has no such
attribute. -/
noncomputable def switchedStep (c : Case) (s : List GenAt × List ShuntAt) (r : SwitchedRec) :
    Py (List GenAt × List ShuntAt) :=
  if r.i ∉ c.offline ∧ r.stat = 1 then
    if r.modsw = 2 then
      if controlling s.1 r.i then .error .attribute
      else
        match genData (continuousGen r) with
        | .error e => .error e
        | .ok g =>
          match genIntegrate c g with
          | .error e => .error e
          | .ok x => .ok (s.1 ++ [x], s.2)
    else
      match c.bus r.i with
      | .error e => .error e
      | .ok b => .ok (s.1, s.2 ++ [⟨b, 0 / 100, r.binit / 100⟩])
  else .ok s

/-- Which fixed shunts are loaded (`parser.py` 332). -/
noncomputable def fixedIn (c : Case) (r : FixedRec) : Bool :=
  decide (r.i ∉ c.offline ∧ r.status = 1 ∧ (r.gl ≠ 0 ∨ r.bl ≠ 0))

/-- `Fixed_shunt_data.integrate` (`data_classes.py` 107-109, `shunt.py` 45-46). -/
noncomputable def fixedIntegrate (c : Case) (r : FixedRec) : Py ShuntAt :=
  match c.bus r.i with
  | .error e => .error e
  | .ok b => .ok ⟨b, r.gl / 100, r.bl / 100⟩

/-- Which loads are loaded (`parser.py` 344). -/
def loadIn (c : Case) (r : LoadRec) : Bool := decide (r.i ∉ c.offline ∧ r.status = 1)

/-- `Load_data.integrate` (`data_classes.py` 93-95): the constant-current part is not divided, the constant-admittance part
not passed on. -/
noncomputable def loadIntegrate (c : Case) (r : LoadRec) : Py LoadAt :=
  match c.bus r.i with
  | .error e => .error e
  | .ok b => .ok ⟨b, { P := r.pl / 100, Q := r.ql / 100, Z := 0, IP := r.ip, IQ := r.iq }⟩

/-! ### Branches -/

/-- Which branches are loaded (`parser.py` 367). -/
def branchIn (c : Case) (r : BranchRec) : Bool := decide (r.i ∉ c.offline ∧ r.j ∉ c.offline ∧ r.st = 1)

/-- `Line.__init__` (`line.py` 98-112). -/
noncomputable def makeLine (f t : ℤ) (r x b : ℝ) : Py LineAt :=
  if x ^ 2 + r ^ 2 = 0 then .error .zeroDivision
  else .ok ⟨f, t, r / (x ^ 2 + r ^ 2), -x / (x ^ 2 + r ^ 2), b / 2⟩

/-- `Branch_data.integrate` and the lines that store its result (`data_classes.py` 317-329, `parser.py` 368-375). A line
shunt reaches `shunt_i.Bus` (371) or `shunt_j.Bus` (374): `Shunt` has only `bus` (`shunt.py` 42-46), so python raises. -/
noncomputable def branchIntegrate (c : Case) (r : BranchRec) : Py LineAt :=
  match c.bus r.i with
  | .error e => .error e
  | .ok f =>
    match c.bus r.j with
    | .error e => .error e
    | .ok t =>
      match makeLine f t r.r r.x r.b with
      | .error e => .error e
      | .ok l => if r.gi ≠ 0 ∨ r.bi ≠ 0 ∨ r.gj ≠ 0 ∨ r.bj ≠ 0 then .error .attribute else .ok l

/-! ### Transformers -/

/-- Turns of a winding in per unit of the bus base voltage by winding code (`parse_transformers.py` 52-68, 280-296). -/
noncomputable def turnsOf (cw : ℤ) (windv nominal base : ℝ) : Py ℝ :=
  if cw = 1 then .ok windv
  else if cw = 2 then pyDiv windv base
  else if cw = 3 then pyDiv (windv * nominal) base
  else .ok windv

/-- Impedance on the system base by impedance code (`parse_transformers.py` 140-155, 332-347). Another code leaves
`mRLossInit` unset, and reading it raises. (In the three-winding loop the code is the same for all windings, so no earlier
value is left over.) -/
noncomputable def impedanceOf (cz : ℤ) (z : Impedance) (sbase tj2 : ℝ) : Py (ℝ × ℝ) :=
  if cz = 1 then .ok (z.r * tj2, z.x * tj2)
  else if cz = 2 then
    if z.sbase = 0 then .error .zeroDivision
    else .ok (z.r * tj2 * sbase / z.sbase, z.x * tj2 * sbase / z.sbase)
  else if cz = 3 then
    if z.sbase = 0 then .error .zeroDivision
    else
      let rpu := z.r / (1000000 * z.sbase)
      let base := sbase / z.sbase * tj2
      match pySqrt (z.x * z.x - rpu * rpu) with
      | .error e => .error e
      | .ok q => .ok (rpu * base, q * base)
  else .error .attribute

/-- Magnetizing admittance (`parse_transformers.py` 158-176, 358-375). -/
noncomputable def magnetizing (cm : ℤ) (mag1 mag2 s12 sbase : ℝ) : Py (ℝ × ℝ) :=
  if cm = 2 then
    if sbase = 0 then .error .zeroDivision
    else
      let g := mag1 / (1000000 * sbase)
      let sloss := mag2 * s12 / sbase
      if g - sloss < -(1 / 1000000) then
        match pySqrt (sloss * sloss - g * g) with
        | .error e => .error e
        | .ok q => .ok (g, -q)
      else .ok (0, 0)
  else .ok (mag1, mag2)

/-- `Transformer.__init__` with grounded negative terminals (`transformer.py` 71-90). -/
noncomputable def makeXfmr (f t : ℤ) (r x tr ang gsh bsh : ℝ) : Py XfmrAt :=
  if r ^ 2 + x ^ 2 = 0 then .error .zeroDivision
  else .ok ⟨f, t, r, x, tr, ang * Real.pi / 180, r / (r ^ 2 + x ^ 2), -x / (r ^ 2 + x ^ 2), gsh, bsh⟩

/-- What the tap control part of `TwoWindingXfmrs.__init__` can raise (`parse_transformers.py` 76-104): its results are
not used. -/
noncomputable def tapChecks2 (r : TwoRec) (tj : ℝ) : Py Unit :=
  if r.w1.cod = 1 ∨ r.w1.cod = 2 then
    if r.cw = 3 then (if tj = 0 ∨ r.w1.ntp = 1 then .error .zeroDivision else .ok ())
    else if r.cw = 2 then (if r.w1.windv = 0 ∨ tj = 0 ∨ r.w1.ntp = 1 then .error .zeroDivision else .ok ())
    else if r.w1.windv = 0 ∨ r.w1.ntp = 1 then .error .zeroDivision else .ok ()
  else .ok ()

/-- `TwoWindingXfmrs.__init__` (`parse_transformers.py` 19-176): ratio, loss impedance, magnetizing admittance. The
ratings and control targets (divided by `sbase`, lines 33-35, 124-133) are not used. -/
noncomputable def twoData (c : Case) (r : TwoRec) : Py (ℝ × (ℝ × ℝ) × (ℝ × ℝ)) :=
  if c.sbase = 0 then .error .zeroDivision
  else
    match c.busRec r.i with
    | .error e => .error e
    | .ok bi =>
      match c.busRec r.j with
      | .error e => .error e
      | .ok bj =>
        match turnsOf r.cw r.w1.windv (if 0 < r.w1.nomv then r.w1.nomv else bi.baskv) bi.baskv with
        | .error e => .error e
        | .ok ti =>
          match turnsOf r.cw r.windv2 (if 0 < r.nomv2 then r.nomv2 else bj.baskv) bj.baskv with
          | .error e => .error e
          | .ok tj =>
            match pyDiv ti tj with
            | .error e => .error e
            | .ok tr =>
              match tapChecks2 r tj with
              | .error e => .error e
              | .ok _ =>
                match impedanceOf r.cz r.z12 c.sbase (tj * tj) with
                | .error e => .error e
                | .ok z =>
                  match magnetizing r.cm r.mag1 r.mag2 r.z12.sbase c.sbase with
                  | .error e => .error e
                  | .ok m => .ok (tr, z, m)

/-- `integrate_2xfmrs` and `createXfmrObject` (`data_classes.py` 394-397, `parse_transformers.py` 178-184): `None` when the
status is zero. -/
noncomputable def twoIntegrate (c : Case) (r : TwoRec) : Py (Option XfmrAt) :=
  match twoData c r with
  | .error e => .error e
  | .ok d =>
    if r.stat = 0 then .ok none
    else
      match c.bus r.i with
      | .error e => .error e
      | .ok f =>
        match c.bus r.j with
        | .error e => .error e
        | .ok t =>
          match makeXfmr f t d.2.1.1 d.2.1.2 d.1 r.w1.ang d.2.2.1 d.2.2.2 with
          | .error e => .error e
          | .ok x => .ok (some x)

/-- Which two-winding transformers are looked at (`parser.py` 411). -/
def twoIn (c : Case) (r : TwoRec) : Bool := decide (r.i ∉ c.offline ∧ r.j ∉ c.offline)

/-- One pass of the loop over the windings in `ThreeWindingXfmrs.__init__` (`parse_transformers.py` 253-256, 273-312,
329-347): ratio and delta impedance. -/
noncomputable def windingData (cw cz : ℤ) (sbase : ℝ) (w : Winding) (z : Impedance) (base : ℝ) : Py (ℝ × (ℝ × ℝ)) :=
  match turnsOf cw w.windv (if w.nomv = 0 then base else w.nomv) base with
  | .error e => .error e
  | .ok ti =>
    let tr := ti / 1
    let limited : Py ℝ :=
      if w.cod = 1 ∨ w.cod = 2 then
        if w.windv = 0 ∨ w.ntp = 1 then .error .zeroDivision
        else .ok (max (w.rmi * ti / w.windv) (min (w.rma * ti / w.windv) tr))
      else .ok tr
    match limited with
    | .error e => .error e
    | .ok tr' =>
      match impedanceOf cz z sbase 1 with
      | .error e => .error e
      | .ok d => .ok (tr', d)

/-- Star impedances out of the pairwise ones (`parse_transformers.py` 349-354): resistances or reactances `z12`, `z23`,
`z31`. -/
noncomputable def star (z12 z23 z31 : ℝ) : ℝ × ℝ × ℝ :=
  (1 / 2 * (z12 + z31 - z23), 1 / 2 * (z23 + z12 - z31), 1 / 2 * (z23 + z31 - z12))

/-- `mWindingStatus` (`parse_transformers.py` 199-220): statuses of the three windings out of the transformer status and
the bus types. -/
def windingStatus (stat ideI ideJ ideK : ℤ) : Bool × Bool × Bool :=
  (decide (stat ≠ 4 ∧ ideI ≠ 4 ∧ (ideJ ≠ 4 ∨ ideK ≠ 4)),
   decide (stat ≠ 2 ∧ ideJ ≠ 4 ∧ (ideI ≠ 4 ∨ ideK ≠ 4)),
   decide (stat ≠ 3 ∧ ideK ≠ 4 ∧ (ideI ≠ 4 ∨ ideJ ≠ 4)))

/-- What `ThreeWindingXfmrs.__init__` computes: statuses, ratios, star impedances, magnetizing admittance (`parse_transformers.py` 189-375). -/
structure ThreeData where
  status : Bool × Bool × Bool
  tr1 : ℝ
  tr2 : ℝ
  tr3 : ℝ
  R : ℝ × ℝ × ℝ
  X : ℝ × ℝ × ℝ
  mag : ℝ × ℝ

/-- `ThreeWindingXfmrs.__init__` (`parse_transformers.py` 189-375). -/
noncomputable def threeData (c : Case) (r : ThreeRec) : Py ThreeData :=
  match c.busRec r.i with
  | .error e => .error e
  | .ok bi =>
    match c.busRec r.j with
    | .error e => .error e
    | .ok bj =>
      match c.busRec r.k with
      | .error e => .error e
      | .ok bk =>
        if c.sbase = 0 then .error .zeroDivision
        else
          match windingData r.cw r.cz c.sbase r.w1 r.z12 bi.baskv with
          | .error e => .error e
          | .ok d1 =>
            match windingData r.cw r.cz c.sbase r.w2 r.z23 bj.baskv with
            | .error e => .error e
            | .ok d2 =>
              match windingData r.cw r.cz c.sbase r.w3 r.z31 bk.baskv with
              | .error e => .error e
              | .ok d3 =>
                let st := windingStatus r.stat bi.ide bj.ide bk.ide
                match (if st.1 then magnetizing r.cm r.mag1 r.mag2 r.z12.sbase c.sbase else .ok (0, 0)) with
                | .error e => .error e
                | .ok m =>
                  .ok ⟨st, d1.1, d2.1, d3.1, star d1.2.1 d2.2.1 d3.2.1, star d1.2.2 d2.2.2 d3.2.2, m⟩

/-- One winding of `createXfmrObject` (`parse_transformers.py` 379-406): the star node number is `-1`
(`data_classes.py` 487), looked up in `all_bus_key`. -/
noncomputable def starWinding (c : Case) (on : Bool) (i : ℤ) (r x tr ang gsh bsh : ℝ) : Py (List XfmrAt) :=
  if on then
    match c.bus i with
    | .error e => .error e
    | .ok f =>
      match c.bus (-1) with
      | .error e => .error e
      | .ok t =>
        match makeXfmr f t r x tr ang gsh bsh with
        | .error e => .error e
        | .ok x => .ok [x]
  else .ok []

/-- `integrate_3xfmrs` and `createXfmrObject` (`data_classes.py` 485-488, `parse_transformers.py` 377-412). -/
noncomputable def threeIntegrate (c : Case) (r : ThreeRec) : Py (List XfmrAt) :=
  match threeData c r with
  | .error e => .error e
  | .ok d =>
    match starWinding c d.status.1 r.i d.R.1 d.X.1 d.tr1 r.w1.ang d.mag.1 d.mag.2 with
    | .error e => .error e
    | .ok a =>
      match starWinding c d.status.2.1 r.j d.R.2.1 d.X.2.1 d.tr2 r.w2.ang 0 0 with
      | .error e => .error e
      | .ok b =>
        match starWinding c d.status.2.2 r.k d.R.2.2 d.X.2.2 d.tr3 r.w3.ang 0 0 with
        | .error e => .error e
        | .ok d => .ok (a ++ b ++ d)

/-- Which three-winding transformers are looked at (`parser.py` 451). -/
def threeIn (r : ThreeRec) : Bool := decide (r.stat ≠ 0)

/-- Numbers of the star buses (`parser.py` 420-421, 453-466): one per transformer with a winding in service. The attribute
`to_bus` set in line 465 is not used by `Transformer`. -/
def starBuses (first : ℤ) : List (List XfmrAt) → List ℤ
  | [] => []
  | x :: xs => if x.isEmpty then starBuses first xs else first :: starBuses (first + 1) xs

/-- `max` of the bus numbers (`parser.py` 420), `ValueError` when there is none. -/
def largest : List ℤ → Py ℤ
  | [] => .error .value
  | a :: as => .ok (as.foldl max a)

/-- `parse_raw` (`parser.py` 64-472). -/
noncomputable def parseRaw (c : Case) : Py Out :=
  match foldPy (genStep c) ⟨[], [], []⟩ c.generators with
  | .error e => .error e
  | .ok g =>
    match foldPy (switchedStep c) (g.gens, []) c.switched with
    | .error e => .error e
    | .ok sw =>
      match mapPy (fixedIntegrate c) (c.fixed.filter (fixedIn c)) with
      | .error e => .error e
      | .ok fs =>
        match mapPy (loadIntegrate c) (c.loads.filter (loadIn c)) with
        | .error e => .error e
        | .ok ls =>
          match mapPy (branchIntegrate c) (c.branches.filter (branchIn c)) with
          | .error e => .error e
          | .ok bs =>
            match mapPy (twoIntegrate c) (c.two.filter (twoIn c)) with
            | .error e => .error e
            | .ok x2 =>
              match largest c.online with
              | .error e => .error e
              | .ok top =>
                match mapPy (threeIntegrate c) (c.three.filter threeIn) with
                | .error e => .error e
                | .ok x3 =>
                  .ok { buses := c.online ++ starBuses (1000000 + top) x3
                        slack := g.slack
                        generators := sw.1
                        loads := g.loads ++ ls
                        shunts := sw.2 ++ fs
                        branches := bs
                        xfmrs := x2.filterMap id ++ x3.flatten }

end Verif.Raw
