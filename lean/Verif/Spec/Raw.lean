import Verif.Model.Raw
import Verif.Spec.Kirchhoff

/-!
# What the records of a RAW case mean

The vocabulary of the claims on loading a case, after the PSS/E record descriptions quoted in the comments of
`data_classes.py`. Only the records and the loaded objects are used, none of the functions of the parser.
-/

namespace Verif.Raw

/-- The bus `i` is recorded with type `t` (1 load bus, 2 generator bus, 3 swing bus, 4 disconnected). -/
def Case.HasType (c : Case) (i t : ℤ) : Prop := ∃ b ∈ c.buses, b.i = i ∧ b.ide = t

/-- The bus `i` is in the case and not disconnected. -/
def Case.Energised (c : Case) (i : ℤ) : Prop := ∃ b ∈ c.buses, b.i = i ∧ b.ide ≠ 4

/-- No bus number is recorded twice. -/
def Case.DistinctBuses (c : Case) : Prop := (c.buses.map BusRec.i).Nodup

open Classical in
/-- Sum of `val` over the items of a list that satisfy `p`. -/
noncomputable def total {α : Type} (l : List α) (p : α → Prop) (val : α → ℝ) : ℝ := ((l.filter fun a => p a).map val).sum

/-- An ordinary machine in service at a generator bus with a range of reactive power: it holds the voltage of its bus. -/
def GenRec.Regulates (c : Case) (g : GenRec) : Prop :=
  c.HasType g.i 2 ∧ g.stat = 1 ∧ g.wmod ≠ 2 ∧ g.wmod ≠ 3 ∧ g.qb + 1 / 1000000 ≤ g.qt

/-- A load record in service at an energised bus. -/
def LoadRec.Served (c : Case) (r : LoadRec) : Prop := r.status = 1 ∧ c.Energised r.i

/-- A fixed shunt in service at an energised bus, with an admittance. -/
def FixedRec.Served (c : Case) (r : FixedRec) : Prop := r.status = 1 ∧ c.Energised r.i ∧ (r.gl ≠ 0 ∨ r.bl ≠ 0)

/-- A branch in service between energised buses. -/
def BranchRec.Served (c : Case) (r : BranchRec) : Prop := r.st = 1 ∧ c.Energised r.i ∧ c.Energised r.j

/-- A two-winding transformer in service between energised buses. -/
def TwoRec.Served (c : Case) (r : TwoRec) : Prop := r.stat ≠ 0 ∧ c.Energised r.i ∧ c.Energised r.j

/-- Power a load record takes at voltage one per unit, where its constant-power, constant-current and
constant-admittance parts all take what the record states (`YQ` counts capacitive), in MW and Mvar. -/
def LoadRec.rated (r : LoadRec) : ℂ := ⟨r.pl + r.ip + r.yp, r.ql + r.iq - r.yq⟩

/-- One bus at voltage `V`, and ground. -/
def oneBus (V : ℂ) : Ref → ℂ
  | none => 0
  | some _ => V

open ComplexConjugate in
/-- Complex power an element without own unknowns takes out of bus 0 at voltage `V`, at the end of homotopy. -/
noncomputable def powerAt (V : ℂ) (e : Element) : ℂ :=
  V * conj ((((e.draws 0 (oneBus V) []).filter fun d => d.1 = some 0).map Prod.snd).sum)

/-- Sum of the negative block susceptances of a switched shunt. -/
noncomputable def reactorSum (blocks : List (ℤ × ℝ)) : ℝ := (blocks.map fun nb => min ((nb.1 : ℝ) * nb.2) 0).sum

/-- Sum of the positive block susceptances of a switched shunt. -/
noncomputable def capacitorSum (blocks : List (ℤ × ℝ)) : ℝ := (blocks.map fun nb => max ((nb.1 : ℝ) * nb.2) 0).sum

/-- `Z` is the impedance stated by `z` under impedance code `cz`, in per unit of the system base `S`: code 1 per unit of
the system base, code 2 per unit of the winding base, code 3 load loss in watts and magnitude in per unit of the winding
base. -/
def IsImpedance (cz : ℤ) (z : Impedance) (S : ℝ) (Z : ℂ) : Prop :=
  cz = 1 ∧ Z = ⟨z.r, z.x⟩ ∨
  cz = 2 ∧ z.sbase ≠ 0 ∧ Z * z.sbase = ⟨z.r * S, z.x * S⟩ ∨
  cz = 3 ∧ z.sbase ≠ 0 ∧ ∃ W : ℂ, W.re * (1000000 * z.sbase) = z.r ∧ ‖W‖ = |z.x| ∧ 0 ≤ W.im ∧ Z * z.sbase = W * S

/-- A winding with `V` kilovolt is stated by `w` under winding code `cw`: code 1 per unit of the bus base, code 2 kilovolt,
code 3 per unit of the nominal winding voltage. -/
def IsTurns (cw : ℤ) (w nominal base V : ℝ) : Prop :=
  cw = 1 ∧ w * base = V ∨ cw = 2 ∧ w = V ∨ cw = 3 ∧ w * nominal = V

/-- The nominal winding voltage, the bus base when none is stated. -/
noncomputable def nominalOr (nomv base : ℝ) : ℝ := if nomv = 0 then base else nomv

/-- Reactive power of a machine with active power `p` at power factor `f`. -/
def IsReactive (p f q : ℝ) : Prop := 0 ≤ q ∧ f ^ 2 * (p ^ 2 + q ^ 2) = p ^ 2

/-- The bus `i` is in the case. -/
def Case.Known (c : Case) (i : ℤ) : Prop := ∃ b ∈ c.buses, b.i = i

/-- A continuous switched shunt in service at an energised bus: it holds the voltage of its bus. -/
def SwitchedRec.Regulates (c : Case) (r : SwitchedRec) : Prop := r.modsw = 2 ∧ r.stat = 1 ∧ c.Energised r.i

/-- A two-winding transformer record with usable numbers: voltages that are not zero, a supported impedance code, a tap
range of more than one position if there is tap control, magnetizing admittance in per unit, an impedance. -/
structure TwoRec.Usable (c : Case) (r : TwoRec) : Prop where
  base : ∀ b ∈ c.buses, b.i = r.i ∨ b.i = r.j → b.baskv ≠ 0
  windv2 : r.windv2 ≠ 0
  code : r.cz = 1 ∨ r.cz = 2
  zbase : r.z12.sbase ≠ 0
  tap : r.w1.cod = 1 ∨ r.w1.cod = 2 → r.w1.windv ≠ 0 ∧ r.w1.ntp ≠ 1
  mag : r.cm ≠ 2
  imp : r.z12.r ≠ 0 ∨ r.z12.x ≠ 0

open Classical in
/-- A case `parse_raw` can load: sound records, at most one device holding the voltage of a bus, no line shunts, no
three-winding transformer in service, no wind machines. -/
structure Case.Supported (c : Case) : Prop where
  distinct : c.DistinctBuses
  nonempty : ∃ i, c.Energised i
  base : c.sbase ≠ 0
  machines : ∀ g ∈ c.generators, g.wmod ≠ 2 ∧ g.wmod ≠ 3 ∧ g.qb ≤ g.qt
  holders : ((c.generators.filter fun g => g.Regulates c).map GenRec.i ++
    (c.switched.filter fun r => r.Regulates c).map SwitchedRec.i).Nodup
  switched : ∀ r ∈ c.switched, r.stat = 1 → c.Known r.i
  fixed : ∀ r ∈ c.fixed, r.status = 1 → c.Known r.i
  loads : ∀ r ∈ c.loads, r.status = 1 → c.Known r.i
  branches : ∀ r ∈ c.branches, r.st = 1 → c.Known r.i ∧ c.Known r.j
  lines : ∀ r ∈ c.branches, r.Served c → (r.r ≠ 0 ∨ r.x ≠ 0) ∧ r.gi = 0 ∧ r.bi = 0 ∧ r.gj = 0 ∧ r.bj = 0
  two : ∀ r ∈ c.two, c.Known r.i ∧ c.Known r.j
  twoUsable : ∀ r ∈ c.two, c.Energised r.i → c.Energised r.j → r.Usable c
  three : ∀ r ∈ c.three, r.stat = 0

end Verif.Raw
