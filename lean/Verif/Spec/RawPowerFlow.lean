import Verif.Spec.Raw

/-!
# The power flow equations of a RAW case

What the records of a case state about the bus voltages: power balance at the buses, set points of machines and swing buses.
Bus numbers, records and complex arithmetic only; nothing of the parser, the elements or the solver.
-/

namespace Verif.Raw

open ComplexConjugate

/-- Base voltage of the bus with number `i`. -/
noncomputable def Case.base (c : Case) (i : ℤ) : ℝ := ((c.buses.find? fun b => b.i = i).map BusRec.baskv).getD 1

/-- Voltage of a winding in kilovolt by winding code. -/
noncomputable def windingVolts (cw : ℤ) (w nomv base : ℝ) : ℝ :=
  if cw = 1 then w * base else if cw = 2 then w else w * nominalOr nomv base

/-- Per unit turns of the first winding. -/
noncomputable def TwoRec.t1 (c : Case) (r : TwoRec) : ℂ :=
  (windingVolts r.cw r.w1.windv r.w1.nomv (c.base r.i) / c.base r.i : ℝ)

/-- Per unit turns of the second winding. -/
noncomputable def TwoRec.t2 (c : Case) (r : TwoRec) : ℂ :=
  (windingVolts r.cw r.windv2 r.nomv2 (c.base r.j) / c.base r.j : ℝ)

/-- Phase shift as a unit phasor. -/
noncomputable def TwoRec.shift (r : TwoRec) : ℂ :=
  ⟨Real.cos (r.w1.ang * Real.pi / 180), Real.sin (r.w1.ang * Real.pi / 180)⟩

/-- Current through the impedance `Z` between the two ideal windings of a transformer. -/
noncomputable def TwoRec.through (c : Case) (Z : ℂ) (V : ℤ → ℂ) (r : TwoRec) : ℂ :=
  (V r.i / (r.t1 c * r.shift) - V r.j / r.t2 c) / Z

/-- Current a transformer takes out of bus `k`. -/
noncomputable def TwoRec.current (c : Case) (Z : ℂ) (V : ℤ → ℂ) (r : TwoRec) (k : ℤ) : ℂ :=
  (if r.i = k then r.through c Z V * r.shift / r.t1 c else 0) - (if r.j = k then r.through c Z V / r.t2 c else 0)

/-- Current a line takes out of bus `k`: series impedance, half the charging susceptance at each end. -/
noncomputable def BranchRec.current (V : ℤ → ℂ) (r : BranchRec) (k : ℤ) : ℂ :=
  (if r.i = k then (V r.i - V r.j) / ⟨r.r, r.x⟩ + ⟨0, r.b / 2⟩ * V r.i else 0) +
  (if r.j = k then (V r.j - V r.i) / ⟨r.r, r.x⟩ + ⟨0, r.b / 2⟩ * V r.j else 0)

/-- A switched shunt in service at an energised bus that is not continuous: it stays at its initial susceptance. -/
def SwitchedRec.Fixed (c : Case) (r : SwitchedRec) : Prop := r.modsw ≠ 2 ∧ r.stat = 1 ∧ c.Energised r.i

/-- Admittance of the shunts at bus `k`, per unit. -/
noncomputable def Case.shuntAt (c : Case) (k : ℤ) : ℂ :=
  ⟨total c.fixed (fun r => r.i = k ∧ r.Served c) (fun r => r.gl / c.sbase),
   total c.fixed (fun r => r.i = k ∧ r.Served c) (fun r => r.bl / c.sbase) +
   total c.switched (fun r => r.i = k ∧ r.Fixed c) (fun r => r.binit / c.sbase)⟩

open Classical in
/-- Current the passive equipment takes out of bus `k`. -/
noncomputable def Case.net (c : Case) (Z : TwoRec → ℂ) (V : ℤ → ℂ) (k : ℤ) : ℂ :=
  ((c.branches.filter fun r => r.Served c).map fun r => r.current V k).sum +
  ((c.two.filter fun r => r.Served c).map fun r => r.current c (Z r) V k).sum + c.shuntAt k * V k

/-- Nothing holds the voltage of bus `k`. -/
def Case.Unregulated (c : Case) (k : ℤ) : Prop :=
  (∀ g ∈ c.generators, g.i = k → ¬ g.Regulates c) ∧ ∀ r ∈ c.switched, r.i = k → ¬ r.Regulates c

/-- Bus `k` is a swing bus with a machine in service. -/
def Case.Swing (c : Case) (k : ℤ) : Prop := c.HasType k 3 ∧ ∃ g ∈ c.generators, g.i = k ∧ g.stat = 1

/-- The power flow equations of a case, at bus voltages `V` by bus number. -/
structure Case.PowerFlow (c : Case) (Z : TwoRec → ℂ) (V : ℤ → ℂ) : Prop where
  /-- The impedances are those of the records. -/
  impedance : ∀ r ∈ c.two, r.Served c → IsImpedance r.cz r.z12 c.sbase (Z r)
  /-- Active power: machines less loads feed the passive equipment. -/
  active : ∀ k, c.Energised k → ¬ c.Swing k →
    total c.generators (fun g => g.i = k ∧ g.stat = 1 ∧ c.HasType k 2) (fun g => g.pg / c.sbase) -
      total c.loads (fun r => r.i = k ∧ r.Served c) (fun r => r.pl / c.sbase) = (V k * conj (c.net Z V k)).re
  /-- Reactive power, where nothing holds the voltage. -/
  reactive : ∀ k, c.Energised k → ¬ c.Swing k → c.Unregulated k →
    total c.generators (fun g => g.i = k ∧ g.stat = 1 ∧ c.HasType k 2) (fun g => g.qt / c.sbase) -
      total c.loads (fun r => r.i = k ∧ r.Served c) (fun r => r.ql / c.sbase) = (V k * conj (c.net Z V k)).im
  /-- Machines hold the voltage of their bus. -/
  machines : ∀ g ∈ c.generators, g.Regulates c → ‖V g.i‖ = |g.vs|
  /-- Continuous switched shunts hold the middle of their voltage range. -/
  continuous : ∀ r ∈ c.switched, r.Regulates c → ‖V r.i‖ = |(r.vswhi + r.vswlo) / 2|
  /-- A swing bus is at the set point of its first machine in service, at the recorded angle in degrees. -/
  swing : ∀ k g, c.HasType k 3 → c.generators.find? (fun g => g.i = k ∧ g.stat = 1) = some g → ∀ b ∈ c.buses, b.i = k →
    V k = ⟨g.vs * Real.cos (b.va * Real.pi / 180), g.vs * Real.sin (b.va * Real.pi / 180)⟩

/-- The cases whose equations are those above: the system base is 100 MVA, machines have no wind mode, loads are of constant
power, two-winding transformers have usable winding data and no magnetizing admittance, three-winding transformers are out
of service. -/
structure Case.Plain (c : Case) : Prop where
  distinct : c.DistinctBuses
  base : c.sbase = 100
  machines : ∀ g ∈ c.generators, g.wmod ≠ 2 ∧ g.wmod ≠ 3 ∧ g.qb ≤ g.qt
  loads : ∀ r ∈ c.loads, r.ip = 0 ∧ r.iq = 0 ∧ r.yp = 0 ∧ r.yq = 0
  two : ∀ r ∈ c.two, r.Served c → (r.cw = 1 ∨ r.cw = 2 ∨ r.cw = 3) ∧ r.w1.windv ≠ 0 ∧ 0 ≤ r.w1.nomv ∧ 0 ≤ r.nomv2 ∧
    r.mag1 = 0 ∧ r.mag2 = 0 ∧ ∀ b ∈ c.buses, b.i = r.i ∨ b.i = r.j → b.baskv ≠ 0
  three : ∀ r ∈ c.three, r.stat = 0

end Verif.Raw
