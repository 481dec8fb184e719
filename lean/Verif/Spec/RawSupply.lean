import Verif.Spec.RawPowerFlow

/-!
# RAW cases fed from swing buses

Conditions that can be read off the records of a case: every branch in service has resistance, every bus is connected to a swing bus, and
nothing but the swing machines holds a voltage. Bus numbers and records only.
-/

namespace Verif.Raw

/-- The case with all loads multiplied by `s`. -/
noncomputable def Case.withLoads (c : Case) (s : ℝ) : Case := { c with loads := c.loads.map fun r => { r with pl := r.pl * s, ql := r.ql * s } }

/-- Buses connected to a swing bus with a machine in service over lines and transformers in service. -/
inductive Case.Fed (c : Case) : ℤ → Prop
  | swing {k} : c.Swing k → c.Fed k
  | line {r} : r ∈ c.branches → r.Served c → c.Fed r.i → c.Fed r.j
  | lineBack {r} : r ∈ c.branches → r.Served c → c.Fed r.j → c.Fed r.i
  | two {r} : r ∈ c.two → r.Served c → c.Fed r.i → c.Fed r.j
  | twoBack {r} : r ∈ c.two → r.Served c → c.Fed r.j → c.Fed r.i

/-- A case in the sense of `Plain` that is fed from its swing buses only: lines and transformers in service have positive resistance, fixed
shunts do not generate, no machine is in service at a generator bus, no switched shunt is continuous, and every bus is connected to a swing
bus. -/
structure Case.Supplied (c : Case) : Prop where
  plain : c.Plain
  lines : ∀ r ∈ c.branches, r.Served c → 0 < r.r
  two : ∀ r ∈ c.two, r.Served c → ∀ Z, IsImpedance r.cz r.z12 c.sbase Z → 0 < Z.re
  shunts : ∀ r ∈ c.fixed, r.Served c → 0 ≤ r.gl
  machines : ∀ g ∈ c.generators, g.stat = 1 → ¬ c.HasType g.i 2
  switched : ∀ r ∈ c.switched, ¬ r.Regulates c
  fed : ∀ k, c.Energised k → c.Fed k

/-- The loads of the case are not aligned with the voltages `V` of their buses: `S * conj V ^ 2` has a real and an imaginary part. -/
def Case.OffAxes (c : Case) (V : ℤ → ℂ) : Prop :=
  ∀ r ∈ c.loads, r.Served c → r.pl = 0 ∧ r.ql = 0 ∨
    ((⟨r.pl, r.ql⟩ : ℂ) * (starRingEnd ℂ (V r.i)) ^ 2).re ≠ 0 ∧ ((⟨r.pl, r.ql⟩ : ℂ) * (starRingEnd ℂ (V r.i)) ^ 2).im ≠ 0

end Verif.Raw
