import Verif.Model.Report
import Verif.Spec.Numbers

/-!
# What a comma separated file says
-/

namespace Verif

/-- The rows of a comma separated file: its lines, each cut at the commas. -/
def csvRows (t : Txt) : List (List Txt) := (t.splitOn '\n').map fun l => l.splitOn ','

/-- The text is a decimal number that differs from `x` by at most half a unit of the `k`-th decimal place. -/
def Shows (k : ℕ) (x : ℝ) (t : Txt) : Prop := ∃ q : ℚ, Glm.Number t q ∧ |(q : ℝ) - x| ≤ 1 / 2 / 10 ^ k

/-- A text that fits into one field. -/
def OneField (t : Txt) : Prop := ',' ∉ t ∧ '\n' ∉ t

/-- The last line of a file of a successful run. -/
def trailer (violates : Bool) : List Txt := if violates then ["VIOLATED EQUIPMENT RATINGS".toList] else [[]]

/-- A row of the voltage file for a bus: its number, its name and phase, magnitude and angle to three decimals. -/
def VoltageRow (names : List BusName) (b : BusResult) (row : List Txt) : Prop := ∃ n : BusName, (names[b.bus]? = some n) ∧
  ∃ f0 f2 f3 : Txt, row = [f0, n.name ++ ':' :: n.phase, f2, f3] ∧ Glm.Number f0 n.number ∧ Shows 3 b.mag f2 ∧ Shows 3 b.deg f3

/-- A row of the power file for a source: the number of its bus, its kind, active and reactive power to two decimals. -/
def SourceRow (names : List BusName) (g : GenResult) (row : List Txt) : Prop := ∃ n : BusName, (names[g.bus]? = some n) ∧
  ∃ f0 f2 f3 : Txt, row = [f0, match g.kind with | .PV => ['P', 'V'] | .Slack => ['S', 'l', 'a', 'c', 'k'] | .Inf => ['I', 'n', 'f'], f2, f3] ∧
    Glm.Number f0 n.number ∧ Shows 2 g.P f2 ∧ Shows 2 g.Q f3

/-- A row of the power file for a load: the name of its first bus, `PQ`, active and reactive power to two decimals. -/
def LoadRow (names : List BusName) (l : LoadResult) (row : List Txt) : Prop :=
  ∃ f0 f2 f3 : Txt, row = [f0, ['P', 'Q'], f2, f3] ∧ (∀ k, l.bus = some k → ∃ n : BusName, names[k]? = some n ∧ f0 = n.name) ∧
    Shows 2 l.P f2 ∧ Shows 2 l.Q f3

/-- Every bus that is reported has a name that fits into one field. -/
structure NamesFit (names : List BusName) (r : Results) : Prop where
  fit : ∀ n ∈ names, OneField n.name ∧ OneField n.phase
  buses : ∀ b ∈ r.buses, b.bus < names.length
  sources : ∀ g ∈ r.generators, g.bus < names.length
  loads : ∀ l ∈ r.loads, ∀ k, l.bus = some k → k < names.length

end Verif
