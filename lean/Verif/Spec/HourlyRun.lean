import Verif.Spec.GlmCircuit
import Verif.Spec.LoadNames
import Verif.Model.TimeSeries

/-!
# Load files that scale the loads of a feeder
-/

namespace Verif.Glm

/-- A load file that gives each constant power of the file a column of its own, holding in each hour from `start` to before `stop` the multiple `scale` of its magnitude, and
that has no column for the other loads. -/
structure ScaledColumns (objs : List (Txt × Obj)) (cols : List Column) (scale : ℤ → ℝ) (start stop : ℤ) : Prop where
  names : (cols.map Column.name).Nodup
  given : ∀ d ∈ namedLoads objs, d.2.kind = .power → ∃ c ∈ cols, ColumnFor d.1.1 d.2.phases c.name ∧
    ∀ hour, start ≤ hour → hour < stop → c.value hour = some (scale hour * ‖toComplex d.2.value‖)
  own : ∀ (i j : ℕ) (d d' : (Txt × Obj) × DeclaredLoad), (namedLoads objs)[i]? = some d → (namedLoads objs)[j]? = some d' → ∀ c ∈ cols, ColumnFor d.1.1 d.2.phases c.name →
    ColumnFor d'.1.1 d'.2.phases c.name → i = j
  powers : ∀ d ∈ namedLoads objs, d.2.kind ≠ .power → ∀ c ∈ cols, ¬ ColumnFor d.1.1 d.2.phases c.name

end Verif.Glm
