import Verif.Spec.GlmFile
import Verif.Spec.Grid

/-!
# Which column of a load file belongs to which load of a feeder
-/

namespace Verif.Glm

/-- The loads a file declares, each with the object that declares it. -/
def namedLoads (objs : List (Txt × Obj)) : List ((Txt × Obj) × DeclaredLoad) :=
  objs.flatMap fun x => if isLoadObj x.2 then (objectLoads x.1 x.2).map fun d => (x, d) else []

/-- The phase of the feeder a split-phase object is at: the first letter of its phases. -/
def splitPhase (o : Obj) : Option Char := match o.attr "phases".toList with
  | none => none
  | some t => if 'S' ∈ stripBy (· = '|') (stripBy (· = '"') t) then (stripBy (· = '|') (stripBy (· = '"') t)).head? else none

/-- `col` is the column of a load of the object `name` on `phases`: `cl_`, the ending of the name and the letters; or `rl_`, the ending of the name, an underscore and the first
digit. -/
def ColumnFor (name phases col : Txt) : Prop := ∃ num, NameEnding name num ∧
  ((∀ p ∈ phases, p ∈ ['A', 'B', 'C']) ∧ col = "cl_".toList ++ num ++ phases ∨
    (∀ p ∈ phases, p ∈ ['1', '2']) ∧ col = "rl_".toList ++ num ++ "_".toList ++ phases.take 1)

end Verif.Glm
