import Verif.Spec.GlmFlow
import Verif.Spec.LineLaw

/-!
# The circuit a GridLAB-D file describes, with the lines by their conductors
-/

namespace Verif.Glm

/-- A line without charging: currents through its phases, in at one end and out at the other, with which its conductors obey Carson's equations. -/
def SpanFlow (objs : List (Txt × Obj)) (V : Txt → Char → ℂ) (o : Obj) (l : List (Term × ℂ)) : Prop :=
  ∃ t ph s a b, ∃ I : Char → ℂ, o.attr "phases".toList = some t ∧ parsePhases t = .ok ph ∧ FileSpan objs o ph s ∧
    o.attr "from".toList = some a ∧ o.attr "to".toList = some b ∧ s.Law (fun p => V a p - V b p) I ∧
    l = s.phases.flatMap fun p => through (some (a, p)) (some (b, p)) (I p)

/-- `V` are voltages of the circuit the file describes, its lines without charging. -/
def FileFlow (objs : List (Txt × Obj)) (V : Txt → Char → ℂ) : Prop := ∃ lines, List.Forall₂ (SpanFlow objs V) (declaredLines objs) lines ∧ CircuitFlow objs V lines

/-- The conductors of every line of a file are known. -/
def SpansGiven (objs : List (Txt × Obj)) : Prop := ∀ o ∈ declaredLines objs, ∀ t ph, o.attr "phases".toList = some t → parsePhases t = .ok ph → ∃ s, FileSpan objs o ph s

end Verif.Glm
