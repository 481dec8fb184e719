import Verif.Spec.GlmBuses
import Verif.Spec.GlmFlow
import Verif.Spec.GlmJoined
import Verif.Spec.LoadNames

/-!
# What a user counts in a file
-/

namespace Verif.Glm

/-- A center tap. -/
def DeclaredXfmr.isTap : DeclaredXfmr → Bool
  | .tap _ _ => true
  | .coil _ _ _ _ => false

/-- The center taps of a file. -/
def declaredTaps (objs : List (Txt × Obj)) : ℕ := (declaredXfmrs objs).countP DeclaredXfmr.isTap

/-- The nodes, meters and loads that are places of their own and have a phase. -/
def ownObjects (objs : List (Txt × Obj)) : List (Txt × Obj) :=
  objs.filter fun x => isPlace x.2 && (x.2.attr "parent".toList).isNone && !(placePhases x.2).isEmpty

/-- The objects that declare loads. -/
def loadObjects (objs : List (Txt × Obj)) : List (Txt × Obj) := objs.filter fun x => isLoadObj x.2 && !(objectLoads x.1 x.2).isEmpty

/-- No two of these objects have names with the same ending. -/
def EndingsDiffer (objs : List (Txt × Obj)) : Prop :=
  ∀ x ∈ loadObjects objs, ∀ y ∈ loadObjects objs, ∀ num, NameEnding x.1 num → NameEnding y.1 num → x = y

end Verif.Glm
