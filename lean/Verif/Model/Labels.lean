import Verif.Model.Placement
import Verif.Model.Residuals
import Verif.Model.Text
import Verif.Spec.Unknowns

/-!
# Labels of the unknowns (`/repo/src/logic/network/networkmodel.py` 84-103, `/repo/src/logic/nrsolver.py` 55-63)

While it iterates, the solver prints where the largest residual is. The dictionary `matrix_map` is modelled by the list of its
assignments: a later one with the same key wins.
-/

namespace Verif

/-- `NodeName` and `NodePhase` of a bus (`bus.py` 27-28). A phase that is not given is the text `NA`. -/
structure NodeLabel where
  name : Txt
  phase : Txt
  deriving DecidableEq

/-- The names of `GROUND` (`bus.py` 90). -/
def groundName : NodeLabel := ⟨"Gnd".toList, "Gnd".toList⟩

/-- The names of the bus an element refers to (`networkmodel.py` 86-103). -/
def nameAt (names : List NodeLabel) : Ref → NodeLabel
  | none => groundName
  | some k => names.getD k groundName

/-- The texts `f"{kind}:{bus.NodeName}:{bus.NodePhase}:{what}"` (`networkmodel.py` 86-103). -/
def labelText (kind : Txt) (b : NodeLabel) (what : Txt) : Txt :=
  kind ++ ":".toList ++ b.name ++ ":".toList ++ b.phase ++ ":".toList ++ what

/-- The loop over the buses (`networkmodel.py` 85-87). -/
def busLabels (names : List NodeLabel) (nodes : List Node) : List (Idx × Txt) :=
  nodes.zipIdx.flatMap fun x =>
    [(x.1.vr, labelText "bus".toList (nameAt names (some x.2)) "Vr".toList), (x.1.vi, labelText "bus".toList (nameAt names (some x.2)) "Vi".toList)]

/-- The loop over the slacks (`networkmodel.py` 89-91). -/
def slackLabels (names : List NodeLabel) : Element × List Placed → List (Idx × Txt)
  | (.slack b _ _, ps) =>
    [(unknownIdx ps (0, .ISr), labelText "slack".toList (nameAt names (some b)) "Ir".toList),
     (unknownIdx ps (0, .ISi), labelText "slack".toList (nameAt names (some b)) "Ii".toList)]
  | _ => []

/-- The loop over the transformers (`networkmodel.py` 93-103). The first label of a center-tap transformer has an underscore where the
others have a hyphen (95-98). -/
def xfmrLabels (names : List NodeLabel) : Element × List Placed → List (Idx × Txt)
  | (.centerTap f .., ps) =>
    let b := nameAt names (some f)
    [(unknownIdx ps (0, .IrL1), labelText "xfmr-ct".toList b "L1_Ir".toList), (unknownIdx ps (0, .IiL1), labelText "xfmr-ct".toList b "L1-Ii".toList),
     (unknownIdx ps (0, .IrL2), labelText "xfmr-ct".toList b "L2-Ir".toList), (unknownIdx ps (0, .IiL2), labelText "xfmr-ct".toList b "L2-Ii".toList)]
  | (.transformer fp .., ps) =>
    let b := nameAt names fp
    [(unknownIdx ps (0, .IrPrim), labelText "xfmr".toList b "Ir-pri".toList), (unknownIdx ps (0, .IiPrim), labelText "xfmr".toList b "Ii-pri".toList),
     (unknownIdx ps (0, .VrSecPos), labelText "xfmr".toList b "Vr-sec".toList), (unknownIdx ps (0, .ViSecPos), labelText "xfmr".toList b "Vi-sec".toList)]
  | _ => []

/-- All assignments to `matrix_map` (`networkmodel.py` 84-103). -/
def matrixMap (N : Network) (names : List NodeLabel) (a : Assignment) : List (Idx × Txt) :=
  busLabels names a.nodes ++ (N.elements.zip a.parts).flatMap (slackLabels names) ++ (N.elements.zip a.parts).flatMap (xfmrLabels names)

/-- `matrix_map[i]` if it is there: the last assignment (`nrsolver.py` 58-59). -/
def mapGet (m : List (Idx × Txt)) (i : ℕ) : Option Txt := (m.reverse.find? fun x => x.1 == some i).map Prod.snd

/-- `residual_max_attr` (`nrsolver.py` 58-61). -/
def residualAttr (m : List (Idx × Txt)) (i : ℕ) : Txt := (mapGet m i).getD "other".toList

end Verif
