import Verif.Model.LineReader
import Verif.Model.ThreePhase
import Verif.Model.Results

/-!
# The ratings equipment is checked against

`Verif.Model.LineReader` reads the ratings of conductors without keeping them; here they are kept.
-/

namespace Verif.Glm

/-- The loop over the conductors of a line (`read.py` 881-922, 1043-1075, 1148-1219): every wire with its `emergency_ampacity`, which is `None` without the
attribute (`wire.py` 22). -/
def readRated {α : Type} (read : Obj → Char → Py (α × Obj)) : List (Txt × Obj) → List (Char × Txt) → Py (List (α × Option ℚ) × List (Txt × Obj))
  | objs, [] => .ok ([], objs)
  | objs, (p, n) :: rest => match lookup n objs with
    | none => .error .key
    | some o => do
      let w ← read o p
      let _ ← floatAttribute w.2 "rating.summer.continuous".toList
      let e ← floatAttribute w.2 "rating.summer.emergency".toList
      let r ← readRated read (store n w.2 objs) rest
      .ok ((w.1, e) :: r.1, r.2)

/-- `ampacities` of a line (`threephaseparser.py` 322, `unbalanced_line.py` 88): those of all its wires in the order of the loop, the neutral included. -/
def lineAmpacities (objs : List (Txt × Obj)) (o : Obj) : Py (List (Option ℚ)) := do
  let c ← configurationOf objs o
  if o.cls = "overhead_line".toList then do
    let r ← readRated overheadConductor objs (conductorNames c "ABCN".toList)
    .ok (r.1.map Prod.snd)
  else if o.cls = "triplex_line".toList then do
    let r ← readRated triplexConductor objs (conductorNames c "12N".toList)
    .ok (r.1.map Prod.snd)
  else do
    let r ← readRated undergroundConductor objs (conductorNames c "ABCN".toList)
    .ok (r.1.map Prod.snd)

/-- The ratings of a line in the checks (`timeseriesprocessor.py` 185). -/
noncomputable def lineRating (amps : List (Option ℚ)) : Rating := ⟨amps.map fun a => a.map (Rat.cast : ℚ → ℝ), none⟩

/-- `power_rating` of a transformer (`transformerparser.py` 77, 152; `transformer.py` 90, `center_tap_transformer.py` 72): the power it is built with. -/
def GXfmr.power : GXfmr → ℚ
  | .coil _ _ _ _ _ _ _ _ _ _ s => s
  | .centerTap _ _ _ _ _ _ _ _ _ _ _ _ _ _ _ s => s

/-- The rating of a transformer in the checks (`timeseriesprocessor.py` 196). -/
noncomputable def GXfmr.rating (x : GXfmr) : Rating := ⟨[], some (x.power : ℝ)⟩

end Verif.Glm
