import Verif.Spec.GlmJoined

/-!
# Where the phases of a GridLAB-D file start

Names and attributes of the file only.
-/

namespace Verif.Glm

/-- The capacitor `d` is at this phase of this place. -/
def CapHere (objs : List (Txt × Obj)) (x : (Txt × Obj) × Char) (d : DeclaredCap) : Prop :=
  d.phase = x.2 ∧ ∃ n, d.obj.attr "parent".toList = some n ∧ FileRoot objs n x.1.1

/-- The voltage a phase of a place starts at. The last capacitor of the file at it sets it to its own nominal voltage; without capacitors the legs of a triplex node start at
120 V at 120 and at 300 degrees, whatever the file says, and other phases at the voltage of the file. -/
inductive StartOf (objs : List (Txt × Obj)) (x : (Txt × Obj) × Char) : ℂ → Prop
  | leg1 : x.2 = '1' → (∀ d ∈ declaredCaps objs, ¬ CapHere objs x d) → StartOf objs x (toComplex (-60, 10392 / 100))
  | leg2 : x.2 = '2' → (∀ d ∈ declaredCaps objs, ¬ CapHere objs x d) → StartOf objs x (-toComplex (-60, 10392 / 100))
  | file {u : Phasor} : x.2 ≠ '1' → x.2 ≠ '2' → (∀ d ∈ declaredCaps objs, ¬ CapHere objs x d) → placeVoltage x.1.2 x.2 = some u → StartOf objs x u.complex
  | cap {ds ds' : List DeclaredCap} {d : DeclaredCap} {t : Txt} {v : ℚ} : declaredCaps objs = ds ++ d :: ds' → CapHere objs x d →
      (∀ d' ∈ ds', ¬ CapHere objs x d') → d.obj.attr "cap_nominal_voltage".toList = some t → pyFloat t = some v → v ≠ 0 →
      StartOf objs x ((|v| : ℚ) * unitAt x.2)

/-- All phases start at these voltages. -/
def StartsAt (objs : List (Txt × Obj)) (V : Txt → Char → ℂ) : Prop :=
  ∀ x ∈ ownPlaces objs, StartOf objs x (V x.1.1 x.2) ∧ ∀ n, FileRoot objs n x.1.1 → V n x.2 = V x.1.1 x.2

/-- The three phases have nominal voltages in the file wherever there are loads of constant power. -/
def LoadsRated (objs : List (Txt × Obj)) : Prop :=
  ∀ d ∈ declaredLoads objs, d.kind = .power → ∀ x ∈ ownPlaces objs, FileRoot objs d.node x.1.1 → x.2 ∈ d.phases → x.2 ∈ ['A', 'B', 'C'] →
    ∃ m : ℚ, 0 < m ∧ placeVoltage x.1.2 x.2 = some (.nominal m x.2)

end Verif.Glm
