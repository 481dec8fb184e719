import Verif.Lemmas.NewtonStep
import Mathlib.Analysis.Calculus.ContDiff.Operations
import Mathlib.Analysis.SpecialFunctions.Trigonometric.Deriv
import Mathlib.Analysis.Calculus.FDeriv.Comp
import Mathlib.Analysis.Calculus.Deriv.Prod
import Mathlib.Analysis.Calculus.Deriv.Comp

/-! The network equations as a map of a space of finite dimension, near a point where every part is regular. -/

namespace Verif

open Ex

/-- A vector of length `n` as one with zeros beyond. -/
def stretch (n : ℕ) (x : Fin n → ℝ) : ℕ → ℝ := fun k => if h : k < n then x ⟨k, h⟩ else 0

/-- The first `n` values. -/
def cutTo (n : ℕ) (v : ℕ → ℝ) : Fin n → ℝ := fun i => v i

theorem stretch_lt {n : ℕ} (x : Fin n → ℝ) {k : ℕ} (h : k < n) : stretch n x k = x ⟨k, h⟩ := by simp [stretch, h]

@[simp] theorem cutTo_stretch {n : ℕ} (x : Fin n → ℝ) : cutTo n (stretch n x) = x := by
  funext i; simp [cutTo, stretch]

/-- All variables of the parts lie below `n`. -/
def Below (ps : List Placed) (n : ℕ) : Prop := ∀ p ∈ ps, ∀ x ∈ p.details.seg.vars, ∀ c, p.details.varMap x = some c → c < n

theorem env_agree {p : Placed} {n : ℕ} (hn : ∀ x ∈ p.details.seg.vars, ∀ c, p.details.varMap x = some c → c < n) (t : ℝ) {v w : ℕ → ℝ}
    (h : ∀ k < n, v k = w k) : p.env t v = p.env t w := by
  funext y
  unfold Placed.env Part.env Placed.point Placed.part
  by_cases hy : y ∈ p.details.seg.vars
  · have : readIdx v (p.details.varMap y) = readIdx w (p.details.varMap y) := by
      cases hc : p.details.varMap y with
      | none => rfl
      | some c => exact h c (hn y hy c hc)
    simp only [hy, if_true, this]
  · simp [hy]

theorem networkEq_agree {ps : List Placed} {n : ℕ} (hn : Below ps n) (t : ℝ) {v w : ℕ → ℝ} (h : ∀ k < n, v k = w k) (i : ℕ) :
    networkEq ps t v i = networkEq ps t w i := by
  unfold networkEq
  congr 1
  refine List.flatMap_congr fun p hp => ?_
  unfold Placed.equations
  rw [env_agree (hn p hp) t h]

theorem emitted_agree {ps : List Placed} {n : ℕ} (hn : Below ps n) (t : ℝ) {v w : ℕ → ℝ} (h : ∀ k < n, v k = w k) (lin : Bool) :
    (ps.flatMap fun p => p.emitted t v lin) = ps.flatMap fun p => p.emitted t w lin := by
  refine List.flatMap_congr fun p hp => ?_
  unfold Placed.emitted
  rw [env_agree (hn p hp) t h]

theorem regular_agree {ps : List Placed} {n : ℕ} (hn : Below ps n) (t : ℝ) {v w : ℕ → ℝ} (h : ∀ k < n, v k = w k)
    (hr : ∀ p ∈ ps, p.Regular t v) : ∀ p ∈ ps, p.Regular t w := fun p hp =>
  ⟨(hr p hp).nodup, (hr p hp).trig, (hr p hp).disj, by rw [← env_agree (hn p hp) t h]; exact (hr p hp).defined⟩

/-- The symbols of a part move smoothly with the vector. -/
theorem env_smooth {p : Placed} (hd : ∀ x ∈ p.details.seg.vars, x ∉ p.details.seg.constants) (t : ℝ) (n : ℕ) (x0 : Fin n → ℝ) (y : Sym) :
    ContDiffAt ℝ 2 (fun x => p.env t (stretch n x) y) x0 := by
  by_cases hy : y ∈ p.details.seg.vars
  · have : (fun x => p.env t (stretch n x) y) = fun x => readIdx (stretch n x) (p.details.varMap y) := by
      funext x; exact Placed.env_var hd hy
    rw [this]
    cases p.details.varMap y with
    | none => exact contDiffAt_const
    | some c =>
      by_cases hc : c < n
      · have : (fun x : Fin n → ℝ => readIdx (stretch n x) (some c)) = fun x => x ⟨c, hc⟩ := by
          funext x; exact stretch_lt x hc
        rw [this]; exact (contDiff_apply ℝ ℝ (⟨c, hc⟩ : Fin n)).contDiffAt
      · have : (fun x : Fin n → ℝ => readIdx (stretch n x) (some c)) = fun _ => 0 := by
          funext x; simp [readIdx, stretch, hc]
        rw [this]; exact contDiffAt_const
  · have : (fun x => p.env t (stretch n x) y) = fun _ => p.env t (stretch n x0) y := by
      funext x
      unfold Placed.env Part.env Placed.point Placed.part
      simp [hy]
    rw [this]; exact contDiffAt_const

theorem eval_smooth {E : Type*} [NormedAddCommGroup E] [NormedSpace ℝ E] {env : E → Env} {x0 : E}
    (hs : ∀ y, ContDiffAt ℝ 2 (fun x => env x y) x0) {e : Ex} (h : Defined (env x0) e) :
    ContDiffAt ℝ 2 (fun x => eval (env x) e) x0 := by
  induction e with
  | num q => exact contDiffAt_const
  | sym x => exact hs x
  | add a b iha ihb => exact (iha h.1).add (ihb h.2)
  | mul a b iha ihb => exact (iha h.1).mul (ihb h.2)
  | pow a k iha =>
    have ha := iha h.1
    cases k with
    | ofNat k =>
      have : (fun x => eval (env x) (pow a (Int.ofNat k))) = fun x => eval (env x) a ^ k := by
        funext x; simp [eval]
      rw [this]; exact ha.pow k
    | negSucc k =>
      have hne : eval (env x0) a ≠ 0 := h.2.resolve_left (by simp)
      have : (fun x => eval (env x) (pow a (Int.negSucc k))) = fun x => (eval (env x) a ^ (k + 1))⁻¹ := by
        funext x; simp [eval, zpow_negSucc]
      rw [this]
      exact (ha.pow (k + 1)).inv (pow_ne_zero _ hne)
  | sin a iha => exact (iha h).sin
  | cos a iha => exact (iha h).cos

theorem defined_near {E : Type*} [NormedAddCommGroup E] [NormedSpace ℝ E] {env : E → Env} {x0 : E}
    (hs : ∀ y, ContDiffAt ℝ 2 (fun x => env x y) x0) {e : Ex} (h : Defined (env x0) e) : ∀ᶠ x in nhds x0, Defined (env x) e := by
  induction e with
  | num q => exact Filter.Eventually.of_forall fun _ => h
  | sym x => exact Filter.Eventually.of_forall fun _ => h
  | add a b iha ihb => filter_upwards [iha h.1, ihb h.2] with x h1 h2 using ⟨h1, h2⟩
  | mul a b iha ihb => filter_upwards [iha h.1, ihb h.2] with x h1 h2 using ⟨h1, h2⟩
  | pow a k iha =>
    rcases h.2 with hk | hk
    · filter_upwards [iha h.1] with x h1 using ⟨h1, Or.inl hk⟩
    · filter_upwards [iha h.1, (eval_smooth hs h.1).continuousAt.eventually_ne hk] with x h1 h2 using ⟨h1, Or.inr h2⟩
  | sin a iha => exact iha h
  | cos a iha => exact iha h

theorem regular_near {ps : List Placed} {t : ℝ} {n : ℕ} {x0 : Fin n → ℝ} (hr : ∀ p ∈ ps, p.Regular t (stretch n x0)) :
    ∀ᶠ x in nhds x0, ∀ p ∈ ps, p.Regular t (stretch n x) := by
  induction ps with
  | nil => exact Filter.Eventually.of_forall fun _ p hp => by simp at hp
  | cons p ps ih =>
    have hp := hr p (by simp)
    filter_upwards [ih fun q hq => hr q (by simp [hq]), defined_near (env_smooth hp.disj t n x0) hp.defined] with x h1 h2
    intro q hq
    rcases List.mem_cons.1 hq with rfl | hq
    · exact ⟨hp.nodup, hp.trig, hp.disj, h2⟩
    · exact h1 q hq

/-- The equations of the first `n` rows as a map. -/
noncomputable def equationsMap (ps : List Placed) (t : ℝ) (n : ℕ) (x : Fin n → ℝ) : Fin n → ℝ := fun i => networkEq ps t (stretch n x) i

theorem part_smooth {p : Placed} {t : ℝ} {n : ℕ} {x0 : Fin n → ℝ} (hr : p.Regular t (stretch n x0)) (i : ℕ) :
    ContDiffAt ℝ 2 (fun x => rowTotal (p.equations t (stretch n x)) i) x0 := by
  unfold Placed.equations
  generalize p.details.firstOrder = xs
  induction xs with
  | nil => exact contDiffAt_const
  | cons z xs ih =>
    cases hz : p.details.row z with
    | none => simpa only [List.filterMap_cons, hz, Option.map_none] using ih
    | some r =>
      simp only [List.filterMap_cons, hz, Option.map_some, rowTotal_cons]
      refine ContDiffAt.add ?_ ih
      by_cases hri : r = i
      · simp only [hri, if_true]
        exact eval_smooth (env_smooth hr.disj t n x0) (defined_diff z hr.defined)
      · simp only [hri, if_false]
        exact contDiffAt_const

theorem equationsMap_smooth {ps : List Placed} {t : ℝ} {n : ℕ} {x0 : Fin n → ℝ} (hr : ∀ p ∈ ps, p.Regular t (stretch n x0)) :
    ContDiffAt ℝ 2 (equationsMap ps t n) x0 := by
  rw [contDiffAt_pi]
  intro i
  unfold equationsMap networkEq
  induction ps with
  | nil => exact contDiffAt_const
  | cons p ps ih =>
    simp only [List.flatMap_cons, rowTotal_append]
    exact (part_smooth (hr p (by simp)) i).add (ih fun q hq => hr q (by simp [hq]))

/-- The derivative of the map in a direction is the derivative of the equations along it. -/
theorem equationsMap_deriv {ps : List Placed} {t : ℝ} {n : ℕ} (hn : Below ps n) {w u : ℕ → ℝ}
    (hd : DifferentiableAt ℝ (equationsMap ps t n) (cutTo n w)) (i : Fin n) :
    HasDerivAt (fun s => networkEq ps t (along w u s) i) (fderiv ℝ (equationsMap ps t n) (cutTo n w) (cutTo n u) i) 0 := by
  have h1 : HasDerivAt (fun s : ℝ => cutTo n w + s • cutTo n u) (cutTo n u) 0 := by
    have := ((hasDerivAt_id (0 : ℝ)).smul_const (cutTo n u)).const_add (cutTo n w)
    simpa using this
  have h2 : HasFDerivAt (equationsMap ps t n) (fderiv ℝ (equationsMap ps t n) (cutTo n w)) (cutTo n w + (0 : ℝ) • cutTo n u) := by
    rw [zero_smul, add_zero]; exact hd.hasFDerivAt
  have h3 := (hasDerivAt_pi.1 (h2.comp_hasDerivAt 0 h1)) i
  refine h3.congr_of_eventuallyEq (Filter.Eventually.of_forall fun s => ?_)
  refine networkEq_agree hn t (fun k hk => ?_) i
  simp [along, stretch, hk, cutTo]

end Verif
