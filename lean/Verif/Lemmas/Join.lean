import Verif.Spec.Join
import Verif.Lemmas.Balanced
import Verif.Lemmas.Exchange

/-!
# Lemmas on joined buses
-/

namespace Verif

theorem busSum_join {n k : ℕ} (hk : k < n) (j : ℕ) (hj : j < n) (ds : List (Ref × ℂ)) :
    busSum j (ds.map fun d => (Option.map (joinBus n k) d.1, d.2)) = busSum j ds + if j = k then busSum n ds else 0 := by
  induction ds with
  | nil => simp [busSum]
  | cons d ds ih =>
    obtain ⟨r, z⟩ := d
    rw [List.map_cons]
    dsimp only
    rw [busSum_cons, busSum_cons, busSum_cons, ih]
    cases r with
    | none => simp
    | some i =>
      simp only [Option.map_some, Option.some.injEq, joinBus]
      by_cases hi : i = n
      · subst hi
        by_cases e : j = k
        · subst e
          rw [if_pos rfl, if_pos rfl, if_pos rfl, if_neg (by omega)]; simp; ring
        · rw [if_pos rfl, if_neg (by omega), if_neg e, if_neg (by omega), if_neg e]; ring
      · by_cases e : j = k
        · subst e; simp [hi]; ring
        · simp [hi, e]

theorem flatMap_put (φ : ℕ → ℕ) (t : ℝ) (V V' : Ref → ℂ) (hV : ∀ r, V' (Option.map φ r) = V r) (xs : List (Element × List ℝ)) :
    ((xs.map fun x => (x.1.put φ, x.2)).flatMap fun x => x.1.draws t V' x.2) = (xs.flatMap fun x => x.1.draws t V x.2).map fun d => (Option.map φ d.1, d.2) := by
  induction xs with
  | nil => rfl
  | cons x xs ih => simp only [List.map_cons, List.flatMap_cons, List.map_append, ih, draws_put φ t V V' hV]

/-- Laws of the joined network out of those of the network with the switch. -/
theorem kirchhoff_join {n k : ℕ} (hk : k < n) (t : ℝ) (V V' : Ref → ℂ) (hV : ∀ r, V' (Option.map (joinBus n k) r) = V r) (w : List ℝ) (xs : List (Element × List ℝ))
    (h : Kirchhoff (n + 1) t V ((.switch (some k) (some n) .closed, w) :: xs)) : Kirchhoff n t V' (xs.map fun x => (x.1.put (joinBus n k), x.2)) := by
  refine ⟨fun j hj => ?_, fun x hx => ?_⟩
  · show busSum j _ = 0
    rw [flatMap_put _ t V V' hV, busSum_join hk j hj]
    have e : ∀ i < n + 1, busSum i (branch (some k) (some n) (pairAt w 0)) + busSum i (xs.flatMap fun x => x.1.draws t V x.2) = 0 := fun i hi => by
      rw [← Raw.busSum_append]; exact h.1 i hi
    have ej := e j (by omega)
    have en := e n (by omega)
    simp only [branch, busSum_cons, Raw.busSum_nil, Option.some.injEq] at ej en
    by_cases hjk : j = k
    · subst hjk
      rw [if_pos rfl, if_neg (by omega)] at ej
      rw [if_neg (by omega), if_pos trivial] at en
      rw [if_pos rfl]
      linear_combination ej + en
    · rw [if_neg (by omega), if_neg (by omega)] at ej
      rw [if_neg hjk]
      linear_combination ej
  · obtain ⟨y, hy, rfl⟩ := List.mem_map.1 hx
    show ∀ z ∈ (y.1.put (joinBus n k)).laws t V' y.2, z = 0
    rw [laws_put _ t V V' hV]
    exact h.2 y (List.mem_cons_of_mem _ hy)

/-- Laws of the network with the switch out of those of the joined network. -/
theorem kirchhoff_part {n k : ℕ} (hk : k < n) (t : ℝ) (V V' : Ref → ℂ) (hV : ∀ r, V' (Option.map (joinBus n k) r) = V r) (xs : List (Element × List ℝ))
    (h : Kirchhoff n t V' (xs.map fun x => (x.1.put (joinBus n k), x.2))) :
    ∃ w : List ℝ, w.length = 2 ∧ Kirchhoff (n + 1) t V ((.switch (some k) (some n) .closed, w) :: xs) := by
  have hsum : ∀ j < n, busSum j (xs.flatMap fun x => x.1.draws t V x.2) + (if j = k then busSum n (xs.flatMap fun x => x.1.draws t V x.2) else 0) = 0 := fun j hj => by
    rw [← busSum_join hk j hj, ← flatMap_put _ t V V' hV]; exact h.1 j hj
  refine ⟨both (busSum n (xs.flatMap fun x => x.1.draws t V x.2)), rfl, fun j hj => ?_, fun x hx => ?_⟩
  · show busSum j (branch (some k) (some n) (pairAt (both (busSum n (xs.flatMap fun x => x.1.draws t V x.2))) 0) ++ xs.flatMap fun x => x.1.draws t V x.2) = 0
    have e : pairAt (both (busSum n (xs.flatMap fun x => x.1.draws t V x.2))) 0 = busSum n (xs.flatMap fun x => x.1.draws t V x.2) := rfl
    rw [Raw.busSum_append, e]
    simp only [branch, busSum_cons, Raw.busSum_nil, Option.some.injEq]
    by_cases hn : j = n
    · subst hn
      rw [if_neg (by omega), if_pos rfl]; ring
    · have := hsum j (by omega)
      by_cases hjk : j = k
      · subst hjk
        rw [if_pos rfl] at this
        rw [if_pos rfl, if_neg (by omega)]
        linear_combination this
      · rw [if_neg hjk] at this
        rw [if_neg (by omega), if_neg (by omega)]
        linear_combination this
  · rcases List.mem_cons.1 hx with rfl | hx
    · have e : V (some n) = V (some k) := by
        rw [← hV (some n), ← hV (some k)]
        simp [joinBus, (by omega : k ≠ n)]
      refine both_vanish.2 ?_
      rw [e]; ring
    · have := h.2 _ (List.mem_map_of_mem (f := fun x : Element × List ℝ => (x.1.put (joinBus n k), x.2)) hx)
      dsimp only at this
      rwa [laws_put _ t V V' hV] at this

/-! ### A bus of which the rest of the network knows nothing -/

/-- Buses from `n` on moved up by one. -/
def stepOver (n j : ℕ) : ℕ := if j < n then j else j + 1

theorem stepOver_ref {n : ℕ} {r : Ref} (h : Ref.Valid n r) : Option.map (stepOver n) r = r := by
  cases r with
  | none => rfl
  | some j => exact congrArg some (if_pos h)

theorem stepOver_put {n : ℕ} {e : Element} (h : e.Valid n) : e.put (stepOver n) = e := by
  have hj : ∀ j, j < n → stepOver n j = j := fun j h => if_pos h
  cases e with
  | unbalanced ph y sh =>
    have : ph.map (fun p => (stepOver n p.1, stepOver n p.2)) = ph := by
      conv_rhs => rw [← List.map_id ph]
      exact List.map_congr_left fun p hp => by rw [hj _ (h p hp).1, hj _ (h p hp).2]; rfl
    simp only [Element.put, this]
  | line | switch | load | voltageSource | capacitor => simp only [Element.put, stepOver_ref h.1, stepOver_ref h.2]
  | transformer => simp only [Element.put, stepOver_ref h.1, stepOver_ref h.2.1, stepOver_ref h.2.2.1, stepOver_ref h.2.2.2]
  | regulator | fuse => simp only [Element.put, stepOver_ref h.1, stepOver_ref h.2.1, stepOver_ref h.2.2]
  | centerTap => simp only [Element.put, hj _ h.1, hj _ h.2.1, hj _ h.2.2.1, hj _ h.2.2.2.1, hj _ h.2.2.2.2.1, hj _ h.2.2.2.2.2]
  | slack | generator | shunt => simp only [Element.put, hj _ h]

/-- Voltages that agree below `n` and vanish beyond. -/
def SameBelow (n : ℕ) (V V' : Ref → ℂ) : Prop :=
  V' none = V none ∧ (∀ j < n, V' (some j) = V (some j)) ∧ ∀ j, n ≤ j → V (some j) = 0 ∧ V' (some (j + 1)) = 0

theorem SameBelow.step {n : ℕ} {V V' : Ref → ℂ} (h : SameBelow n V V') : ∀ r, V' (Option.map (stepOver n) r) = V r := by
  intro r
  cases r with
  | none => exact h.1
  | some j =>
    show V' (some (stepOver n j)) = _
    unfold stepOver
    split
    · exact h.2.1 j (by assumption)
    · rw [(h.2.2 j (by omega)).1, (h.2.2 j (by omega)).2]

theorem SameBelow.ref {n : ℕ} {V V' : Ref → ℂ} (h : SameBelow n V V') {r : Ref} (hr : Ref.Valid n r) : V' r = V r := by
  rw [← h.step r, stepOver_ref hr]

theorem rest_laws {n : ℕ} {V V' : Ref → ℂ} (h : SameBelow n V V') (t : ℝ) (w : List ℝ) {e : Element} (he : e.Valid n) : e.laws t V' w = e.laws t V w := by
  have := laws_put _ t V V' h.step w e
  rwa [stepOver_put he] at this

/-- The rest of the network draws the same, and nothing at bus `n`. -/
theorem rest_draws {n : ℕ} {V V' : Ref → ℂ} (h : SameBelow n V V') (t : ℝ) (xs : List (Element × List ℝ)) (hx : ∀ x ∈ xs, x.1.Valid n) :
    (∀ j < n, busSum j (xs.flatMap fun x => x.1.draws t V' x.2) = busSum j (xs.flatMap fun x => x.1.draws t V x.2)) ∧
      busSum n (xs.flatMap fun x => x.1.draws t V' x.2) = 0 := by
  have e : (xs.map fun x => (x.1.put (stepOver n), x.2)) = xs := by
    conv_rhs => rw [← List.map_id xs]
    exact List.map_congr_left fun x hx' => by rw [stepOver_put (hx x hx')]; rfl
  have e2 := flatMap_put (stepOver n) t V V' h.step xs
  rw [e] at e2
  have e3 : ∀ ds : List (Ref × ℂ), (ds.map fun d => (d.1, 1 * d.2)) = ds := fun ds => by simp
  rw [e2]
  constructor
  · intro j hj
    have := busSum_put (stepOver n) j j (fun i => by unfold stepOver; split <;> omega) 1 (xs.flatMap fun x => x.1.draws t V x.2)
    rwa [e3, one_mul] at this
  · have := busSum_put_none (stepOver n) n (fun i => by unfold stepOver; split <;> omega) 1 (xs.flatMap fun x => x.1.draws t V x.2)
    rwa [e3] at this

theorem line_sum (t : ℝ) (V : Ref → ℂ) (f u : Ref) (y : ℂ) (w : List ℝ) (k : ℕ) :
    busSum k ((Element.line f u y.re y.im 0).draws t V w) = busSum k (branch f u (y * (1 + 20 * t) * (V f - V u))) := by
  have hf : faded t 0 0 = 0 := by apply Complex.ext <;> simp [faded]
  simp only [Element.draws, Raw.busSum_append, busSum_cons, Raw.busSum_nil, hf, zero_mul, ite_self, add_zero]
  rfl

end Verif
