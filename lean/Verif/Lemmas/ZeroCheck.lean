import Verif.Lemmas.Expr

/-! A sound test for expressions that are identically zero: sums of products over opaque atoms that cancel. -/

namespace Verif

namespace Ex

/-- Sum of products; symbols, powers and functions are atoms. -/
def poly : Ex → List (ℚ × List Ex)
  | num q => [(q, [])]
  | add a b => poly a ++ poly b
  | mul a b => (poly a).flatMap fun x => (poly b).map fun y => (x.1 * y.1, x.2 ++ y.2)
  | sym s => [(1, [sym s])]
  | pow a n => [(1, [pow a n])]
  | sin a => [(1, [sin a])]
  | cos a => [(1, [cos a])]

/-- Value of a product. -/
noncomputable def monoVal (env : Env) (m : ℚ × List Ex) : ℝ := (m.1 : ℝ) * (m.2.map (eval env)).prod

theorem poly_eval (env : Env) (e : Ex) : ((poly e).map (monoVal env)).sum = eval env e := by
  induction e with
  | num q => simp [poly, monoVal]
  | sym s => simp [poly, monoVal]
  | add a b iha ihb => simp [poly, iha, ihb]
  | mul a b iha ihb =>
    rw [eval_mul, ← iha, ← ihb]
    simp only [poly]
    generalize poly a = A
    generalize poly b = B
    induction A with
    | nil => simp
    | cons x A ih =>
      rw [List.flatMap_cons, List.map_append, List.sum_append, ih, List.map_cons, List.sum_cons, add_mul]
      congr 1
      rw [List.map_map]
      clear ih
      induction B with
      | nil => simp
      | cons y B ih =>
        simp only [List.map_cons, List.sum_cons, Function.comp, mul_add] at ih ⊢
        rw [ih]
        simp only [monoVal, List.map_append, List.prod_append]
        push_cast
        ring
  | pow a n => simp [poly, monoVal]
  | sin a => simp [poly, monoVal]
  | cos a => simp [poly, monoVal]

/-- Products with the same atoms have coefficients summing to zero, group by group; `k` bounds the number of groups. -/
def cancels : ℕ → List (ℚ × List Ex) → Bool
  | _, [] => true
  | 0, _ :: _ => false
  | k + 1, m :: ms =>
    (m.1 + ((ms.filter fun x => x.2.isPerm m.2).map Prod.fst).sum == 0) && cancels k (ms.filter fun x => !x.2.isPerm m.2)

theorem sum_filter_split (p : ℚ × List Ex → Bool) (f : ℚ × List Ex → ℝ) (l : List (ℚ × List Ex)) :
    (l.map f).sum = ((l.filter p).map f).sum + ((l.filter fun x => !p x).map f).sum := by
  induction l with
  | nil => simp
  | cons x l ih =>
    by_cases h : p x = true
    · simp [h, ih]; ring
    · simp [h, ih]; ring

theorem cancels_sound (env : Env) (k : ℕ) (l : List (ℚ × List Ex)) (h : cancels k l = true) :
    (l.map (monoVal env)).sum = 0 := by
  induction k generalizing l with
  | zero => cases l with
    | nil => rfl
    | cons => simp [cancels] at h
  | succ k ih => cases l with
    | nil => rfl
    | cons m ms =>
      simp only [cancels, Bool.and_eq_true, beq_iff_eq] at h
      obtain ⟨h1, h2⟩ := h
      rw [List.map_cons, List.sum_cons, sum_filter_split (fun x => x.2.isPerm m.2), ih _ h2, add_zero]
      have hg : ((ms.filter fun x => x.2.isPerm m.2).map (monoVal env)).sum =
          ((((ms.filter fun x => x.2.isPerm m.2).map Prod.fst).sum : ℚ) : ℝ) * (m.2.map (eval env)).prod := by
        have : ∀ x ∈ ms.filter (fun x => x.2.isPerm m.2), (x.2.map (eval env)).prod = (m.2.map (eval env)).prod := by
          intro x hx
          have := (List.mem_filter.1 hx).2
          exact ((List.isPerm_iff.1 this).map _).prod_eq
        revert this
        generalize ms.filter (fun x => x.2.isPerm m.2) = l
        intro this
        induction l with
        | nil => simp
        | cons x l ih =>
          rw [List.map_cons, List.sum_cons, ih fun y hy => this y (by simp [hy])]
          simp only [monoVal, this x (by simp), List.map_cons, List.sum_cons]
          push_cast; ring
      rw [hg]
      have : monoVal env m = (m.1 : ℝ) * (m.2.map (eval env)).prod := rfl
      rw [this, ← add_mul]
      have h1' : ((m.1 : ℝ) + (((ms.filter fun x => x.2.isPerm m.2).map Prod.fst).sum : ℚ)) = 0 := by
        exact_mod_cast congrArg (fun q : ℚ => (q : ℝ)) h1
      rw [h1', zero_mul]

/-- The test. -/
def isZero (e : Ex) : Bool := cancels (poly e).length (poly e)

theorem isZero_sound {e : Ex} (h : isZero e = true) (env : Env) : eval env e = 0 := by
  rw [← poly_eval]; exact cancels_sound env _ _ h

end Ex

end Verif
