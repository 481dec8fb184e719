import Verif.Model.LineImpedance
import Verif.Lemmas.GlmObjects
import Mathlib.LinearAlgebra.Matrix.ToLinearEquiv
import Mathlib.Analysis.Complex.Basic

/-!
# Lemmas on impedance matrices
-/

namespace Verif.Glm

open Matrix

/-! ### Kron reduction -/

section Kron

variable {K m k : Type} [Field K] [Fintype k] [DecidableEq k] {Zij : Matrix m m K} {Zin : Matrix m k K} {Znj : Matrix k m K}
  {Znn : Matrix k k K} {Z : Matrix m m K}

theorem kron_ok (h : kronReduction Zij Zin Znj Znn = .ok Z) : Znn.det ≠ 0 ∧ Z = Zij - Zin * Znn⁻¹ * Znj := by
  rw [kronReduction] at h
  split at h
  · cases h
  · rename_i hd
    injection h with h
    exact ⟨hd, h.symm⟩

theorem kron_of_det (h : Znn.det ≠ 0) : kronReduction Zij Zin Znj Znn = .ok (Zij - Zin * Znn⁻¹ * Znj) := by
  rw [kronReduction, if_neg h]

theorem kron_current [Fintype m] (hd : Znn.det ≠ 0) (I : m → K) (J : k → K) : Znj *ᵥ I + Znn *ᵥ J = 0 ↔ J = -(Znn⁻¹ *ᵥ (Znj *ᵥ I)) := by
  have hu : IsUnit Znn.det := isUnit_iff_ne_zero.2 hd
  constructor
  · intro h
    have h1 : Znn⁻¹ *ᵥ (Znj *ᵥ I + Znn *ᵥ J) = 0 := by rw [h, mulVec_zero]
    rw [mulVec_add, mulVec_mulVec J Znn⁻¹ Znn, nonsing_inv_mul _ hu, one_mulVec] at h1
    exact (eq_neg_of_add_eq_zero_right h1)
  · rintro rfl
    rw [mulVec_neg, mulVec_mulVec _ Znn Znn⁻¹, mul_nonsing_inv _ hu, one_mulVec, add_neg_cancel]

theorem kron_voltage [Fintype m] (I : m → K) :
    (Zij - Zin * Znn⁻¹ * Znj) *ᵥ I = Zij *ᵥ I + Zin *ᵥ (-(Znn⁻¹ *ᵥ (Znj *ᵥ I))) := by
  rw [sub_mulVec, mulVec_neg, ← sub_eq_add_neg, ← mulVec_mulVec, ← mulVec_mulVec]

end Kron

/-! ### Passive matrices -/

/-- Whatever currents flow, no power comes out of the matrix. -/
def Passive {n : Type} [Fintype n] (Z : Matrix n n ℂ) : Prop := ∀ I : n → ℂ, 0 ≤ (star I ⬝ᵥ Z *ᵥ I).re

/-- Extension of a vector by zeros. -/
noncomputable def extend {n m : Type} [Fintype n] [DecidableEq m] (f : n → m) (I : n → ℂ) : m → ℂ := fun a => ∑ i, if f i = a then I i else 0

theorem dot_extend {n m : Type} [Fintype n] [Fintype m] [DecidableEq m] (f : n → m) (I : n → ℂ) (V : m → ℂ) :
    extend f I ⬝ᵥ V = ∑ i, I i * V (f i) := by
  simp only [dotProduct, extend, Finset.sum_mul]
  rw [Finset.sum_comm]
  refine Finset.sum_congr rfl fun i _ => ?_
  rw [Finset.sum_eq_single (f i)]
  · simp
  · intro b _ hb; simp [hb.symm]
  · simp

theorem star_extend {n m : Type} [Fintype n] [Fintype m] [DecidableEq m] (f : n → m) (I : n → ℂ) : star (extend f I) = extend f (star I) := by
  funext a
  simp only [Pi.star_apply, extend, star_sum]
  refine Finset.sum_congr rfl fun i _ => ?_
  split <;> simp

theorem submatrix_power {n m : Type} [Fintype n] [Fintype m] [DecidableEq m] (Z : Matrix m m ℂ) (f : n → m) (I : n → ℂ) :
    star I ⬝ᵥ (Z.submatrix f f) *ᵥ I = star (extend f I) ⬝ᵥ Z *ᵥ extend f I := by
  rw [star_extend, dot_extend]
  refine Finset.sum_congr rfl fun i _ => ?_
  congr 1
  rw [mulVec, mulVec, dotProduct_comm _ (extend f I), dot_extend, dotProduct]
  exact Finset.sum_congr rfl fun j _ => mul_comm _ _

theorem Passive.submatrix {n m : Type} [Fintype n] [Fintype m] [DecidableEq m] {Z : Matrix m m ℂ} (h : Passive Z) (f : n → m) :
    Passive (Z.submatrix f f) := fun I => by rw [submatrix_power]; exact h _

/-- Power into a line with a neutral on which the voltage drop is zero. -/
theorem kron_power {n k : Type} [Fintype n] [Fintype k] [DecidableEq n] [DecidableEq k] {Z : Matrix n n ℂ} (Zij : Matrix n n ℂ) (Zin : Matrix n k ℂ)
    (Znj : Matrix k n ℂ) (Znn : Matrix k k ℂ) (h : kronReduction Zij Zin Znj Znn = .ok Z) (I : n → ℂ) :
    ∃ J : k → ℂ, star I ⬝ᵥ Z *ᵥ I = star (Sum.elim I J) ⬝ᵥ (fromBlocks Zij Zin Znj Znn) *ᵥ (Sum.elim I J) := by
  obtain ⟨hd, rfl⟩ := kron_ok h
  refine ⟨-(Znn⁻¹ *ᵥ (Znj *ᵥ I)), ?_⟩
  have h0 := (kron_current (Znj := Znj) hd I (-(Znn⁻¹ *ᵥ (Znj *ᵥ I)))).2 rfl
  have hs : star (Sum.elim I (-(Znn⁻¹ *ᵥ (Znj *ᵥ I)))) = Sum.elim (star I) (star (-(Znn⁻¹ *ᵥ (Znj *ᵥ I)))) := by
    funext a; cases a <;> rfl
  rw [kron_voltage, fromBlocks_mulVec, hs, sumElim_dotProduct_sumElim]
  rw [show Znj *ᵥ (Sum.elim I (-(Znn⁻¹ *ᵥ (Znj *ᵥ I))) ∘ Sum.inl) + Znn *ᵥ (Sum.elim I (-(Znn⁻¹ *ᵥ (Znj *ᵥ I))) ∘ Sum.inr) =
    Znj *ᵥ I + Znn *ᵥ (-(Znn⁻¹ *ᵥ (Znj *ᵥ I))) from rfl, h0, dotProduct_zero, add_zero]
  rfl

/-- The power into a matrix whose real part is a diagonal plus a rank-one matrix and whose imaginary part is symmetric. -/
theorem power_formula {n : Type} [Fintype n] [DecidableEq n] (r p : n → ℝ) (d : ℝ) (B : n → n → ℝ) (hB : ∀ a b, B a b = B b a) (y : n → ℂ) :
    (star y ⬝ᵥ (of fun a b => (⟨(if a = b then r a else 0) + d * (p a * p b), B a b⟩ : ℂ)) *ᵥ y).re =
      ∑ a, r a * Complex.normSq (y a) + d * Complex.normSq (∑ a, p a * y a) := by
  have h1 : star y ⬝ᵥ (of fun a b => (⟨(if a = b then r a else 0) + d * (p a * p b), B a b⟩ : ℂ)) *ᵥ y =
      ∑ a, (r a * Complex.normSq (y a) : ℝ) + ((d * Complex.normSq (∑ a, p a * y a) : ℝ) : ℂ) +
        Complex.I * ∑ a, ∑ b, B a b * (star (y a) * y b) := by
    rw [Complex.ofReal_sum, Complex.ofReal_mul d, Complex.normSq_eq_conj_mul_self, map_sum, Finset.sum_mul_sum, Finset.mul_sum, Finset.mul_sum, ← Finset.sum_add_distrib,
      ← Finset.sum_add_distrib, dotProduct]
    refine Finset.sum_congr rfl fun a _ => ?_
    rw [mulVec, dotProduct, Finset.mul_sum, Finset.mul_sum, Finset.mul_sum, add_assoc, ← Finset.sum_add_distrib]
    rw [show ((r a * Complex.normSq (y a) : ℝ) : ℂ) = ∑ b, if a = b then ((r a : ℝ) : ℂ) * (star (y a) * y b) else 0 by
      simp [Complex.normSq_eq_conj_mul_self]]
    rw [← Finset.sum_add_distrib]
    refine Finset.sum_congr rfl fun b _ => ?_
    rw [of_apply, show (⟨(if a = b then r a else 0) + d * (p a * p b), B a b⟩ : ℂ) = ((if a = b then r a else 0 : ℝ) : ℂ) + d * (p a * p b) + Complex.I * B a b by
      apply Complex.ext <;> simp]
    simp only [Pi.star_apply, map_mul, Complex.conj_ofReal, ← starRingEnd_apply]
    split <;> push_cast <;> ring
  have h2 : (Complex.I * ∑ a, ∑ b, (B a b : ℂ) * (star (y a) * y b)).re = 0 := by
    rw [Complex.I_mul_re, neg_eq_zero, ← Complex.conj_eq_iff_im, map_sum]
    simp only [map_sum, map_mul, Complex.conj_ofReal]
    rw [Finset.sum_comm]
    refine Finset.sum_congr rfl fun a _ => Finset.sum_congr rfl fun b _ => ?_
    rw [hB]
    simp only [← starRingEnd_apply, Complex.conj_conj]
    ring
  rw [h1, Complex.add_re, h2, add_zero, Complex.add_re, Complex.ofReal_re, Complex.ofReal_re]

/-! ### Spacing -/

/-- The distance `compute_overhead_spacing` takes for a pair. -/
def pairDist (o : Obj) (p : ℕ × ℕ) : Option ℚ := match o.get (distanceName p.1 p.2) with
  | .error _ => none
  | .ok t => match floatOf (removeNonnum t) with
    | .error _ => none
    | .ok d => if d = 0 then none else some d

theorem step_ok {o : Obj} {T T' : Table} {p : ℕ × ℕ} (h : overheadSpacingStep o T p = .ok T') :
    T' = match pairDist o p with
      | none => T
      | some d => (((T.put p.1 p.2 d).put p.2 p.1 d).put p.1 p.1 0).put p.2 p.2 0 := by
  rw [overheadSpacingStep] at h
  rw [pairDist]
  cases hg : o.get (distanceName p.1 p.2) with
  | error e =>
    rw [hg] at h
    injection h with h
    exact h.symm
  | ok t =>
    rw [hg] at h
    cases hf : floatOf (removeNonnum t) with
    | error e => simp [hf, bind, Except.bind] at h
    | ok d =>
      simp only [hf, bind, Except.bind] at h
      split at h <;> injection h with h <;> rename_i hd
      · simp [h, hf, hd]
      · simp [← h, hf, hd]

theorem spacing_fold {o : Obj} (l : List (ℕ × ℕ)) (hl : ∀ p ∈ l, p.1 < p.2) (hnd : l.Nodup) {T T' : Table}
    (h : l.foldlM (overheadSpacingStep o) T = .ok T') :
    (∀ i j, i < j → T' i j = (if (i, j) ∈ l then (pairDist o (i, j)).getD (T i j) else T i j) ∧
      T' j i = (if (i, j) ∈ l then (pairDist o (i, j)).getD (T j i) else T j i)) ∧
    ∀ i, (T' i i = 0 ∧ ∃ p ∈ l, (p.1 = i ∨ p.2 = i) ∧ (pairDist o p).isSome) ∨
      (T' i i = T i i ∧ ∀ p ∈ l, (p.1 = i ∨ p.2 = i) → pairDist o p = none) := by
  induction l generalizing T with
  | nil =>
    rw [List.foldlM_nil] at h
    injection h with h
    subst h
    simp
  | cons p l ih =>
    rw [List.foldlM_cons] at h
    cases hs : overheadSpacingStep o T p with
    | error e => simp [hs, bind, Except.bind] at h
    | ok T1 =>
      simp only [hs, bind, Except.bind] at h
      obtain ⟨h1, h2⟩ := ih (fun q hq => hl q (by simp [hq])) hnd.of_cons h
      have hT := step_ok hs
      have hp := hl p (by simp)
      have hpl : p ∉ l := (List.nodup_cons.1 hnd).1
      obtain ⟨a, b⟩ := p
      dsimp only at hp
      constructor
      · intro i j hij
        obtain ⟨e1, e2⟩ := h1 i j hij
        rw [e1, e2]
        by_cases hc : (i, j) = (a, b)
        · injection hc with c1 c2
          subst c1 c2
          rw [if_neg hpl, if_neg hpl, if_pos (by simp), if_pos (by simp), hT]
          cases pairDist o (i, j) with
          | none => exact ⟨rfl, rfl⟩
          | some d =>
            have : ¬ i = j := by omega
            have : ¬ j = i := by omega
            simp [Table.put, *]
        · have hm : ((i, j) ∈ (a, b) :: l) ↔ (i, j) ∈ l := by simp [hc]
          have hv : T1 i j = T i j ∧ T1 j i = T j i := by
            rw [hT]
            cases pairDist o (a, b) with
            | none => exact ⟨rfl, rfl⟩
            | some d =>
              rw [Prod.mk.injEq] at hc
              have q1 : ¬ (i = a ∧ j = b) := hc
              have q2 : ¬ (i = b ∧ j = a) := by omega
              have q3 : ¬ (i = a ∧ j = a) := by omega
              have q4 : ¬ (i = b ∧ j = b) := by omega
              have q5 : ¬ (j = a ∧ i = b) := by omega
              have q6 : ¬ (j = b ∧ i = a) := by omega
              have q7 : ¬ (j = a ∧ i = a) := by omega
              have q8 : ¬ (j = b ∧ i = b) := by omega
              simp only [Table.put, q1, q2, q3, q4, q5, q6, q7, q8, if_false, and_self]
          simp only [hm, hv.1, hv.2, and_self]
      · intro i
        rcases h2 i with ⟨z, q, hq, hqi, hqs⟩ | ⟨z, hq⟩
        · exact Or.inl ⟨z, q, by simp [hq], hqi, hqs⟩
        · cases hd : pairDist o (a, b) with
          | none =>
            refine Or.inr ⟨?_, ?_⟩
            · rw [z, hT, hd]
            · intro q hqm hqi
              rcases List.mem_cons.1 hqm with rfl | hqm
              · exact hd
              · exact hq q hqm hqi
          | some d =>
            rw [hd] at hT
            by_cases hi : a = i ∨ b = i
            · refine Or.inl ⟨?_, (a, b), by simp, hi, by simp [hd]⟩
              rw [z, hT]
              rcases hi with rfl | rfl <;> simp [Table.put]
            · refine Or.inr ⟨?_, ?_⟩
              · rw [z, hT]
                have q1 : ¬ i = a := by omega
                have q2 : ¬ i = b := by omega
                simp [Table.put, q1, q2]
              · intro q hqm hqi
                rcases List.mem_cons.1 hqm with rfl | hqm
                · exact absurd hqi hi
                · exact hq q hqm hqi

theorem mem_spacingPairs (i j : ℕ) (hij : i < j) (hj : j < 5) : (i, j) ∈ spacingPairs := by
  have hi : i < 5 := by omega
  interval_cases j <;> interval_cases i <;> decide

theorem spacing_table {o : Obj} {T : Table} (h : overheadSpacing o = .ok T) :
    (∀ i j, i < j → j < 5 → T i j = (pairDist o (i, j)).getD (-1) ∧ T j i = (pairDist o (i, j)).getD (-1)) ∧
    (∀ i, (T i i = 0 ∧ ∃ p ∈ spacingPairs, (p.1 = i ∨ p.2 = i) ∧ (pairDist o p).isSome) ∨
      (T i i = -1 ∧ ∀ p ∈ spacingPairs, (p.1 = i ∨ p.2 = i) → pairDist o p = none)) := by
  obtain ⟨h1, h2⟩ := spacing_fold spacingPairs (by decide) (by decide) h
  refine ⟨fun i j hij hj => ?_, h2⟩
  have := h1 i j hij
  rwa [if_pos (mem_spacingPairs i j hij hj)] at this

theorem pairDist_ne {o : Obj} {p : ℕ × ℕ} : (pairDist o p).getD (-1) ≠ 0 := by
  rw [pairDist]
  split
  · norm_num
  · split
    · norm_num
    · split
      · norm_num
      · simpa

theorem spacing_symm {o : Obj} {T : Table} (h : overheadSpacing o = .ok T) (i j : ℕ) (hi : i < 5) (hj : j < 5) : T i j = T j i := by
  rcases Nat.lt_trichotomy i j with hl | rfl | hl
  · rw [((spacing_table h).1 i j hl hj).1, ((spacing_table h).1 i j hl hj).2]
  · rfl
  · rw [((spacing_table h).1 j i hl hi).1, ((spacing_table h).1 j i hl hi).2]

theorem spacing_zero {o : Obj} {T : Table} (h : overheadSpacing o = .ok T) (i j : ℕ) (hi : i < 5) (hj : j < 5) (hne : i ≠ j) : T i j ≠ 0 := by
  rcases Nat.lt_or_gt_of_ne hne with hl | hl
  · rw [((spacing_table h).1 i j hl hj).1]; exact pairDist_ne
  · rw [((spacing_table h).1 j i hl hi).2]; exact pairDist_ne

theorem kept_eq {o : Obj} {T : Table} (h : overheadSpacing o = .ok T) :
    columnsKept T = (List.range 5).filter (fun j => T j j = 0) ∧ rowsKept T = (List.range 5).filter (fun j => T j j = 0) := by
  constructor <;> refine List.filter_congr fun j hj => ?_ <;> rw [List.mem_range] at hj <;>
    rw [← decide_eq_decide.2 (Iff.refl (T j j = 0)), Bool.eq_iff_iff, List.any_eq_true, decide_eq_true_iff] <;> constructor
  · rintro ⟨i, hi, hz⟩
    rw [List.mem_range] at hi
    rw [decide_eq_true_iff] at hz
    by_cases e : i = j
    · rw [e] at hz; exact hz
    · exact absurd hz (spacing_zero h i j hi hj e)
  · intro hz
    exact ⟨j, List.mem_range.2 hj, by simpa using hz⟩
  · rintro ⟨i, hi, hz⟩
    rw [List.mem_range] at hi
    rw [decide_eq_true_iff] at hz
    by_cases e : i = j
    · rw [e] at hz; exact hz
    · exact absurd hz (spacing_zero h j i hj hi (Ne.symm e))
  · intro hz
    exact ⟨j, List.mem_range.2 hj, by simpa using hz⟩

theorem striped_symm {o : Obj} {T : Table} (h : overheadSpacing o = .ok T) (i j : ℕ) : stripedDistance T i j = stripedDistance T j i := by
  obtain ⟨h1, h2⟩ := kept_eq h
  rw [stripedDistance, stripedDistance, h1, h2]
  cases hi : ((List.range 5).filter (fun j => T j j = 0))[i]? with
  | none => cases ((List.range 5).filter (fun j => T j j = 0))[j]? <;> rfl
  | some a =>
    cases hj : ((List.range 5).filter (fun j => T j j = 0))[j]? with
    | none => rfl
    | some b =>
      have ha := (List.mem_filter.1 (List.mem_of_getElem? hi)).1
      have hb := (List.mem_filter.1 (List.mem_of_getElem? hj)).1
      rw [List.mem_range] at ha hb
      simp only [spacing_symm h a b ha hb]

/-! ### The matrix of conductors -/

theorem wireAt_some {wires : List BareWire} {a i : ℕ} (h : wireAt wires a = some i) :
    ∃ hi : i < wires.length, revLookup wires[i].phase = some a := by
  rw [wireAt, List.findIdx?_eq_some_iff_getElem] at h
  obtain ⟨hi, h1, -⟩ := h
  exact ⟨hi, by simpa using h1⟩

theorem wireAt_inj {wires : List BareWire} {a b i : ℕ} (ha : wireAt wires a = some i) (hb : wireAt wires b = some i) : a = b := by
  obtain ⟨_, h1⟩ := wireAt_some ha
  obtain ⟨_, h2⟩ := wireAt_some hb
  rw [h1] at h2
  exact Option.some_injective _ h2

theorem primitive_symm {T : Table} (h : ∀ i j, stripedDistance T i j = stripedDistance T j i) (wires : List BareWire) :
    (overheadPrimitive wires T)ᵀ = overheadPrimitive wires T := by
  funext a b
  rw [transpose_apply, overheadPrimitive, overheadPrimitive]
  cases ha : wireAt wires a with
  | none => cases wireAt wires b <;> rfl
  | some i =>
    cases hb : wireAt wires b with
    | none => rfl
    | some j =>
      dsimp only
      by_cases e : i = j
      · rw [if_pos e, if_pos e.symm, e]
      · rw [if_neg e, if_neg (Ne.symm e), h]

/-- The resistance of the wire with index `a`, zero without wire. -/
noncomputable def resistanceAt (wires : List BareWire) (a : ℕ) : ℝ := match wireAt wires a with
  | some i => ((wires.getD i ⟨' ', none, none, none⟩).resistance.getD 0 : ℚ)
  | none => 0

/-- Whether there is a wire with index `a`. -/
noncomputable def presentAt (wires : List BareWire) (a : ℕ) : ℝ := if (wireAt wires a).isSome then 1 else 0

theorem primitive_eq {wires : List BareWire} (hw : ∀ w ∈ wires, w.resistance.isSome ∧ w.gmr.isSome) (T : Table) :
    overheadPrimitive wires T = of fun a b : Fin 4 => (⟨(if a = b then resistanceAt wires a else 0) + 9530 / 100000 * (presentAt wires a * presentAt wires b),
      (overheadPrimitive wires T a b).im⟩ : ℂ) := by
  funext a b
  rw [of_apply]
  refine Complex.ext ?_ rfl
  show (overheadPrimitive wires T a b).re = (if a = b then resistanceAt wires a else 0) + 9530 / 100000 * (presentAt wires a * presentAt wires b)
  rw [overheadPrimitive, resistanceAt, presentAt, presentAt]
  cases ha : wireAt wires a with
  | none => cases wireAt wires b <;> simp
  | some i =>
    cases hb : wireAt wires b with
    | none =>
      have : ¬ a = b := by rintro rfl; rw [ha] at hb; cases hb
      simp [this]
    | some j =>
      dsimp only
      by_cases e : i = j
      · subst e
        have hab : a = b := Fin.ext (wireAt_inj ha hb)
        obtain ⟨hi, -⟩ := wireAt_some ha
        have hg : wires.getD i ⟨' ', none, none, none⟩ = wires[i] := by rw [List.getD_eq_getElem?_getD, List.getElem?_eq_getElem hi]; rfl
        obtain ⟨q1, q2⟩ := hw wires[i] (List.getElem_mem hi)
        rw [if_pos rfl, if_pos hab, hg]
        obtain ⟨r, hr⟩ := Option.isSome_iff_exists.1 q1
        obtain ⟨g, hgm⟩ := Option.isSome_iff_exists.1 q2
        rw [wireImpedance, hr, hgm]
        simp [selfImpedance]
      · have hab : ¬ a = b := by rintro rfl; rw [ha] at hb; exact e (Option.some_injective _ hb)
        rw [if_neg e, if_neg hab]
        simp [mutualImpedance]

theorem primitive_power {T : Table} (h : ∀ i j, stripedDistance T i j = stripedDistance T j i) {wires : List BareWire}
    (hw : ∀ w ∈ wires, w.resistance.isSome ∧ w.gmr.isSome) (y : Fin 4 → ℂ) :
    (star y ⬝ᵥ overheadPrimitive wires T *ᵥ y).re =
      ∑ a : Fin 4, resistanceAt wires a * Complex.normSq (y a) + 9530 / 100000 * Complex.normSq (∑ a : Fin 4, presentAt wires a * y a) := by
  rw [primitive_eq hw]
  refine power_formula (fun a : Fin 4 => resistanceAt wires a) (fun a : Fin 4 => presentAt wires a) _ _ (fun a b => ?_) y
  conv_lhs => rw [← primitive_symm h, transpose_apply]

end Verif.Glm
