import Verif.Lemmas.LineReader
import Verif.Lemmas.LineImpedance

/-!
# Lemmas on the matrices of triplex and underground lines
-/

namespace Verif.Glm

open Matrix

theorem blocks_submatrix {m k n : Type} (M : Matrix n n ℂ) (f : m → n) (g : k → n) :
    fromBlocks (M.submatrix f f) (M.submatrix f g) (M.submatrix g f) (M.submatrix g g) = M.submatrix (Sum.elim f g) (Sum.elim f g) := by
  ext i j
  cases i <;> cases j <;> rfl

theorem kron_symm {m k : Type} [Fintype m] [Fintype k] [DecidableEq k] {Zij : Matrix m m ℂ} {Zin : Matrix m k ℂ} {Znj : Matrix k m ℂ} {Znn : Matrix k k ℂ}
    {Z : Matrix m m ℂ} (h : kronReduction Zij Zin Znj Znn = .ok Z) (hs : (fromBlocks Zij Zin Znj Znn)ᵀ = fromBlocks Zij Zin Znj Znn) : ∀ i j, Z i j = Z j i := by
  rw [fromBlocks_transpose, fromBlocks_inj] at hs
  obtain ⟨h1, h2, h3, h4⟩ := hs
  obtain ⟨-, rfl⟩ := kron_ok h
  have : (Zij - Zin * Znn⁻¹ * Znj)ᵀ = Zij - Zin * Znn⁻¹ * Znj := by
    rw [transpose_sub, transpose_mul, transpose_mul, transpose_nonsing_inv, h1, h2, h3, h4, Matrix.mul_assoc]
  intro i j
  conv_lhs => rw [← this, transpose_apply]

/-! ### Triplex lines -/

theorem triplexImpedance_ok {wires : List TriplexWire} {d : Option (ℚ × ℚ)} {Z : Matrix (Fin 2) (Fin 2) ℂ} (h : triplexImpedance wires d = .ok Z) :
    TriplexReadable wires d ∧ kronReduction ((triplexPrimitive wires d).submatrix (Fin.castAdd 1) (Fin.castAdd 1))
      ((triplexPrimitive wires d).submatrix (Fin.castAdd 1) (Fin.natAdd 2)) ((triplexPrimitive wires d).submatrix (Fin.natAdd 2) (Fin.castAdd 1))
      ((triplexPrimitive wires d).submatrix (Fin.natAdd 2) (Fin.natAdd (m := 1) 2)) = .ok Z := by
  rw [triplexImpedance] at h
  split at h
  · cases h
  · rename_i hr
    exact ⟨not_not.1 hr, h⟩

theorem triplexPrimitive_symm (wires : List TriplexWire) (d : Option (ℚ × ℚ)) : (triplexPrimitive wires d)ᵀ = triplexPrimitive wires d := by
  funext a b
  rw [transpose_apply]
  by_cases e : a = b
  · rw [e]
  · rw [triplexPrimitive, triplexPrimitive]
    cases triplexAt wires a with
    | none => cases triplexAt wires b <;> rfl
    | some u =>
      cases triplexAt wires b with
      | none => rfl
      | some v =>
        simp only [if_neg e, if_neg (Ne.symm e)]
        cases d with
        | none => rfl
        | some d => simp only [or_comm]

theorem triplex_symm {wires : List TriplexWire} {d : Option (ℚ × ℚ)} {Z : Matrix (Fin 2) (Fin 2) ℂ} (h : triplexImpedance wires d = .ok Z) :
    ∀ i j, Z i j = Z j i := by
  refine kron_symm (triplexImpedance_ok h).2 ?_
  rw [blocks_submatrix, transpose_submatrix, triplexPrimitive_symm]

/-- The resistance of a wire of a triplex line, zero without wire. -/
def triplexResistance (wires : List TriplexWire) (a : ℕ) : ℚ := match triplexAt wires a with
  | some w => w.resistance.getD 0
  | none => 0

/-- Whether there is a wire. -/
noncomputable def triplexPresent (wires : List TriplexWire) (a : ℕ) : ℝ := if (triplexAt wires a).isSome then 1 else 0

theorem triplexAt_mem {wires : List TriplexWire} {a : ℕ} {w : TriplexWire} (h : triplexAt wires a = some w) : w ∈ wires := List.mem_of_find?_eq_some h

theorem triplexPrimitive_spaced {wires : List TriplexWire} (hw : ∀ w ∈ wires, w.resistance.isSome ∧ w.gmr.isSome) (d : ℚ × ℚ) :
    triplexPrimitive wires (some d) = of fun a b : Fin 3 => (⟨(if a = b then (triplexResistance wires a : ℝ) else 0) +
      9530 / 100000 * (triplexPresent wires a * triplexPresent wires b), (triplexPrimitive wires (some d) a b).im⟩ : ℂ) := by
  funext a b
  rw [of_apply]
  refine Complex.ext ?_ rfl
  show (triplexPrimitive wires (some d) a b).re = (if a = b then (triplexResistance wires a : ℝ) else 0) + 9530 / 100000 * (triplexPresent wires a * triplexPresent wires b)
  rw [triplexPrimitive, triplexResistance, triplexPresent, triplexPresent]
  cases ha : triplexAt wires a with
  | none => cases triplexAt wires b <;> simp
  | some u =>
    cases hb : triplexAt wires b with
    | none =>
      have : ¬ a = b := by rintro rfl; rw [ha] at hb; cases hb
      simp [this]
    | some v =>
      by_cases e : a = b
      · subst e
        obtain ⟨q1, q2⟩ := hw u (triplexAt_mem ha)
        obtain ⟨r, hr⟩ := Option.isSome_iff_exists.1 q1
        obtain ⟨g, hg⟩ := Option.isSome_iff_exists.1 q2
        simp [hr, hg, selfImpedance]
      · simp [e, mutualImpedance]

theorem triplexPrimitive_apart {wires : List TriplexWire} (hw : ∀ w ∈ wires, w.resistance.isSome ∧ w.gmr.isSome) :
    triplexPrimitive wires none = of fun a b : Fin 3 => (⟨(if a = b then (triplexResistance wires a : ℝ) + 9530 / 100000 * triplexPresent wires a else 0) +
      0 * (triplexPresent wires a * triplexPresent wires b), (triplexPrimitive wires none a b).im⟩ : ℂ) := by
  funext a b
  rw [of_apply]
  refine Complex.ext ?_ rfl
  show (triplexPrimitive wires none a b).re = (if a = b then (triplexResistance wires a : ℝ) + 9530 / 100000 * triplexPresent wires a else 0) +
    0 * (triplexPresent wires a * triplexPresent wires b)
  rw [triplexPrimitive, triplexResistance, triplexPresent, triplexPresent]
  cases ha : triplexAt wires a with
  | none => cases triplexAt wires b <;> simp
  | some u =>
    cases hb : triplexAt wires b with
    | none =>
      have : ¬ a = b := by rintro rfl; rw [ha] at hb; cases hb
      simp [this]
    | some v =>
      by_cases e : a = b
      · subst e
        obtain ⟨q1, q2⟩ := hw u (triplexAt_mem ha)
        obtain ⟨r, hr⟩ := Option.isSome_iff_exists.1 q1
        obtain ⟨g, hg⟩ := Option.isSome_iff_exists.1 q2
        simp [hr, hg, selfImpedance]
      · simp [e]

/-- The power lost in a triplex line is at least that lost in its conductors, for some current in the neutral. -/
theorem triplex_power {wires : List TriplexWire} {d : Option (ℚ × ℚ)} {Z : Matrix (Fin 2) (Fin 2) ℂ} (h : triplexImpedance wires d = .ok Z)
    (hw : ∀ w ∈ wires, w.resistance.isSome ∧ w.gmr.isSome) (I : Fin 2 → ℂ) :
    ∃ y : Fin 3 → ℂ, (∀ k : Fin 2, y k.castSucc = I k) ∧
      ∑ a : Fin 3, (triplexResistance wires a : ℝ) * Complex.normSq (y a) ≤ (star I ⬝ᵥ Z *ᵥ I).re := by
  obtain ⟨J, hJ⟩ := kron_power _ _ _ _ (triplexImpedance_ok h).2 I
  rw [blocks_submatrix, submatrix_power] at hJ
  refine ⟨extend (Sum.elim (Fin.castAdd 1) (Fin.natAdd (m := 1) 2)) (Sum.elim I J), ?_, ?_⟩
  · intro k
    rw [extend, Finset.sum_eq_single (Sum.inl k)]
    · exact if_pos rfl
    · rintro (b | b) _ hb
      · exact if_neg fun e => hb (congrArg Sum.inl (Fin.castSucc_injective 2 e))
      · refine if_neg fun e => ?_
        have := congrArg Fin.val e
        simp at this
        omega
    · simp
  · rw [hJ]
    generalize extend (Sum.elim (Fin.castAdd 1) (Fin.natAdd (m := 1) 2)) (Sum.elim I J) = y
    have hs : ∀ a b, (triplexPrimitive wires d a b).im = (triplexPrimitive wires d b a).im := fun a b => by
      conv_lhs => rw [← triplexPrimitive_symm, transpose_apply]
    cases d with
    | some d =>
      rw [triplexPrimitive_spaced hw, power_formula (fun a : Fin 3 => (triplexResistance wires a : ℝ)) (fun a : Fin 3 => triplexPresent wires a) _ _ hs y]
      exact le_add_of_nonneg_right (mul_nonneg (by norm_num) (Complex.normSq_nonneg _))
    | none =>
      rw [triplexPrimitive_apart hw, power_formula (fun a : Fin 3 => (triplexResistance wires a : ℝ) + 9530 / 100000 * triplexPresent wires a)
        (fun a : Fin 3 => triplexPresent wires a) _ _ hs y, zero_mul, add_zero]
      refine Finset.sum_le_sum fun a _ => mul_le_mul_of_nonneg_right ?_ (Complex.normSq_nonneg _)
      have : 0 ≤ triplexPresent wires a := by rw [triplexPresent]; split <;> norm_num
      linarith

theorem triplexResistance_all {wires : List TriplexWire} {P : ℚ → Prop} (hw : ∀ w ∈ wires, ∃ r g, w.resistance = some r ∧ w.gmr = some g ∧ P r) {a : ℕ}
    (ha : (triplexAt wires a).isSome) : P (triplexResistance wires a) := by
  obtain ⟨w, hwa⟩ := Option.isSome_iff_exists.1 ha
  obtain ⟨r, g, hr, -, h⟩ := hw w (triplexAt_mem hwa)
  rw [triplexResistance, hwa]
  simp only [hr, Option.getD_some]
  exact h

theorem triplexResistance_nonneg {wires : List TriplexWire} (hw : ∀ w ∈ wires, ∃ r g, w.resistance = some r ∧ w.gmr = some g ∧ 0 ≤ r) (a : ℕ) :
    0 ≤ triplexResistance wires a := by
  cases h : triplexAt wires a with
  | none => rw [triplexResistance, h]
  | some w => exact triplexResistance_all (P := fun r => 0 ≤ r) hw (by rw [h]; rfl)

theorem triplex_passive {wires : List TriplexWire} {d : Option (ℚ × ℚ)} {Z : Matrix (Fin 2) (Fin 2) ℂ} (h : triplexImpedance wires d = .ok Z)
    (hw : ∀ w ∈ wires, ∃ r g, w.resistance = some r ∧ w.gmr = some g ∧ 0 ≤ r) (I : Fin 2 → ℂ) : 0 ≤ (star I ⬝ᵥ Z *ᵥ I).re := by
  obtain ⟨y, -, hy⟩ := triplex_power h (fun w hw' => by obtain ⟨r, g, hr, hg, -⟩ := hw w hw'; simp [hr, hg]) I
  refine le_trans (Finset.sum_nonneg fun a _ => mul_nonneg ?_ (Complex.normSq_nonneg _)) hy
  exact_mod_cast triplexResistance_nonneg hw a

theorem triplex_strict {wires : List TriplexWire} {d : Option (ℚ × ℚ)} {Z : Matrix (Fin 2) (Fin 2) ℂ} (h : triplexImpedance wires d = .ok Z)
    (hw : ∀ w ∈ wires, ∃ r g, w.resistance = some r ∧ w.gmr = some g ∧ 0 < r) (hp : ∀ k : Fin 2, (triplexAt wires k).isSome) {I : Fin 2 → ℂ} (hI : I ≠ 0) :
    0 < (star I ⬝ᵥ Z *ᵥ I).re := by
  obtain ⟨y, hyk, hy⟩ := triplex_power h (fun w hw' => by obtain ⟨r, g, hr, hg, -⟩ := hw w hw'; simp [hr, hg]) I
  obtain ⟨k, hk⟩ := Function.ne_iff.1 hI
  refine lt_of_lt_of_le ?_ hy
  have hw0 : ∀ w ∈ wires, ∃ r g, w.resistance = some r ∧ w.gmr = some g ∧ 0 ≤ r := fun w h => by
    obtain ⟨r, g, hr, hg, h0⟩ := hw w h; exact ⟨r, g, hr, hg, h0.le⟩
  refine Finset.sum_pos' (fun a _ => mul_nonneg (by exact_mod_cast triplexResistance_nonneg hw0 a) (Complex.normSq_nonneg _)) ⟨k.castSucc, Finset.mem_univ _, ?_⟩
  rw [hyk]
  exact mul_pos (by exact_mod_cast triplexResistance_all (P := fun r => 0 < r) hw (hp k)) (Complex.normSq_pos.2 hk)

/-! ### Underground lines -/

/-- The `i`-th cable. -/
noncomputable def cableAt (cables : List Cable) (i : ℕ) : Cable := cables.getD i ⟨0, 0, 0, 0, 0, 0⟩

theorem undergroundImpedance_ok {wires : List CableWire} {T : Table} {Z : Matrix _ _ ℂ} (h : undergroundImpedance wires T = .ok Z) :
    ∃ cables k, wires.mapM cableOf = .ok cables ∧ k = (cableAt cables ((wires.filter (·.phase ≠ 'N')).length - 1)).k ∧
      CablesReadable (wires.filter (·.phase ≠ 'N')).length cables k T ∧
      ∃ M, M = cablePrimitive (wires.filter (·.phase ≠ 'N')).length cables k (fun i j => (stripedDistance T i j).getD 1) ∧
        kronReduction M.toBlocks₁₁ M.toBlocks₁₂ M.toBlocks₂₁ M.toBlocks₂₂ = .ok Z := by
  rw [undergroundImpedance] at h
  obtain ⟨cables, hc, h⟩ := bind_eq_ok h
  dsimp only at h
  split at h
  · cases h
  · rename_i hr
    exact ⟨cables, _, hc, rfl, not_not.1 hr, _, rfl, h⟩

theorem cablePrimitive_symm (n : ℕ) (cables : List Cable) (k : ℕ) {D : ℕ → ℕ → ℝ} (hD : ∀ i j, D i j = D j i) :
    (cablePrimitive n cables k D)ᵀ = cablePrimitive n cables k D := by
  funext a b
  rw [transpose_apply]
  rcases a with i | i <;> rcases b with j | j
  · simp only [cablePrimitive]
    by_cases e : i = j
    · rw [e]
    · rw [if_neg e, if_neg (Ne.symm e), hD]
  · rfl
  · rfl
  · simp only [cablePrimitive]
    by_cases e : i = j
    · rw [e]
    · rw [if_neg e, if_neg (Ne.symm e), hD]

theorem underground_symm {wires : List CableWire} {T : Table} (hT : ∀ i j, stripedDistance T i j = stripedDistance T j i) {Z : Matrix _ _ ℂ}
    (h : undergroundImpedance wires T = .ok Z) : ∀ i j, Z i j = Z j i := by
  obtain ⟨cables, k, -, -, -, M, hM, hk⟩ := undergroundImpedance_ok h
  refine kron_symm hk ?_
  rw [fromBlocks_toBlocks, hM, cablePrimitive_symm _ _ _ fun i j => by rw [hT]]

theorem cablePrimitive_eq (n : ℕ) (cables : List Cable) (k : ℕ) (D : ℕ → ℕ → ℝ) : cablePrimitive n cables k D = of fun a b =>
    (⟨(if a = b then Sum.elim (fun i : Fin n => ((cableAt cables i).r : ℝ)) (fun i : Fin cables.length => ((cableAt cables i).rn : ℝ)) a else 0) +
      9327 / 100000 * (1 * 1), (cablePrimitive n cables k D a b).im⟩ : ℂ) := by
  funext a b
  rw [of_apply]
  refine Complex.ext ?_ rfl
  dsimp only
  rcases a with i | i <;> rcases b with j | j
  · by_cases e : i = j
    · subst e; simp [cablePrimitive, selfImpedance, cableAt]
    · simp [cablePrimitive, e, mutualImpedance]
  · simp [cablePrimitive, mutualImpedance]
  · simp [cablePrimitive, mutualImpedance]
  · by_cases e : i = j
    · subst e; simp [cablePrimitive, selfImpedance, cableAt]
    · simp [cablePrimitive, e, mutualImpedance]

/-- The power lost in an underground line is at least that lost in its conductors and neutrals. -/
theorem underground_power {wires : List CableWire} {T : Table} (hT : ∀ i j, stripedDistance T i j = stripedDistance T j i) {Z : Matrix _ _ ℂ}
    (h : undergroundImpedance wires T = .ok Z) (I : Fin (wires.filter (·.phase ≠ 'N')).length → ℂ) :
    ∃ cables, wires.mapM cableOf = .ok cables ∧ ∃ J : Fin cables.length → ℂ, ∑ i : Fin (wires.filter (·.phase ≠ 'N')).length, ((cableAt cables i).r : ℝ) * Complex.normSq (I i) +
      ∑ j : Fin cables.length, ((cableAt cables j).rn : ℝ) * Complex.normSq (J j) ≤ (star I ⬝ᵥ Z *ᵥ I).re := by
  obtain ⟨cables, k, hc, -, -, M, hM, hk⟩ := undergroundImpedance_ok h
  obtain ⟨J, hJ⟩ := kron_power _ _ _ _ hk I
  refine ⟨cables, hc, J, ?_⟩
  have hs : ∀ a b, (M a b).im = (M b a).im := fun a b => by
    conv_lhs => rw [hM, ← cablePrimitive_symm _ _ _ fun i j => by rw [hT], transpose_apply]
    rw [hM]
  rw [hJ, fromBlocks_toBlocks, hM, cablePrimitive_eq, power_formula _ (fun _ => 1) _ _ (by rw [hM] at hs; exact hs), Fintype.sum_sum_type]
  exact le_add_of_nonneg_right (mul_nonneg (by norm_num) (Complex.normSq_nonneg _))

end Verif.Glm
