import Verif.Model.UnbalancedLine
import Verif.Spec.Results
import Verif.Lemmas.KirchhoffNetwork
import Mathlib.Algebra.BigOperators.Fin

/-!
# C18: unbalanced lines
-/

namespace Verif

open Ex Devices ComplexConjugate

variable {L : Library}

theorem makeUnbalanced_ok {n : ℕ} {inv : Matrix (Fin n) (Fin n) ℂ → Except String (Matrix (Fin n) (Fin n) ℂ)}
    {Z : Matrix (Fin n) (Fin n) ℂ} {S : ℕ → ℕ → Option ℂ} {length : ℝ} {phases : List (ℕ × ℕ)} {e : Element}
    (h : makeUnbalanced inv Z S length phases = .ok e) :
    ∃ Y, inv ((length : ℂ) • Z) = .ok Y ∧ phases.length = n ∧ (n = 1 ∨ n = 2 ∨ n = 3) ∧
      closeToIdentity (((length : ℂ) • Z) * Y) ∧
      e = .unbalanced phases (entryAt Y) (fun i j => match S i j with | some s => ((length : ℂ) * s).im | none => 0) := by
  unfold makeUnbalanced at h
  by_cases hn : n = 1 ∨ n = 2 ∨ n = 3
  · rw [if_neg (not_not.2 hn)] at h
    cases hi : inv ((length : ℂ) • Z) with
    | error m => simp only [hi, bind, Except.bind, reduceCtorEq] at h
    | ok Y =>
      simp only [hi, bind, Except.bind] at h
      by_cases hc : phases.length = n ∧ closeToIdentity (((length : ℂ) • Z) * Y)
      · rw [if_neg (not_not.2 hc)] at h
        injection h with h
        exact ⟨Y, rfl, hc.1, hn, hc.2, h.symm⟩
      · rw [if_pos hc] at h; exact absurd h (by simp)
  · rw [if_pos hn] at h; exact absurd h (by simp)

/-- **C18, acceptance, any inversion routine.** However the inversion was computed, an accepted line has an admittance matrix
whose product with the absolute impedance matrix is the identity up to the tolerance of the check, a phase per row, and at
most three phases. -/
theorem C18_accepted_is_inverse {n : ℕ} (inv : Matrix (Fin n) (Fin n) ℂ → Except String (Matrix (Fin n) (Fin n) ℂ))
    (Z : Matrix (Fin n) (Fin n) ℂ) (S : ℕ → ℕ → Option ℂ) (length : ℝ) (phases : List (ℕ × ℕ)) (e : Element)
    (h : makeUnbalanced inv Z S length phases = .ok e) :
    ∃ (Y : Matrix (Fin n) (Fin n) ℂ) (sh : ℕ → ℕ → ℝ), e = .unbalanced phases (entryAt Y) sh ∧ phases.length = n ∧ n ≤ 3 ∧
      ∀ i j, ‖∑ k, length * Z i k * Y k j - (if i = j then 1 else 0)‖ ≤ 1 / 100000000 + (if i = j then 1 / 100000 else 0) := by
  obtain ⟨Y, _, h2, h3, h4, h5⟩ := makeUnbalanced_ok h
  refine ⟨Y, _, h5, h2, by omega, ?_⟩
  intro i j
  have := h4 i j
  simp only [Matrix.mul_apply, Matrix.smul_apply, smul_eq_mul, Matrix.one_apply] at this
  refine this.trans ?_
  split_ifs <;> simp

/-- **C18, acceptance in exact arithmetic.** With exact inversion, a line of at most three phases with one bus pair per row is
accepted exactly when its absolute impedance matrix is invertible; then admittance times impedance is the identity, on both
sides, and the shunt susceptance is the imaginary part of the given one times the length. -/
theorem C18_exact {n : ℕ} (Z : Matrix (Fin n) (Fin n) ℂ) (S : ℕ → ℕ → Option ℂ) (length : ℝ) (phases : List (ℕ × ℕ))
    (hn : 1 ≤ n ∧ n ≤ 3) (hp : phases.length = n) :
    ((∃ e, makeUnbalanced exactInverse Z S length phases = .ok e) ↔ ((length : ℂ) • Z).det ≠ 0) ∧
    ∀ e, makeUnbalanced exactInverse Z S length phases = .ok e →
      ∃ Y : Matrix (Fin n) (Fin n) ℂ, ((length : ℂ) • Z) * Y = 1 ∧ Y * ((length : ℂ) • Z) = 1 ∧
        e = .unbalanced phases (entryAt Y) (fun i j => match S i j with | some s => length * s.im | none => 0) := by
  constructor
  · constructor
    · rintro ⟨e, he⟩
      obtain ⟨Y, h1, _⟩ := makeUnbalanced_ok he
      intro hd
      unfold exactInverse at h1
      rw [if_pos hd] at h1
      exact absurd h1 (by simp)
    · intro hd
      unfold makeUnbalanced
      rw [if_neg (not_not.2 (by omega))]
      have hi : exactInverse ((length : ℂ) • Z) = .ok ((length : ℂ) • Z)⁻¹ := by unfold exactInverse; rw [if_neg hd]
      simp only [hi, bind, Except.bind]
      have hc : closeToIdentity ((length : ℂ) • Z * ((length : ℂ) • Z)⁻¹) := by
        rw [Matrix.mul_nonsing_inv _ (isUnit_iff_ne_zero.2 hd)]
        intro i j
        rw [sub_self, norm_zero]
        positivity
      exact ⟨_, if_neg (not_not.2 ⟨hp, hc⟩)⟩
  · intro e he
    obtain ⟨Y, h1, h2, h3, h4, h5⟩ := makeUnbalanced_ok he
    unfold exactInverse at h1
    split_ifs at h1 with hd
    injection h1 with h1
    subst h1
    refine ⟨_, Matrix.mul_nonsing_inv _ (isUnit_iff_ne_zero.2 hd), Matrix.nonsing_inv_mul _ (isUnit_iff_ne_zero.2 hd), ?_⟩
    rw [h5]
    congr 1
    funext i j
    cases S i j <;> simp

/-- Shunt current of phase `i` at an end whose phase buses are `at`. -/
noncomputable def shuntCurrent (ends : List ℕ) (sh : ℕ → ℕ → ℝ) (V : Ref → ℂ) (i : ℕ) : ℂ :=
  ((List.range ends.length).map fun j => Complex.I * (sh i j / 2 : ℝ) * V (some (ends.getD j 0))).sum

theorem busSum_append (k : ℕ) (a b : List (Ref × ℂ)) : busSum k (a ++ b) = busSum k a + busSum k b := by
  unfold busSum; simp

theorem list_sum_neg (l : List ℕ) (f : ℕ → ℂ) : -(l.map f).sum = (l.map fun x => -f x).sum := by
  induction l with
  | nil => simp
  | cons x l ih => simp only [List.map_cons, List.sum_cons, neg_add, ih]

theorem busSum_nil (k : ℕ) : busSum k [] = 0 := rfl

theorem list_sum_fin (n : ℕ) (f : ℕ → ℂ) : ((List.range n).map f).sum = ∑ k : Fin n, f k := by
  rw [Fin.sum_univ_eq_sum_range]
  induction n with
  | zero => rfl
  | succ n ih => rw [List.range_succ, List.map_append, List.sum_append, ih, Finset.sum_range_succ]; simp

theorem busSum_flatMap {α : Type} (k : ℕ) (l : List α) (f : α → List (Ref × ℂ)) :
    busSum k (l.flatMap f) = (l.map fun x => busSum k (f x)).sum := by
  induction l with
  | nil => rfl
  | cons x l ih => rw [List.flatMap_cons, busSum_append, ih, List.map_cons, List.sum_cons]

theorem sum_single {n i : ℕ} (hi : i < n) (f : ℕ → ℂ) (hf : ∀ j < n, j ≠ i → f j = 0) : ((List.range n).map f).sum = f i := by
  induction n with
  | zero => omega
  | succ n ih =>
    rw [List.range_succ, List.map_append, List.sum_append]
    simp only [List.map_cons, List.map_nil, List.sum_cons, List.sum_nil, add_zero]
    by_cases hn : i = n
    · subst hn
      rw [show ((List.range i).map f).sum = 0 from ?_, zero_add]
      apply List.sum_eq_zero
      intro x hx
      obtain ⟨j, hj, rfl⟩ := List.mem_map.1 hx
      rw [List.mem_range] at hj
      exact hf j (by omega) (by omega)
    · rw [ih (by omega) (fun j hj hne => hf j (by omega) hne), hf n (by omega) (Ne.symm hn), add_zero]

theorem getD_fst (ph : List (ℕ × ℕ)) (i : ℕ) : (ph.map Prod.fst).getD i 0 = (ph.getD i (0, 0)).1 := by
  simp only [List.getD_eq_getElem?_getD, List.getElem?_map]; cases ph[i]? <;> rfl

theorem getD_snd (ph : List (ℕ × ℕ)) (i : ℕ) : (ph.map Prod.snd).getD i 0 = (ph.getD i (0, 0)).2 := by
  simp only [List.getD_eq_getElem?_getD, List.getElem?_map]; cases ph[i]? <;> rfl

theorem getD_inj {l : List ℕ} (h : l.Nodup) {i j : ℕ} (hi : i < l.length) (hj : j < l.length) (e : l.getD i 0 = l.getD j 0) :
    i = j := by
  simp only [List.getD_eq_getElem?_getD, List.getElem?_eq_getElem hi, List.getElem?_eq_getElem hj, Option.getD_some] at e
  exact (List.Nodup.getElem_inj_iff h).1 e

/-- Currents of an unbalanced line at the ends of phase `i`, when the phases have buses of their own. -/
theorem unbalanced_busSum (ph : List (ℕ × ℕ)) (y : ℕ → ℕ → ℂ) (sh : ℕ → ℕ → ℝ) (V : Ref → ℂ) (w : List ℝ)
    (hnd : (ph.map Prod.fst ++ ph.map Prod.snd).Nodup) (i : ℕ) (hi : i < ph.length) :
    let D := (Element.unbalanced ph y sh).draws 0 V w
    busSum (ph.getD i (0, 0)).1 D = seriesCurrent ph y V i + shuntCurrent (ph.map Prod.fst) sh V i ∧
    busSum (ph.getD i (0, 0)).2 D = -seriesCurrent ph y V i + shuntCurrent (ph.map Prod.snd) sh V i := by
  intro D
  rw [List.nodup_append] at hnd
  obtain ⟨n1, n2, n3⟩ := hnd
  have f1 : ∀ j < ph.length, (ph.getD j (0, 0)).1 = (ph.getD i (0, 0)).1 → j = i := by
    intro j hj e
    rw [← getD_fst, ← getD_fst] at e
    exact getD_inj n1 (by simpa using hj) (by simpa using hi) e
  have f2 : ∀ j < ph.length, (ph.getD j (0, 0)).2 = (ph.getD i (0, 0)).2 → j = i := by
    intro j hj e
    rw [← getD_snd, ← getD_snd] at e
    exact getD_inj n2 (by simpa using hj) (by simpa using hi) e
  have f3 : ∀ j < ph.length, ∀ k < ph.length, (ph.getD j (0, 0)).1 ≠ (ph.getD k (0, 0)).2 := by
    intro j hj k hk e
    refine n3 (ph.getD j (0, 0)).1 ?_ (ph.getD k (0, 0)).2 ?_ e
    · rw [← getD_fst, List.getD_eq_getElem?_getD, List.getElem?_eq_getElem (by simpa using hj)]
      exact List.getElem_mem _
    · rw [← getD_snd, List.getD_eq_getElem?_getD, List.getElem?_eq_getElem (by simpa using hk)]
      exact List.getElem_mem _
  have hst : ∀ g b : ℝ, stiff 0 g b = ⟨g, b⟩ := by intro g b; simp [stiff]
  have hfa : ∀ g b : ℝ, faded 0 g b = ⟨g, b⟩ := by intro g b; simp [faded]
  have hI : ∀ b : ℝ, (⟨0, b⟩ : ℂ) = Complex.I * (b : ℂ) := by intro b; apply Complex.ext <;> simp
  have hD : D = (List.range ph.length).flatMap fun i => (List.range ph.length).flatMap fun j =>
      branch (some (ph.getD i (0, 0)).1) (some (ph.getD i (0, 0)).2) (y i j * (V (some (ph.getD j (0, 0)).1) - V (some (ph.getD j (0, 0)).2))) ++
      [(some (ph.getD i (0, 0)).1, Complex.I * (sh i j / 2 : ℝ) * V (some (ph.getD j (0, 0)).1)),
       (some (ph.getD i (0, 0)).2, Complex.I * (sh i j / 2 : ℝ) * V (some (ph.getD j (0, 0)).2))] := by
    show Element.draws 0 V w (.unbalanced ph y sh) = _
    simp only [Element.draws, hst, hfa, ite_self, Complex.eta, hI]
  constructor
  · rw [hD, busSum_flatMap, sum_single hi]
    · rw [busSum_flatMap]
      unfold seriesCurrent shuntCurrent
      rw [List.length_map, ← List.sum_map_add]
      congr 1
      apply List.map_congr_left
      intro j hj
      rw [List.mem_range] at hj
      rw [getD_fst, busSum_append]
      have := f3 i hi i hi
      simp only [branch, busSum_cons, busSum_nil, Option.some.injEq, if_true, if_neg (Ne.symm this)]
      ring
    · intro k hk hne
      rw [busSum_flatMap]
      apply List.sum_eq_zero
      intro x hx
      obtain ⟨j, hj, rfl⟩ := List.mem_map.1 hx
      have h1 : (ph.getD k (0, 0)).1 ≠ (ph.getD i (0, 0)).1 := fun e => hne (f1 k hk e)
      have h2 := Ne.symm (f3 i hi k hk)
      simp only [busSum_append, branch, busSum_cons]
      simp only [Option.some.injEq, if_neg h1, if_neg h2]
      simp [busSum]
  · rw [hD, busSum_flatMap, sum_single hi]
    · rw [busSum_flatMap]
      unfold seriesCurrent shuntCurrent
      rw [List.length_map, list_sum_neg, ← List.sum_map_add]
      congr 1
      apply List.map_congr_left
      intro j hj
      rw [List.mem_range] at hj
      rw [getD_snd, busSum_append]
      have := f3 i hi i hi
      simp only [branch, busSum_cons, busSum_nil, Option.some.injEq, if_true, if_neg this]
      ring
    · intro k hk hne
      rw [busSum_flatMap]
      apply List.sum_eq_zero
      intro x hx
      obtain ⟨j, hj, rfl⟩ := List.mem_map.1 hx
      have h1 := f3 k hk i hi
      have h2 : (ph.getD k (0, 0)).2 ≠ (ph.getD i (0, 0)).2 := fun e => hne (f2 k hk e)
      simp only [busSum_append, branch, busSum_cons]
      simp only [Option.some.injEq, if_neg h1, if_neg h2]
      simp [busSum]

/-- **C18, currents.** For every line whose phases have buses of their own, every admittance and shunt matrix, every
position among the unknowns and every vector: the rows stamped for the from bus of phase `i` are the real and imaginary part
of row `i` of `Y (V_from - V_to)` plus its half of the shunt current; those for the to bus have the opposite series current
plus the half of the shunt current of that end. -/
theorem C18_line_currents (hL : L.Loaded) (K n : ℕ) (ph : List (ℕ × ℕ)) (y : ℕ → ℕ → ℂ) (sh : ℕ → ℕ → ℝ) (v : ℕ → ℝ)
    (hnd : (ph.map Prod.fst ++ ph.map Prod.snd).Nodup) (hval : (Element.unbalanced ph y sh).Valid K) (i : ℕ) (hi : i < ph.length) :
    let nodes := (assignBuses false K 0).1
    let V : Ref → ℂ := fun r => (nodeAt nodes r).volt v
    let rows := rowTotal (((Element.unbalanced ph y sh).place L false nodes n).1.flatMap fun p => p.equations 0 v)
    let f := (ph.getD i (0, 0)).1
    let u := (ph.getD i (0, 0)).2
    (⟨rows (2 * f), rows (2 * f + 1)⟩ : ℂ) = seriesCurrent ph y V i + shuntCurrent (ph.map Prod.fst) sh V i ∧
    (⟨rows (2 * u), rows (2 * u + 1)⟩ : ℂ) = -seriesCurrent ph y V i + shuntCurrent (ph.map Prod.snd) sh V i := by
  intro nodes V rows f u
  have hnodes : nodes = (List.range' 0 K).map plainNode := by
    show (assignBuses false K 0).1 = _
    rw [show (0 : ℕ) = 2 * 0 from rfl, assignBuses_plain]
  have hrow : ∀ j, rows j = drawRow ((List.range' 0 K).map plainNode) ((Element.unbalanced ph y sh).draws 0 V []) j := by
    intro j
    have := (place_kirchhoff hL nodes (.unbalanced ph y sh) n 0 v [] (by intro k hk; simp [Element.laws] at hk)).2 j
    rw [show rows j = _ from this, hnodes]
    simp only [Element.laws]
    rw [lawRow_nil, add_zero]
    simp only [V, hnodes]
  have hmem : ph.getD i (0, 0) ∈ ph := by
    rw [List.getD_eq_getElem?_getD, List.getElem?_eq_getElem hi]; exact List.getElem_mem _
  obtain ⟨hf, hu⟩ := hval _ hmem
  obtain ⟨b1, b2⟩ := unbalanced_busSum ph y sh V [] hnd i hi
  rw [hrow, hrow, hrow, hrow, (drawRow_bus K f hf _).1, (drawRow_bus K f hf _).2, (drawRow_bus K u hu _).1, (drawRow_bus K u hu _).2]
  exact ⟨b1, b2⟩

/-- **C18, Ohm's law.** The series currents of an accepted line times its absolute impedance matrix are the voltage drops. -/
theorem C18_ohm {n : ℕ} (Z : Matrix (Fin n) (Fin n) ℂ) (S : ℕ → ℕ → Option ℂ) (length : ℝ) (phases : List (ℕ × ℕ)) (e : Element)
    (hn : 1 ≤ n ∧ n ≤ 3) (hp : phases.length = n) (h : makeUnbalanced exactInverse Z S length phases = .ok e) :
    ∃ y sh, e = .unbalanced phases y sh ∧ ∀ (V : Ref → ℂ) (i : Fin n),
      ∑ j : Fin n, length * Z i j * seriesCurrent phases y V j =
        V (some (phases.getD i (0, 0)).1) - V (some (phases.getD i (0, 0)).2) := by
  obtain ⟨Y, h1, _, he⟩ := (C18_exact Z S length phases hn hp).2 e h
  refine ⟨_, _, he, ?_⟩
  intro V i
  set d : Fin n → ℂ := fun k => V (some (phases.getD k (0, 0)).1) - V (some (phases.getD k (0, 0)).2) with hd
  have hs : ∀ j : Fin n, seriesCurrent phases (entryAt Y) V j = ∑ k : Fin n, Y j k * d k := by
    intro j
    unfold seriesCurrent
    rw [hp, list_sum_fin]
    apply Finset.sum_congr rfl
    intro k _
    rw [show entryAt Y j k = Y j k from dif_pos ⟨j.2, k.2⟩]
  simp only [hs]
  have hv : (((length : ℂ) • Z) * Y).mulVec d i = d i := by rw [h1, Matrix.one_mulVec]
  rw [← Matrix.mulVec_mulVec] at hv
  simp only [Matrix.mulVec, dotProduct, Matrix.smul_apply, smul_eq_mul] at hv
  exact hv

/-! A two-phase line with mutual impedance that is accepted, on four buses. -/

example : (((2 : ℝ) : ℂ) • (!![2, 1; 1, 2] : Matrix (Fin 2) (Fin 2) ℂ)).det ≠ 0 := by
  rw [Matrix.det_smul, Matrix.det_fin_two_of]; norm_num

example : ([(0, 2), (1, 3)].map Prod.fst ++ [(0, 2), (1, 3)].map Prod.snd : List ℕ).Nodup := by decide

example (y : ℕ → ℕ → ℂ) (sh : ℕ → ℕ → ℝ) : (Element.unbalanced [(0, 2), (1, 3)] y sh).Valid 4 := by
  intro p hp; simp at hp; rcases hp with rfl | rfl <;> simp

/-! ### Examples -/

/-- Two phases with mutual impedance. -/
theorem twoPhase_accepted : ∃ e, makeUnbalanced exactInverse (!![2, 1; 1, 2] : Matrix (Fin 2) (Fin 2) ℂ) (fun _ _ => none) 2 [(0, 2), (1, 3)] = .ok e :=
  (C18_exact (!![2, 1; 1, 2] : Matrix (Fin 2) (Fin 2) ℂ) (fun _ _ => none) 2 [(0, 2), (1, 3)] (by omega) rfl).1.2 (by
    rw [Matrix.det_smul, Matrix.det_fin_two_of]; norm_num)

/-- The line is accepted, and `C18_accepted_is_inverse` and `C18_ohm` tell what was made of it: the drop in phase 0 is the length times
`2 I₀ + I₁`. -/
example : ∃ e y sh, makeUnbalanced exactInverse (!![2, 1; 1, 2] : Matrix (Fin 2) (Fin 2) ℂ) (fun _ _ => none) 2 [(0, 2), (1, 3)] = .ok e ∧
    e = .unbalanced [(0, 2), (1, 3)] y sh ∧ ∀ V : Ref → ℂ,
      2 * 2 * seriesCurrent [(0, 2), (1, 3)] y V 0 + 2 * 1 * seriesCurrent [(0, 2), (1, 3)] y V 1 = V (some 0) - V (some 2) := by
  obtain ⟨e, he⟩ := twoPhase_accepted
  obtain ⟨y, sh, h1, h2⟩ := C18_ohm (!![2, 1; 1, 2] : Matrix (Fin 2) (Fin 2) ℂ) (fun _ _ => none) 2 [(0, 2), (1, 3)] e (by omega) rfl he
  refine ⟨e, y, sh, he, h1, fun V => ?_⟩
  have := h2 V 0
  simpa [Fin.sum_univ_two] using this

/-- The entry of the check at the first place of that line. -/
example : ∃ Y : Matrix (Fin 2) (Fin 2) ℂ, ‖2 * 2 * Y 0 0 + 2 * 1 * Y 1 0 - 1‖ ≤ 1 / 100000000 + 1 / 100000 := by
  obtain ⟨e, he⟩ := twoPhase_accepted
  obtain ⟨Y, sh, -, -, -, h⟩ := C18_accepted_is_inverse _ _ _ _ _ e he
  refine ⟨Y, ?_⟩
  simpa [Fin.sum_univ_two] using h 0 0

/-- The currents of such a line on four buses, at the from end of its second phase. -/
example (hL : L.Loaded) (y : ℕ → ℕ → ℂ) (sh : ℕ → ℕ → ℝ) (v : ℕ → ℝ) :
    let V : Ref → ℂ := fun r => (nodeAt (assignBuses false 4 0).1 r).volt v
    let rows := rowTotal (((Element.unbalanced [(0, 2), (1, 3)] y sh).place L false (assignBuses false 4 0).1 8).1.flatMap fun p => p.equations 0 v)
    (⟨rows 2, rows 3⟩ : ℂ) = seriesCurrent [(0, 2), (1, 3)] y V 1 + shuntCurrent [0, 1] sh V 1 :=
  (C18_line_currents hL 4 8 [(0, 2), (1, 3)] y sh v (by decide) (by
    intro p hp; simp at hp; rcases hp with rfl | rfl <;> simp) 1 (by decide)).1

end Verif
