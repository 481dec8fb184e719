import Verif.Spec.Resistive
import Verif.Props.Balance
import Verif.Props.Linear
import Verif.Lemmas.RawFlow
import Verif.Lemmas.RowsBelow
import Verif.Props.Placement
import Verif.Lemmas.DebugPass
import Verif.Lemmas.NewtonLocal
import Mathlib.LinearAlgebra.Matrix.ToLin
import Mathlib.LinearAlgebra.FiniteDimensional.Basic

/-!
# A network of resistive equipment has one solution: lemmas for C125
-/

namespace Verif

open Ex Devices ComplexConjugate
open Raw (busSum_nil busSum_append busSum_flatMap)

variable {L : Library}

/-! ### Sources off -/

/-- The element with its sources set to zero. -/
noncomputable def Element.quiet : Element → Element
  | .slack b _ _ => .slack b 0 0
  | .voltageSource f u _ _ => .voltageSource f u 0 0
  | .load f u l => .load f u { l with IP := 0, IQ := 0 }
  | e => e

/-- Whether a point is bus `k`. -/
noncomputable def hit (k : ℕ) (r : Ref) : ℂ := if r = some k then 1 else 0

theorem busSum_hit (k : ℕ) (r : Ref) (z : ℂ) (ds : List (Ref × ℂ)) : busSum k ((r, z) :: ds) = hit k r * z + busSum k ds := by
  rw [busSum_cons]; unfold hit; split_ifs <;> simp

theorem draws_diff {e : Element} (he : e.Linear) (k : ℕ) (V1 V2 : Ref → ℂ) (w1 w2 w : List ℝ)
    (hw : ∀ j, pairAt w j = pairAt w1 j - pairAt w2 j) :
    busSum k (e.quiet.draws 0 (fun r => V1 r - V2 r) w) = busSum k (e.draws 0 V1 w1) - busSum k (e.draws 0 V2 w2) := by
  cases e with
  | generator => exact he.elim
  | unbalanced ph y sh =>
    simp only [Element.quiet, Element.draws, busSum_flatMap, sum_range_list, branch, List.cons_append, List.nil_append, busSum_hit, busSum_nil]
    rw [← Finset.sum_sub_distrib]
    refine Finset.sum_congr rfl fun i _ => ?_
    rw [← Finset.sum_sub_distrib]
    refine Finset.sum_congr rfl fun j _ => ?_
    ring
  | switch f u s =>
    cases s <;> simp only [Element.quiet, Element.draws, branch, busSum_hit, busSum_nil, hw] <;> ring
  | capacitor f u s b =>
    cases s <;> simp only [Element.quiet, Element.draws, branch, busSum_hit, busSum_nil] <;> ring
  | load f u l =>
    obtain ⟨hP, hQ⟩ := he
    have h0 : (⟨0, 0⟩ : ℂ) = 0 := rfl
    simp only [Element.quiet, Element.draws, branch, busSum_hit, busSum_nil, hP, hQ, h0, zero_div, map_zero]
    ring
  | slack b vr vi => simp only [Element.quiet, Element.draws, busSum_hit, busSum_nil, hw]; ring
  | voltageSource f u vr vi => simp only [Element.quiet, Element.draws, branch, busSum_hit, busSum_nil, hw]; ring
  | shunt b g s => simp only [Element.quiet, Element.draws, busSum_hit, busSum_nil]; ring
  | line f u g b bl =>
    simp only [Element.quiet, Element.draws, branch, List.cons_append, List.nil_append, busSum_hit, busSum_nil]; ring
  | transformer fp fn tp tn tr ang g b =>
    simp only [Element.quiet, Element.draws, xfmrDraws, branch, List.cons_append, List.nil_append, busSum_hit, busSum_nil, hw]; ring
  | centerTap f p s1 t1 s2 t2 ratio g0 b0 g1 b1 g2 b2 =>
    simp only [Element.quiet, Element.draws, branch, List.cons_append, List.nil_append, busSum_hit, busSum_nil, hw]; ring
  | regulator f c u tr g b =>
    simp only [Element.quiet, Element.draws, xfmrDraws, branch, List.cons_append, List.nil_append, busSum_hit, busSum_nil, hw]; ring
  | fuse f i u =>
    simp only [Element.quiet, Element.draws, branch, List.cons_append, List.nil_append, busSum_hit, busSum_nil, hw]; ring

theorem both_inj {z1 z2 : ℂ} {l1 l2 : List ℝ} (h : both z1 ++ l1 = both z2 ++ l2) : z1 = z2 ∧ l1 = l2 := by
  simp only [both, List.cons_append, List.nil_append, List.cons.injEq] at h
  exact ⟨Complex.ext h.1 h.2.1, h.2.2⟩

theorem both_inj' {z1 z2 : ℂ} (h : both z1 = both z2) : z1 = z2 := by
  simp only [both, List.cons.injEq] at h
  exact Complex.ext h.1 h.2.1

theorem both_zero_of {z : ℂ} (h : z = 0) : ∀ x ∈ both z, x = 0 := by subst h; simp [both]

theorem both_zero_append {z : ℂ} {l : List ℝ} (h : z = 0) (hl : ∀ x ∈ l, x = 0) : ∀ x ∈ both z ++ l, x = 0 := by
  intro x hx
  rcases List.mem_append.1 hx with hx | hx
  · exact both_zero_of h x hx
  · exact hl x hx

theorem laws_diff {e : Element} (he : e.Linear) (V1 V2 : Ref → ℂ) (w1 w2 w : List ℝ)
    (hw : ∀ j, pairAt w j = pairAt w1 j - pairAt w2 j) (h : e.laws 0 V1 w1 = e.laws 0 V2 w2) :
    ∀ z ∈ e.quiet.laws 0 (fun r => V1 r - V2 r) w, z = 0 := by
  have h0 : (⟨0, 0⟩ : ℂ) = 0 := rfl
  cases e with
  | generator => exact he.elim
  | unbalanced => simp [Element.quiet, Element.laws]
  | line => simp [Element.quiet, Element.laws]
  | load => simp [Element.quiet, Element.laws]
  | shunt => simp [Element.quiet, Element.laws]
  | capacitor => simp [Element.quiet, Element.laws]
  | switch f u s =>
    cases s with
    | opened => simp [Element.quiet, Element.laws]
    | closed => exact both_zero_of (by have := both_inj' h; linear_combination this)
  | slack b vr vi => exact both_zero_of (by rw [h0]; have := both_inj' h; linear_combination this)
  | voltageSource f u vr vi => exact both_zero_of (by rw [h0]; have := both_inj' h; linear_combination this)
  | fuse f i u => exact both_zero_of (by have := both_inj' h; linear_combination this)
  | centerTap f p s1 t1 s2 t2 ratio g0 b0 g1 b1 g2 b2 =>
    obtain ⟨h1, h2⟩ := both_inj h
    have h2 := both_inj' h2
    exact both_zero_append (by linear_combination h1) (both_zero_of (by linear_combination h2))
  | transformer fp fn tp tn tr ang g b =>
    obtain ⟨h1, h2⟩ := both_inj h
    have h2 := both_inj' h2
    exact both_zero_append (by rw [hw]; linear_combination h1) (both_zero_of (by rw [hw, hw]; linear_combination h2))
  | regulator f c u tr g b =>
    simp only [Element.laws, xfmrLaws, List.append_assoc] at h
    obtain ⟨h1, h2⟩ := both_inj h
    obtain ⟨h2, h3⟩ := both_inj h2
    have h3 := both_inj' h3
    simp only [Element.quiet, Element.laws, xfmrLaws, List.append_assoc]
    exact both_zero_append (by rw [hw]; linear_combination h1)
      (both_zero_append (by rw [hw, hw]; linear_combination h2) (both_zero_of (by linear_combination h3)))

/-! ### No power, no voltage -/

theorem takes_zero {y d : ℂ} (hy : 0 < y.re) (h : (takes y d).re = 0) : d = 0 := by
  rw [takes_re] at h
  rcases mul_eq_zero.1 h with h | h
  · exact absurd h hy.ne'
  · exact Complex.normSq_eq_zero.1 h

theorem takes_nonneg {y : ℂ} (d : ℂ) (hy : 0 ≤ y.re) : 0 ≤ (takes y d).re := by
  rw [takes_re]; exact mul_nonneg hy (Complex.normSq_nonneg _)

theorem inv_re_nonneg {z : ℂ} (h : 0 ≤ z.re) : 0 ≤ (z⁻¹).re := by
  rw [Complex.inv_re]; exact div_nonneg h (Complex.normSq_nonneg _)

theorem inv_re_pos {z : ℂ} (h : 0 < z.re) : 0 < (z⁻¹).re := by
  rw [Complex.inv_re]
  refine div_pos h (Complex.normSq_pos.2 fun hz => ?_)
  rw [hz] at h; simp at h

/-- A reciprocal admittance matrix with positive definite conductance takes power at every nonzero voltage. -/
theorem quadratic_zero {n : ℕ} {y : ℕ → ℕ → ℂ} (hy : ∀ i j, y i j = y j i)
    (hg : ∀ d : ℕ → ℝ, (∃ i < n, d i ≠ 0) → 0 < ∑ i ∈ Finset.range n, ∑ j ∈ Finset.range n, d i * (y i j).re * d j) (d : ℕ → ℂ)
    (h : (∑ i ∈ Finset.range n, ∑ j ∈ Finset.range n, d i * conj (y i j * d j)).re = 0) : ∀ i < n, d i = 0 := by
  have h3 : ∑ i ∈ Finset.range n, ∑ j ∈ Finset.range n, (d i).im * (y i j).im * (d j).re =
      ∑ i ∈ Finset.range n, ∑ j ∈ Finset.range n, (d i).re * (y i j).im * (d j).im := by
    rw [Finset.sum_comm]
    refine Finset.sum_congr rfl fun i _ => Finset.sum_congr rfl fun j _ => ?_
    rw [hy j i]; ring
  have h4 : (∑ i ∈ Finset.range n, ∑ j ∈ Finset.range n, d i * conj (y i j * d j)).re =
      (∑ i ∈ Finset.range n, ∑ j ∈ Finset.range n, (d i).re * (y i j).re * (d j).re) +
      (∑ i ∈ Finset.range n, ∑ j ∈ Finset.range n, (d i).im * (y i j).re * (d j).im) +
      ((∑ i ∈ Finset.range n, ∑ j ∈ Finset.range n, (d i).im * (y i j).im * (d j).re) -
      ∑ i ∈ Finset.range n, ∑ j ∈ Finset.range n, (d i).re * (y i j).im * (d j).im) := by
    simp only [Complex.re_sum, ← Finset.sum_add_distrib, ← Finset.sum_sub_distrib]
    refine Finset.sum_congr rfl fun i _ => Finset.sum_congr rfl fun j _ => ?_
    simp only [map_mul, Complex.mul_re, Complex.mul_im, Complex.conj_re, Complex.conj_im]; ring
  have hnn : ∀ u : ℕ → ℝ, 0 ≤ ∑ i ∈ Finset.range n, ∑ j ∈ Finset.range n, u i * (y i j).re * u j := by
    intro u
    by_cases hu : ∃ i < n, u i ≠ 0
    · exact (hg u hu).le
    · push Not at hu
      refine le_of_eq (Finset.sum_eq_zero fun i hi => Finset.sum_eq_zero fun j hj => ?_).symm
      rw [hu i (Finset.mem_range.1 hi)]; ring
  rw [h4, h3, sub_self, add_zero] at h
  intro i hi
  have a1 := hnn fun i => (d i).re
  have a2 := hnn fun i => (d i).im
  apply Complex.ext
  · by_contra hne
    have := hg (fun i => (d i).re) ⟨i, hi, hne⟩
    linarith
  · by_contra hne
    have := hg (fun i => (d i).im) ⟨i, hi, hne⟩
    linarith

theorem Element.Resistive.linear {e : Element} (h : e.Resistive) : e.Linear := by
  cases e <;> simp_all [Element.Resistive, Element.Linear]

theorem Element.Resistive.quiet {e : Element} (h : e.Resistive) : e.quiet.Resistive := by
  cases e <;> exact h

theorem Element.Resistive.regular {e : Element} (h : e.Resistive) (V : Ref → ℂ) : e.RegularAt 0 V := by
  cases e <;> simp_all [Element.Resistive, Element.RegularAt, ratioAt]

theorem Element.Resistive.passive {e : Element} (h : e.Resistive) : e.Passive := by
  cases e with
  | unbalanced ph y sh =>
    refine ⟨h.1, h.2.1, fun u => ?_⟩
    by_cases hu : ∃ i < ph.length, u i ≠ 0
    · exact (h.2.2 u hu).le
    · push Not at hu
      refine le_of_eq (Finset.sum_eq_zero fun i hi => Finset.sum_eq_zero fun j hj => ?_).symm
      rw [hu i (Finset.mem_range.1 hi)]; ring
  | line f u g b bl => exact le_of_lt h
  | transformer => exact h.2.le
  | centerTap => exact ⟨h.2.1.le, h.2.2.1.le, h.2.2.2.le⟩
  | shunt => exact h
  | regulator => exact h.2.le
  | generator => exact h.elim
  | _ => trivial

theorem quiet_demands {e : Element} (h : e.Resistive) (V : Ref → ℂ) :
    (e.quiet.demands V).re = match e with
      | .load f u l => (takes l.Z⁻¹ (V f - V u)).re
      | _ => 0 := by
  cases e with
  | load f u l =>
    obtain ⟨hP, hQ, _⟩ := h
    simp [Element.quiet, Element.demands, hP, hQ]
  | generator => exact h.elim
  | _ => rfl

theorem quiet_delivers {e : Element} (h : e.Resistive) (w : List ℝ) : e.quiet.delivers w = 0 := by
  have h0 : (⟨0, 0⟩ : ℂ) = 0 := rfl
  cases e with
  | generator => exact h.elim
  | slack => simp [Element.quiet, Element.delivers, h0]
  | voltageSource => simp [Element.quiet, Element.delivers, h0]
  | _ => rfl

theorem quiet_demands_nonneg {e : Element} (h : e.Resistive) (V : Ref → ℂ) : 0 ≤ (e.quiet.demands V).re := by
  rw [quiet_demands h]
  cases e with
  | load f u l => exact takes_nonneg _ (inv_re_nonneg h.2.2)
  | _ => exact le_rfl

theorem sum_zero_each {α : Type} (l : List α) (f : α → ℝ) (h0 : ∀ a ∈ l, 0 ≤ f a) (h : (l.map f).sum = 0) : ∀ a ∈ l, f a = 0 := by
  induction l with
  | nil => simp
  | cons a l ih =>
    rw [List.map_cons, List.sum_cons] at h
    have h1 : 0 ≤ (l.map f).sum := List.sum_nonneg fun z hz => by
      obtain ⟨x, hx, rfl⟩ := List.mem_map.1 hz
      exact h0 x (List.mem_cons_of_mem _ hx)
    have h2 := h0 a List.mem_cons_self
    intro x hx
    rcases List.mem_cons.1 hx with rfl | hx
    · linarith
    · exact ih (fun y hy => h0 y (List.mem_cons_of_mem _ hy)) (by linarith) x hx

/-! ### Held points -/

theorem turns_ne {tr ang : ℝ} (h : tr ≠ 0) : turns 0 tr ang ≠ 0 := by
  intro h0
  have h1 := congrArg Complex.re h0
  have h2 := congrArg Complex.im h0
  simp only [turns, ratioAt, mul_zero, add_zero, sub_zero, Complex.zero_re, Complex.zero_im, mul_eq_zero, h, false_or] at h1 h2
  have := Real.sin_sq_add_cos_sq ang
  rw [h1, h2] at this
  norm_num at this

/-- What a quiet element without heat says on voltages. -/
def Still (V : Ref → ℂ) (e : Element) : Prop :=
  (∀ a b, e.Joins a b → (V a = 0 ↔ V b = 0)) ∧
  ∀ fp fn tp tn tr ang g b, e = .transformer fp fn tp tn tr ang g b → tr ≠ 0 ∧ V fp - V fn = turns 0 tr ang * (V tp - V tn)

theorem xfmr_still {V : Ref → ℂ} {fp fn tp tn : Ref} {tr ang g b : ℝ} {I S : ℂ} (hg : 0 < g) (ht : tr ≠ 0)
    (hl : ∀ z ∈ xfmrLaws 0 V fp fn tp tn tr ang g b I S, z = 0) (h : (takes ⟨g, b⟩ (S - V tp)).re = 0) :
    S = V tp ∧ I = 0 ∧ V fp - V fn = turns 0 tr ang * (V tp - V tn) := by
  obtain ⟨h1, h2⟩ := both_split hl
  have h2 := both_split' h2
  have hS : S = V tp := sub_eq_zero.1 (takes_zero hg h)
  refine ⟨hS, ?_, ?_⟩
  · rw [hS, sub_self, mul_zero, add_zero, neg_eq_zero] at h2
    rcases mul_eq_zero.1 h2 with h2 | h2
    · exact absurd ((map_eq_zero _).1 h2) (turns_ne ht)
    · exact h2
  · rw [← hS]; exact sub_eq_zero.1 h1

theorem still_of {V : Ref → ℂ} {w : List ℝ} {e : Element} (h0 : V none = 0) (he : e.Resistive)
    (hl : ∀ z ∈ e.quiet.laws 0 V w, z = 0) (hd : (e.quiet.demands V).re = 0) (hs : (e.quiet.loses V w).re = 0) : Still V e := by
  have c0 : (⟨0, 0⟩ : ℂ) = 0 := rfl
  have iff_of_eq' : ∀ {x y : ℂ}, x = y → (x = 0 ↔ y = 0) := fun h => by rw [h]
  cases e with
  | generator => exact he.elim
  | line f u g b bl =>
    refine ⟨?_, by simp⟩
    rintro _ _ ⟨rfl, rfl⟩
    simp only [Element.quiet, Element.loses, Complex.add_re, takes_re, zero_mul, add_zero] at hs
    exact iff_of_eq' (sub_eq_zero.1 (takes_zero (y := ⟨g, b⟩) he (by rw [takes_re]; exact hs)))
  | unbalanced ph y sh =>
    refine ⟨?_, by simp⟩
    rintro _ _ ⟨p, hp, rfl, rfl⟩
    obtain ⟨hy, hsh, hg⟩ := he
    simp only [Element.quiet, Element.loses, Finset.sum_add_distrib, Complex.add_re] at hs
    have hs' : ∀ i j, (⟨0, sh i j / 2⟩ : ℂ) = ⟨0, sh j i / 2⟩ := fun i j => by rw [hsh i j]
    have hz : ∀ d : ℕ → ℝ, 0 ≤ ∑ i ∈ Finset.range ph.length, ∑ j ∈ Finset.range ph.length, d i * (⟨0, sh i j / 2⟩ : ℂ).re * d j := fun d => by simp
    have q1 := quadratic_re hy (Element.Resistive.passive (e := .unbalanced ph y sh) ⟨hy, hsh, hg⟩).2.2
      fun i => V (some (ph.getD i (0, 0)).1) - V (some (ph.getD i (0, 0)).2)
    have q2 := quadratic_re hs' hz fun i => V (some (ph.getD i (0, 0)).1)
    have q3 := quadratic_re hs' hz fun i => V (some (ph.getD i (0, 0)).2)
    have := quadratic_zero hy hg _ (le_antisymm (by linarith) q1)
    obtain ⟨i, hi, rfl⟩ := List.getElem_of_mem hp
    have := this i hi
    rw [List.getD_eq_getElem?_getD, List.getElem?_eq_getElem hi] at this
    exact iff_of_eq' (sub_eq_zero.1 this)
  | transformer fp fn tp tn tr ang g b =>
    refine ⟨by simp [Element.Joins], ?_⟩
    intro _ _ _ _ _ _ _ _ hh
    injection hh with e1 e2 e3 e4 e5 e6 e7 e8
    subst e1 e2 e3 e4 e5 e6 e7 e8
    exact ⟨he.1, (xfmr_still he.2 he.1 hl hs).2.2⟩
  | centerTap f p s1 t1 s2 t2 ratio g0 b0 g1 b1 g2 b2 =>
    refine ⟨?_, by simp⟩
    obtain ⟨hr, h1, h2, h3⟩ := he
    obtain ⟨l1, l2⟩ := both_split hl
    have l2 := both_split' l2
    simp only [Element.quiet, Element.loses, Complex.add_re] at hs
    have n1 := takes_nonneg (y := ⟨g0, b0⟩) (V (some f) - V (some p)) h1.le
    have n2 := takes_nonneg (y := ⟨g1, b1⟩) (V (some s1) - V (some t1)) h2.le
    have n3 := takes_nonneg (y := ⟨g2, b2⟩) (V (some s2) - V (some t2)) h3.le
    have d1 := sub_eq_zero.1 (takes_zero (y := ⟨g0, b0⟩) h1 (by linarith))
    have d2 := sub_eq_zero.1 (takes_zero (y := ⟨g1, b1⟩) h2 (by linarith))
    have d3 := sub_eq_zero.1 (takes_zero (y := ⟨g2, b2⟩) h3 (by linarith))
    have hr' : ((1 / ratioAt 0 ratio : ℝ) : ℂ) ≠ 0 := by simp [ratioAt, hr]
    rintro _ _ (⟨rfl, rfl⟩ | ⟨rfl, rfl⟩ | ⟨rfl, rfl⟩ | ⟨rfl, rfl⟩ | ⟨rfl, rfl⟩)
    · exact iff_of_eq' d1
    · rw [sub_eq_zero.1 l1, mul_eq_zero]; simp only [hr', false_or]
    · rw [eq_neg_of_add_eq_zero_left l2, neg_eq_zero, mul_eq_zero]; simp only [hr', false_or]
    · exact iff_of_eq' d2
    · exact iff_of_eq' d3
  | slack b vr vi =>
    refine ⟨?_, by simp⟩
    rintro _ _ ⟨rfl, rfl⟩
    have h1 : V (some b) - ⟨0, 0⟩ = 0 := both_split' hl
    rw [c0, sub_zero] at h1
    rw [h0, h1]
  | switch f u s =>
    refine ⟨?_, by simp⟩
    cases s with
    | opened => simp [Element.Joins]
    | closed =>
      rintro _ _ ⟨rfl, rfl⟩
      have h1 : -(V _ - V _) = 0 := both_split' hl
      exact iff_of_eq' (sub_eq_zero.1 (neg_eq_zero.1 h1))
  | load f u l =>
    refine ⟨?_, by simp⟩
    rintro _ _ ⟨hz, rfl, rfl⟩
    rw [quiet_demands he] at hd
    exact iff_of_eq' (sub_eq_zero.1 (takes_zero (inv_re_pos hz) hd))
  | voltageSource f u vr vi =>
    refine ⟨?_, by simp⟩
    rintro _ _ ⟨rfl, rfl⟩
    have h1 : ⟨0, 0⟩ - (V _ - V _) = 0 := both_split' hl
    rw [c0, zero_sub, neg_eq_zero] at h1
    exact iff_of_eq' (sub_eq_zero.1 h1)
  | shunt k g s =>
    refine ⟨?_, by simp⟩
    rintro _ _ ⟨hg, rfl, rfl⟩
    have := takes_zero (y := ⟨g, s⟩) hg hs
    rw [h0, this]
  | regulator f c u tr g b =>
    refine ⟨?_, by simp⟩
    have hl' : ∀ z ∈ xfmrLaws 0 V f none c none tr 0 g b (pairAt w 0) (pairAt w 2), z = 0 := fun z hz => hl z (by
      show z ∈ _ ++ _; exact List.mem_append_left _ hz)
    have h3 : -(V c - V u) = 0 := both_split' fun z hz => hl z (by show z ∈ _ ++ _; exact List.mem_append_right _ hz)
    obtain ⟨_, _, h4⟩ := xfmr_still he.2 he.1 hl' hs
    rintro _ _ (⟨rfl, rfl⟩ | ⟨rfl, rfl⟩)
    · rw [h0, sub_zero, sub_zero] at h4
      rw [h4, mul_eq_zero]
      simp only [turns_ne he.1, false_or]
    · exact iff_of_eq' (sub_eq_zero.1 (neg_eq_zero.1 h3))
  | fuse f i u =>
    refine ⟨?_, by simp⟩
    have h3 : -(V i - V u) = 0 := both_split' hl
    have := sub_eq_zero.1 (takes_zero (y := ⟨10000, 10000⟩) (by norm_num) hs)
    rintro _ _ (⟨rfl, rfl⟩ | ⟨rfl, rfl⟩)
    · exact iff_of_eq' this
    · exact iff_of_eq' (sub_eq_zero.1 (neg_eq_zero.1 h3))
  | capacitor => exact ⟨by simp [Element.Joins], by simp⟩

theorem held_zero {V : Ref → ℂ} {es : List Element} (h0 : V none = 0) (hs : ∀ e ∈ es, Still V e) {r : Ref} (h : Held es r) : V r = 0 := by
  induction h with
  | ground => exact h0
  | forth he hj _ ih => exact ((hs _ he).1 _ _ hj).1 ih
  | back he hj _ ih => exact ((hs _ he).1 _ _ hj).2 ih
  | primary he _ _ _ i1 i2 i3 =>
    have := ((hs _ he).2 _ _ _ _ _ _ _ _ rfl).2
    rw [i1, i2, i3] at this; simpa using this
  | primaryNeg he _ _ _ i1 i2 i3 =>
    have := ((hs _ he).2 _ _ _ _ _ _ _ _ rfl).2
    rw [i1, i2, i3] at this; simpa using this
  | secondary he _ _ _ i1 i2 i3 =>
    obtain ⟨ht, this⟩ := (hs _ he).2 _ _ _ _ _ _ _ _ rfl
    rw [i1, i2, i3] at this
    have := mul_eq_zero.1 (by rw [← this]; simp : turns 0 _ _ * (V _ - 0) = 0)
    rcases this with h | h
    · exact absurd h (turns_ne ht)
    · simpa using h
  | secondaryNeg he _ _ _ i1 i2 i3 =>
    obtain ⟨ht, this⟩ := (hs _ he).2 _ _ _ _ _ _ _ _ rfl
    rw [i1, i2, i3] at this
    have := mul_eq_zero.1 (by rw [← this]; simp : turns 0 _ _ * (0 - V _) = 0)
    rcases this with h | h
    · exact absurd h (turns_ne ht)
    · simpa using h

/-! ### Currents of ideal conductors -/

/-- A branch with its current and the weights with which the current is drawn at its two ends. -/
structure Flow where
  f : Ref
  u : Ref
  α : ℂ
  β : ℂ
  I : ℂ

def Flow.ends (x : Flow) : Ref × Ref := (x.f, x.u)

def Flow.draws (x : Flow) : List (Ref × ℂ) := [(x.f, x.α * x.I), (x.u, x.β * x.I)]

/-- The currents of the ideal conductors of an element. -/
noncomputable def Element.flows (w : List ℝ) : Element → List Flow
  | .centerTap _ p s1 _ s2 _ ratio .. =>
    [⟨some s1, some p, 1, -((1 / ratioAt 0 ratio : ℝ) : ℂ), pairAt w 0⟩, ⟨some s2, some p, 1, ((1 / ratioAt 0 ratio : ℝ) : ℂ), pairAt w 2⟩]
  | .slack b _ _ => [⟨some b, none, 1, -1, pairAt w 0⟩]
  | .switch f u .closed => [⟨f, u, 1, -1, pairAt w 0⟩]
  | .voltageSource f u _ _ => [⟨f, u, 1, -1, pairAt w 0⟩]
  | .regulator _ c u _ _ _ => [⟨c, u, 1, -1, pairAt w 4⟩]
  | .fuse _ i u => [⟨i, u, 1, -1, pairAt w 0⟩]
  | _ => []

theorem flows_ends (w : List ℝ) (e : Element) : (e.flows w).map Flow.ends = e.rigid := by
  cases e with
  | switch f u s => cases s <;> rfl
  | _ => rfl

theorem flows_weights {e : Element} (he : e.Resistive) (w : List ℝ) : ∀ x ∈ e.flows w, x.α ≠ 0 ∧ x.β ≠ 0 := by
  intro x hx
  cases e with
  | switch f u s => cases s <;> simp [Element.flows] at hx; subst hx; simp
  | centerTap f p s1 t1 s2 t2 ratio g0 b0 g1 b1 g2 b2 =>
    simp only [Element.flows, List.mem_cons, List.not_mem_nil, or_false] at hx
    have := he.1
    rcases hx with rfl | rfl <;> simp [ratioAt, this]
  | slack | voltageSource | regulator | fuse => simp [Element.flows] at hx; subst hx; simp
  | _ => simp [Element.flows] at hx

theorem flows_valid {buses : ℕ} {e : Element} (hv : e.Valid buses) (w : List ℝ) :
    ∀ x ∈ e.flows w, Ref.Valid buses x.f ∧ Ref.Valid buses x.u := by
  intro x hx
  cases e with
  | switch f u s => cases s <;> simp [Element.flows] at hx; subst hx; exact hv
  | centerTap f p s1 t1 s2 t2 ratio g0 b0 g1 b1 g2 b2 =>
    simp only [Element.flows, List.mem_cons, List.not_mem_nil, or_false] at hx
    rcases hx with rfl | rfl
    · exact ⟨hv.2.2.1, hv.2.1⟩
    · exact ⟨hv.2.2.2.2.1, hv.2.1⟩
  | slack => simp [Element.flows] at hx; subst hx; exact ⟨hv, trivial⟩
  | voltageSource => simp [Element.flows] at hx; subst hx; exact hv
  | regulator => simp [Element.flows] at hx; subst hx; exact hv.2
  | fuse => simp [Element.flows] at hx; subst hx; exact hv.2
  | _ => simp [Element.flows] at hx

theorem busSum_untouched {k : ℕ} {xs : List Flow} (h : ∀ x ∈ xs, x.f ≠ some k ∧ x.u ≠ some k) : busSum k (xs.flatMap Flow.draws) = 0 := by
  induction xs with
  | nil => rfl
  | cons x xs ih =>
    have hx := h x List.mem_cons_self
    rw [List.flatMap_cons, busSum_append, ih fun y hy => h y (List.mem_cons_of_mem _ hy)]
    simp [Flow.draws, busSum_cons, busSum_nil, hx.1, hx.2]

/-- Currents in a set of branches without loops vanish if they balance at every bus. -/
theorem loopless_zero {l : List (Ref × Ref)} (hl : Loopless l) : ∀ xs : List Flow, xs.map Flow.ends = l →
    (∀ x ∈ xs, x.α ≠ 0 ∧ x.β ≠ 0) → (∀ k, some k ∈ xs.map Flow.f ∨ some k ∈ xs.map Flow.u → busSum k (xs.flatMap Flow.draws) = 0) →
    ∀ x ∈ xs, x.I = 0 := by
  induction hl with
  | nil => intro xs h; simp at h; subst h; simp
  | @leaf l₁ l₂ f u k hl hfree hend ih =>
    intro xs h hw hk
    obtain ⟨a, b', rfl, ha, hb⟩ := List.map_eq_append_iff.1 h
    obtain ⟨x, b, rfl, hx, hb⟩ := List.map_eq_cons_iff.1 hb
    have hfree' : ∀ y ∈ a ++ b, y.f ≠ some k ∧ y.u ≠ some k := by
      intro y hy
      refine hfree y.ends ?_
      rw [← ha, ← hb, ← List.map_append]
      exact List.mem_map_of_mem hy
    have hxf : x.f = f := congrArg Prod.fst hx
    have hxu : x.u = u := congrArg Prod.snd hx
    have hsplit : ∀ j, busSum j ((a ++ x :: b).flatMap Flow.draws) = busSum j x.draws + busSum j ((a ++ b).flatMap Flow.draws) := by
      intro j
      simp only [List.flatMap_append, List.flatMap_cons, busSum_append]; ring
    obtain ⟨w1, w2⟩ := hw x (by simp)
    have hI : x.I = 0 := by
      have h1 := hk k (by rcases hend with ⟨h1, _⟩ | ⟨h1, _⟩ <;> simp [hxf, hxu, h1])
      rw [hsplit, busSum_untouched hfree', add_zero] at h1
      rcases hend with ⟨h2, h3⟩ | ⟨h2, h3⟩
      · simp only [Flow.draws, busSum_cons, busSum_nil, hxf, hxu, h2, h3, if_true, if_false, add_zero] at h1
        exact (mul_eq_zero.1 h1).resolve_left w1
      · simp only [Flow.draws, busSum_cons, busSum_nil, hxf, hxu, h2, h3, if_true, if_false, add_zero, zero_add] at h1
        exact (mul_eq_zero.1 h1).resolve_left w2
    have hz : ∀ j, busSum j x.draws = 0 := fun j => by simp [Flow.draws, busSum_cons, busSum_nil, hI]
    have hrest := ih (a ++ b) (by rw [List.map_append, ha, hb])
      (fun y hy => hw y (by simp at hy ⊢; tauto))
      (fun j hj => by
        have := hk j (by
          simp only [List.map_append, List.map_cons, List.mem_append, List.mem_cons] at hj ⊢
          tauto)
        rwa [hsplit, hz, zero_add] at this)
    intro y hy
    simp only [List.mem_append, List.mem_cons] at hy
    rcases hy with hy | rfl | hy
    · exact hrest y (by simp [hy])
    · exact hI
    · exact hrest y (by simp [hy])

/-! ### The quiet network -/

theorem draws_rigid {buses : ℕ} {V : Ref → ℂ} {w : List ℝ} {e : Element} (he : e.Resistive) (hv : e.Valid buses)
    (hV : ∀ r, Ref.Valid buses r → V r = 0) (hl : ∀ z ∈ e.quiet.laws 0 V w, z = 0) (hs : (e.quiet.loses V w).re = 0) (k : ℕ) :
    busSum k (e.quiet.draws 0 V w) = busSum k ((e.flows w).flatMap Flow.draws) := by
  have hn : hit k none = 0 := by simp [hit]
  have h0 : V none = 0 := hV none trivial
  cases e with
  | generator => exact he.elim
  | line f u g b bl =>
    simp only [Element.quiet, Element.draws, Element.flows, branch, List.cons_append, List.nil_append, busSum_hit, List.flatMap_nil,
      busSum_nil, hV f hv.1, hV u hv.2]
    ring
  | unbalanced ph y sh =>
    simp only [Element.quiet, Element.draws, Element.flows, busSum_flatMap, sum_range_list, branch, List.cons_append, List.nil_append, busSum_hit, busSum_nil,
      List.flatMap_nil]
    refine Finset.sum_eq_zero fun i hi => Finset.sum_eq_zero fun j hj => ?_
    have hp := hv (ph.getD j (0, 0)) (by
      rw [List.getD_eq_getElem?_getD, List.getElem?_eq_getElem (Finset.mem_range.1 hj)]; exact List.getElem_mem _)
    rw [hV (some (ph.getD j (0, 0)).1) hp.1, hV (some (ph.getD j (0, 0)).2) hp.2]
    ring
  | transformer fp fn tp tn tr ang g b =>
    obtain ⟨h1, h2, _⟩ := xfmr_still he.2 he.1 hl hs
    simp only [Element.quiet, Element.draws, xfmrDraws, Element.flows, branch, List.cons_append, List.nil_append, busSum_hit, List.flatMap_nil,
      busSum_nil, h1, h2]
    ring
  | centerTap f p s1 t1 s2 t2 ratio g0 b0 g1 b1 g2 b2 =>
    obtain ⟨v1, v2, v3, v4, v5, v6⟩ := hv
    simp only [Element.quiet, Element.draws, Element.flows, Flow.draws, List.flatMap_cons, branch, List.cons_append, List.nil_append, busSum_hit,
      List.flatMap_nil, busSum_nil, hV (some f) v1, hV (some p) v2, hV (some s1) v3, hV (some t1) v4, hV (some s2) v5, hV (some t2) v6]
    ring
  | slack b vr vi =>
    simp only [Element.quiet, Element.draws, Element.flows, Flow.draws, List.flatMap_cons, List.cons_append, List.nil_append, busSum_hit,
      List.flatMap_nil, busSum_nil, hn]
    ring
  | switch f u s =>
    cases s with
    | opened => rfl
    | closed =>
      simp only [Element.quiet, Element.draws, Element.flows, Flow.draws, branch, List.flatMap_cons, List.cons_append, List.nil_append, busSum_hit,
        List.flatMap_nil, busSum_nil]
      ring
  | load f u l =>
    obtain ⟨hP, hQ, _⟩ := he
    have c0 : (⟨0, 0⟩ : ℂ) = 0 := rfl
    simp only [Element.quiet, Element.draws, Element.flows, branch, busSum_hit, List.flatMap_nil, busSum_nil, hV f hv.1, hV u hv.2, hP, hQ, c0,
      sub_zero, div_zero, map_zero, mul_zero, add_zero, neg_zero]
  | voltageSource f u vr vi =>
    simp only [Element.quiet, Element.draws, Element.flows, Flow.draws, branch, List.flatMap_cons, List.cons_append, List.nil_append, busSum_hit,
      List.flatMap_nil, busSum_nil]
    ring
  | shunt b g s =>
    simp only [Element.quiet, Element.draws, Element.flows, busSum_hit, List.flatMap_nil, busSum_nil, hV (some b) hv]
    ring
  | regulator f c u tr g b =>
    have hl' : ∀ z ∈ xfmrLaws 0 V f none c none tr 0 g b (pairAt w 0) (pairAt w 2), z = 0 := fun z hz => hl z (by
      show z ∈ _ ++ _; exact List.mem_append_left _ hz)
    obtain ⟨h1, h2, _⟩ := xfmr_still he.2 he.1 hl' hs
    simp only [Element.quiet, Element.draws, xfmrDraws, Element.flows, Flow.draws, branch, List.flatMap_cons, List.cons_append, List.nil_append,
      busSum_hit, List.flatMap_nil, busSum_nil, h1, h2]
    ring
  | fuse f i u =>
    simp only [Element.quiet, Element.draws, Element.flows, Flow.draws, branch, List.flatMap_cons, List.cons_append, List.nil_append, busSum_hit,
      List.flatMap_nil, busSum_nil, hV f hv.1, hV i hv.2.1]
    ring
  | capacitor f u s b =>
    cases s with
    | opened => rfl
    | closed =>
      simp only [Element.quiet, Element.draws, Element.flows, branch, busSum_hit, List.flatMap_nil, busSum_nil, hV f hv.1, hV u hv.2]
      ring

theorem pairs_zero {w : List ℝ} (m : ℕ) (hw : w.length = 2 * m) (h : ∀ j < m, pairAt w (2 * j) = 0) : ∀ z ∈ w, z = 0 := by
  intro z hz
  obtain ⟨i, hi, rfl⟩ := List.getElem_of_mem hz
  have hg : w.getD i 0 = w[i] := by rw [List.getD_eq_getElem?_getD, List.getElem?_eq_getElem hi]; rfl
  have h1 := h (i / 2) (by omega)
  rcases Nat.even_or_odd' i with ⟨j, rfl | rfl⟩
  · have h2 := congrArg Complex.re h1
    rw [show 2 * (2 * j / 2) = 2 * j by omega] at h2
    rw [← hg]; exact h2
  · have h2 := congrArg Complex.im h1
    rw [show 2 * ((2 * j + 1) / 2) = 2 * j by omega] at h2
    rw [← hg]; exact h2

theorem own_zero {buses : ℕ} {V : Ref → ℂ} {w : List ℝ} {e : Element} (he : e.Resistive) (hv : e.Valid buses)
    (hV : ∀ r, Ref.Valid buses r → V r = 0) (hl : ∀ z ∈ e.quiet.laws 0 V w, z = 0) (hs : (e.quiet.loses V w).re = 0)
    (hw : w.length = (e.laws 0 (fun _ => 0) []).length) (hI : ∀ x ∈ e.flows w, x.I = 0) : ∀ z ∈ w, z = 0 := by
  cases e with
  | generator => exact he.elim
  | line | unbalanced | load | shunt | capacitor => rw [List.length_eq_zero_iff.1 hw]; simp
  | switch f u s =>
    cases s with
    | opened => rw [List.length_eq_zero_iff.1 hw]; simp
    | closed =>
      refine pairs_zero 1 hw fun j hj => ?_
      obtain rfl : j = 0 := by omega
      exact hI _ (by simp [Element.flows]; rfl)
  | slack | voltageSource | fuse =>
    refine pairs_zero 1 hw fun j hj => ?_
    obtain rfl : j = 0 := by omega
    exact hI _ (by simp [Element.flows]; rfl)
  | centerTap f p s1 t1 s2 t2 ratio g0 b0 g1 b1 g2 b2 =>
    refine pairs_zero 2 hw fun j hj => ?_
    have a := hI _ (show (⟨_, _, _, _, _⟩ : Flow) ∈ _ from List.mem_cons_self)
    have b := hI _ (show (⟨_, _, _, _, _⟩ : Flow) ∈ _ from List.mem_cons_of_mem _ List.mem_cons_self)
    obtain rfl | rfl : j = 0 ∨ j = 1 := by omega
    · exact a
    · exact b
  | transformer fp fn tp tn tr ang g b =>
    obtain ⟨h1, h2, _⟩ := xfmr_still he.2 he.1 hl hs
    refine pairs_zero 2 hw fun j hj => ?_
    obtain rfl | rfl : j = 0 ∨ j = 1 := by omega
    · exact h2
    · exact h1.trans (hV tp hv.2.2.1)
  | regulator f c u tr g b =>
    have hl' : ∀ z ∈ xfmrLaws 0 V f none c none tr 0 g b (pairAt w 0) (pairAt w 2), z = 0 := fun z hz => hl z (by
      show z ∈ _ ++ _; exact List.mem_append_left _ hz)
    obtain ⟨h1, h2, _⟩ := xfmr_still he.2 he.1 hl' hs
    have a := hI _ (show (⟨_, _, _, _, _⟩ : Flow) ∈ _ from List.mem_cons_self)
    refine pairs_zero 3 hw fun j hj => ?_
    obtain rfl | rfl | rfl : j = 0 ∨ j = 1 ∨ j = 2 := by omega
    · exact h2
    · exact h1.trans (hV c hv.2.1)
    · exact a

theorem quiet_valid {buses : ℕ} {e : Element} (h : e.Valid buses) : e.quiet.Valid buses := by
  cases e <;> exact h

/-- Without sources, a network of resistive equipment in which every bus is held and ideal conductors form no loop carries no voltage and no current. -/
theorem quiet_zero {buses : ℕ} {V : Ref → ℂ} {es : List (Element × List ℝ)} (h0 : V none = 0) (hv : ∀ x ∈ es, x.1.Valid buses)
    (hr : ∀ x ∈ es, x.1.Resistive) (hheld : ∀ k < buses, Held (es.map Prod.fst) (some k)) (hloop : Loopless ((es.map Prod.fst).flatMap Element.rigid))
    (hlen : ∀ x ∈ es, x.2.length = (x.1.laws 0 (fun _ => 0) []).length)
    (hK : ∀ k < buses, busSum k (es.flatMap fun x => x.1.quiet.draws 0 V x.2) = 0) (hlaw : ∀ x ∈ es, ∀ z ∈ x.1.quiet.laws 0 V x.2, z = 0) :
    (∀ k < buses, V (some k) = 0) ∧ ∀ x ∈ es, ∀ z ∈ x.2, z = 0 := by
  have hT := tellegen buses V h0 (es.flatMap fun x => x.1.quiet.draws 0 V x.2) (by
    intro d hd
    obtain ⟨x, hx, hd⟩ := List.mem_flatMap.1 hd
    exact draws_valid 0 V x.2 _ (quiet_valid (hv x hx)) d hd)
  rw [Finset.sum_eq_zero (fun k hk => by rw [hK k (Finset.mem_range.1 hk)]; simp), balance_sum_flatMap] at hT
  have hS : (es.map fun x => intake V x.2 x.1.quiet).sum = 0 := hT
  have hre := congrArg Complex.re hS
  rw [sum_re, Complex.zero_re] at hre
  have hint : ∀ x ∈ es, (intake V x.2 x.1.quiet).re = (x.1.quiet.demands V).re + (x.1.quiet.loses V x.2).re := fun x hx => by
    rw [element_intake h0 (hlaw x hx) ((hr x hx).quiet.regular V), quiet_delivers (hr x hx)]; simp
  have hd := fun x hx => quiet_demands_nonneg (hr x hx) V
  have hs := fun x hx => loses_re (V := V) (w := x.2) (hr x hx).quiet.passive
  have hzero := sum_zero_each es _ (fun x hx => by rw [hint x hx]; exact add_nonneg (hd x hx) (hs x hx)) hre
  have hd0 : ∀ x ∈ es, (x.1.quiet.demands V).re = 0 := fun x hx => by
    have := hzero x hx; rw [hint x hx] at this; linarith [hd x hx, hs x hx]
  have hs0 : ∀ x ∈ es, (x.1.quiet.loses V x.2).re = 0 := fun x hx => by
    have := hzero x hx; rw [hint x hx] at this; linarith [hd x hx, hs x hx]
  have hstill : ∀ e ∈ es.map Prod.fst, Still V e := fun e he => by
    obtain ⟨x, hx, rfl⟩ := List.mem_map.1 he
    exact still_of h0 (hr x hx) (hlaw x hx) (hd0 x hx) (hs0 x hx)
  have hV : ∀ k < buses, V (some k) = 0 := fun k hk => held_zero h0 hstill (hheld k hk)
  have hV' : ∀ r, Ref.Valid buses r → V r = 0 := fun r hr => by
    cases r with
    | none => exact h0
    | some k => exact hV k hr
  refine ⟨hV, ?_⟩
  have hflow := loopless_zero hloop (es.flatMap fun x => x.1.flows x.2) (by
      simp only [List.map_flatMap, List.flatMap_map, flows_ends]) (by
      intro f hf
      obtain ⟨x, hx, hf⟩ := List.mem_flatMap.1 hf
      exact flows_weights (hr x hx) _ f hf) (by
      intro k hk
      by_cases hkb : k < buses
      · have h1 := hK k hkb
        rw [busSum_flatMap] at h1
        rw [List.flatMap_assoc, busSum_flatMap, ← h1]
        refine congrArg List.sum (List.map_congr_left fun x hx => ?_)
        exact (draws_rigid (hr x hx) (hv x hx) hV' (hlaw x hx) (hs0 x hx) k).symm
      · exfalso
        have : ∀ f ∈ es.flatMap fun x => x.1.flows x.2, Ref.Valid buses f.f ∧ Ref.Valid buses f.u := fun f hf => by
          obtain ⟨x, hx, hf⟩ := List.mem_flatMap.1 hf
          exact flows_valid (hv x hx) x.2 f hf
        rcases hk with hk | hk <;> obtain ⟨f, hf, he⟩ := List.mem_map.1 hk
        · have := (this f hf).1; rw [he] at this; exact hkb this
        · have := (this f hf).2; rw [he] at this; exact hkb this)
  intro x hx
  exact own_zero (hr x hx) (hv x hx) hV' (hlaw x hx) (hs0 x hx) (hlen x hx) fun f hf => hflow f (List.mem_flatMap.2 ⟨x, hx, hf⟩)

/-! ### Two vectors with the same residuals -/

/-- Each element with the indices of its own unknowns. -/
def Assignment.ownIdx (L : Library) (N : Network) (a : Assignment) : List (Element × List Idx) :=
  List.zipWith (fun e ps => (e, (Element.unknowns L N.opt e).map (unknownIdx ps))) N.elements a.parts

theorem owned_eq (N : Network) (v : ℕ → ℝ) :
    (N.assign L).owned L N v = ((N.assign L).ownIdx L N).map fun x => (x.1, x.2.map (readIdx v)) := by
  unfold Assignment.owned Assignment.ownIdx
  rw [List.map_zipWith]

theorem readIdx_sub (x y : ℕ → ℝ) (i : Idx) : readIdx (fun k => x k - y k) i = readIdx x i - readIdx y i := by
  cases i <;> simp [readIdx]

theorem voltages_sub (N : Network) (x y : ℕ → ℝ) (r : Ref) :
    (N.assign L).voltages (fun k => x k - y k) r = (N.assign L).voltages x r - (N.assign L).voltages y r := by
  apply Complex.ext <;> simp [Assignment.voltages, Node.volt, readIdx_sub]

theorem getD_sub (l : List Idx) (x y : ℕ → ℝ) (j : ℕ) :
    (l.map (readIdx fun k => x k - y k)).getD j 0 = (l.map (readIdx x)).getD j 0 - (l.map (readIdx y)).getD j 0 := by
  simp only [List.getD_eq_getElem?_getD, List.getElem?_map]
  cases l[j]? <;> simp [readIdx_sub]

theorem pairAt_sub (l : List Idx) (x y : ℕ → ℝ) (j : ℕ) :
    pairAt (l.map (readIdx fun k => x k - y k)) j = pairAt (l.map (readIdx x)) j - pairAt (l.map (readIdx y)) j := by
  apply Complex.ext <;> simp only [pairAt, getD_sub, Complex.sub_re, Complex.sub_im]

theorem flatMap_inj {α : Type} (l : List α) (f g : α → List ℝ) (hlen : ∀ a ∈ l, (f a).length = (g a).length) (h : l.flatMap f = l.flatMap g) :
    ∀ a ∈ l, f a = g a := by
  induction l with
  | nil => simp
  | cons a l ih =>
    rw [List.flatMap_cons, List.flatMap_cons] at h
    obtain ⟨h1, h2⟩ := List.append_inj h (hlen a List.mem_cons_self)
    intro b hb
    rcases List.mem_cons.1 hb with rfl | hb
    · exact h1
    · exact ih (fun c hc => hlen c (List.mem_cons_of_mem _ hc)) h2 b hb

theorem networkEq_high {ps : List Placed} {n : ℕ} (h : ∀ p ∈ ps, p.RowsBelow n) (t : ℝ) (v : ℕ → ℝ) {i : ℕ} (hi : n ≤ i) : networkEq ps t v i = 0 := by
  unfold networkEq rowTotal
  rw [List.filter_eq_nil_iff.2]
  · rfl
  · intro e he
    obtain ⟨p, hp, he⟩ := List.mem_flatMap.1 he
    unfold Placed.equations at he
    obtain ⟨x, hx, he⟩ := List.mem_filterMap.1 he
    obtain ⟨r, hr, rfl⟩ := Option.map_eq_some_iff.1 he
    have := h p hp x hx r hr
    simp only [decide_eq_true_eq]; omega

theorem unknowns_length (e : Element) : (Element.unknowns L false e).length = (e.laws 0 (fun _ => 0) []).length := by
  cases e with
  | switch f u s => cases s <;> rfl
  | _ => rfl

theorem ownIdx_length (N : Network) (ho : N.optimization = none) :
    ∀ x ∈ (N.assign L).ownIdx L N, x.2.length = (x.1.laws 0 (fun _ => 0) []).length := by
  have hopt : N.opt = false := by simp [Network.opt, ho]
  intro x hx
  unfold Assignment.ownIdx at hx
  rw [hopt] at hx
  obtain ⟨k, hk, rfl⟩ := List.getElem_of_mem hx
  rw [List.getElem_zipWith]
  simp [unknowns_length]

/-- Two vectors with the same residuals are the same, in a sturdy network. -/
theorem same_residual (hL : L.Loaded) {N : Network} (hv : N.Valid) (hN : N.Sturdy) {x y : ℕ → ℝ}
    (h : ∀ i < (N.assign L).size, networkEq (N.assign L).all 0 x i = networkEq (N.assign L).all 0 y i) :
    ∀ i < (N.assign L).size, x i = y i := by
  set a := N.assign L with ha
  have hall : ∀ i, networkEq a.all 0 x i = networkEq a.all 0 y i := by
    intro i
    by_cases hi : i < a.size
    · exact h i hi
    · rw [networkEq_high (network_rows_below hL N) 0 x (not_lt.1 hi), networkEq_high (network_rows_below hL N) 0 y (not_lt.1 hi)]
  set J := a.ownIdx L N with hJ
  set Dx := J.flatMap fun z => z.1.draws 0 (a.voltages x) (z.2.map (readIdx x)) with hDx
  set Dy := J.flatMap fun z => z.1.draws 0 (a.voltages y) (z.2.map (readIdx y)) with hDy
  set Wx := J.flatMap fun z => z.1.laws 0 (a.voltages x) (z.2.map (readIdx x)) with hWx
  set Wy := J.flatMap fun z => z.1.laws 0 (a.voltages y) (z.2.map (readIdx y)) with hWy
  have hx : ∀ i, networkEq a.all 0 x i = drawRow ((List.range' 0 N.buses).map plainNode) Dx i + lawRow (2 * N.buses) Wx i := fun i => by
    have := network_total hL N hN.plain 0 x i
    simp only [owned_eq, List.flatMap_map] at this
    exact this
  have hy : ∀ i, networkEq a.all 0 y i = drawRow ((List.range' 0 N.buses).map plainNode) Dy i + lawRow (2 * N.buses) Wy i := fun i => by
    have := network_total hL N hN.plain 0 y i
    simp only [owned_eq, List.flatMap_map] at this
    exact this
  have hfst : J.map Prod.fst = N.elements := by
    have := owned_fst (L := L) N x
    rw [owned_eq, List.map_map] at this
    exact this
  have hmem : ∀ z ∈ J, z.1 ∈ N.elements := fun z hz => by rw [← hfst]; exact List.mem_map_of_mem hz
  have hsum : ∀ k < N.buses, busSum k Dx = busSum k Dy := by
    intro k hk
    have z1 := hall (2 * k)
    have z2 := hall (2 * k + 1)
    rw [hx, hy, (drawRow_bus N.buses k hk Dx).1, (drawRow_bus N.buses k hk Dy).1] at z1
    rw [hx, hy, (drawRow_bus N.buses k hk Dx).2, (drawRow_bus N.buses k hk Dy).2] at z2
    unfold lawRow at z1 z2
    rw [if_neg (by omega), if_neg (by omega), add_zero, add_zero] at z1
    rw [if_neg (by omega), if_neg (by omega), add_zero, add_zero] at z2
    exact Complex.ext z1 z2
  have hlenW : ∀ z ∈ J, (z.1.laws 0 (a.voltages x) (z.2.map (readIdx x))).length = (z.1.laws 0 (a.voltages y) (z.2.map (readIdx y))).length :=
    fun z _ => laws_length' z.1 _ _ _ _ _ _
  have hW : Wx = Wy := by
    have hlen : Wx.length = Wy.length := by
      rw [hWx, hWy, List.length_flatMap, List.length_flatMap]
      exact congrArg List.sum (List.map_congr_left hlenW)
    apply List.ext_getElem hlen
    intro k h1 h2
    have z1 := hall (2 * N.buses + k)
    rw [hx, hy, drawRow_high _ _ (by omega), drawRow_high _ _ (by omega), zero_add, zero_add] at z1
    unfold lawRow at z1
    rw [if_pos (by omega), if_pos (by omega), Nat.add_sub_cancel_left, List.getD_eq_getElem?_getD, List.getElem?_eq_getElem h1,
      List.getD_eq_getElem?_getD, List.getElem?_eq_getElem h2] at z1
    exact z1
  have hlaws := flatMap_inj J _ _ hlenW hW
  set V := fun r => a.voltages x r - a.voltages y r with hV
  set es := J.map fun z => (z.1, z.2.map (readIdx fun k => x k - y k)) with hes
  have hesf : es.map Prod.fst = N.elements := by rw [hes, List.map_map, ← hfst]; rfl
  have hin : ∀ e ∈ es, ∃ z ∈ J, e = (z.1, z.2.map (readIdx fun k => x k - y k)) := fun e he => by
    obtain ⟨z, hz, rfl⟩ := List.mem_map.1 he
    exact ⟨z, hz, rfl⟩
  obtain ⟨q1, q2⟩ := quiet_zero (buses := N.buses) (V := V) (es := es) (by
      show a.voltages x none - a.voltages y none = 0
      rw [show a.voltages x none = 0 from rfl, show a.voltages y none = 0 from rfl, sub_zero])
    (fun e he => by obtain ⟨z, hz, rfl⟩ := hin e he; exact hv _ (hmem z hz))
    (fun e he => by obtain ⟨z, hz, rfl⟩ := hin e he; exact hN.resistive _ (hmem z hz))
    (by rw [hesf]; exact hN.held) (by rw [hesf]; exact hN.loopless)
    (fun e he => by
      obtain ⟨z, hz, rfl⟩ := hin e he
      simp only [List.length_map]
      exact ownIdx_length N hN.plain z hz)
    (fun k hk => by
      have := hsum k hk
      rw [hDx, hDy, busSum_flatMap, busSum_flatMap] at this
      rw [hes, List.flatMap_map, busSum_flatMap]
      have e : (J.map fun z => busSum k (z.1.quiet.draws 0 V (z.2.map (readIdx fun k => x k - y k)))) =
          J.map fun z => busSum k (z.1.draws 0 (a.voltages x) (z.2.map (readIdx x))) + 0 -
            busSum k (z.1.draws 0 (a.voltages y) (z.2.map (readIdx y))) :=
        List.map_congr_left fun z hz => by
          rw [add_zero]
          exact draws_diff (hN.resistive _ (hmem z hz)).linear k _ _ _ _ _ (pairAt_sub z.2 x y)
      rw [e, sum_parts, this]; simp)
    (fun e he => by
      obtain ⟨z, hz, rfl⟩ := hin e he
      exact laws_diff (hN.resistive _ (hmem z hz)).linear _ _ _ _ _ (pairAt_sub z.2 x y) (hlaws z hz))
  intro i hi
  have hu := ((C07_distinct_and_dense hL N).2 i).1 hi
  unfold Assignment.unknowns at hu
  have hopt : N.opt = false := by simp [Network.opt, hN.plain]
  rw [hN.plain, List.append_nil, List.mem_append] at hu
  rcases hu with hu | hu
  · obtain ⟨n, hn, hu⟩ := List.mem_flatMap.1 hu
    obtain ⟨k, hk, rfl⟩ := List.getElem_of_mem hn
    have hlen : a.nodes.length = N.buses := by
      have hb := assignBuses_plain N.buses 0
      simp only [Nat.mul_zero, Nat.zero_add] at hb
      have : a.nodes = (List.range' 0 N.buses).map plainNode := by
        show (assignBuses N.opt N.buses 0).1 = _
        rw [hopt, hb]
      rw [this]; simp
    have hz := q1 k (by rw [← hlen]; exact hk)
    have hna : nodeAt a.nodes (some k) = a.nodes[k] := by
      show a.nodes.getD k Node.ground = _
      rw [List.getD_eq_getElem?_getD, List.getElem?_eq_getElem hk]; rfl
    have h1 := congrArg Complex.re hz
    have h2 := congrArg Complex.im hz
    simp only [hV, Assignment.voltages, Node.volt, hna, Complex.sub_re, Complex.sub_im, Complex.zero_re, Complex.zero_im] at h1 h2
    simp only [Node.unknowns, hopt, Bool.false_eq_true, if_false, List.append_nil, List.mem_cons, List.not_mem_nil, or_false] at hu
    rcases hu with hu | hu
    · rw [← hu] at h1; exact sub_eq_zero.1 h1
    · rw [← hu] at h2; exact sub_eq_zero.1 h2
  · obtain ⟨l, hl, hu⟩ := List.mem_flatten.1 hu
    have : l ∈ J.map Prod.snd := by
      rw [hJ]; unfold Assignment.ownIdx; rw [List.map_zipWith]; exact hl
    obtain ⟨z, hz, rfl⟩ := List.mem_map.1 this
    have := q2 _ (List.mem_map_of_mem hz) (readIdx (fun k => x k - y k) (some i)) (List.mem_map_of_mem hu)
    exact sub_eq_zero.1 this

/-- The equations of a sturdy network are a matrix, which no vector but zero is mapped to zero by, and a constant. -/
theorem sturdy_matrix (hL : L.Loaded) {N : Network} (hv : N.Valid) (hN : N.Sturdy) :
    ∃ (M : Matrix (Fin (N.assign L).size) (Fin (N.assign L).size) ℝ) (b : Fin (N.assign L).size → ℝ), Function.Injective M.mulVecLin ∧
      ∀ u (i : Fin (N.assign L).size), networkEq (N.assign L).all 0 (stretch (N.assign L).size u) i = M.mulVec u i - b i := by
  set n := (N.assign L).size with hn
  have hlin : N.Linear := ⟨hN.plain, fun e he => (hN.resistive e he).linear⟩
  have hreg : ∀ v, ∀ p ∈ (N.assign L).all, p.Regular 0 v := fun v => network_linear_regular hL N hv hlin 0 (fun e he => by
    have := hN.resistive e he
    cases e <;> simp_all [Element.RatioNonzero, Element.Resistive, ratioAt]) v
  set E := (N.assign L).all.flatMap fun p => p.emitted 0 (fun _ => 0) true with hE
  have hrow : ∀ v i, networkEq (N.assign L).all 0 v i = (∑ j ∈ Finset.range n, Builder.matOf (tripsOf E) i j * v j) - jOf E i := fun v i => by
    rw [sum_matOf n v E (fun e he c hc => emitted_cols _ 0 (fun _ => 0) n (fun p hp x hx c hc => network_below hL N p hp x hx c hc) e
      (List.mem_append_left _ he) c hc) i, linear_row (network_linearStamps hL N hlin) 0 hreg v (fun _ => 0) i]
  set M : Matrix (Fin n) (Fin n) ℝ := fun i j => Builder.matOf (tripsOf E) i j with hM
  have hMv : ∀ (u : Fin n → ℝ) (i : Fin n), networkEq (N.assign L).all 0 (stretch n u) i = M.mulVec u i - jOf E i := fun u i => by
    rw [hrow, Finset.sum_range]
    simp only [Matrix.mulVec, dotProduct, hM]
    congr 1
    refine Finset.sum_congr rfl fun j _ => ?_
    rw [stretch_lt u j.2]
  refine ⟨M, fun i => jOf E i, fun u w huw => ?_, hMv⟩
  have h1 : ∀ i < n, stretch n u i = stretch n w i := same_residual hL hv hN fun i hi => by
    have := congrFun huw ⟨i, hi⟩
    simp only [Matrix.mulVecLin_apply] at this
    have h2 := hMv u ⟨i, hi⟩
    have h3 := hMv w ⟨i, hi⟩
    simp only at h2 h3
    rw [h2, h3, this]
  rw [← cutTo_stretch u, ← cutTo_stretch w]
  funext i
  exact h1 i i.2

/-- A sturdy network has exactly one solution. -/
theorem sturdy_unique (hL : L.Loaded) {N : Network} (hv : N.Valid) (hN : N.Sturdy) : N.UniqueSolution L 0 := by
  obtain ⟨M, b, hinj, hMv⟩ := sturdy_matrix hL hv hN
  obtain ⟨u, hu⟩ := LinearMap.injective_iff_surjective.1 hinj b
  have hz : ∀ i < (N.assign L).size, networkEq (N.assign L).all 0 (stretch (N.assign L).size u) i = 0 := fun i hi => by
    have := congrFun hu ⟨i, hi⟩
    have h2 := hMv u ⟨i, hi⟩
    simp only [Matrix.mulVecLin_apply] at this h2
    rw [h2, this, sub_self]
  exact ⟨stretch _ u, hz, fun y hy => same_residual hL hv hN fun i hi => by rw [hy i hi, hz i hi]⟩

end Verif
