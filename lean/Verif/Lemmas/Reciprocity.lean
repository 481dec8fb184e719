import Verif.Lemmas.Superposition

/-!
# Lemmas on reciprocity
-/

namespace Verif

open ComplexConjugate

/-- Currents times voltages. -/
noncomputable def paired (V : Ref → ℂ) (ds : List (Ref × ℂ)) : ℂ := (ds.map fun d => d.2 * V d.1).sum

theorem paired_nil (V : Ref → ℂ) : paired V [] = 0 := rfl

theorem paired_cons (V : Ref → ℂ) (r : Ref) (I : ℂ) (ds : List (Ref × ℂ)) : paired V ((r, I) :: ds) = I * V r + paired V ds := by
  simp [paired]

theorem paired_append (V : Ref → ℂ) (c d : List (Ref × ℂ)) : paired V (c ++ d) = paired V c + paired V d := by
  simp [paired]

theorem paired_flatMap {α : Type} (V : Ref → ℂ) (l : List α) (f : α → List (Ref × ℂ)) : paired V (l.flatMap f) = (l.map fun x => paired V (f x)).sum := by
  induction l with
  | nil => rfl
  | cons x l ih => rw [List.flatMap_cons, paired_append, ih, List.map_cons, List.sum_cons]

theorem paired_sum {n : ℕ} {V : Ref → ℂ} (h0 : V none = 0) (hn : ∀ j, n ≤ j → V (some j) = 0) (ds : List (Ref × ℂ)) :
    paired V ds = ∑ k ∈ Finset.range n, busSum k ds * V (some k) := by
  induction ds with
  | nil => simp [paired, busSum]
  | cons d ds ih =>
    obtain ⟨r, I⟩ := d
    rw [paired_cons, ih]
    simp only [busSum_cons, add_mul, Finset.sum_add_distrib]
    congr 1
    cases r with
    | none => simp [h0]
    | some j =>
      simp only [Option.some.injEq, ite_mul, zero_mul, Finset.sum_ite_eq, Finset.mem_range]
      split
      · rfl
      · rw [hn j (by omega), mul_zero]

theorem xfmr_twoWay {t : ℝ} {V V' : Ref → ℂ} {fp fn tp tn : Ref} {tr g s : ℝ} {I I' S S' : ℂ}
    (h : ∀ z ∈ xfmrLaws t V fp fn tp tn tr 0 g s I S, z = 0) (h' : ∀ z ∈ xfmrLaws t V' fp fn tp tn tr 0 g s I' S', z = 0) :
    paired V' (xfmrDraws t V fp fn tp tn tr 0 g s I S) = paired V (xfmrDraws t V' fp fn tp tn tr 0 g s I' S') := by
  have hc : conj (turns t tr 0) = turns t tr 0 := by
    apply Complex.ext <;> simp [turns]
  obtain ⟨h1, h2⟩ := append_laws.1 h
  obtain ⟨h1', h2'⟩ := append_laws.1 h'
  have h1 := both_vanish.1 h1
  have h2 := both_vanish.1 h2
  have h1' := both_vanish.1 h1'
  have h2' := both_vanish.1 h2'
  rw [hc] at h2 h2'
  simp only [xfmrDraws, branch, List.cons_append, List.nil_append, paired_cons, paired_nil, hc]
  linear_combination I * h1' - I' * h1 - S' * h2 + S * h2'

/-- A quiet element that transfers in both directions alike. -/
theorem element_twoWay {t : ℝ} {V V' : Ref → ℂ} {e : Element} (he : e.TwoWay) (w w' : List ℝ)
    (h : ∀ z ∈ e.quiet.laws t V w, z = 0) (h' : ∀ z ∈ e.quiet.laws t V' w', z = 0) :
    paired V' (e.quiet.draws t V w) = paired V (e.quiet.draws t V' w') := by
  have z0 : (⟨0, 0⟩ : ℂ) = 0 := rfl
  cases e with
  | generator => exact he.elim
  | line f u g b bl =>
    simp only [Element.quiet, Element.draws, branch, List.cons_append, List.nil_append, paired_cons, paired_nil]; ring
  | unbalanced ph y sh =>
    obtain ⟨hy, hs⟩ := he
    simp only [Element.quiet, Element.draws, paired_flatMap, sum_range_list, branch, List.cons_append, List.nil_append, paired_cons, paired_nil]
    rw [Finset.sum_comm]
    refine Finset.sum_congr rfl fun i _ => Finset.sum_congr rfl fun j _ => ?_
    rw [hy j i, hs j i]
    by_cases e : i = j
    · subst e; ring
    · rw [if_neg e, if_neg (Ne.symm e)]; ring
  | transformer fp fn tp tn tr ang g b =>
    have : ang = 0 := he
    subst this
    exact xfmr_twoWay h h'
  | centerTap f p s1 t1 s2 t2 ratio g0 b0 g1 b1 g2 b2 =>
    obtain ⟨h1, h2⟩ := append_laws.1 h
    obtain ⟨h1', h2'⟩ := append_laws.1 h'
    have h1 := both_vanish.1 h1
    have h2 := both_vanish.1 h2
    have h1' := both_vanish.1 h1'
    have h2' := both_vanish.1 h2'
    simp only [Element.quiet, Element.draws, branch, List.cons_append, List.nil_append, paired_cons, paired_nil]
    linear_combination pairAt w 0 * h1' + pairAt w 2 * h2' - pairAt w' 0 * h1 - pairAt w' 2 * h2
  | slack b vr vi =>
    have h := both_vanish.1 h
    have h' := both_vanish.1 h'
    rw [z0, sub_zero] at h h'
    simp only [Element.quiet, Element.draws, paired_cons, paired_nil, h, h']; ring
  | switch f u s =>
    cases s with
    | opened => rfl
    | closed =>
      have h := both_vanish.1 h
      have h' := both_vanish.1 h'
      simp only [Element.quiet, Element.draws, branch, paired_cons, paired_nil]
      linear_combination -pairAt w 0 * h' + pairAt w' 0 * h
  | load f u l =>
    obtain ⟨hP, hQ⟩ := he
    simp only [Element.quiet, Element.draws, branch, paired_cons, paired_nil, hP, hQ, z0, zero_div, map_zero]; ring
  | voltageSource f u vr vi =>
    have h := both_vanish.1 h
    have h' := both_vanish.1 h'
    rw [z0] at h h'
    simp only [Element.quiet, Element.draws, branch, paired_cons, paired_nil]
    linear_combination -pairAt w 0 * h' + pairAt w' 0 * h
  | shunt b g s => simp only [Element.quiet, Element.draws, paired_cons, paired_nil]; ring
  | regulator f c u tr g b =>
    obtain ⟨h1, h2⟩ := append_laws.1 h
    obtain ⟨h1', h2'⟩ := append_laws.1 h'
    have h2 := both_vanish.1 h2
    have h2' := both_vanish.1 h2'
    have hx := xfmr_twoWay h1 h1'
    simp only [Element.quiet, Element.draws, paired_append, hx, branch, paired_cons, paired_nil]
    linear_combination -pairAt w 4 * h2' + pairAt w' 4 * h2
  | fuse f i u =>
    have h := both_vanish.1 h
    have h' := both_vanish.1 h'
    simp only [Element.quiet, Element.draws, branch, List.cons_append, List.nil_append, paired_cons, paired_nil]
    linear_combination -pairAt w 0 * h' + pairAt w' 0 * h
  | capacitor f u s c =>
    cases s with
    | opened => rfl
    | closed => simp only [Element.quiet, Element.draws, branch, paired_cons, paired_nil]; ring

/-- The difference of two states of an element is a state of the element with its sources off. -/
theorem mixes_quiet {e : Element} (he : e.TwoWay) : Mixes 1 (-1) e e e.quiet := by
  cases e with
  | generator => exact he.elim
  | slack k vr vi =>
    have := Mixes.slack (a := 1) (b := -1) k ⟨vr, vi⟩ ⟨vr, vi⟩
    rwa [show (1 : ℂ) * ⟨vr, vi⟩ + -1 * ⟨vr, vi⟩ = 0 by ring] at this
  | voltageSource f u vr vi =>
    have := Mixes.source (a := 1) (b := -1) f u ⟨vr, vi⟩ ⟨vr, vi⟩
    rwa [show (1 : ℂ) * ⟨vr, vi⟩ + -1 * ⟨vr, vi⟩ = 0 by ring] at this
  | load f u l =>
    obtain ⟨P, Q, Z, IP, IQ⟩ := l
    obtain ⟨hP, hQ⟩ := he
    dsimp only at hP hQ
    subst hP hQ
    have := Mixes.load (a := 1) (b := -1) f u Z ⟨IP, IQ⟩ ⟨IP, IQ⟩
    rwa [show (1 : ℂ) * ⟨IP, IQ⟩ + -1 * ⟨IP, IQ⟩ = 0 by ring] at this
  | _ => exact .same _ trivial

/-- Lists of quiet elements. -/
theorem list_twoWay {t : ℝ} {V V' : Ref → ℂ} (es : List Element) (he : ∀ e ∈ es, e.TwoWay) (xs xs' : List (Element × List ℝ))
    (hx : xs.map Prod.fst = es.map Element.quiet) (hx' : xs'.map Prod.fst = es.map Element.quiet)
    (h : ∀ x ∈ xs, ∀ z ∈ x.1.laws t V x.2, z = 0) (h' : ∀ x ∈ xs', ∀ z ∈ x.1.laws t V' x.2, z = 0) :
    paired V' (xs.flatMap fun x => x.1.draws t V x.2) = paired V (xs'.flatMap fun x => x.1.draws t V' x.2) := by
  induction es generalizing xs xs' with
  | nil =>
    rw [List.map_nil, List.map_eq_nil_iff] at hx hx'
    subst hx hx'
    rfl
  | cons e es ih =>
    obtain ⟨⟨_, w⟩, xs, rfl, h1, hxx⟩ := List.map_eq_cons_iff.1 hx
    obtain ⟨⟨_, w'⟩, xs', rfl, h1', hxx'⟩ := List.map_eq_cons_iff.1 hx'
    cases h1
    cases h1'
    simp only [List.flatMap_cons, paired_append]
    rw [ih (fun e h => he e (List.mem_cons_of_mem _ h)) xs xs' hxx hxx' (fun x hm => h x (List.mem_cons_of_mem _ hm)) (fun x hm => h' x (List.mem_cons_of_mem _ hm))]
    exact congrArg (· + _) (element_twoWay (he e List.mem_cons_self) w w' (h _ List.mem_cons_self) (h' _ List.mem_cons_self))

end Verif
