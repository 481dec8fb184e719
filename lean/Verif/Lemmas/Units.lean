import Verif.Spec.Units
import Verif.Lemmas.Symmetry

/-!
# Lemmas on the choice of units
-/

namespace Verif

open ComplexConjugate

theorem stiff_rebase (t k g b : ℝ) : stiff t (k * g) (k * b) = k * stiff t g b := by
  apply Complex.ext <;> simp [stiff] <;> ring

theorem faded_rebase (t k g b : ℝ) : faded t (k * g) (k * b) = k * faded t g b := by
  apply Complex.ext <;> simp [faded] <;> ring

theorem faded_zero_rebase (t k b : ℝ) : faded t 0 (k * b) = k * faded t 0 b := by
  rw [← faded_rebase, mul_zero]

theorem power_rebase {a : ℝ} (ha : a ≠ 0) (k p q : ℝ) (v : ℂ) :
    conj ((⟨a ^ 2 * k * p, a ^ 2 * k * q⟩ : ℂ) / (a * v)) = (a * k : ℝ) * conj ((⟨p, q⟩ : ℂ) / v) := by
  have e : (⟨a ^ 2 * k * p, a ^ 2 * k * q⟩ : ℂ) = a * ((a * k : ℝ) * ⟨p, q⟩) := by apply Complex.ext <;> simp <;> ring
  have ha' : (a : ℂ) ≠ 0 := by exact_mod_cast ha
  rw [e, mul_div_mul_left _ _ ha', mul_div_assoc, map_mul, Complex.conj_ofReal]

theorem length_two {w : List ℝ} (h : w.length = 2) : ∃ x y, w = [x, y] := by
  match w, h with
  | [x, y], _ => exact ⟨x, y, rfl⟩

theorem length_four {w : List ℝ} (h : w.length = 4) : ∃ x y z u, w = [x, y, z, u] := by
  match w, h with
  | [x, y, z, u], _ => exact ⟨x, y, z, u, rfl⟩

theorem length_six {w : List ℝ} (h : w.length = 6) : ∃ x y z u p q, w = [x, y, z, u, p, q] := by
  match w, h with
  | [x, y, z, u, p, q], _ => exact ⟨x, y, z, u, p, q, rfl⟩

theorem pair_scale (c x y : ℝ) : (⟨c * x, c * y⟩ : ℂ) = c * ⟨x, y⟩ := by
  apply Complex.ext <;> simp

theorem draws_rebase {a k : ℝ} (ha : a ≠ 0) (t : ℝ) (V V' : Ref → ℂ) (hV : ∀ r, V' r = a * V r) (e : Element) (he : k = 1 ∨ e.NoFuse) (w : List ℝ)
    (hw : w.length = (e.laws 0 (fun _ => 0) []).length) :
    (e.rebase a k).draws t V' (e.rebaseOwn a k w) = (e.draws t V w).map fun d => (d.1, ((a * k : ℝ) : ℂ) * d.2) := by
  cases e with
  | line => simp [Element.rebase, Element.draws, branch, hV, stiff_rebase, faded_zero_rebase]; (repeat' apply And.intro) <;> ring
  | unbalanced ph y sh =>
    simp only [Element.rebase, Element.draws, List.map_flatMap, branch]
    refine List.flatMap_congr fun i hi => List.flatMap_congr fun j hj => ?_
    have e1 : ((k : ℂ) * y i j).re = k * (y i j).re := by simp
    have e2 : ((k : ℂ) * y i j).im = k * (y i j).im := by simp
    rw [e1, e2, mul_div_assoc, stiff_rebase, faded_rebase, faded_zero_rebase]
    split_ifs <;> simp [hV] <;> (repeat' apply And.intro) <;> ring
  | transformer =>
    obtain ⟨x, y, z, u, rfl⟩ := length_four hw
    simp [Element.rebase, Element.rebaseOwn, Element.ownFactors, Element.draws, xfmrDraws, branch, hV, pairAt, pair_scale, stiff_rebase]
    (repeat' apply And.intro) <;> ring
  | centerTap =>
    obtain ⟨x, y, z, u, rfl⟩ := length_four hw
    simp [Element.rebase, Element.rebaseOwn, Element.ownFactors, Element.draws, branch, hV, pairAt, pair_scale, stiff_rebase]
    (repeat' apply And.intro) <;> ring
  | slack =>
    obtain ⟨x, y, rfl⟩ := length_two hw
    simp [Element.rebase, Element.rebaseOwn, Element.ownFactors, Element.draws, pairAt, pair_scale]
  | switch f u s =>
    cases s with
    | closed =>
      obtain ⟨x, y, rfl⟩ := length_two hw
      simp [Element.rebase, Element.rebaseOwn, Element.ownFactors, Element.draws, branch, pairAt, pair_scale]
    | opened => simp [Element.rebase, Element.draws]
  | generator b P Vset =>
    obtain ⟨q, rfl⟩ := List.length_eq_one_iff.1 hw
    have e : (Element.generator b P Vset).rebaseOwn a k [q] = [a ^ 2 * k * q] := rfl
    rw [e]
    simp only [Element.rebase, Element.draws, hV, List.getD_cons_zero, power_rebase ha, List.map_cons, List.map_nil]
  | load f u l =>
    simp only [Element.rebase, Element.draws, branch, hV, Load.rebase, ← mul_sub, power_rebase ha, List.map_cons, List.map_nil, inv_div]
    rw [pair_scale]
    have e : ((a * k : ℝ) : ℂ) * conj ((⟨l.P, l.Q⟩ : ℂ) / (V f - V u)) + ((a * k : ℝ) : ℂ) * ⟨l.IP, l.IQ⟩ + (1 - t) * (k / l.Z) * (a * (V f - V u)) =
        ((a * k : ℝ) : ℂ) * (conj ((⟨l.P, l.Q⟩ : ℂ) / (V f - V u)) + ⟨l.IP, l.IQ⟩ + (1 - t) * l.Z⁻¹ * (V f - V u)) := by
      rw [Complex.ofReal_mul]; ring
    rw [e, mul_neg]
  | voltageSource =>
    obtain ⟨x, y, rfl⟩ := length_two hw
    simp [Element.rebase, Element.rebaseOwn, Element.ownFactors, Element.draws, branch, pairAt, pair_scale]
  | shunt => simp [Element.rebase, Element.draws, hV, faded_rebase]; ring
  | regulator =>
    obtain ⟨x, y, z, u, p, q, rfl⟩ := length_six hw
    simp [Element.rebase, Element.rebaseOwn, Element.ownFactors, Element.draws, xfmrDraws, branch, hV, pairAt, pair_scale, stiff_rebase]
    (repeat' apply And.intro) <;> ring
  | fuse =>
    obtain ⟨x, y, rfl⟩ := length_two hw
    rcases he with rfl | he
    · simp [Element.rebase, Element.rebaseOwn, Element.ownFactors, Element.draws, branch, hV, pairAt, pair_scale]
      (repeat' apply And.intro) <;> ring
    · exact he.elim
  | capacitor f u s b =>
    cases s with
    | closed => simp [Element.rebase, Element.draws, branch, hV, faded_zero_rebase]; ring
    | opened => simp [Element.rebase, Element.draws]

theorem laws_rebase {a : ℝ} (k : ℝ) (t : ℝ) (V V' : Ref → ℂ) (hV : ∀ r, V' r = a * V r) (e : Element) (w : List ℝ)
    (hw : w.length = (e.laws 0 (fun _ => 0) []).length) (h : ∀ z ∈ e.laws t V w, z = 0) :
    ∀ z ∈ (e.rebase a k).laws t V' (e.rebaseOwn a k w), z = 0 := by
  have key : ∀ (c x y : ℂ), y = c * x → (∀ z ∈ both x, z = 0) → ∀ z ∈ both y, z = 0 := fun c x y e h => by rw [e]; exact both_turn c x h
  cases e with
  | transformer =>
    obtain ⟨x, y, z, u, rfl⟩ := length_four hw
    simp only [Element.rebase, Element.rebaseOwn, Element.ownFactors, Element.laws, xfmrLaws, hV, List.zipWith, pairAt, List.getD_cons_zero, List.getD_cons_succ,
      zero_add, pair_scale, stiff_rebase, List.forall_mem_append] at h ⊢
    exact ⟨key a _ _ (by ring) h.1, key (a * k) _ _ (by push_cast; ring) h.2⟩
  | centerTap =>
    simp only [Element.rebase, Element.rebaseOwn, Element.laws, hV, List.forall_mem_append] at h ⊢
    exact ⟨key a _ _ (by ring) h.1, key a _ _ (by ring) h.2⟩
  | slack b vr vi =>
    simp only [Element.rebase, Element.laws, hV, pair_scale] at h ⊢
    exact key a _ _ (by ring) h
  | switch f u s =>
    cases s with
    | closed =>
      simp only [Element.rebase, Element.laws, hV] at h ⊢
      exact key a _ _ (by ring) h
    | opened => simp [Element.rebase, Element.laws]
  | generator b P Vset =>
    simp only [Element.rebase, Element.laws, hV, Complex.normSq_mul, Complex.normSq_ofReal, List.mem_singleton, forall_eq] at h ⊢
    have := sub_eq_zero.1 h
    rw [← this]; ring
  | voltageSource f u vr vi =>
    simp only [Element.rebase, Element.laws, hV, pair_scale] at h ⊢
    exact key a _ _ (by ring) h
  | regulator =>
    obtain ⟨x, y, z, u, p, q, rfl⟩ := length_six hw
    simp only [Element.rebase, Element.rebaseOwn, Element.ownFactors, Element.laws, xfmrLaws, hV, List.zipWith, pairAt, List.getD_cons_zero, List.getD_cons_succ,
      zero_add, pair_scale, stiff_rebase, List.forall_mem_append] at h ⊢
    exact ⟨⟨key a _ _ (by ring) h.1.1, key (a * k) _ _ (by push_cast; ring) h.1.2⟩, key a _ _ (by ring) h.2⟩
  | fuse =>
    simp only [Element.rebase, Element.laws, hV] at h ⊢
    exact key a _ _ (by ring) h
  | _ => simp [Element.rebase, Element.laws]

theorem rebase_laws_length (a k : ℝ) (e : Element) : ((e.rebase a k).laws 0 (fun _ => 0) []).length = (e.laws 0 (fun _ => 0) []).length := by
  cases e with
  | switch f u s => cases s <;> rfl
  | _ => rfl

theorem ownFactors_length (a k : ℝ) (e : Element) : (e.ownFactors a k).length = (e.laws 0 (fun _ => 0) []).length := by
  cases e with
  | switch f u s => cases s <;> rfl
  | _ => rfl

theorem rebaseOwn_length (a k : ℝ) (e : Element) (w : List ℝ) (hw : w.length = (e.laws 0 (fun _ => 0) []).length) :
    (e.rebaseOwn a k w).length = w.length := by
  rw [Element.rebaseOwn, List.length_zipWith, ownFactors_length, hw, min_self]

theorem kirchhoff_rebase {a k : ℝ} (ha : a ≠ 0) (n : ℕ) (t : ℝ) (V V' : Ref → ℂ) (hV : ∀ r, V' r = a * V r) (es : List (Element × List ℝ))
    (he : k = 1 ∨ ∀ x ∈ es, x.1.NoFuse) (hw : ∀ x ∈ es, x.2.length = (x.1.laws 0 (fun _ => 0) []).length) (h : Kirchhoff n t V es) :
    Kirchhoff n t V' (es.map fun x => (x.1.rebase a k, x.1.rebaseOwn a k x.2)) := by
  obtain ⟨h1, h2⟩ := h
  constructor
  · intro b hb
    have h3 : busSum b _ = 0 := h1 b hb
    show busSum b _ = 0
    have : (es.map fun x => (x.1.rebase a k, x.1.rebaseOwn a k x.2)).flatMap (fun x => x.1.draws t V' x.2) =
        (es.flatMap fun x => x.1.draws t V x.2).map fun d => (d.1, ((a * k : ℝ) : ℂ) * d.2) := by
      rw [List.flatMap_map, List.map_flatMap]
      exact List.flatMap_congr fun x hx => draws_rebase ha t V V' hV x.1 (he.imp id fun h => h x hx) x.2 (hw x hx)
    rw [this, busSum_scale, h3, mul_zero]
  · intro x hx z hz
    obtain ⟨y, hy, rfl⟩ := List.mem_map.1 hx
    exact laws_rebase k t V V' hV y.1 y.2 (hw y hy) (h2 y hy) z hz

end Verif
