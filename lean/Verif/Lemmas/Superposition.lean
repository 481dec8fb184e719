import Verif.Spec.Superposition
import Verif.Lemmas.Symmetry
import Verif.Lemmas.Exchange

/-!
# Lemmas on superposition
-/

namespace Verif

open ComplexConjugate

/-- Own values put on top of each other. -/
noncomputable def mixOwn (a b : ℂ) (w w' : List ℝ) : List ℝ := (List.range (w.length / 2)).flatMap fun i => both (a * pairAt w (2 * i) + b * pairAt w' (2 * i))

/-- Bus by bus, the third currents are the first two put on top of each other. -/
def BusMix (a b : ℂ) (d d' ds : List (Ref × ℂ)) : Prop := ∀ k, busSum k ds = a * busSum k d + b * busSum k d'

theorem busMix_nil (a b : ℂ) : BusMix a b [] [] [] := fun k => by simp [busSum]

theorem busMix_cons {a b : ℂ} {r : Ref} {I I' J : ℂ} (h : J = a * I + b * I') {d d' ds : List (Ref × ℂ)} (hd : BusMix a b d d' ds) :
    BusMix a b ((r, I) :: d) ((r, I') :: d') ((r, J) :: ds) := fun k => by
  rw [busSum_cons, busSum_cons, busSum_cons, hd k, h]
  split <;> ring

theorem busMix_append {a b : ℂ} {c c' cs d d' ds : List (Ref × ℂ)} (hc : BusMix a b c c' cs) (hd : BusMix a b d d' ds) :
    BusMix a b (c ++ d) (c' ++ d') (cs ++ ds) := fun k => by
  rw [Raw.busSum_append, Raw.busSum_append, Raw.busSum_append, hc k, hd k]; ring

theorem busMix_flatMap {a b : ℂ} {α : Type} (f f' g : α → List (Ref × ℂ)) (h : ∀ x, BusMix a b (f x) (f' x) (g x)) (l : List α) :
    BusMix a b (l.flatMap f) (l.flatMap f') (l.flatMap g) := by
  induction l with
  | nil => exact busMix_nil a b
  | cons x l ih => exact busMix_append (h x) ih

theorem busMix_branch {a b : ℂ} (f u : Ref) {I I' J : ℂ} (h : J = a * I + b * I') : BusMix a b (branch f u I) (branch f u I') (branch f u J) :=
  busMix_cons h (busMix_cons (by rw [h]; ring) (busMix_nil a b))

theorem busMix_one {a b : ℂ} (r : Ref) {I I' J : ℂ} (h : J = a * I + b * I') : BusMix a b [(r, I)] [(r, I')] [(r, J)] := busMix_cons h (busMix_nil a b)

/-- A complex number made of two entries of the own values. -/
theorem pairAt_mix (a b : ℂ) {w w' : List ℝ} (i : ℕ) (h : 2 * i + 1 < w.length) : pairAt (mixOwn a b w w') (2 * i) = a * pairAt w (2 * i) + b * pairAt w' (2 * i) := by
  have key : ∀ (f : ℕ → ℂ) (n i : ℕ), i < n → pairAt ((List.range n).flatMap fun i => both (f i)) (2 * i) = f i := by
    intro f n
    induction n generalizing f with
    | zero => intro i hi; omega
    | succ n ih =>
      intro i hi
      rw [List.range_succ_eq_map, List.flatMap_cons, List.flatMap_map]
      cases i with
      | zero => rfl
      | succ i =>
        have := ih (fun i => f (i + 1)) i (by omega)
        rw [← this]
        rfl
  exact key _ _ i (by omega)

theorem mixOwn_length (a b : ℂ) (w w' : List ℝ) (h : w.length % 2 = 0) : (mixOwn a b w w').length = w.length := by
  have key : ∀ (f : ℕ → ℂ) (n : ℕ), ((List.range n).flatMap fun i => both (f i)).length = 2 * n := by
    intro f n
    induction n with
    | zero => rfl
    | succ n ih => rw [List.range_succ, List.flatMap_append, List.length_append, ih]; simp [both]; ring
  rw [mixOwn, key]; omega

theorem mixes_width {a b : ℂ} {e e' e'' : Element} (h : Mixes a b e e' e'') :
    (e'.laws 0 (fun _ => 0) []).length = (e.laws 0 (fun _ => 0) []).length ∧ (e''.laws 0 (fun _ => 0) []).length = (e.laws 0 (fun _ => 0) []).length ∧
      (e.laws 0 (fun _ => 0) []).length % 2 = 0 := by
  cases h with
  | same e he =>
    refine ⟨rfl, rfl, ?_⟩
    cases e with
    | switch f u s => cases s <;> simp [Element.laws, both]
    | slack | generator | load | voltageSource => exact he.elim
    | _ => simp [Element.laws, xfmrLaws, both]
  | _ => exact ⟨rfl, rfl, by simp [Element.laws, both]⟩

section
variable {a b : ℂ} {t : ℝ} {V V' W : Ref → ℂ}

theorem draws_mix {e e' e'' : Element} (h : Mixes a b e e' e'') (hW : ∀ r, W r = a * V r + b * V' r) (w w' : List ℝ) (hw : w.length = (e.laws 0 (fun _ => 0) []).length) :
    BusMix a b (e.draws t V w) (e'.draws t V' w') (e''.draws t W (mixOwn a b w w')) := by
  have h0 : 2 ≤ w.length → pairAt (mixOwn a b w w') 0 = a * pairAt w 0 + b * pairAt w' 0 := fun h => pairAt_mix a b 0 (by omega)
  have h2 : 4 ≤ w.length → pairAt (mixOwn a b w w') 2 = a * pairAt w 2 + b * pairAt w' 2 := fun h => pairAt_mix a b 1 (by omega)
  have h4 : 6 ≤ w.length → pairAt (mixOwn a b w w') 4 = a * pairAt w 4 + b * pairAt w' 4 := fun h => pairAt_mix a b 2 (by omega)
  cases h with
  | slack k v v' => exact busMix_one _ (h0 (by rw [hw]; exact le_refl 2))
  | source f u v v' => exact busMix_branch _ _ (h0 (by rw [hw]; exact le_refl 2))
  | load f u z i i' =>
    refine busMix_branch _ _ ?_
    have e : ∀ j : ℂ, (⟨j.re, j.im⟩ : ℂ) = j := fun j => rfl
    have z0 : (⟨0, 0⟩ : ℂ) = 0 := rfl
    dsimp only
    rw [e, e, e, z0, hW, hW]; simp only [zero_div, map_zero]; ring
  | same e he =>
    cases e with
    | slack | generator | load | voltageSource => exact he.elim
    | line f u g s bl =>
      exact busMix_append (busMix_branch _ _ (by rw [hW, hW]; ring)) (busMix_cons (by rw [hW]; ring) (busMix_one _ (by rw [hW]; ring)))
    | unbalanced ph y sh =>
      refine busMix_flatMap _ _ _ (fun i => busMix_flatMap _ _ _ (fun j => ?_) _) _
      exact busMix_append (busMix_branch _ _ (by rw [hW, hW]; ring)) (busMix_cons (by rw [hW]; ring) (busMix_one _ (by rw [hW]; ring)))
    | transformer fp fn tp tn tr ang g s =>
      have l : w.length = 4 := hw
      refine busMix_append (busMix_branch _ _ (h0 (by omega))) (busMix_cons ?_ (busMix_one _ ?_))
      · rw [h0 (by omega)]; ring
      · rw [h2 (by omega), hW]; ring
    | centerTap f p s1 t1 s2 t2 ratio g0 b0 g1 b1 g2 b2 =>
      have l : w.length = 4 := hw
      refine busMix_append (busMix_append (busMix_append (busMix_cons ?_ (busMix_cons (h0 (by omega)) (busMix_one _ (h2 (by omega))))) (busMix_branch _ _ ?_))
        (busMix_branch _ _ ?_)) (busMix_branch _ _ ?_)
      · rw [h0 (by omega), h2 (by omega)]; ring
      all_goals rw [hW, hW]; ring
    | switch f u s =>
      cases s with
      | opened => exact busMix_nil a b
      | closed => exact busMix_branch _ _ (h0 (by rw [hw]; exact le_refl 2))
    | shunt k g s => exact busMix_one _ (by rw [hW]; ring)
    | regulator f c u tr g s =>
      have l : w.length = 6 := hw
      refine busMix_append (busMix_append (busMix_branch _ _ (h0 (by omega))) (busMix_cons ?_ (busMix_one _ ?_))) (busMix_branch _ _ (h4 (by omega)))
      · rw [h0 (by omega)]; ring
      · rw [h2 (by omega), hW]; ring
    | fuse f i u =>
      refine busMix_append (busMix_branch _ _ (by rw [hW, hW]; ring)) (busMix_branch _ _ (h0 (by rw [hw]; exact le_refl 2)))
    | capacitor f u s c =>
      cases s with
      | opened => exact busMix_nil a b
      | closed => exact busMix_branch _ _ (by rw [hW, hW]; ring)

theorem both_mix {z z' y : ℂ} (h : y = a * z + b * z') (hz : ∀ x ∈ both z, x = 0) (hz' : ∀ x ∈ both z', x = 0) : ∀ x ∈ both y, x = 0 := by
  refine both_vanish.2 ?_
  rw [h, both_vanish.1 hz, both_vanish.1 hz']; ring

theorem append_laws {l l' : List ℝ} : (∀ x ∈ l ++ l', x = 0) ↔ (∀ x ∈ l, x = 0) ∧ ∀ x ∈ l', x = 0 := List.forall_mem_append

theorem xfmr_mix {fp fn tp tn : Ref} {tr ang g s : ℝ} {I I' J S S' T : ℂ} (hW : ∀ r, W r = a * V r + b * V' r) (hJ : J = a * I + b * I') (hT : T = a * S + b * S')
    (h : ∀ z ∈ xfmrLaws t V fp fn tp tn tr ang g s I S, z = 0) (h' : ∀ z ∈ xfmrLaws t V' fp fn tp tn tr ang g s I' S', z = 0) :
    ∀ z ∈ xfmrLaws t W fp fn tp tn tr ang g s J T, z = 0 := by
  obtain ⟨h1, h2⟩ := append_laws.1 h
  obtain ⟨h1', h2'⟩ := append_laws.1 h'
  refine append_laws.2 ⟨both_mix (a := a) (b := b) ?_ h1 h1', both_mix (a := a) (b := b) ?_ h2 h2'⟩
  · rw [hW, hW, hW, hT]; ring
  · rw [hW, hJ, hT]; ring

theorem laws_mix {e e' e'' : Element} (h : Mixes a b e e' e'') (hW : ∀ r, W r = a * V r + b * V' r) (w w' : List ℝ) (hw : w.length = (e.laws 0 (fun _ => 0) []).length)
    (h1 : ∀ z ∈ e.laws t V w, z = 0) (h2' : ∀ z ∈ e'.laws t V' w', z = 0) : ∀ z ∈ e''.laws t W (mixOwn a b w w'), z = 0 := by
  have h0 : 2 ≤ w.length → pairAt (mixOwn a b w w') 0 = a * pairAt w 0 + b * pairAt w' 0 := fun h => pairAt_mix a b 0 (by omega)
  have h2 : 4 ≤ w.length → pairAt (mixOwn a b w w') 2 = a * pairAt w 2 + b * pairAt w' 2 := fun h => pairAt_mix a b 1 (by omega)
  have nil : ∀ z ∈ ([] : List ℝ), z = 0 := fun z hz => absurd hz List.not_mem_nil
  have e0 : ∀ j : ℂ, (⟨j.re, j.im⟩ : ℂ) = j := fun j => rfl
  cases h with
  | slack k v v' => exact both_mix (a := a) (b := b) (by rw [e0, e0, e0, hW]; ring) h1 h2'
  | source f u v v' => exact both_mix (a := a) (b := b) (by rw [e0, e0, e0, hW, hW]; ring) h1 h2'
  | load f u z i i' => exact nil
  | same e he =>
    cases e with
    | slack | generator | load | voltageSource => exact he.elim
    | line | unbalanced | shunt | capacitor => exact nil
    | transformer fp fn tp tn tr ang g s =>
      have l : w.length = 4 := hw
      exact xfmr_mix hW (h0 (by omega)) (h2 (by omega)) h1 h2'
    | centerTap f p s1 t1 s2 t2 ratio g0 b0 g1 b1 g2 b2 =>
      obtain ⟨i1, i2⟩ := append_laws.1 h1
      obtain ⟨j1, j2⟩ := append_laws.1 h2'
      exact append_laws.2 ⟨both_mix (a := a) (b := b) (by rw [hW, hW]; ring) i1 j1, both_mix (a := a) (b := b) (by rw [hW, hW]; ring) i2 j2⟩
    | switch f u s =>
      cases s with
      | opened => exact nil
      | closed => exact both_mix (a := a) (b := b) (by rw [hW, hW]; ring) h1 h2'
    | regulator f c u tr g s =>
      have l : w.length = 6 := hw
      obtain ⟨i1, i2⟩ := append_laws.1 h1
      obtain ⟨j1, j2⟩ := append_laws.1 h2'
      exact append_laws.2 ⟨xfmr_mix hW (h0 (by omega)) (h2 (by omega)) i1 j1, both_mix (a := a) (b := b) (by rw [hW, hW]; ring) i2 j2⟩
    | fuse f i u => exact both_mix (a := a) (b := b) (by rw [hW, hW]; ring) h1 h2'

/-- Whole lists of equipment put on top of each other. -/
theorem kirchhoff_mix (hW : ∀ r, W r = a * V r + b * V' r) (es : List (Element × Element × Element)) (hes : ∀ e ∈ es, Mixes a b e.1 e.2.1 e.2.2)
    (xs xs' : List (Element × List ℝ)) (hx : xs.map Prod.fst = es.map fun e => e.1) (hx' : xs'.map Prod.fst = es.map fun e => e.2.1)
    (hw : ∀ x ∈ xs, x.2.length = (x.1.laws 0 (fun _ => 0) []).length)
    (hlaw : ∀ x ∈ xs, ∀ z ∈ x.1.laws t V x.2, z = 0) (hlaw' : ∀ x ∈ xs', ∀ z ∈ x.1.laws t V' x.2, z = 0) :
    ∃ ys : List (Element × List ℝ), (ys.map Prod.fst = es.map fun e => e.2.2) ∧ (∀ y ∈ ys, y.2.length = (y.1.laws 0 (fun _ => 0) []).length) ∧
      (∀ y ∈ ys, ∀ z ∈ y.1.laws t W y.2, z = 0) ∧
      BusMix a b (xs.flatMap fun x => x.1.draws t V x.2) (xs'.flatMap fun x => x.1.draws t V' x.2) (ys.flatMap fun x => x.1.draws t W x.2) := by
  induction es generalizing xs xs' with
  | nil =>
    rw [List.map_nil, List.map_eq_nil_iff] at hx hx'
    subst hx hx'
    exact ⟨[], rfl, by simp, by simp, busMix_nil a b⟩
  | cons e es ih =>
    obtain ⟨⟨x1, w⟩, xs, rfl, h1, hxx⟩ := List.map_eq_cons_iff.1 hx
    obtain ⟨⟨x1', w'⟩, xs', rfl, h1', hxx'⟩ := List.map_eq_cons_iff.1 hx'
    cases h1
    cases h1'
    obtain ⟨ys, g1, g2, g3, g4⟩ := ih (fun e he => hes e (List.mem_cons_of_mem _ he)) xs xs' hxx hxx' (fun x h => hw x (List.mem_cons_of_mem _ h))
      (fun x h => hlaw x (List.mem_cons_of_mem _ h)) (fun x h => hlaw' x (List.mem_cons_of_mem _ h))
    have hm := hes e List.mem_cons_self
    have hw1 := hw _ List.mem_cons_self
    obtain ⟨m1, m2, m3⟩ := mixes_width hm
    refine ⟨(e.2.2, mixOwn a b w w') :: ys, by rw [List.map_cons, List.map_cons, g1], ?_, ?_, ?_⟩
    · intro y hy
      rcases List.mem_cons.1 hy with rfl | hy
      · exact (mixOwn_length a b w w' (by rw [hw1]; exact m3)).trans (hw1.trans m2.symm)
      · exact g2 y hy
    · intro y hy
      rcases List.mem_cons.1 hy with rfl | hy
      · exact laws_mix hm hW w w' hw1 (hlaw _ List.mem_cons_self) (hlaw' _ List.mem_cons_self)
      · exact g3 y hy
    · exact busMix_append (draws_mix hm hW w w' hw1) g4

end

end Verif
