import Verif.Spec.Exchange
import Verif.Lemmas.Symmetry
import Verif.Lemmas.Resistive

/-!
# Lemmas on exchanging equipment
-/

namespace Verif

open ComplexConjugate

/-- Own values of the right number that obey the laws. -/
def Lawful (t : ℝ) (V : Ref → ℂ) (xs : List (Element × List ℝ)) : Prop :=
  ∀ x ∈ xs, x.2.length = (x.1.laws 0 (fun _ => 0) []).length ∧ ∀ z ∈ x.1.laws t V x.2, z = 0

/-- Whatever the first list does at the voltages `V`, the second can do. -/
def Serves (t : ℝ) (V : Ref → ℂ) (a b : List Element) : Prop :=
  ∀ xs : List (Element × List ℝ), xs.map Prod.fst = a → Lawful t V xs → ∃ ys : List (Element × List ℝ), ys.map Prod.fst = b ∧ Lawful t V ys ∧
    ∀ k, busSum k (ys.flatMap fun y => y.1.draws t V y.2) = busSum k (xs.flatMap fun x => x.1.draws t V x.2)

/-- Equipment without unknowns of its own. -/
def Element.Mute : Element → Prop
  | .line .. | .unbalanced .. | .load .. | .shunt .. | .capacitor .. | .switch _ _ .opened => True
  | _ => False

theorem mute_draws {e : Element} (he : e.Mute) (t : ℝ) (V : Ref → ℂ) (w : List ℝ) : e.draws t V w = e.draws t V [] := by
  cases e with
  | switch f u s => cases s <;> first | rfl | exact he.elim
  | capacitor f u s b => cases s <;> rfl
  | line | unbalanced | load | shunt => rfl
  | _ => exact he.elim

theorem mute_laws {e : Element} (he : e.Mute) (t : ℝ) (V : Ref → ℂ) (w : List ℝ) : e.laws t V w = [] := by
  cases e with
  | switch f u s => cases s <;> first | rfl | exact he.elim
  | capacitor f u s b => cases s <;> rfl
  | line | unbalanced | load | shunt => rfl
  | _ => exact he.elim

theorem mute_sum (t : ℝ) (V : Ref → ℂ) (k : ℕ) : ∀ xs : List (Element × List ℝ), (∀ e ∈ xs.map Prod.fst, e.Mute) →
    busSum k (xs.flatMap fun x => x.1.draws t V x.2) = busSum k ((xs.map Prod.fst).flatMap fun e => e.draws t V [])
  | [], _ => rfl
  | x :: xs, h => by
    simp only [List.map_cons, List.flatMap_cons, Raw.busSum_append]
    rw [mute_sum t V k xs fun e he => h e (List.mem_cons_of_mem _ he), mute_draws (h x.1 List.mem_cons_self)]

theorem serves_mute {t : ℝ} {V : Ref → ℂ} {a b : List Element} (ha : ∀ e ∈ a, e.Mute) (hb : ∀ e ∈ b, e.Mute)
    (h : ∀ k, busSum k (b.flatMap fun e => e.draws t V []) = busSum k (a.flatMap fun e => e.draws t V [])) : Serves t V a b := by
  rintro xs rfl _
  have e : (b.map fun e => ((e, []) : Element × List ℝ)).map Prod.fst = b := by rw [List.map_map]; exact List.map_id b
  refine ⟨b.map fun e => (e, []), e, fun y hy => ?_, fun k => ?_⟩
  · obtain ⟨e, he, rfl⟩ := List.mem_map.1 hy
    simp [mute_laws (hb e he)]
  · rw [mute_sum t V k _ (by rw [e]; exact hb), mute_sum t V k _ ha, e, h]

theorem one_of_fst {xs : List (Element × List ℝ)} {a : Element} (h : xs.map Prod.fst = [a]) : ∃ w, xs = [(a, w)] := by
  obtain ⟨x, hx, rfl⟩ := List.map_eq_singleton_iff.1 h
  exact ⟨x.2, hx⟩

theorem two_of_fst {xs : List (Element × List ℝ)} {a b : Element} (h : xs.map Prod.fst = [a, b]) : ∃ w w', xs = [(a, w), (b, w')] := by
  obtain ⟨x, l, rfl, rfl, h'⟩ := List.map_eq_cons_iff.1 h
  obtain ⟨w, rfl⟩ := one_of_fst h'
  exact ⟨x.2, w, rfl⟩

/-- One element with unknowns for another. -/
theorem serves_one {t : ℝ} {V : Ref → ℂ} {a b : Element} (o : List ℝ → List ℝ)
    (hlen : ∀ w, w.length = (a.laws 0 (fun _ => 0) []).length → (o w).length = (b.laws 0 (fun _ => 0) []).length)
    (hlaw : ∀ w, w.length = (a.laws 0 (fun _ => 0) []).length → (∀ z ∈ a.laws t V w, z = 0) → ∀ z ∈ b.laws t V (o w), z = 0)
    (hsum : ∀ w, w.length = (a.laws 0 (fun _ => 0) []).length → ∀ k, busSum k (b.draws t V (o w)) = busSum k (a.draws t V w)) : Serves t V [a] [b] := by
  intro xs hx hl
  match xs, hx with
  | [x], hx =>
    simp only [List.map_cons, List.map_nil, List.cons.injEq, and_true] at hx
    subst hx
    obtain ⟨h1, h2⟩ := hl x List.mem_cons_self
    refine ⟨[(b, o x.2)], rfl, ?_, fun k => ?_⟩
    · intro y hy
      rw [List.mem_singleton.1 hy]
      exact ⟨hlen _ h1, hlaw _ h1 h2⟩
    · simpa using hsum x.2 h1 k

theorem two_of_length {w : List ℝ} (h : w.length = 2) : ∃ a b, w = [a, b] := by
  match w, h with
  | [a, b], _ => exact ⟨a, b, rfl⟩

theorem both_vanish {z : ℂ} : (∀ x ∈ both z, x = 0) ↔ z = 0 := by
  simp [both, Complex.ext_iff]

theorem exchange_serves {a b : List Element} (h : Exchange a b) (t : ℝ) (V : Ref → ℂ) (h0 : V none = 0) : Serves t V a b ∧ Serves t V b a := by
  have mute : (∀ e ∈ a, e.Mute) → (∀ e ∈ b, e.Mute) → (∀ k, busSum k (b.flatMap fun e => e.draws t V []) = busSum k (a.flatMap fun e => e.draws t V [])) →
      Serves t V a b ∧ Serves t V b a := fun ha hb hs => ⟨serves_mute ha hb hs, serves_mute hb ha fun k => (hs k).symm⟩
  have add2 : ∀ x y x' y' : ℝ, (⟨x + x', y + y'⟩ : ℂ) = ⟨x, y⟩ + ⟨x', y'⟩ := fun _ _ _ _ => rfl
  have addI : ∀ y y' : ℝ, (⟨0, y + y'⟩ : ℂ) = ⟨0, y⟩ + ⟨0, y'⟩ := fun y y' => by apply Complex.ext <;> simp
  have z00 : (⟨0, 0⟩ : ℂ) = 0 := rfl
  cases h with
  | lines f u g b bl g' b' bl' =>
    refine mute (by simp [Element.Mute]) (by simp [Element.Mute]) fun k => ?_
    simp only [List.flatMap_cons, List.flatMap_nil, Element.draws, branch, List.cons_append, List.nil_append, List.append_nil, busSum_hit, Raw.busSum_nil, stiff, faded, add2, addI]
    ring
  | turnedLine f u g b bl =>
    refine mute (by simp [Element.Mute]) (by simp [Element.Mute]) fun k => ?_
    simp only [List.flatMap_cons, List.flatMap_nil, Element.draws, branch, List.cons_append, List.nil_append, List.append_nil, busSum_hit, Raw.busSum_nil]
    ring
  | charging f u g b bl =>
    refine mute (by simp [Element.Mute]) (by simp [Element.Mute]) fun k => ?_
    simp only [List.flatMap_cons, List.flatMap_nil, Element.draws, branch, List.cons_append, List.nil_append, List.append_nil, busSum_hit, Raw.busSum_nil, faded, z00]
    ring
  | conductor f u y sh =>
    refine mute (by simp [Element.Mute]) (by simp [Element.Mute]) fun k => ?_
    have hr : List.range 1 = [0] := rfl
    simp only [List.flatMap_cons, List.flatMap_nil, Element.draws, branch, List.length_cons, List.length_nil, zero_add, hr, List.getD_cons_zero, if_true,
      List.cons_append, List.nil_append, List.append_nil, busSum_hit, Raw.busSum_nil]
  | loads f u l l' l'' P Q IP IQ Z =>
    refine mute (by simp [Element.Mute]) (by simp [Element.Mute]) fun k => ?_
    simp only [List.flatMap_cons, List.flatMap_nil, Element.draws, branch, List.cons_append, List.nil_append, List.append_nil, busSum_hit, Raw.busSum_nil, P, Q, IP, IQ, Z, add2,
      add_div, map_add]
    ring
  | turnedLoad f u l =>
    refine mute (by simp [Element.Mute]) (by simp [Element.Mute]) fun k => ?_
    have e : (⟨-l.IP, -l.IQ⟩ : ℂ) = -⟨l.IP, l.IQ⟩ := rfl
    have e2 : V u - V f = -(V f - V u) := by ring
    simp only [List.flatMap_cons, List.flatMap_nil, Element.draws, branch, List.cons_append, List.nil_append, List.append_nil, busSum_hit, Raw.busSum_nil, e, e2, div_neg, map_neg]
    ring
  | noLoad f u =>
    refine mute (by simp [Element.Mute]) (by simp) fun k => ?_
    simp only [List.flatMap_cons, List.flatMap_nil, Element.draws, branch, List.cons_append, List.nil_append, List.append_nil, busSum_hit, Raw.busSum_nil, z00, zero_div, map_zero, inv_zero]
    ring
  | shunts k g b g' b' =>
    refine mute (by simp [Element.Mute]) (by simp [Element.Mute]) fun k => ?_
    simp only [List.flatMap_cons, List.flatMap_nil, Element.draws, List.cons_append, List.nil_append, List.append_nil, busSum_hit, Raw.busSum_nil, faded, add2]
    ring
  | shuntLoad k g b =>
    refine mute (by simp [Element.Mute]) (by simp [Element.Mute]) fun j => ?_
    have hn : hit j none = 0 := by simp [hit]
    simp only [List.flatMap_cons, List.flatMap_nil, Element.draws, branch, List.cons_append, List.nil_append, List.append_nil, busSum_hit, Raw.busSum_nil, faded, z00, zero_div, map_zero,
      inv_inv, h0, hn]
    ring
  | capacitors f u b b' =>
    refine mute (by simp [Element.Mute]) (by simp [Element.Mute]) fun k => ?_
    simp only [List.flatMap_cons, List.flatMap_nil, Element.draws, branch, List.cons_append, List.nil_append, List.append_nil, busSum_hit, Raw.busSum_nil, faded, addI]
    ring
  | capacitorShunt k b =>
    refine mute (by simp [Element.Mute]) (by simp [Element.Mute]) fun j => ?_
    have hn : hit j none = 0 := by simp [hit]
    simp only [List.flatMap_cons, List.flatMap_nil, Element.draws, branch, List.cons_append, List.nil_append, List.append_nil, busSum_hit, Raw.busSum_nil, h0, hn]
    ring
  | openCapacitor f u b => exact mute (by simp [Element.Mute]) (by simp) fun k => rfl
  | openSwitch f u => exact mute (by simp [Element.Mute]) (by simp) fun k => rfl
  | closedSwitch f u =>
    constructor
    · refine serves_one id (fun w h => h) (fun w _ hl => ?_) fun w _ k => rfl
      have := both_vanish.1 hl
      refine both_vanish.2 ?_
      rw [z00, zero_sub]; exact this
    · refine serves_one id (fun w h => h) (fun w _ hl => ?_) fun w _ k => rfl
      have := both_vanish.1 hl
      refine both_vanish.2 ?_
      rw [z00, zero_sub] at this; exact this
  | turnedSource f u vr vi =>
    have key : ∀ (f u : Ref) (vr vi : ℝ), Serves t V [.voltageSource f u vr vi] [.voltageSource u f (-vr) (-vi)] := fun f u vr vi => by
      refine serves_one (fun w => w.map Neg.neg) (fun w h => by rw [List.length_map, h]; rfl) (fun w _ hl => ?_) fun w h k => ?_
      · have := both_vanish.1 hl
        refine both_vanish.2 ?_
        have e : (⟨-vr, -vi⟩ : ℂ) = -⟨vr, vi⟩ := rfl
        rw [e]
        linear_combination -this
      · obtain ⟨a, b, rfl⟩ := two_of_length h
        have e : pairAt [-a, -b] 0 = -pairAt [a, b] 0 := rfl
        simp only [Element.draws, branch, List.map_cons, List.map_nil, e, busSum_hit, Raw.busSum_nil]
        ring
    refine ⟨key f u vr vi, ?_⟩
    have := key u f (-vr) (-vi)
    rwa [neg_neg, neg_neg] at this
  | slack k vr vi =>
    have hn : ∀ j, hit j none = 0 := fun j => by simp [hit]
    constructor
    · refine serves_one (fun w => w) (fun w h => h) (fun w _ hl => ?_) fun w h j => ?_
      · have := both_vanish.1 hl
        refine both_vanish.2 ?_
        rw [h0]
        linear_combination -this
      · simp only [Element.draws, branch, busSum_hit, Raw.busSum_nil, hn]
        ring
    · refine serves_one (fun w => w) (fun w h => h) (fun w _ hl => ?_) fun w h j => ?_
      · have := both_vanish.1 hl
        refine both_vanish.2 ?_
        rw [h0] at this
        linear_combination -this
      · simp only [Element.draws, branch, busSum_hit, Raw.busSum_nil, hn]
        ring
  | fuse f i u =>
    have hd : ∀ w k, busSum k ((Element.fuse f i u).draws t V w) = busSum k ((Element.line f i 10000 10000 0).draws t V []) + busSum k ((Element.switch i u .closed).draws t V w) :=
      fun w k => by
        simp only [Element.draws, branch, List.cons_append, List.nil_append, busSum_hit, Raw.busSum_nil, faded, z00]
        ring
    constructor
    · intro xs hx hl
      obtain ⟨w, rfl⟩ := one_of_fst hx
      obtain ⟨h1, h2⟩ := hl _ List.mem_cons_self
      refine ⟨[(.line f i 10000 10000 0, []), (.switch i u .closed, w)], rfl, ?_, fun k => ?_⟩
      · intro y hy
        rcases List.mem_cons.1 hy with rfl | hy
        · exact ⟨rfl, by simp [Element.laws]⟩
        · rw [List.mem_singleton.1 hy]; exact ⟨h1, h2⟩
      · simp only [List.flatMap_cons, List.flatMap_nil, List.append_nil, Raw.busSum_append, hd]
    · intro xs hx hl
      obtain ⟨w, w', rfl⟩ := two_of_fst hx
      obtain ⟨h1, h2⟩ := hl (_, w') (List.mem_cons_of_mem _ List.mem_cons_self)
      refine ⟨[(.fuse f i u, w')], rfl, ?_, fun k => ?_⟩
      · intro y hy
        rw [List.mem_singleton.1 hy]; exact ⟨h1, h2⟩
      · simp only [List.flatMap_cons, List.flatMap_nil, List.append_nil, Raw.busSum_append, hd]
        rw [mute_draws (by trivial) t V w]
  | regulator f c u tr g b =>
    have hd : ∀ x1 x2 x3 x4 y1 y2 k, busSum k ((Element.regulator f c u tr g b).draws t V [x1, x2, x3, x4, y1, y2]) =
        busSum k ((Element.transformer f none c none tr 0 g b).draws t V [x1, x2, x3, x4]) + busSum k ((Element.switch c u .closed).draws t V [y1, y2]) :=
      fun _ _ _ _ _ _ k => Raw.busSum_append k _ _
    have hl' : ∀ x1 x2 x3 x4 y1 y2, (Element.regulator f c u tr g b).laws t V [x1, x2, x3, x4, y1, y2] =
        (Element.transformer f none c none tr 0 g b).laws t V [x1, x2, x3, x4] ++ (Element.switch c u .closed).laws t V [y1, y2] := fun _ _ _ _ _ _ => rfl
    constructor
    · intro xs hx hl
      obtain ⟨w, rfl⟩ := one_of_fst hx
      obtain ⟨h1, h2⟩ := hl _ List.mem_cons_self
      have h1 : w.length = 6 := h1
      match w, h1 with
      | [x1, x2, x3, x4, y1, y2], _ =>
        dsimp only at h2
        rw [hl'] at h2
        refine ⟨[(.transformer f none c none tr 0 g b, [x1, x2, x3, x4]), (.switch c u .closed, [y1, y2])], rfl, ?_, fun k => ?_⟩
        · intro y hy
          rcases List.mem_cons.1 hy with rfl | hy
          · exact ⟨rfl, fun z hz => h2 z (List.mem_append_left _ hz)⟩
          · rw [List.mem_singleton.1 hy]; exact ⟨rfl, fun z hz => h2 z (List.mem_append_right _ hz)⟩
        · simp only [List.flatMap_cons, List.flatMap_nil, List.append_nil, Raw.busSum_append, hd]
    · intro xs hx hl
      obtain ⟨w, w', rfl⟩ := two_of_fst hx
      obtain ⟨h1, h2⟩ := hl (_, w) List.mem_cons_self
      obtain ⟨h3, h4⟩ := hl (_, w') (List.mem_cons_of_mem _ List.mem_cons_self)
      have h1 : w.length = 4 := h1
      have h3 : w'.length = 2 := h3
      match w, w', h1, h3 with
      | [x1, x2, x3, x4], [y1, y2], _, _ =>
        refine ⟨[(.regulator f c u tr g b, [x1, x2, x3, x4, y1, y2])], rfl, ?_, fun k => ?_⟩
        · intro y hy
          rw [List.mem_singleton.1 hy]
          refine ⟨rfl, fun z hz => ?_⟩
          dsimp only at hz
          rw [hl'] at hz
          exact (List.mem_append.1 hz).elim (h2 z) (h4 z)
        · simp only [List.flatMap_cons, List.flatMap_nil, List.append_nil, Raw.busSum_append, hd]

/-! ### Whole networks -/

theorem serves_refl (t : ℝ) (V : Ref → ℂ) (a : List Element) : Serves t V a a := fun xs hx hl => ⟨xs, hx, hl, fun _ => rfl⟩

theorem serves_flatten {t : ℝ} {V : Ref → ℂ} (h0 : V none = 0) {as bs : List (List Element)}
    (h : List.Forall₂ (fun a b => a = b ∨ Exchange a b ∨ Exchange b a) as bs) : Serves t V as.flatten bs.flatten := by
  induction h with
  | nil => exact serves_refl _ _ _
  | @cons a b as bs hab _ ih =>
    have hs : Serves t V a b := by
      rcases hab with rfl | h | h
      · exact serves_refl _ _ _
      · exact (exchange_serves h t V h0).1
      · exact (exchange_serves h t V h0).2
    intro xs hx hl
    rw [List.flatten_cons] at hx
    obtain ⟨x1, x2, rfl, e1, e2⟩ := List.map_eq_append_iff.1 hx
    obtain ⟨y1, g1, g2, g3⟩ := hs x1 e1 fun x h => hl x (List.mem_append_left _ h)
    obtain ⟨y2, i1, i2, i3⟩ := ih x2 e2 fun x h => hl x (List.mem_append_right _ h)
    refine ⟨y1 ++ y2, by rw [List.map_append, g1, i1, List.flatten_cons], fun x h => (List.mem_append.1 h).elim (g2 x) (i2 x), fun k => ?_⟩
    simp only [List.flatMap_append, Raw.busSum_append, g3, i3]

theorem serves_perm {t : ℝ} {V : Ref → ℂ} {a b : List Element} (h : a.Perm b) : Serves t V a b := by
  intro xs hx hl
  obtain ⟨ys, g1, g2⟩ := perm_lift Prod.fst (l := xs) (m := b) (by rw [hx]; exact h)
  exact ⟨ys, g2, fun y hy => hl y (g1.mem_iff.2 hy), fun k => busSum_perm k (g1.symm.flatMap_right _)⟩

theorem serves_trans {t : ℝ} {V : Ref → ℂ} {a b c : List Element} (h : Serves t V a b) (h' : Serves t V b c) : Serves t V a c := by
  intro xs hx hl
  obtain ⟨ys, g1, g2, g3⟩ := h xs hx hl
  obtain ⟨zs, i1, i2, i3⟩ := h' ys g1 g2
  exact ⟨zs, i1, i2, fun k => (i3 k).trans (g3 k)⟩

theorem exchanged_serves {N M : Network} (h : Exchanged N M) (t : ℝ) (V : Ref → ℂ) (h0 : V none = 0) : Serves t V N.elements M.elements := by
  obtain ⟨as, bs, h1, h2, h3⟩ := h.elements
  exact serves_trans (serves_perm h2) (serves_trans (serves_flatten h0 h1) (serves_perm h3.symm))

theorem Exchanged.symm {N M : Network} (h : Exchanged N M) : Exchanged M N := by
  obtain ⟨as, bs, h1, h2, h3⟩ := h.elements
  refine ⟨h.plain', h.plain, h.buses.symm, bs, as, List.Forall₂.flip (h1.imp fun a b hab => ?_), h3, h2⟩
  rcases hab with rfl | h | h
  · exact Or.inl rfl
  · exact Or.inr (Or.inr h)
  · exact Or.inr (Or.inl h)

end Verif
