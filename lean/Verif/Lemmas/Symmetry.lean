import Verif.Spec.Symmetry
import Verif.Lemmas.Resistive

/-!
# Lemmas on relisted and turned networks
-/

namespace Verif

open ComplexConjugate
open Raw (busSum_nil busSum_append busSum_flatMap)

variable {L : Library}

/-! ### Relisting -/

theorem perm_lift {α β : Type} (f : α → β) {l : List α} {m : List β} (h : (l.map f).Perm m) : ∃ l', l.Perm l' ∧ l'.map f = m := by
  generalize hx : l.map f = x at h
  induction h generalizing l with
  | nil => exact ⟨[], by simp at hx; simp [hx], rfl⟩
  | cons a _ ih =>
    cases l with
    | nil => simp at hx
    | cons b l =>
      simp only [List.map_cons, List.cons.injEq] at hx
      obtain ⟨l', h1, h2⟩ := ih hx.2
      exact ⟨b :: l', h1.cons _, by simp [h2, hx.1]⟩
  | swap a b t =>
    match l, hx with
    | y :: x :: l, hx =>
      simp only [List.map_cons, List.cons.injEq] at hx
      exact ⟨x :: y :: l, List.Perm.swap _ _ _, by simp [hx]⟩
  | trans _ _ ih1 ih2 =>
    obtain ⟨l1, h1, h2⟩ := ih1 hx
    obtain ⟨l2, h3, h4⟩ := ih2 h2
    exact ⟨l2, h1.trans h3, h4⟩

theorem move_inj (σ : Equiv.Perm ℕ) (r : Ref) (k : ℕ) : Ref.move σ r = some (σ k) ↔ r = some k := by
  cases r <;> simp [Ref.move]

theorem draws_move (σ : Equiv.Perm ℕ) (t : ℝ) (V V' : Ref → ℂ) (hV : ∀ r, V' (Ref.move σ r) = V r) (w : List ℝ) (e : Element) :
    (e.move σ).draws t V' w = (e.draws t V w).map fun d => (Ref.move σ d.1, d.2) := by
  have hs : ∀ k, V' (some (σ k)) = V (some k) := fun k => hV (some k)
  cases e with
  | unbalanced ph y sh =>
    simp only [Element.move, Element.draws, List.length_map, List.map_flatMap, branch]
    refine List.flatMap_congr fun i hi => List.flatMap_congr fun j hj => ?_
    have hi := List.mem_range.1 hi
    have hj := List.mem_range.1 hj
    have e1 : ∀ k < ph.length, (ph.map fun p => (σ p.1, σ p.2)).getD k (0, 0) = (σ (ph.getD k (0, 0)).1, σ (ph.getD k (0, 0)).2) := fun k hk => by
      simp [List.getD_eq_getElem?_getD, List.getElem?_eq_getElem, hk]
    rw [e1 i hi, e1 j hj]
    simp [hs, Ref.move]
  | switch f u s => cases s <;> simp [Element.move, Element.draws, branch]
  | capacitor f u s b => cases s <;> simp [Element.move, Element.draws, branch, hV]
  | centerTap => simp [Element.move, Element.draws, branch, hs, Ref.move]
  | slack => simp [Element.move, Element.draws, Ref.move]
  | generator => simp [Element.move, Element.draws, Ref.move, hs]
  | shunt => simp [Element.move, Element.draws, Ref.move, hs]
  | regulator => simp [Element.move, Element.draws, xfmrDraws, branch, hV]; simp [Ref.move]
  | transformer => simp [Element.move, Element.draws, xfmrDraws, branch, hV]
  | _ => simp [Element.move, Element.draws, branch, hV]

theorem laws_move (σ : Equiv.Perm ℕ) (t : ℝ) (V V' : Ref → ℂ) (hV : ∀ r, V' (Ref.move σ r) = V r) (w : List ℝ) (e : Element) :
    (e.move σ).laws t V' w = e.laws t V w := by
  have hs : ∀ k, V' (some (σ k)) = V (some k) := fun k => hV (some k)
  have hn : V' none = V none := hV none
  cases e with
  | switch f u s => cases s <;> simp [Element.move, Element.laws, hV]
  | _ => simp [Element.move, Element.laws, xfmrLaws, hs, hV, hn]

theorem busSum_move (σ : Equiv.Perm ℕ) (k : ℕ) (ds : List (Ref × ℂ)) : busSum (σ k) (ds.map fun d => (Ref.move σ d.1, d.2)) = busSum k ds := by
  induction ds with
  | nil => rfl
  | cons d ds ih =>
    obtain ⟨r, z⟩ := d
    rw [List.map_cons, busSum_cons, busSum_cons, ih]
    simp only [move_inj]

theorem busSum_perm (k : ℕ) {a b : List (Ref × ℂ)} (h : a.Perm b) : busSum k a = busSum k b := by
  unfold busSum
  exact ((h.filter _).map _).sum_eq

theorem kirchhoff_move (σ : Equiv.Perm ℕ) (n : ℕ) (hn : ∀ k, σ k < n ↔ k < n) (t : ℝ) (V V' : Ref → ℂ) (hV : ∀ r, V' (Ref.move σ r) = V r)
    {es es' : List (Element × List ℝ)} (he : (es.map fun x => (x.1.move σ, x.2)).Perm es') (h : Kirchhoff n t V es) : Kirchhoff n t V' es' := by
  obtain ⟨h1, h2⟩ := h
  constructor
  · intro k' hk'
    obtain ⟨k, rfl⟩ := σ.surjective k'
    have h3 := h1 k ((hn k).1 hk')
    show busSum (σ k) _ = 0
    rw [← h3, ← busSum_perm _ (he.flatMap_right _)]
    show _ = busSum k _
    rw [List.flatMap_map, ← busSum_move σ k, List.map_flatMap]
    congr 1
    exact List.flatMap_congr fun (x : Element × List ℝ) _ => draws_move σ t V V' hV x.2 x.1
  · intro x hx z hz
    obtain ⟨y, hy, rfl⟩ := List.mem_map.1 (he.mem_iff.2 hx)
    rw [laws_move σ t V V' hV] at hz
    exact h2 y hy z hz

theorem laws_move_length (σ : Equiv.Perm ℕ) (e : Element) : ((e.move σ).laws 0 (fun _ => 0) []).length = (e.laws 0 (fun _ => 0) []).length := by
  cases e with
  | switch f u s => cases s <;> rfl
  | _ => rfl

theorem owned_widths (N : Network) (ho : N.optimization = none) (v : ℕ → ℝ) :
    ∀ x ∈ (N.assign L).owned L N v, x.2.length = (x.1.laws 0 (fun _ => 0) []).length := by
  intro x hx
  rw [owned_eq] at hx
  obtain ⟨z, hz, rfl⟩ := List.mem_map.1 hx
  simpa using ownIdx_length N ho z hz

theorem voltages_out (N : Network) (v : ℕ → ℝ) {k : ℕ} (hk : N.buses ≤ k) : (N.assign L).voltages v (some k) = 0 := by
  have hl : (N.assign L).nodes.length = N.buses := (assignBuses_proper _ _ _).1
  show (((N.assign L).nodes).getD k Node.ground).volt v = 0
  rw [List.getD_eq_getElem?_getD, List.getElem?_eq_none (by omega)]
  rfl

/-! ### Turning -/

theorem turnPairs_length (c : ℂ) : ∀ w : List ℝ, (turnPairs c w).length = w.length
  | [] => rfl
  | [_] => rfl
  | a :: b :: l => by simp [turnPairs, turnPairs_length c l]

theorem pairAt_turn (c : ℂ) : ∀ (w : List ℝ) (j : ℕ), w.length % 2 = 0 → pairAt (turnPairs c w) (2 * j) = c * pairAt w (2 * j)
  | [], j, _ => by
    have : pairAt [] (2 * j) = 0 := by simp [pairAt]; rfl
    simp [turnPairs, this]
  | [_], _, h => by simp at h
  | a :: b :: l, 0, _ => by apply Complex.ext <;> simp [turnPairs, pairAt]
  | a :: b :: l, j + 1, h => by
    have ih := pairAt_turn c l j (by simp at h; omega)
    have e : 2 * (j + 1) = 2 * j + 1 + 1 := by ring
    rw [e]
    have : ∀ (x y : ℝ) (m : List ℝ), pairAt (x :: y :: m) (2 * j + 1 + 1) = pairAt m (2 * j) := fun x y m => by simp [pairAt]
    rw [turnPairs, this, this, ih]

theorem conj_unit {c : ℂ} (hc : ‖c‖ = 1) (z : ℂ) : conj (z / c) = conj z * c := by
  have h1 : c * conj c = 1 := by rw [Complex.mul_conj, Complex.normSq_eq_norm_sq, hc]; simp
  have h0 : c ≠ 0 := fun h => by simp [h] at hc
  have h2 : conj c ≠ 0 := by simpa using h0
  rw [map_div₀, div_eq_iff h2, mul_assoc, h1, mul_one]

theorem conj_power {c : ℂ} (hc : ‖c‖ = 1) (s v : ℂ) : conj (s / (c * v)) = c * conj (s / v) := by
  rw [mul_comm c v, ← div_div, conj_unit hc, mul_comm]

theorem draws_turn {c : ℂ} (hc : ‖c‖ = 1) (t : ℝ) (V V' : Ref → ℂ) (hV : ∀ r, V' r = c * V r) (e : Element) (he : e.Turnable) (w : List ℝ)
    (hw : w.length = (e.laws 0 (fun _ => 0) []).length) :
    (e.turn c).draws t V' (e.turnOwn c w) = (e.draws t V w).map fun d => (d.1, c * d.2) := by
  have hp : w.length % 2 = 0 → ∀ j, pairAt (turnPairs c w) (2 * j) = c * pairAt w (2 * j) := fun h j => pairAt_turn c w j h
  cases e with
  | line => simp [Element.turn, Element.draws, branch, hV]; (repeat' apply And.intro) <;> ring
  | unbalanced ph y sh =>
    simp only [Element.turn, Element.draws, List.map_flatMap, branch]
    refine List.flatMap_congr fun i hi => List.flatMap_congr fun j hj => ?_
    simp [hV]; (repeat' apply And.intro) <;> ring_nf
  | transformer =>
    have hw : w.length = 4 := hw
    have hp := hp (by omega)
    have h0 := hp 0; have h2 := hp 1
    simp only [Nat.mul_zero, Nat.mul_one] at h0 h2
    simp [Element.turn, Element.turnOwn, Element.draws, xfmrDraws, branch, hV, h0, h2]; (repeat' apply And.intro) <;> ring
  | centerTap =>
    have hw : w.length = 4 := hw
    have hp := hp (by omega)
    have h0 := hp 0; have h2 := hp 1
    simp only [Nat.mul_zero, Nat.mul_one] at h0 h2
    simp [Element.turn, Element.turnOwn, Element.draws, branch, hV, h0, h2]; (repeat' apply And.intro) <;> ring
  | slack =>
    have hw : w.length = 2 := hw
    have h0 := hp (by omega) 0
    simp only [Nat.mul_zero] at h0
    simp [Element.turn, Element.turnOwn, Element.draws, h0]
  | switch f u s =>
    cases s with
    | closed =>
      have hw : w.length = 2 := hw
      have h0 := hp (by omega) 0
      simp only [Nat.mul_zero] at h0
      simp [Element.turn, Element.turnOwn, Element.draws, branch, h0]
    | opened => simp [Element.turn, Element.draws]
  | generator => simp only [Element.turn, Element.turnOwn, Element.draws, hV, conj_power hc, List.map_cons, List.map_nil]
  | load f u l =>
    obtain ⟨h1, h2⟩ := he
    have e0 : (⟨l.IP, l.IQ⟩ : ℂ) = 0 := by rw [h1, h2]; rfl
    simp only [Element.turn, Element.draws, branch, hV, e0, ← mul_sub, conj_power hc]
    simp only [List.map_cons, List.map_nil]
    congr 2
    · ring
    · congr 2; ring
  | voltageSource =>
    have hw : w.length = 2 := hw
    have h0 := hp (by omega) 0
    simp only [Nat.mul_zero] at h0
    simp [Element.turn, Element.turnOwn, Element.draws, branch, h0]
  | shunt => simp [Element.turn, Element.draws, hV]; ring
  | regulator =>
    have hw : w.length = 6 := hw
    have hp := hp (by omega)
    have h0 := hp 0; have h2 := hp 1; have h4 := hp 2
    simp only [Nat.mul_zero, Nat.mul_one, Nat.reduceMul] at h0 h2 h4
    simp [Element.turn, Element.turnOwn, Element.draws, xfmrDraws, branch, hV, h0, h2, h4]; (repeat' apply And.intro) <;> ring
  | fuse =>
    have hw : w.length = 2 := hw
    have h0 := hp (by omega) 0
    simp only [Nat.mul_zero] at h0
    simp [Element.turn, Element.turnOwn, Element.draws, branch, hV, h0]; ring
  | capacitor f u s b =>
    cases s with
    | closed => simp [Element.turn, Element.draws, branch, hV]; ring
    | opened => simp [Element.turn, Element.draws]

theorem both_turn (c z : ℂ) (h : ∀ x ∈ both z, x = 0) : ∀ x ∈ both (c * z), x = 0 := by
  have : z = 0 := by
    apply Complex.ext
    · exact h _ (by simp [both])
    · exact h _ (by simp [both])
  subst this
  simp [both]

theorem laws_turn {c : ℂ} (hc : ‖c‖ = 1) (t : ℝ) (V V' : Ref → ℂ) (hV : ∀ r, V' r = c * V r) (e : Element) (w : List ℝ)
    (hw : w.length = (e.laws 0 (fun _ => 0) []).length) (h : ∀ z ∈ e.laws t V w, z = 0) :
    ∀ z ∈ (e.turn c).laws t V' (e.turnOwn c w), z = 0 := by
  have hp : w.length % 2 = 0 → ∀ j, pairAt (turnPairs c w) (2 * j) = c * pairAt w (2 * j) := fun h j => pairAt_turn c w j h
  have key : ∀ a b : ℂ, b = c * a → (∀ z ∈ both a, z = 0) → ∀ z ∈ both b, z = 0 := fun a b e h => by rw [e]; exact both_turn c a h
  cases e with
  | transformer =>
    have hw : w.length = 4 := hw
    have hp := hp (by omega)
    have h0 := hp 0; have h2 := hp 1
    simp only [Nat.mul_zero, Nat.mul_one] at h0 h2
    simp only [Element.turn, Element.turnOwn, Element.laws, xfmrLaws, hV, h0, h2, List.forall_mem_append] at h ⊢
    exact ⟨key _ _ (by ring) h.1, key _ _ (by ring) h.2⟩
  | centerTap =>
    simp only [Element.turn, Element.turnOwn, Element.laws, hV, List.forall_mem_append] at h ⊢
    exact ⟨key _ _ (by ring) h.1, key _ _ (by ring) h.2⟩
  | slack b vr vi =>
    simp only [Element.turn, Element.laws, hV] at h ⊢
    exact key _ _ (by rw [Complex.eta]; ring) h
  | switch f u s =>
    cases s with
    | closed =>
      simp only [Element.turn, Element.laws, hV] at h ⊢
      exact key _ _ (by ring) h
    | opened => simp [Element.turn, Element.laws]
  | generator b P Vset =>
    simp only [Element.turn, Element.laws, hV, Complex.normSq_mul] at h ⊢
    have : Complex.normSq c = 1 := by rw [Complex.normSq_eq_norm_sq, hc]; norm_num
    rw [this, one_mul]; exact h
  | voltageSource f u vr vi =>
    simp only [Element.turn, Element.laws, hV] at h ⊢
    exact key _ _ (by rw [Complex.eta]; ring) h
  | regulator =>
    have hw : w.length = 6 := hw
    have hp := hp (by omega)
    have h0 := hp 0; have h2 := hp 1; have h4 := hp 2
    simp only [Nat.mul_zero, Nat.mul_one, Nat.reduceMul] at h0 h2 h4
    simp only [Element.turn, Element.turnOwn, Element.laws, xfmrLaws, hV, h0, h2, List.forall_mem_append] at h ⊢
    exact ⟨⟨key _ _ (by ring) h.1.1, key _ _ (by ring) h.1.2⟩, key _ _ (by ring) h.2⟩
  | fuse =>
    simp only [Element.turn, Element.laws, hV] at h ⊢
    exact key _ _ (by ring) h
  | _ => simp [Element.turn, Element.laws]

theorem busSum_scale (c : ℂ) (k : ℕ) (ds : List (Ref × ℂ)) : busSum k (ds.map fun d => (d.1, c * d.2)) = c * busSum k ds := by
  induction ds with
  | nil => simp [busSum]
  | cons d ds ih =>
    obtain ⟨r, z⟩ := d
    rw [List.map_cons, busSum_cons, busSum_cons, ih]
    split_ifs <;> ring

theorem turn_laws_length (c : ℂ) (e : Element) : ((e.turn c).laws 0 (fun _ => 0) []).length = (e.laws 0 (fun _ => 0) []).length := by
  cases e with
  | switch f u s => cases s <;> rfl
  | _ => rfl

theorem turnOwn_length (c : ℂ) (e : Element) (w : List ℝ) : (e.turnOwn c w).length = w.length := by
  cases e <;> simp [Element.turnOwn, turnPairs_length]

theorem kirchhoff_turn {c : ℂ} (hc : ‖c‖ = 1) (n : ℕ) (t : ℝ) (V V' : Ref → ℂ) (hV : ∀ r, V' r = c * V r) (es : List (Element × List ℝ))
    (he : ∀ x ∈ es, x.1.Turnable) (hw : ∀ x ∈ es, x.2.length = (x.1.laws 0 (fun _ => 0) []).length) (h : Kirchhoff n t V es) :
    Kirchhoff n t V' (es.map fun x => (x.1.turn c, x.1.turnOwn c x.2)) := by
  obtain ⟨h1, h2⟩ := h
  constructor
  · intro k hk
    have h3 : busSum k _ = 0 := h1 k hk
    show busSum k _ = 0
    have : (es.map fun x => (x.1.turn c, x.1.turnOwn c x.2)).flatMap (fun x => x.1.draws t V' x.2) =
        (es.flatMap fun x => x.1.draws t V x.2).map fun d => (d.1, c * d.2) := by
      rw [List.flatMap_map, List.map_flatMap]
      exact List.flatMap_congr fun x hx => draws_turn hc t V V' hV x.1 (he x hx) x.2 (hw x hx)
    rw [this, busSum_scale, h3, mul_zero]
  · intro x hx z hz
    obtain ⟨y, hy, rfl⟩ := List.mem_map.1 hx
    exact laws_turn hc t V V' hV y.1 y.2 (hw y hy) (h2 y hy) z hz

/-! ### Sturdy networks -/

theorem joins_move (σ : Equiv.Perm ℕ) {e : Element} {a b : Ref} (h : e.Joins a b) : (e.move σ).Joins (Ref.move σ a) (Ref.move σ b) := by
  cases e with
  | line => obtain ⟨rfl, rfl⟩ := h; exact ⟨rfl, rfl⟩
  | unbalanced ph y sh =>
    obtain ⟨p, hp, rfl, rfl⟩ := h
    exact ⟨_, List.mem_map_of_mem hp, rfl, rfl⟩
  | transformer => exact h.elim
  | centerTap =>
    rcases h with ⟨rfl, rfl⟩ | ⟨rfl, rfl⟩ | ⟨rfl, rfl⟩ | ⟨rfl, rfl⟩ | ⟨rfl, rfl⟩ <;> simp [Element.Joins, Element.move, Ref.move]
  | slack => obtain ⟨rfl, rfl⟩ := h; exact ⟨rfl, rfl⟩
  | switch f u s =>
    cases s with
    | closed => obtain ⟨rfl, rfl⟩ := h; exact ⟨rfl, rfl⟩
    | opened => exact h.elim
  | generator => exact h.elim
  | load => obtain ⟨h0, rfl, rfl⟩ := h; exact ⟨h0, rfl, rfl⟩
  | voltageSource => obtain ⟨rfl, rfl⟩ := h; exact ⟨rfl, rfl⟩
  | shunt => obtain ⟨h0, rfl, rfl⟩ := h; exact ⟨h0, rfl, rfl⟩
  | regulator => rcases h with ⟨rfl, rfl⟩ | ⟨rfl, rfl⟩ <;> simp [Element.Joins, Element.move]
  | fuse => rcases h with ⟨rfl, rfl⟩ | ⟨rfl, rfl⟩ <;> simp [Element.Joins, Element.move]
  | capacitor => exact h.elim

theorem held_move (σ : Equiv.Perm ℕ) {es es' : List Element} (he : ∀ e ∈ es, e.move σ ∈ es') {r : Ref} (h : Held es r) :
    Held es' (Ref.move σ r) := by
  induction h with
  | ground => exact .ground
  | forth h1 h2 _ ih => exact .forth (he _ h1) (joins_move σ h2) ih
  | back h1 h2 _ ih => exact .back (he _ h1) (joins_move σ h2) ih
  | primary h1 _ _ _ i1 i2 i3 => exact .primary (he _ h1) i1 i2 i3
  | primaryNeg h1 _ _ _ i1 i2 i3 => exact .primaryNeg (he _ h1) i1 i2 i3
  | secondary h1 _ _ _ i1 i2 i3 => exact .secondary (he _ h1) i1 i2 i3
  | secondaryNeg h1 _ _ _ i1 i2 i3 => exact .secondaryNeg (he _ h1) i1 i2 i3

theorem loopless_perm {l : List (Ref × Ref)} (h : Loopless l) : ∀ {m : List (Ref × Ref)}, l.Perm m → Loopless m := by
  induction h with
  | nil => intro m hm; rw [List.nil_perm.1 hm]; exact .nil
  | @leaf l₁ l₂ f u k _ h2 h3 ih =>
    intro m hm
    have hmem : (f, u) ∈ m := hm.mem_iff.1 (by simp)
    obtain ⟨m1, m2, rfl⟩ := List.append_of_mem hmem
    have hp : (l₁ ++ l₂).Perm (m1 ++ m2) := by
      have := List.perm_middle.symm.trans (hm.trans List.perm_middle)
      exact (List.perm_cons _).1 this
    exact .leaf k (ih hp) (fun b hb => h2 b (hp.mem_iff.2 hb)) h3

theorem loopless_move (σ : Equiv.Perm ℕ) {l : List (Ref × Ref)} (h : Loopless l) : Loopless (l.map fun p => (Ref.move σ p.1, Ref.move σ p.2)) := by
  induction h with
  | nil => exact .nil
  | @leaf l₁ l₂ f u k _ h2 h3 ih =>
    rw [List.map_append] at ih
    rw [List.map_append, List.map_cons]
    refine .leaf (σ k) ih (fun b hb => ?_) ?_
    · rw [← List.map_append] at hb
      obtain ⟨c, hc, rfl⟩ := List.mem_map.1 hb
      have := h2 c hc
      exact ⟨fun h => this.1 ((move_inj σ _ _).1 h), fun h => this.2 ((move_inj σ _ _).1 h)⟩
    · rcases h3 with ⟨a, b⟩ | ⟨a, b⟩
      · exact Or.inl ⟨(move_inj σ _ _).2 a, fun h => b ((move_inj σ _ _).1 h)⟩
      · exact Or.inr ⟨(move_inj σ _ _).2 a, fun h => b ((move_inj σ _ _).1 h)⟩

theorem rigid_move (σ : Equiv.Perm ℕ) (e : Element) : (e.move σ).rigid = e.rigid.map fun p => (Ref.move σ p.1, Ref.move σ p.2) := by
  cases e with
  | switch f u s => cases s <;> rfl
  | _ => rfl

theorem resistive_move (σ : Equiv.Perm ℕ) {e : Element} (h : e.Resistive) : (e.move σ).Resistive := by
  cases e with
  | unbalanced ph y sh => simpa [Element.move, Element.Resistive] using h
  | _ => exact h

theorem ref_move_valid (σ : Equiv.Perm ℕ) {n : ℕ} (hn : ∀ k, σ k < n ↔ k < n) {r : Ref} (h : Ref.Valid n r) : Ref.Valid n (Ref.move σ r) := by
  cases r with
  | none => trivial
  | some k => exact (hn k).2 h

theorem valid_move (σ : Equiv.Perm ℕ) {n : ℕ} (hn : ∀ k, σ k < n ↔ k < n) {e : Element} (h : e.Valid n) : (e.move σ).Valid n := by
  have hr := fun r h => ref_move_valid σ hn (r := r) h
  cases e with
  | line => exact ⟨hr _ h.1, hr _ h.2⟩
  | unbalanced ph y sh =>
    intro p hp
    obtain ⟨q, hq, rfl⟩ := List.mem_map.1 hp
    exact ⟨(hn _).2 (h q hq).1, (hn _).2 (h q hq).2⟩
  | transformer => exact ⟨hr _ h.1, hr _ h.2.1, hr _ h.2.2.1, hr _ h.2.2.2⟩
  | centerTap =>
    obtain ⟨h1, h2, h3, h4, h5, h6⟩ := h
    exact ⟨(hn _).2 h1, (hn _).2 h2, (hn _).2 h3, (hn _).2 h4, (hn _).2 h5, (hn _).2 h6⟩
  | slack => exact (hn _).2 h
  | switch => exact ⟨hr _ h.1, hr _ h.2⟩
  | generator => exact (hn _).2 h
  | load => exact ⟨hr _ h.1, hr _ h.2⟩
  | voltageSource => exact ⟨hr _ h.1, hr _ h.2⟩
  | shunt => exact (hn _).2 h
  | regulator => exact ⟨hr _ h.1, hr _ h.2.1, hr _ h.2.2⟩
  | fuse => exact ⟨hr _ h.1, hr _ h.2.1, hr _ h.2.2⟩
  | capacitor => exact ⟨hr _ h.1, hr _ h.2⟩

theorem Relisted.moved {σ : Equiv.Perm ℕ} {N N' : Network} (h : Relisted σ N N') : ∀ e' ∈ N'.elements, ∃ e ∈ N.elements, e.move σ = e' :=
  fun e' he' => List.mem_map.1 (h.elements.mem_iff.2 he')

theorem Relisted.valid {σ : Equiv.Perm ℕ} {N N' : Network} (h : Relisted σ N N') (hv : N.Valid) : N'.Valid := by
  intro e' he'
  obtain ⟨e, he, rfl⟩ := h.moved e' he'
  rw [h.buses]
  exact valid_move σ h.inside (hv e he)

theorem Relisted.sturdy {σ : Equiv.Perm ℕ} {N N' : Network} (h : Relisted σ N N') (hN : N.Sturdy) : N'.Sturdy where
  plain := h.plain'
  resistive := fun e' he' => by
    obtain ⟨e, he, rfl⟩ := h.moved e' he'
    exact resistive_move σ (hN.resistive e he)
  held := fun k' hk' => by
    obtain ⟨k, rfl⟩ := σ.surjective k'
    have := held_move σ (es' := N'.elements) (fun e he => h.elements.mem_iff.1 (List.mem_map_of_mem he)) (hN.held k ((h.inside k).1 (h.buses ▸ hk')))
    exact this
  loopless := by
    refine loopless_perm (loopless_move σ hN.loopless) ?_
    refine List.Perm.trans ?_ (h.elements.flatMap_right _)
    rw [List.flatMap_map, List.map_flatMap]
    refine List.Perm.of_eq (List.flatMap_congr fun e _ => (rigid_move σ e).symm)

end Verif
