import Verif.Lemmas.GlmFlow

/-!
# The devices of a GridLAB-D file: from the laws of the elements to the laws of the file
-/

namespace Verif.Glm

open ComplexConjugate
open Verif.Raw (busSum_nil busSum_append busSum_flatMap both_zero)

variable {M : Type} {objs : List (Txt × Obj)} {g : Grid M} {V : Txt → Char → ℂ} {U : Ref → ℂ}

theorem FileAt.term {name : Txt} {p : Char} {b : ℕ} (h : FileAt objs g name p b) : TermBus objs g (some (name, p)) (some b) := ⟨b, rfl, h⟩

theorem both_append {a b : ℂ} : (∀ z ∈ both a ++ both b, z = 0) ↔ a = 0 ∧ b = 0 := by
  rw [List.forall_mem_append, both_zero, both_zero]

/-- The inner buses of an element. -/
def _root_.Verif.Element.inner : Element → List ℕ
  | .centerTap _ p s1 _ s2 .. => [p, s1, s2]
  | .regulator _ (some c) _ .. => [c]
  | .fuse _ (some i) _ => [i]
  | _ => []

/-- The laws of an element hold, and the currents at its inner buses add up to zero. -/
def Obeys (U : Ref → ℂ) (e : Element) (w : List ℝ) : Prop := (∀ z ∈ e.laws 0 U w, z = 0) ∧ ∀ k ∈ e.inner, busSum k (e.draws 0 U w) = 0

/-- The element `e` does what `F` says at the voltages `V`. -/
structure Models (objs : List (Txt × Obj)) (g : Grid M) (V : Txt → Char → ℂ) (F : List (Term × ℂ) → Prop) (e : Element) : Prop where
  inner : ∀ k ∈ e.inner, Inner g k
  quiet : ∀ U w, Quiet g e.inner (e.draws 0 U w)
  sound : ∀ U w, Places objs g V U → Obeys U e w → ∃ l, F l ∧ Carries objs g l (e.draws 0 U w)
  complete : ∀ l, F l → ∃ (vals : List (ℕ × ℂ)) (w : List ℝ), vals.map Prod.fst = e.inner ∧ w.length = (e.laws 0 (fun _ => 0) []).length ∧
    ∀ U, Places objs g V U → (∀ x ∈ vals, U (some x.1) = x.2) → Obeys U e w ∧ Carries objs g l (e.draws 0 U w)

theorem inner_none {e : Element} (h : e.inner = []) {U : Ref → ℂ} {w : List ℝ} : Obeys U e w ↔ ∀ z ∈ e.laws 0 U w, z = 0 := by
  rw [Obeys, h]
  exact ⟨fun h => h.1, fun h => ⟨h, fun k hk => absurd hk (by simp)⟩⟩

theorem pairAt_zero (z : ℂ) (l : List ℝ) : pairAt (z.re :: z.im :: l) 0 = z := rfl

theorem pairAt_two (x y : ℝ) (z : ℂ) (l : List ℝ) : pairAt (x :: y :: z.re :: z.im :: l) 2 = z := rfl

theorem pairAt_four (x y x' y' : ℝ) (z : ℂ) (l : List ℝ) : pairAt (x :: y :: x' :: y' :: z.re :: z.im :: l) 4 = z := rfl

/-! ### Sources, switches, loads, capacitors -/

theorem source_flow (hc : Places objs g V U) {x : (Txt × Obj) × Char} {y : ℕ × Phasor} (h : FileAt objs g x.1.1 x.2 y.1)
    (hv : swingVoltage x.1.2 x.2 = some y.2) (hy : (⟨y.2.value.1, y.2.value.2⟩ : ℂ) = y.2.complex) (w : List ℝ)
    (hl : ∀ z ∈ (Element.slack y.1 y.2.value.1 y.2.value.2).laws 0 U w, z = 0) :
    ∃ l, SourceFlow V x l ∧ Carries objs g l ((Element.slack y.1 y.2.value.1 y.2.value.2).draws 0 U w) := by
  rw [Element.laws, both_zero, sub_eq_zero] at hl
  refine ⟨_, ⟨y.2, pairAt w 0, hv, ?_, rfl⟩, fun r p b hP => ?_⟩
  · rw [hc.volt _ _ _ h, hl, hy]
  · rw [hc.drawn_cons h.term hP, Element.draws, busSum_cons]
    rfl

theorem source_models {x : (Txt × Obj) × Char} {y : ℕ × Phasor} (h : FileAt objs g x.1.1 x.2 y.1)
    (hv : swingVoltage x.1.2 x.2 = some y.2) (hy : (⟨y.2.value.1, y.2.value.2⟩ : ℂ) = y.2.complex) :
    Models objs g V (SourceFlow V x) (.slack y.1 y.2.value.1 y.2.value.2) where
  inner k hk := absurd hk (by simp [Element.inner])
  quiet U w k hk _ := by rw [Element.draws, busSum_cons, if_neg (quiet_term h.term hk), zero_add, busSum_nil]
  sound U w hc ho := source_flow hc h hv hy w ho.1
  complete l hl := by
    obtain ⟨u, I, hu, hV, rfl⟩ := hl
    rw [hv] at hu
    cases hu
    refine ⟨[], [I.re, I.im], rfl, rfl, fun U hc _ => ⟨(inner_none rfl).2 ?_, fun r p b hP => ?_⟩⟩
    · rw [Element.laws, both_zero, ← hc.volt _ _ _ h, hV, hy, sub_self]
    · rw [hc.drawn_cons h.term hP, Element.draws, busSum_cons]
      rfl

theorem switch_flow (hc : Places objs g V U) {d : DeclaredDevice} {x : GSwitch} (h : IsSwitch objs g d x) (w : List ℝ)
    (hl : ∀ z ∈ (Element.switch (some x.f) (some x.t) x.status).laws 0 U w, z = 0) :
    ∃ l, SwitchFlow V d l ∧ Carries objs g l ((Element.switch (some x.f) (some x.t) x.status).draws 0 U w) := by
  obtain ⟨⟨a, ha, h1⟩, ⟨b, hb, h2⟩, h3⟩ := h
  cases hs : x.status with
  | opened =>
    refine ⟨[], ⟨a, b, ha, hb, fun _ => rfl, fun ho => ?_⟩, fun r p b hP => rfl⟩
    rw [hs] at h3
    rw [h3.1 rfl] at ho
    cases ho
  | closed =>
    rw [hs, Element.laws, both_zero, neg_eq_zero, sub_eq_zero] at hl
    refine ⟨through (some (a, d.phase)) (some (b, d.phase)) (pairAt w 0), ⟨a, b, ha, hb, fun ho => ?_, fun _ => ⟨?_, _, rfl⟩⟩, fun r p k hP => ?_⟩
    · rw [hs] at h3
      cases h3.2 ho
    · rw [hc.volt _ _ _ h1, hc.volt _ _ _ h2, hl]
    · rw [through, hc.drawn_cons h1.term hP, hc.drawn_cons h2.term hP, Element.draws, branch, busSum_cons, busSum_cons]
      rfl

theorem switch_models {d : DeclaredDevice} {x : GSwitch} (h : IsSwitch objs g d x) :
    Models objs g V (SwitchFlow V d) (.switch (some x.f) (some x.t) x.status) where
  inner k hk := absurd hk (by simp [Element.inner])
  quiet U w k hk _ := by
    obtain ⟨⟨a, ha, h1⟩, ⟨b, hb, h2⟩, h3⟩ := h
    cases x.status with
    | opened => rfl
    | closed => simp only [Element.draws, branch, busSum_cons, busSum_nil, if_neg (quiet_term h1.term hk), if_neg (quiet_term h2.term hk), add_zero]
  sound U w hc ho := switch_flow hc h w ho.1
  complete l hl := by
    obtain ⟨⟨a, ha, h1⟩, ⟨b, hb, h2⟩, h3⟩ := h
    obtain ⟨a', b', ha', hb', hop, hcl⟩ := hl
    rw [ha] at ha'
    rw [hb] at hb'
    cases ha'
    cases hb'
    cases hs : x.status with
    | opened =>
      rw [hop (h3.1 hs)]
      exact ⟨[], [], rfl, rfl, fun U hc _ => ⟨(inner_none rfl).2 (fun z hz => absurd hz (by simp [Element.laws])), fun r p k hP => rfl⟩⟩
    | closed =>
      have hno : d.isOpen = false := by
        cases ho : d.isOpen with
        | false => rfl
        | true => rw [h3.2 ho] at hs; cases hs
      obtain ⟨hV, I, rfl⟩ := hcl hno
      refine ⟨[], [I.re, I.im], rfl, rfl, fun U hc _ => ⟨(inner_none rfl).2 ?_, fun r p k hP => ?_⟩⟩
      · rw [Element.laws, both_zero, ← hc.volt _ _ _ h1, ← hc.volt _ _ _ h2, hV, sub_self, neg_zero]
      · rw [through, hc.drawn_cons h1.term hP, hc.drawn_cons h2.term hP, Element.draws, branch, busSum_cons, busSum_cons]
        rfl

theorem load_flow (hc : Places objs g V U) {d : DeclaredLoad} {x : GLoad} (h : IsDeclared objs g d x) (w : List ℝ) :
    ∃ l, LoadFlow V d l ∧ Carries objs g l (x.element.draws 0 U w) := by
  rw [load_draws h]
  obtain ⟨a, rest, hd, h1, h2, -⟩ := h
  have ht := termBus_of h2
  refine ⟨_, ⟨a, rest, hd, rfl⟩, fun r p k hP => ?_⟩
  rw [through, hc.drawn_cons h1.term hP, hc.drawn_cons ht hP, branch, busSum_cons, busSum_cons, hc.volt _ _ _ h1, hc.termVolt ht]
  rfl

theorem load_models {d : DeclaredLoad} {x : GLoad} (h : IsDeclared objs g d x) : Models objs g V (LoadFlow V d) x.element where
  inner k hk := absurd hk (by simp [GLoad.element, Element.inner])
  quiet U w k hk _ := by
    rw [load_draws h]
    obtain ⟨a, rest, hd, h1, h2, -⟩ := h
    simp only [branch, busSum_cons, busSum_nil, if_neg (quiet_term h1.term hk), if_neg (quiet_term (termBus_of h2) hk), add_zero]
  sound U w hc _ := load_flow hc h w
  complete l hl := by
    refine ⟨[], [], rfl, rfl, fun U hc _ => ⟨(inner_none rfl).2 (fun z hz => absurd hz (by simp [GLoad.element, Element.laws])), ?_⟩⟩
    obtain ⟨l', hl', hcar⟩ := load_flow hc h []
    obtain ⟨a, rest, e, rfl⟩ := hl
    obtain ⟨a', rest', e', rfl⟩ := hl'
    rw [e] at e'
    cases e'
    exact hcar

/-! ### Fuses -/

theorem fuse_flow (hc : Places objs g V U) {d : DeclaredDevice × Option Txt} {x : GFuse} (h : IsFuse objs g d x) (w : List ℝ)
    (hl : ∀ z ∈ (Element.fuse (some x.f) (some x.i) (some x.t)).laws 0 U w, z = 0)
    (hi : busSum x.i ((Element.fuse (some x.f) (some x.i) (some x.t)).draws 0 U w) = 0) :
    ∃ l, FuseFlow V d l ∧ Carries objs g l ((Element.fuse (some x.f) (some x.i) (some x.t)).draws 0 U w) := by
  obtain ⟨⟨a, ha, h1⟩, ⟨b, hb, h2⟩, h3, -⟩ := h
  rw [Element.laws, both_zero, neg_eq_zero, sub_eq_zero] at hl
  have n1 : (some x.f : Ref) ≠ some x.i := quiet_term h1.term h3
  have n2 : (some x.t : Ref) ≠ some x.i := quiet_term h2.term h3
  have hY : stiff 0 10000 10000 = 10000 + 10000 * Complex.I := by
    rw [stiff_zero]
    apply Complex.ext <;> simp
  simp only [Element.draws, branch, List.cons_append, List.nil_append, busSum_cons, busSum_nil, if_neg n1, if_neg n2, if_pos, hY] at hi ⊢
  refine ⟨_, ⟨a, b, ha, hb, rfl⟩, fun r p k hP => ?_⟩
  rw [through, hc.drawn_cons h1.term hP, hc.drawn_cons h2.term hP, drawnAt_nil, hc.volt _ _ _ h1, hc.volt _ _ _ h2]
  simp only [busSum_cons, busSum_nil, if_neg (hP.not_inner h3)]
  have e : pairAt w 0 = (10000 + 10000 * Complex.I) * (U (some x.f) - U (some x.i)) := by linear_combination hi
  rw [e, hl]
  ring

theorem fuse_quiet {d : DeclaredDevice × Option Txt} {x : GFuse} (h : IsFuse objs g d x) (w : List ℝ) :
    Quiet g [x.i] ((Element.fuse (some x.f) (some x.i) (some x.t)).draws 0 U w) := by
  obtain ⟨⟨a, ha, h1⟩, ⟨b, hb, h2⟩, h3, -⟩ := h
  intro k hk hne
  have n : (some x.i : Ref) ≠ some k := fun e => hne (by cases e; exact List.mem_singleton.2 rfl)
  simp only [Element.draws, branch, List.cons_append, List.nil_append, busSum_cons, busSum_nil, if_neg n, if_neg (quiet_term h1.term hk),
    if_neg (quiet_term h2.term hk), add_zero]

theorem fuse_models {d : DeclaredDevice × Option Txt} {x : GFuse} (h : IsFuse objs g d x) :
    Models objs g V (FuseFlow V d) (.fuse (some x.f) (some x.i) (some x.t)) where
  inner k hk := by rw [List.mem_singleton.1 hk]; exact h.2.2.1
  quiet U w := fuse_quiet h w
  sound U w hc ho := fuse_flow hc h w ho.1 (ho.2 _ (List.mem_singleton.2 rfl))
  complete l hl := by
    have hx := h
    obtain ⟨⟨a, ha, h1⟩, ⟨b, hb, h2⟩, h3, -⟩ := h
    obtain ⟨a', b', ha', hb', rfl⟩ := hl
    rw [ha] at ha'
    rw [hb] at hb'
    cases ha'
    cases hb'
    generalize hJ : (10000 + 10000 * Complex.I) * (V a d.1.phase - V b d.1.phase) = J
    have n1 : (some x.f : Ref) ≠ some x.i := quiet_term h1.term h3
    have n2 : (some x.t : Ref) ≠ some x.i := quiet_term h2.term h3
    have hY : stiff 0 10000 10000 = 10000 + 10000 * Complex.I := by
      rw [stiff_zero]
      apply Complex.ext <;> simp
    refine ⟨[(x.i, V b d.1.phase)], [J.re, J.im], rfl, rfl, fun U hc hv => ?_⟩
    have hi : U (some x.i) = V b d.1.phase := hv (x.i, V b d.1.phase) (List.mem_singleton.2 rfl)
    rw [hc.volt _ _ _ h1, hc.volt _ _ _ h2] at hJ
    rw [hc.volt _ _ _ h2] at hi
    refine ⟨⟨?_, fun k hk => ?_⟩, fun r p k hP => ?_⟩
    · rw [Element.laws, both_zero, hi, sub_self, neg_zero]
    · rw [List.mem_singleton.1 hk]
      simp only [Element.draws, branch, List.cons_append, List.nil_append, busSum_cons, busSum_nil, if_neg n1, if_neg n2, if_pos, hY, pairAt_zero, hi, hJ]
      ring
    · rw [through, hc.drawn_cons h1.term hP, hc.drawn_cons h2.term hP, drawnAt_nil]
      simp only [Element.draws, branch, List.cons_append, List.nil_append, busSum_cons, busSum_nil, if_neg (hP.not_inner h3), hY, pairAt_zero, hi, hJ]
      ring

/-! ### Capacitors -/

theorem cap_flow (hc : Places objs g V U) {d : DeclaredCap} {x : GCap} (h : IsCap objs g d x)
    (hd : d.obj.attr "control".toList = some "MANUAL".toList ∨ d.obj.attr "control".toList = some "VOLT".toList ∧
      (d.obj.attr "voltage_set_high".toList).isSome ∧ (d.obj.attr "voltage_set_low".toList).isSome) (w : List ℝ) :
    ∃ l, CapFlow V d l ∧ Carries objs g l (x.item.element.draws 0 U w) := by
  obtain ⟨⟨n, hn, h1⟩, h2, ⟨t, ht, hv⟩, h0, hm, hvolt⟩ := h
  have hon : d.On ↔ x.switch = .closed := by
    rcases hd with hd | ⟨hd, hh, hlo⟩
    · rw [(hm hd).2]
      constructor
      · rintro (h | h)
        · rw [hd] at h
          exact absurd (Option.some.inj h) (by decide)
        · exact h
      · exact Or.inr
    · obtain ⟨t1, ht1⟩ := Option.isSome_iff_exists.1 hh
      obtain ⟨t2, ht2⟩ := Option.isSome_iff_exists.1 hlo
      exact ⟨fun _ => (hvolt t1 t2 hd ht1 ht2).2.1, fun _ => .inl hd⟩
  have he : x.item.element = .capacitor (some x.bus) none x.switch ((x.var : ℝ) / ((x.nominal : ℝ) * x.nominal)) := rfl
  rw [he]
  cases hs : x.switch with
  | opened =>
    have hno : ¬ d.On := fun h => by rw [hon.1 h] at hs; cases hs
    exact ⟨[], ⟨n, t, x.nominal, hn, ht, hv, h0, fun _ => rfl, fun h => absurd h hno⟩, fun r p b hP => rfl⟩
  | closed =>
    have hyes : d.On := hon.2 hs
    refine ⟨_, ⟨n, t, x.nominal, hn, ht, hv, h0, fun h => absurd hyes h, fun _ => rfl⟩, fun r p b hP => ?_⟩
    rw [through, hc.drawn_cons h1.term hP, hc.drawn_cons (t := none) (k := none) rfl hP, Element.draws, branch, busSum_cons, busSum_cons,
      hc.volt _ _ _ h1, hc.zero, faded_zero, sub_zero]
    have e : (⟨0, (x.var : ℝ) / ((x.nominal : ℝ) * x.nominal)⟩ : ℂ) = Complex.I * ((d.var / x.nominal ^ 2 : ℚ) : ℂ) := by
      rw [← h2, show ((x.var / x.nominal ^ 2 : ℚ) : ℂ) = (((x.var : ℝ) / ((x.nominal : ℝ) * x.nominal) : ℝ) : ℂ) by push_cast; rw [sq]]
      generalize (x.var : ℝ) / ((x.nominal : ℝ) * x.nominal) = z
      apply Complex.ext <;> simp
    rw [e]
    rfl

theorem cap_models {d : DeclaredCap} {x : GCap} (h : IsCap objs g d x)
    (hd : d.obj.attr "control".toList = some "MANUAL".toList ∨ d.obj.attr "control".toList = some "VOLT".toList ∧
      (d.obj.attr "voltage_set_high".toList).isSome ∧ (d.obj.attr "voltage_set_low".toList).isSome) :
    Models objs g V (CapFlow V d) x.item.element where
  inner k hk := absurd hk (by simp [GCap.item, Item.element, Element.inner])
  quiet U w k hk _ := by
    obtain ⟨⟨n, hn, h1⟩, -⟩ := h
    have he : x.item.element = .capacitor (some x.bus) none x.switch ((x.var : ℝ) / ((x.nominal : ℝ) * x.nominal)) := rfl
    rw [he]
    cases x.switch with
    | opened => rfl
    | closed => simp only [Element.draws, branch, busSum_cons, busSum_nil, if_neg (quiet_term h1.term hk), reduceCtorEq, if_false, add_zero]
  sound U w hc _ := cap_flow hc h hd w
  complete l hl := by
    refine ⟨[], [], rfl, rfl, fun U hc _ => ⟨(inner_none rfl).2 (fun z hz => absurd hz (by simp [GCap.item, Item.element, Element.laws])), ?_⟩⟩
    obtain ⟨l', hl', hcar⟩ := cap_flow hc h hd []
    obtain ⟨n, t, v, h1, h2, h3, h4, h5, h6⟩ := hl
    obtain ⟨n', t', v', h1', h2', h3', h4', h5', h6'⟩ := hl'
    rw [h1] at h1'
    rw [h2] at h2'
    cases h1'
    cases h2'
    rw [h3] at h3'
    cases h3'
    by_cases hon : d.On
    · rw [h6 hon, ← h6' hon]; exact hcar
    · rw [h5 hon, ← h5' hon]; exact hcar

/-! ### Regulators -/

theorem reg_item {x : GReg} {it : Item} (h : x.item = .ok it) (h1 : -x.lowerTaps ≤ x.tap) (h2 : x.tap ≤ x.raiseTaps) :
    ∃ ratio : ℝ, it.element = .regulator (some x.f) (some x.c) (some x.t) ratio 10000 0 ∧
      (x.kind = .A → ratio * (1 + (x.step * x.tap : ℚ)) = 1) ∧ (x.kind ≠ .A → ratio = 1 - (x.step * x.tap : ℚ)) := by
  have hn : seriesAdmittance (1 / 10000) 0 = (10000, 0) := by
    rw [seriesAdmittance]
    norm_num
  have h1r : -(x.lowerTaps : ℝ) ≤ x.tap := by exact_mod_cast h1
  have h2r : (x.tap : ℝ) ≤ x.raiseTaps := by exact_mod_cast h2
  have hclip : (if (x.tap : ℝ) + 0 ≥ x.raiseTaps then (x.raiseTaps : ℝ) else if (x.tap : ℝ) + 0 ≤ -x.lowerTaps then -(x.lowerTaps : ℝ) else (x.tap : ℝ) + 0) =
      x.tap := by
    rw [add_zero]
    split
    · linarith
    · split
      · linarith
      · rfl
  rw [GReg.item, hn] at h
  simp only [Reg.make, Reg.increment, hclip] at h
  cases hk : x.kind with
  | A =>
    rw [hk] at h
    simp only at h
    split at h
    · cases h
    · rename_i hne
      cases h
      refine ⟨_, rfl, fun _ => ?_, fun h => absurd rfl h⟩
      push_cast
      exact inv_mul_cancel₀ hne
  | B =>
    rw [hk] at h
    cases h
    refine ⟨_, rfl, fun h => (by cases h), fun _ => ?_⟩
    push_cast
    rfl

theorem reg_flow (hc : Places objs g V U) {d : Obj × Option Obj × Char} {x : GReg} (h : IsReg objs g d x) {it : Item} (hit : x.item = .ok it)
    (htap : -x.lowerTaps ≤ x.tap ∧ x.tap ≤ x.raiseTaps) (w : List ℝ) (hl : ∀ z ∈ it.element.laws 0 U w, z = 0)
    (hi : busSum x.c (it.element.draws 0 U w) = 0) : ∃ l, RegFlow V d l ∧ Carries objs g l (it.element.draws 0 U w) := by
  obtain ⟨ratio, he, hA, hB⟩ := reg_item hit htap.1 htap.2
  obtain ⟨⟨a, ha, h1⟩, ⟨b, hb, h2⟩, h3, c, hcf, hk, ⟨t, ht, htp⟩, ⟨t1, ht1, hu⟩, ⟨t2, ht2, hd⟩, hne, t3, reg, ht3, hreg, hstep⟩ := h
  have n1 : (some x.f : Ref) ≠ some x.c := quiet_term h1.term h3
  have n2 : (some x.t : Ref) ≠ some x.c := quiet_term h2.term h3
  rw [he] at hl hi ⊢
  have hstep' : x.step = 2 * reg / ((x.raiseTaps + x.lowerTaps : ℤ) : ℚ) := by
    rw [eq_div_iff (by exact_mod_cast hne)]
    exact hstep
  have hY : stiff 0 10000 0 = 10000 := by
    rw [stiff_zero]
    apply Complex.ext <;> simp
  have hconj : conj (ratio : ℂ) = ratio := Complex.conj_ofReal ratio
  simp only [Element.laws, xfmrLaws, turns_zero, hY, hconj, hc.zero, sub_zero] at hl
  rw [List.forall_mem_append, both_append, both_zero] at hl
  obtain ⟨⟨l1, l2⟩, l3⟩ := hl
  simp only [Element.draws, xfmrDraws, branch, turns_zero, hY, hconj, List.cons_append, List.nil_append, busSum_cons, busSum_nil, if_neg n1, if_neg n2,
    if_pos, reduceCtorEq, if_false] at hi
  refine ⟨_, ⟨c, a, b, ratio, pairAt w 0, pairAt w 2, hcf, ha, hb, ⟨t, _, t1, _, t2, _, t3, reg, ht, htp, ht1, hu, ht2, hd, hne, ht3, hreg, ?_, ?_⟩,
    ?_, ?_, rfl⟩, fun r p k hP => ?_⟩
  · rw [← hstep']
    exact fun h => hA (hk.2 h)
  · rw [← hstep']
    exact fun h => hB (fun e => h (hk.1 e))
  · rw [hc.volt _ _ _ h1]
    linear_combination l1
  · rw [hc.volt _ _ _ h2]
    linear_combination -l2 + 10000 * l3
  · rw [hc.drawn_cons h1.term hP, hc.drawn_cons h2.term hP, drawnAt_nil]
    simp only [Element.draws, xfmrDraws, branch, turns_zero, hY, hconj, List.cons_append, List.nil_append, busSum_cons, busSum_nil,
      if_neg (hP.not_inner h3), reduceCtorEq, if_false]
    have e : pairAt w 4 = (ratio : ℂ) * pairAt w 0 := by linear_combination hi + l2
    rw [e]
    ring

theorem reg_quiet {d : Obj × Option Obj × Char} {x : GReg} (h : IsReg objs g d x) {it : Item} (hit : x.item = .ok it)
    (htap : -x.lowerTaps ≤ x.tap ∧ x.tap ≤ x.raiseTaps) (w : List ℝ) : Quiet g [x.c] (it.element.draws 0 U w) := by
  obtain ⟨ratio, he, -⟩ := reg_item hit htap.1 htap.2
  obtain ⟨⟨a, ha, h1⟩, ⟨b, hb, h2⟩, h3, -⟩ := h
  intro k hk hne
  have n : (some x.c : Ref) ≠ some k := fun e => hne (by cases e; exact List.mem_singleton.2 rfl)
  simp only [he, Element.draws, xfmrDraws, branch, List.cons_append, List.nil_append, busSum_cons, busSum_nil, if_neg n, if_neg (quiet_term h1.term hk),
    if_neg (quiet_term h2.term hk), add_zero, reduceCtorEq, if_false]

theorem IsRatio.unique {c : Obj} {p : Char} {a a' : ℝ} (h : IsRatio c p a) (h' : IsRatio c p a') : a = a' := by
  obtain ⟨t, tap, t1, up, t2, down, t3, reg, e1, e2, e3, e4, e5, e6, e7, e8, e9, hA, hB⟩ := h
  obtain ⟨t', tap', t1', up', t2', down', t3', reg', e1', e2', e3', e4', e5', e6', e7', e8', e9', hA', hB'⟩ := h'
  rw [e1] at e1'; cases e1'
  rw [e2] at e2'; cases e2'
  rw [e3] at e3'; cases e3'
  rw [e4] at e4'; cases e4'
  rw [e5] at e5'; cases e5'
  rw [e6] at e6'; cases e6'
  rw [e8] at e8'; cases e8'
  rw [e9] at e9'; cases e9'
  by_cases hT : c.attr "Type".toList = some "A".toList
  · have x := hA hT
    have y := hA' hT
    have : (1 + (2 * reg / ((up + down : ℤ) : ℚ) * (tap : ℤ) : ℚ) : ℝ) ≠ 0 := by
      intro h0
      rw [h0, mul_zero] at x
      exact zero_ne_one x
    exact mul_right_cancel₀ this (x.trans y.symm)
  · rw [hB hT, hB' hT]

/-- The element of a regulator with its ratio. -/
theorem reg_ratio {d : Obj × Option Obj × Char} {x : GReg} (h : IsReg objs g d x) {it : Item} (hit : x.item = .ok it)
    (htap : -x.lowerTaps ≤ x.tap ∧ x.tap ≤ x.raiseTaps) :
    ∃ c ratio, d.2.1 = some c ∧ IsRatio c d.2.2 ratio ∧ it.element = .regulator (some x.f) (some x.c) (some x.t) ratio 10000 0 := by
  obtain ⟨ratio, he, hA, hB⟩ := reg_item hit htap.1 htap.2
  obtain ⟨-, -, -, c, hcf, hk, ⟨t, ht, htp⟩, ⟨t1, ht1, hu⟩, ⟨t2, ht2, hd⟩, hne, t3, reg, ht3, hreg, hstep⟩ := h
  have hstep' : x.step = 2 * reg / ((x.raiseTaps + x.lowerTaps : ℤ) : ℚ) := by
    rw [eq_div_iff (by exact_mod_cast hne)]
    exact hstep
  refine ⟨c, ratio, hcf, ⟨t, _, t1, _, t2, _, t3, reg, ht, htp, ht1, hu, ht2, hd, hne, ht3, hreg, ?_, ?_⟩, he⟩
  · rw [← hstep']
    exact fun h => hA (hk.2 h)
  · rw [← hstep']
    exact fun h => hB (fun e => h (hk.1 e))

theorem reg_models {d : Obj × Option Obj × Char} {x : GReg} (h : IsReg objs g d x) {it : Item} (hit : x.item = .ok it)
    (htap : -x.lowerTaps ≤ x.tap ∧ x.tap ≤ x.raiseTaps) : Models objs g V (RegFlow V d) it.element := by
  obtain ⟨c, ratio, hcf, hra, he⟩ := reg_ratio h hit htap
  have hin : it.element.inner = [x.c] := by rw [he]; rfl
  refine ⟨fun k hk => ?_, fun U w => ?_, fun U w hc ho => ?_, fun l hl => ?_⟩
  · rw [hin] at hk
    rw [List.mem_singleton.1 hk]
    exact h.2.2.1
  · rw [hin]
    exact reg_quiet h hit htap w
  · exact reg_flow hc h hit htap w ho.1 (ho.2 _ (by rw [hin]; exact List.mem_singleton.2 rfl))
  · obtain ⟨⟨a, ha, h1⟩, ⟨b, hb, h2⟩, h3, -⟩ := h
    obtain ⟨c', a', b', ratio', I, S, hcf', ha', hb', hra', hV, hI, rfl⟩ := hl
    rw [hcf] at hcf'; cases hcf'
    rw [ha] at ha'; cases ha'
    rw [hb] at hb'; cases hb'
    cases hra.unique hra'
    have n1 : (some x.f : Ref) ≠ some x.c := quiet_term h1.term h3
    have n2 : (some x.t : Ref) ≠ some x.c := quiet_term h2.term h3
    have hY : stiff 0 10000 0 = 10000 := by
      rw [stiff_zero]
      apply Complex.ext <;> simp
    have hconj : conj (ratio : ℂ) = ratio := Complex.conj_ofReal ratio
    generalize hJ : (ratio : ℂ) * I = J at hI ⊢
    refine ⟨[(x.c, V b d.2.2)], [I.re, I.im, S.re, S.im, J.re, J.im], ?_, ?_, fun U hc hv => ?_⟩
    · rw [hin]; rfl
    · rw [he]; rfl
    have hi : U (some x.c) = V b d.2.2 := hv (x.c, V b d.2.2) (List.mem_singleton.2 rfl)
    rw [hc.volt _ _ _ h2] at hi hI
    rw [hc.volt _ _ _ h1] at hV
    rw [Obeys, hin, he]
    refine ⟨⟨?_, fun k hk => ?_⟩, fun r p k hP => ?_⟩
    · simp only [Element.laws, xfmrLaws, turns_zero, hY, hconj, hc.zero, sub_zero, pairAt_zero, pairAt_two]
      rw [List.forall_mem_append, both_append, both_zero, hi, hV, ← hI, hJ]
      refine ⟨⟨by ring, by ring⟩, by ring⟩
    · rw [List.mem_singleton.1 hk]
      simp only [Element.draws, xfmrDraws, branch, turns_zero, hY, hconj, List.cons_append, List.nil_append, busSum_cons, busSum_nil, if_neg n1, if_neg n2,
        if_pos, reduceCtorEq, if_false, pairAt_zero, pairAt_two, pairAt_four, hi, ← hI]
      ring
    · rw [hc.drawn_cons h1.term hP, hc.drawn_cons h2.term hP, drawnAt_nil]
      simp only [Element.draws, xfmrDraws, branch, turns_zero, hY, hconj, List.cons_append, List.nil_append, busSum_cons, busSum_nil,
        if_neg (hP.not_inner h3), reduceCtorEq, if_false, pairAt_zero, pairAt_two, pairAt_four]
      ring

/-! ### Transformers -/

theorem IsImpedance.unique {c : Obj} {r x r' x' : ℚ} (h : IsImpedance c r x) (h' : IsImpedance c r' x') : r = r' ∧ x = x' := by
  rcases h with ⟨t1, t2, a1, a2, a3, a4⟩ | ⟨a1, t, a2, a3⟩ | ⟨a1, a2, rfl, t, a3, a4⟩ <;>
    rcases h' with ⟨t1', t2', b1, b2, b3, b4⟩ | ⟨b1, t', b2, b3⟩ | ⟨b1, b2, rfl, t', b3, b4⟩
  · rw [a1] at b1; cases b1
    rw [a2] at b2; cases b2
    rw [a3] at b3; cases b3
    rw [a4] at b4; cases b4
    exact ⟨rfl, rfl⟩
  · rw [a2] at b1; cases b1
  · rw [a2] at b1; cases b1
  · rw [a1] at b2; cases b2
  · rw [a2] at b2; cases b2
    rw [a3] at b3; cases b3
    exact ⟨rfl, rfl⟩
  · rw [a2] at b2; cases b2
  · rw [a1] at b2; cases b2
  · rw [a2] at b2; cases b2
  · rw [a3] at b3; cases b3
    rw [a4] at b4; cases b4
    exact ⟨rfl, rfl⟩

theorem IsRating.unique {c : Obj} {s s' : ℚ} (h : IsRating c s) (h' : IsRating c s') : s = s' := by
  rcases h with ⟨t, k, a1, a2, rfl⟩ | ⟨a1, rfl⟩ <;> rcases h' with ⟨t', k', b1, b2, rfl⟩ | ⟨b1, rfl⟩
  · rw [a1] at b1; cases b1
    rw [a2] at b2; cases b2
    rfl
  · rw [a1] at b1; cases b1
  · rw [a1] at b1; cases b1
  · rfl

theorem coil_flow (hc : Places objs g V U) {o c : Obj} {p q : Char} {x : GXfmr} (h : IsBankCoil objs g o c p q x) (w : List ℝ)
    (hl : ∀ z ∈ x.element.laws 0 U w, z = 0) : ∃ l, CoilFlow V o c p q l ∧ Carries objs g l (x.element.draws 0 U w) := by
  obtain ⟨fp, fn, tp, tn, A, gs, bs, v1, v2, s, r, y, he, ⟨a, ha, h1⟩, ⟨b, hb, h2⟩, h3, h4, hv1, hv2, hi, hs, hA, hY⟩ := h
  rw [ha] at h3
  rw [hb] at h4
  have t3 := termBus_of h3
  have t4 := termBus_of h4
  have hconj : conj (A : ℂ) = A := Complex.conj_ofReal A
  rw [he] at hl ⊢
  simp only [Element.laws, xfmrLaws, turns_zero, stiff_zero, hconj] at hl
  rw [both_append] at hl
  obtain ⟨l1, l2⟩ := hl
  refine ⟨_, ⟨a, b, v1, v2, r, y, s, pairAt w 0, ha, hb, hv1, hv2, hi, hs, ?_, rfl⟩, fun r p k hP => ?_⟩
  · rw [hc.volt _ _ _ h1, hc.volt _ _ _ h2, hc.termVolt t3, hc.termVolt t4, ← hA]
    generalize toComplex (r, y) * _ = Z at hY ⊢
    have e : pairAt w 2 - U (some tp) = Z * (A * pairAt w 0) := by
      calc pairAt w 2 - U (some tp) = (⟨gs, bs⟩ * Z) * (pairAt w 2 - U (some tp)) := by rw [hY, one_mul]
        _ = Z * (⟨gs, bs⟩ * (pairAt w 2 - U (some tp))) := by ring
        _ = Z * (A * pairAt w 0) := by rw [show ⟨gs, bs⟩ * (pairAt w 2 - U (some tp)) = A * pairAt w 0 by linear_combination l2]
    rw [← e]
    linear_combination l1
  · simp only [through, List.cons_append, List.nil_append]
    rw [hc.drawn_cons h1.term hP, hc.drawn_cons t3 hP, hc.drawn_cons h2.term hP, hc.drawn_cons t4 hP, drawnAt_nil]
    simp only [Element.draws, xfmrDraws, branch, turns_zero, stiff_zero, hconj, List.cons_append, List.nil_append, busSum_cons, busSum_nil]
    rw [show (⟨gs, bs⟩ : ℂ) * (pairAt w 2 - U (some tp)) = A * pairAt w 0 by linear_combination l2, ← hA, neg_neg]
    ring

theorem coil_quiet {o c : Obj} {p q : Char} {x : GXfmr} (h : IsBankCoil objs g o c p q x) (w : List ℝ) :
    Quiet g [] (x.element.draws 0 U w) := by
  obtain ⟨fp, fn, tp, tn, A, gs, bs, v1, v2, s, r, y, he, ⟨a, ha, h1⟩, ⟨b, hb, h2⟩, h3, h4, -⟩ := h
  rw [ha] at h3
  rw [hb] at h4
  intro k hk _
  simp only [he, Element.draws, xfmrDraws, branch, List.cons_append, List.nil_append, busSum_cons, busSum_nil, if_neg (quiet_term h1.term hk),
    if_neg (quiet_term h2.term hk), if_neg (quiet_term (termBus_of h3) hk), if_neg (quiet_term (termBus_of h4) hk), add_zero]

theorem coil_models {o c : Obj} {p q : Char} {x : GXfmr} (h : IsBankCoil objs g o c p q x) :
    Models objs g V (CoilFlow V o c p q) x.element := by
  have hin : x.element.inner = [] := by
    obtain ⟨fp, fn, tp, tn, A, gs, bs, v1, v2, s, r, y, he, -⟩ := h
    rw [he]; rfl
  refine ⟨fun k hk => absurd hk (by simp [hin]), fun U w => ?_, fun U w hc ho => coil_flow hc h w ho.1, fun l hl => ?_⟩
  · rw [hin]
    exact coil_quiet h w
  · obtain ⟨fp, fn, tp, tn, A, gs, bs, v1, v2, s, r, y, he, ⟨a, ha, h1⟩, ⟨b, hb, h2⟩, h3, h4, hv1, hv2, hi, hs, hA, hY⟩ := h
    obtain ⟨a', b', v1', v2', r', y', s', I, ha', hb', hv1', hv2', hi', hs', hV, rfl⟩ := hl
    rw [ha] at ha'; cases ha'
    rw [hb] at hb'; cases hb'
    rw [hv1] at hv1'; cases hv1'
    rw [hv2] at hv2'; cases hv2'
    obtain ⟨rfl, rfl⟩ := hi.unique hi'
    cases hs.unique hs'
    rw [ha] at h3
    rw [hb] at h4
    have t3 := termBus_of h3
    have t4 := termBus_of h4
    have hconj : conj (A : ℂ) = A := Complex.conj_ofReal A
    rw [← hA] at hV
    simp only [← hA]
    generalize toComplex (r, y) * _ = Z at hY hV
    generalize hS : V b p + Z * (A * I) = S
    refine ⟨[], [I.re, I.im, S.re, S.im], by rw [hin]; rfl, by rw [he]; rfl, fun U hc _ => ⟨(inner_none hin).2 ?_, fun r p k hP => ?_⟩⟩
    · rw [hc.volt _ _ _ h1, hc.volt _ _ _ h2, hc.termVolt t3, hc.termVolt t4] at hV
      rw [hc.volt _ _ _ h2] at hS
      rw [he]
      simp only [Element.laws, xfmrLaws, turns_zero, stiff_zero, hconj, pairAt_zero, pairAt_two]
      rw [both_append, ← hS]
      constructor
      · linear_combination hV
      · linear_combination (A * I) * hY
    · simp only [through, List.cons_append, List.nil_append]
      rw [hc.drawn_cons h1.term hP, hc.drawn_cons t3 hP, hc.drawn_cons h2.term hP, hc.drawn_cons t4 hP, drawnAt_nil, he]
      rw [hc.volt _ _ _ h2] at hS
      simp only [Element.draws, xfmrDraws, branch, turns_zero, stiff_zero, hconj, List.cons_append, List.nil_append, busSum_cons, busSum_nil, pairAt_zero,
        pairAt_two]
      rw [show (⟨gs, bs⟩ : ℂ) * (S - U (some tp)) = A * I by rw [← hS]; linear_combination (A * I) * hY, neg_neg]
      ring

theorem by_inverse {Y Z x y : ℂ} (h : Y * Z = 1) (e : Y * x = y) : x = Z * y := by
  rw [← e, ← mul_assoc, mul_comm Z, h, one_mul]

theorem tap_flow (hc : Places objs g V U) {o c : Obj} {x : GXfmr} (h : IsFileTap objs g o c x) (hz : ∀ r y, IsImpedance c r y → (r, y) ≠ 0)
    (h0 : (c.attr "primary_voltage".toList).bind volts ≠ some 0) (w : List ℝ) (hl : ∀ z ∈ x.element.laws 0 U w, z = 0)
    (hi : ∀ k ∈ x.inner, busSum k (x.element.draws 0 U w) = 0) : ∃ l, TapFlow V o c l ∧ Carries objs g l (x.element.draws 0 U w) := by
  obtain ⟨p, f, b0, b1, t1, b2, t2, A, g0, s0, g1, s1, g2, s2, v1, v2, s, r, y, he, hp, ⟨a, ha, h1⟩, ⟨b, hb, h2⟩, ⟨b', hb', h3⟩, i0, i1, i2, n1, n2, n3,
    hv1, hv2, himp, hs, hA, hY⟩ := h
  rw [hb] at hb'
  cases hb'
  obtain ⟨Y0, Y1, Y2⟩ := hY (hz _ _ himp) (fun h => h0 (h ▸ hv1))
  have hin : x.inner = [b0, b1, b2] := by
    cases x with
    | coil => cases he
    | centerTap => cases he; rfl
  rw [hin] at hi
  have k0 := hi b0 (by simp)
  have k1 := hi b1 (by simp)
  have k2 := hi b2 (by simp)
  have q := @quiet_term M objs g
  rw [he] at hl k0 k1 k2 ⊢
  have hr : ((1 / ratioAt 0 A : ℝ) : ℂ) = 1 / ((v1 / v2 : ℚ) : ℂ) := by
    rw [ratioAt, hA]
    push_cast
    simp
  simp only [Element.laws, hr] at hl
  rw [both_append] at hl
  obtain ⟨l1, l2⟩ := hl
  have o0 : ∀ {u v : ℕ}, u ≠ v → (some u : Ref) ≠ some v := fun h e => h (Option.some.inj e)
  simp only [Element.draws, branch, stiff_zero, hr, List.cons_append, List.nil_append, busSum_cons, busSum_nil, if_pos,
    if_neg (o0 n1), if_neg (o0 n2), if_neg (o0 n3), if_neg (o0 n1.symm), if_neg (o0 n2.symm), if_neg (o0 n3.symm),
    if_neg (q h1.term i0), if_neg (q h1.term i1), if_neg (q h1.term i2), if_neg (q h2.term i0), if_neg (q h2.term i1), if_neg (q h2.term i2),
    if_neg (q h3.term i0), if_neg (q h3.term i1), if_neg (q h3.term i2)] at k0 k1 k2
  have c0 : ((v1 : ℝ) ^ 2 / (s : ℝ) : ℝ) = ((v1 ^ 2 / s : ℚ) : ℝ) := by push_cast; rfl
  have c1 : ((v2 : ℝ) ^ 2 / (s : ℝ) : ℝ) = ((v2 ^ 2 / s : ℚ) : ℝ) := by push_cast; rfl
  rw [c0, Complex.ofReal_ratCast] at Y0
  rw [c1, Complex.ofReal_ratCast] at Y1 Y2
  refine ⟨_, ⟨p, a, b, v1, v2, r, y, s, -pairAt w 0, -pairAt w 2, U (some b0), hp, ha, hb, hv1, hv2, himp, hs, ?_, ?_, ?_, rfl⟩, fun r p k hP => ?_⟩
  · rw [hc.volt _ _ _ h1]
    have := by_inverse Y0 (x := U (some f) - U (some b0)) (y := (-pairAt w 0 - -pairAt w 2) / ((v1 / v2 : ℚ) : ℂ)) (by linear_combination -k0)
    linear_combination this
  · rw [hc.volt _ _ _ h2]
    have := by_inverse Y1 (x := U (some b1) - U (some t1)) (y := -pairAt w 0) (by linear_combination k1)
    linear_combination this - l1
  · rw [hc.volt _ _ _ h3]
    have := by_inverse Y2 (x := U (some b2) - U (some t2)) (y := -pairAt w 2) (by linear_combination k2)
    linear_combination this - l2
  · rw [hc.drawn_cons h1.term hP, hc.drawn_cons h2.term hP, hc.drawn_cons h3.term hP, drawnAt_nil]
    simp only [Element.draws, branch, stiff_zero, hr, List.cons_append, List.nil_append, busSum_cons, busSum_nil, if_neg (hP.not_inner i0),
      if_neg (hP.not_inner i1), if_neg (hP.not_inner i2)]
    rw [show (-pairAt w 0 - -pairAt w 2) / ((v1 / v2 : ℚ) : ℂ) = (⟨g0, s0⟩ : ℂ) * (U (some f) - U (some b0)) by linear_combination k0,
      show (⟨g1, s1⟩ : ℂ) * (U (some b1) - U (some t1)) = -pairAt w 0 by linear_combination k1,
      show (⟨g2, s2⟩ : ℂ) * (U (some b2) - U (some t2)) = -pairAt w 2 by linear_combination k2]
    ring

theorem tap_quiet {o c : Obj} {x : GXfmr} (h : IsFileTap objs g o c x) (w : List ℝ) : Quiet g x.inner (x.element.draws 0 U w) := by
  obtain ⟨p, f, b0, b1, t1, b2, t2, A, g0, s0, g1, s1, g2, s2, v1, v2, s, r, y, he, hp, ⟨a, ha, h1⟩, ⟨b, hb, h2⟩, ⟨b', hb', h3⟩, i0, i1, i2, n1, n2, n3,
    -⟩ := h
  have hin : x.inner = [b0, b1, b2] := by
    cases x with
    | coil => cases he
    | centerTap => cases he; rfl
  rw [hin]
  intro k hk hne
  have o0 : ∀ {u : ℕ}, u ∈ [b0, b1, b2] → (some u : Ref) ≠ some k := fun h e => hne (by cases e; exact h)
  simp only [he, Element.draws, branch, List.cons_append, List.nil_append, busSum_cons, busSum_nil, if_neg (quiet_term h1.term hk),
    if_neg (quiet_term h2.term hk), if_neg (quiet_term h3.term hk), if_neg (o0 (u := b0) (by simp)), if_neg (o0 (u := b1) (by simp)),
    if_neg (o0 (u := b2) (by simp)), add_zero]

theorem tap_models {o c : Obj} {x : GXfmr} (h : IsFileTap objs g o c x) (hz : ∀ r y, IsImpedance c r y → (r, y) ≠ 0)
    (h0 : (c.attr "primary_voltage".toList).bind volts ≠ some 0) : Models objs g V (TapFlow V o c) x.element := by
  have hin : x.element.inner = x.inner := by cases x <;> rfl
  refine ⟨fun k hk => ?_, fun U w => ?_, fun U w hc ho => ?_, fun l hl => ?_⟩
  · obtain ⟨p, f, b0, b1, t1, b2, t2, A, g0, s0, g1, s1, g2, s2, v1, v2, s, r, y, he, hp, -, -, -, i0, i1, i2, -⟩ := h
    rw [he] at hk
    simp only [Element.inner, List.mem_cons, List.not_mem_nil, or_false] at hk
    rcases hk with rfl | rfl | rfl
    exacts [i0, i1, i2]
  · rw [hin]
    exact tap_quiet h w
  · exact tap_flow hc h hz h0 w ho.1 (by rw [← hin]; exact ho.2)
  · obtain ⟨p, f, b0, b1, t1, b2, t2, A, g0, s0, g1, s1, g2, s2, v1, v2, s, r, y, he, hp, ⟨a, ha, h1⟩, ⟨b, hb, h2⟩, ⟨b', hb', h3⟩, i0, i1, i2, n1, n2,
      n3, hv1, hv2, himp, hs, hA, hY⟩ := h
    obtain ⟨p', a', b'', v1', v2', r', y', s', J1, J2, P, hp', ha', hb'', hv1', hv2', hi', hs', e0, e1, e2, rfl⟩ := hl
    rw [hp] at hp'; cases hp'
    rw [ha] at ha'; cases ha'
    rw [hb] at hb' hb''; cases hb'; cases hb''
    rw [hv1] at hv1'; cases hv1'
    rw [hv2] at hv2'; cases hv2'
    obtain ⟨rfl, rfl⟩ := himp.unique hi'
    cases hs.unique hs'
    obtain ⟨Y0, Y1, Y2⟩ := hY (hz _ _ himp) (fun h => h0 (h ▸ hv1))
    have hr : ((1 / ratioAt 0 A : ℝ) : ℂ) = 1 / ((v1 / v2 : ℚ) : ℂ) := by
      rw [ratioAt, hA]
      push_cast
      simp
    have c0 : ((v1 : ℝ) ^ 2 / (s : ℝ) : ℝ) = ((v1 ^ 2 / s : ℚ) : ℝ) := by push_cast; rfl
    have c1 : ((v2 : ℝ) ^ 2 / (s : ℝ) : ℝ) = ((v2 ^ 2 / s : ℚ) : ℝ) := by push_cast; rfl
    rw [c0, Complex.ofReal_ratCast] at Y0
    rw [c1, Complex.ofReal_ratCast] at Y1 Y2
    generalize ((v1 / v2 : ℚ) : ℂ) = N at hr e0 e1 e2 ⊢
    generalize toComplex (r / 2, 8 / 10 * y) * _ = Z0 at Y0 e0
    generalize toComplex (r, 4 / 10 * y) * _ = Z at Y1 Y2 e1 e2
    rw [hin]
    have hxin : x.inner = [b0, b1, b2] := by
      cases x with
      | coil => cases he
      | centerTap => cases he; rfl
    refine ⟨[(b0, P), (b1, P / N), (b2, -(P / N))], [(-J1).re, (-J1).im, (-J2).re, (-J2).im], hxin.symm, by rw [he]; rfl, fun U hc hv => ?_⟩
    have u0 : U (some b0) = P := hv (b0, P) (by simp)
    have u1 : U (some b1) = P / N := hv (b1, P / N) (by simp)
    have u2 : U (some b2) = -(P / N) := hv (b2, -(P / N)) (by simp)
    rw [hc.volt _ _ _ h1] at e0
    rw [hc.volt _ _ _ h2] at e1
    rw [hc.volt _ _ _ h3] at e2
    have o0 : ∀ {u v : ℕ}, u ≠ v → (some u : Ref) ≠ some v := fun h e => h (Option.some.inj e)
    have q := @quiet_term M objs g
    have y0 : (⟨g0, s0⟩ : ℂ) * (U (some f) - P) = (J1 - J2) / N := by rw [e0]; linear_combination ((J1 - J2) / N) * Y0
    have y1 : (⟨g1, s1⟩ : ℂ) * (P / N - U (some t1)) = J1 := by rw [e1]; linear_combination J1 * Y1
    have y2 : (⟨g2, s2⟩ : ℂ) * (-(P / N) - U (some t2)) = J2 := by rw [e2]; linear_combination J2 * Y2
    rw [Obeys, hin, hxin, he]
    refine ⟨⟨?_, fun k hk => ?_⟩, fun r p k hP => ?_⟩
    · simp only [Element.laws, hr, u0, u1, u2]
      rw [both_append]
      exact ⟨by ring, by ring⟩
    · simp only [Element.draws, branch, stiff_zero, hr, List.cons_append, List.nil_append, u0, u1, u2, y0, y1, y2, pairAt_zero, pairAt_two]
      simp only [List.mem_cons, List.not_mem_nil, or_false] at hk
      rcases hk with rfl | rfl | rfl
      · simp only [busSum_cons, busSum_nil, if_pos, if_neg (o0 n1.symm), if_neg (o0 n2.symm), if_neg (q h1.term i0), if_neg (q h2.term i0),
          if_neg (q h3.term i0)]
        ring
      · simp only [busSum_cons, busSum_nil, if_pos, if_neg (o0 n1), if_neg (o0 n3.symm), if_neg (q h1.term i1), if_neg (q h2.term i1),
          if_neg (q h3.term i1)]
        ring
      · simp only [busSum_cons, busSum_nil, if_pos, if_neg (o0 n2), if_neg (o0 n3), if_neg (q h1.term i2), if_neg (q h2.term i2),
          if_neg (q h3.term i2)]
        ring
    · rw [hc.drawn_cons h1.term hP, hc.drawn_cons h2.term hP, hc.drawn_cons h3.term hP, drawnAt_nil]
      simp only [Element.draws, branch, stiff_zero, List.cons_append, List.nil_append, busSum_cons, busSum_nil, if_neg (hP.not_inner i0),
        if_neg (hP.not_inner i1), if_neg (hP.not_inner i2), u0, u1, u2, y0, y1, y2]
      ring

/-! ### Lines -/

theorem drawnAt_flatMap {α : Type} (r : Txt) (p : Char) (es : List α) (f : α → List (Term × ℂ)) :
    drawnAt objs r p (es.flatMap f) = (es.map fun x => drawnAt objs r p (f x)).sum := by
  induction es with
  | nil => rfl
  | cons e es ih => rw [List.flatMap_cons, drawnAt_append, ih, List.map_cons, List.sum_cons]

theorem if_sums (A B : Prop) [Decidable A] [Decidable B] (js : List ℕ) (f h : ℕ → ℂ) :
    (if A then (js.map f).sum else 0) + (if B then (js.map h).sum else 0) = (js.map fun j => (if A then f j else 0) + (if B then h j else 0)).sum := by
  induction js with
  | nil => simp
  | cons j js ih =>
    rw [List.map_cons, List.map_cons, List.map_cons, List.sum_cons, List.sum_cons, List.sum_cons, ← ih]
    split_ifs <;> ring

/-- The buses of the wires of a line. -/
theorem wires_at {a b : Txt} {ps : List Char} {bs : List (ℕ × ℕ)}
    (h : List.Forall₂ (fun p x => FileAt objs g a p x.1 ∧ FileAt objs g b p x.2) ps bs) {i : ℕ} (hi : i < ps.length) :
    FileAt objs g a (ps.getD i 'A') (bs.getD i (0, 0)).1 ∧ FileAt objs g b (ps.getD i 'A') (bs.getD i (0, 0)).2 := by
  have hb : i < bs.length := h.length_eq ▸ hi
  rw [List.getD_eq_getElem?_getD, List.getD_eq_getElem?_getD, List.getElem?_eq_getElem hi, List.getElem?_eq_getElem hb]
  exact h.get hi hb

theorem line_carries (hc : Places objs g V U) {ps : List Char} {y : ℕ → ℕ → ℂ} {s : ℕ → ℕ → ℝ} {bs : List (ℕ × ℕ)} {a b : Txt}
    (hbs : List.Forall₂ (fun p x => FileAt objs g a p x.1 ∧ FileAt objs g b p x.2) ps bs) (w : List ℝ) :
    Carries objs g ((List.range ps.length).flatMap fun i =>
      [(some (a, ps.getD i 'A'), wireCurrent V a b ps y s i), (some (b, ps.getD i 'A'), wireCurrent V b a ps y s i)])
      ((Element.unbalanced bs y s).draws 0 U w) := by
  intro r p k hP
  rw [drawnAt_flatMap, Element.draws, busSum_flatMap, hbs.length_eq]
  congr 1
  refine List.map_congr_left fun i hi => ?_
  rw [List.mem_range, ← hbs.length_eq] at hi
  obtain ⟨w1, w2⟩ := wires_at hbs hi
  simp only
  rw [hc.drawn_cons w1.term hP, hc.drawn_cons w2.term hP, drawnAt_nil, add_zero, wireCurrent, wireCurrent, if_sums, busSum_flatMap, hbs.length_eq]
  congr 1
  refine List.map_congr_left fun j hj => ?_
  rw [List.mem_range, ← hbs.length_eq] at hj
  obtain ⟨x1, x2⟩ := wires_at hbs hj
  simp only [branch, List.cons_append, List.nil_append, busSum_cons, busSum_nil, hc.volt _ _ _ x1, hc.volt _ _ _ x2, stiff_zero, faded_zero, ite_self]
  have e1 : (⟨(y i j).re, (y i j).im⟩ : ℂ) = y i j := rfl
  have e2 : (⟨0, s i j / 2⟩ : ℂ) = Complex.I * ((s i j / 2 : ℝ) : ℂ) := by
    generalize s i j / 2 = z
    apply Complex.ext <;> simp
  rw [e1, e2]
  split_ifs <;> ring

theorem line_quiet {ps : List Char} {bs : List (ℕ × ℕ)} {a b : Txt} {y : ℕ → ℕ → ℂ} {s : ℕ → ℕ → ℝ}
    (hbs : List.Forall₂ (fun p x => FileAt objs g a p x.1 ∧ FileAt objs g b p x.2) ps bs) (w : List ℝ) :
    Quiet g [] ((Element.unbalanced bs y s).draws 0 U w) := by
  intro k hk _
  rw [Element.draws, busSum_flatMap]
  refine List.sum_eq_zero fun z hz => ?_
  obtain ⟨i, hi, rfl⟩ := List.mem_map.1 hz
  rw [List.mem_range, ← hbs.length_eq] at hi
  obtain ⟨w1, w2⟩ := wires_at hbs hi
  rw [busSum_flatMap]
  refine List.sum_eq_zero fun z hz => ?_
  obtain ⟨j, hj, rfl⟩ := List.mem_map.1 hz
  simp only [branch, List.cons_append, List.nil_append, busSum_cons, busSum_nil, if_neg (quiet_term w1.term hk), if_neg (quiet_term w2.term hk), add_zero]

theorem line_models {mats : M → (ℕ → ℕ → ℂ) × (ℕ → ℕ → ℝ)} {x : Obj × List Char × M} {e : Element} (h : IsWires mats objs g x e) :
    Models objs g V (LineFlow mats V x) e := by
  obtain ⟨a, b, bs, ha, hb, hbs, rfl⟩ := h
  refine ⟨fun k hk => absurd hk (by simp [Element.inner]), fun U w => line_quiet hbs w, fun U w hc _ => ⟨_, ⟨a, b, ha, hb, rfl⟩, line_carries hc hbs w⟩, fun l hl => ?_⟩
  obtain ⟨a', b', ha', hb', rfl⟩ := hl
  rw [ha] at ha'; cases ha'
  rw [hb] at hb'; cases hb'
  exact ⟨[], [], rfl, rfl, fun U hc _ => ⟨(inner_none rfl).2 (fun z hz => absurd hz (by simp [Element.laws])), line_carries hc hbs []⟩⟩

/-! ### Voltages -/

theorem phasor_complex (u : Phasor) : (⟨u.value.1, u.value.2⟩ : ℂ) = u.complex := by
  have polar : ∀ m a : ℝ, (⟨m * Real.cos a, m * Real.sin a⟩ : ℂ) = m * Complex.exp (a * Complex.I) := by
    intro m a
    rw [Complex.exp_mul_I, ← Complex.ofReal_cos, ← Complex.ofReal_sin]
    generalize Real.cos a = x
    generalize Real.sin a = y
    apply Complex.ext <;> simp
  cases u with
  | given z => rfl
  | polar m a =>
    have := polar m a
    simpa [Phasor.value, Phasor.complex] using this
  | nominal m p =>
    rw [Phasor.value, Phasor.complex, polar, Complex.ofReal_ratCast]
    congr 1
    rw [phaseAngle, unitAt]
    split_ifs
    · rw [show ((240 * Real.pi / 180 : ℝ) : ℂ) * Complex.I = -(2 * Real.pi / 3) * Complex.I + 2 * Real.pi * Complex.I by push_cast; ring,
        Complex.exp_periodic]
    · congr 1
      push_cast
      ring
    · rw [show ((180 * Real.pi / 180 : ℝ) : ℂ) = (Real.pi : ℂ) by push_cast; ring, Complex.exp_pi_mul_I]
    · simp

end Verif.Glm
