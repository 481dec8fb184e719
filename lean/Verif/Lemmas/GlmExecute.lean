import Verif.Lemmas.GlmRun
import Verif.Model.GlmExecute
import Verif.Spec.GlmJoined
import Verif.Spec.Islands
import Verif.Props.Start

/-!
# The checks on a feeder
-/

namespace Verif.Glm

variable {M : Type} {objs : List (Txt × Obj)} {g : Grid M} {mats : M → (ℕ → ℕ → ℂ) × (ℕ → ℕ → ℝ)} {ds : List (List Char × M)} {D : DxNet}
  {lines : List Element} {regs : List Item}

theorem mem_ownPlaces {x : (Txt × Obj) × Char} : x ∈ ownPlaces objs ↔ x ∈ declaredPlaces objs ∧ x.1.2.attr "parent".toList = none := by
  rw [ownPlaces, List.mem_filter, Option.isNone_iff_eq_none]

theorem pf_nameOf {n : Txt} {p : Char} {b : ℕ} (h : FileAt objs g n p b) : ∃ r, FileRoot objs n r ∧ nameOf (g.buses.map PhaseBus.object) b = r := by
  obtain ⟨r, x, hr, hx, hn, -⟩ := h
  refine ⟨r, hr, ?_⟩
  rw [nameOf, List.getElem?_map, hx]
  exact hn

theorem pf_real {n : Txt} {p : Char} {b : ℕ} (h : FileAt objs g n p b) : RealName (g.buses.map PhaseBus.object) (nameOf (g.buses.map PhaseBus.object) b) := by
  obtain ⟨r, x, hr, hx, hn, -, hv⟩ := h
  refine ⟨x.object, List.mem_map_of_mem (List.mem_of_getElem? hx), hv, ?_⟩
  rw [nameOf, List.getElem?_map, hx]
  rfl

theorem pf_realName (hB : BusesOf objs g) {a : Txt} : RealName (g.buses.map PhaseBus.object) a ↔ ∃ x ∈ ownPlaces objs, x.1.1 = a := by
  constructor
  · rintro ⟨b, hb, hv, rfl⟩
    obtain ⟨x, hx, rfl⟩ := List.mem_map.1 hb
    obtain ⟨i, hi⟩ := List.mem_iff_getElem?.1 hx
    obtain ⟨y, hy, hp, hn, -⟩ := hB.outer i x hi hv
    exact ⟨y, mem_ownPlaces.2 ⟨hy, hp⟩, hn⟩
  · rintro ⟨x, hx, rfl⟩
    obtain ⟨hx, hp⟩ := mem_ownPlaces.1 hx
    obtain ⟨b, hb⟩ := hB.have_ x hx hp
    obtain ⟨r, hr, hn⟩ := pf_nameOf hb.2
    rw [hB.root _ _ _ hb.1 hr, ← hn]
    exact pf_real hb.2

/-- Where the terminals of an element are that it joins. -/
theorem Parts.joins (hf : PlainFeeder objs) (hP : Parts mats objs ds g D lines regs) (s : ℝ) {e : Element} (he : e ∈ (D.network.factor s s).elements) {f t : ℕ}
    (hj : Joins e (some f) (some t)) : ∃ n m p q, FileAt objs g n p f ∧ FileAt objs g m q t ∧
      (n = m ∨ FileStep objs ds n m ∧ (¬ Transforms e → PlainStep objs ds n m)) := by
  rcases (hP.mem s e).1 he with he | ⟨x, hx, rfl⟩ | ⟨x, hx, rfl⟩ | ⟨x, hx, rfl⟩ | ⟨x, hx, rfl⟩ | ⟨x, hx, rfl⟩ | ⟨x, hx, rfl⟩ | ⟨x, hx, rfl⟩
  · obtain ⟨x, hx, a, b, bs, ha, hb, hbs, rfl⟩ := forall₂_mem_right hP.wires he
    cases hj with
    | phase hm =>
      obtain ⟨p, hp, h1, h2⟩ := forall₂_mem_right hbs hm
      have := PlainStep.line hx (List.ne_nil_of_mem hp) ha hb
      exact ⟨a, b, p, p, h1, h2, Or.inr ⟨.plain this, fun _ => this⟩⟩
  · rcases hP.tapOf hf hx with ⟨o, c, p, q, hd, fp, fn, tp, tn, a, gs, bs, v1, v2, s, r, y, e, ⟨n, hn, h1⟩, ⟨m, hm, h2⟩, h3, h4, -⟩ |
      ⟨o, c, hd, p, f', b0, b1, t1, b2, t2, a, g0, s0, g1, s1, g2, s2, v1, v2, s, r, y, e, hp, ⟨n, hn, h1⟩, ⟨m, hm, h2⟩, ⟨m', hm', h3⟩, -⟩
    · rw [e] at hj
      have hterm : ∀ {z : Option Txt} {w : Txt} {c : Bool} {k : Ref} {b : ℕ}, z = some w → FileTerm objs g z (if c then some q else none) k → k = some b → FileAt objs g w q b := by
        intro z w c k b hz ht hk
        cases c with
        | false =>
          rw [if_neg (by simp)] at ht
          rw [show k = none from ht] at hk
          cases hk
        | true =>
          rw [if_pos rfl] at ht
          obtain ⟨b', rfl, w', hw', hb'⟩ := ht
          rw [hz] at hw'
          cases hw'
          cases hk
          exact hb'
      cases hj with
      | primarySecondary => exact ⟨n, m, p, p, h1, h2, Or.inr ⟨.coil hd hn hm, fun h => absurd (by rw [e]; exact .transformer) h⟩⟩
      | primary => exact ⟨n, n, p, q, h1, hterm hn h3 rfl, Or.inl rfl⟩
      | secondary => exact ⟨m, m, p, q, h2, hterm hm h4 rfl, Or.inl rfl⟩
    · rw [e] at hj
      have hno : ∀ P : Prop, ¬ Transforms x.element → P := fun P h => absurd (by rw [e]; exact .centerTap) h
      cases hj with
      | tap1 => exact ⟨n, m, p, '1', h1, h2, Or.inr ⟨.tap hd hn hm, hno _⟩⟩
      | tap2 => exact ⟨n, m', p, '2', h1, h3, Or.inr ⟨.tap hd hn hm', hno _⟩⟩
  · cases hj
  · obtain ⟨d, hd, ⟨n, hn, h1⟩, ⟨m, hm, h2⟩, hst⟩ := forall₂_mem_right hP.switches hx
    generalize hS : x.status = st at hj hst
    cases hj with
    | switch =>
      have hop : d.isOpen = false := by
        cases ho : d.isOpen with
        | false => rfl
        | true => exact absurd (hst.2 ho) (by decide)
      have := PlainStep.switch (ds := ds) hd hop hn hm
      exact ⟨n, m, _, _, h1, h2, Or.inr ⟨.plain this, fun _ => this⟩⟩
  · cases hj
  · obtain ⟨y, hy, hit⟩ := forall₂_mem_right hP.items hx
    obtain ⟨d, hd, hr, htap⟩ := forall₂_mem_right hP.settings hy
    obtain ⟨c, ratio, -, -, e⟩ := reg_ratio hr hit htap
    obtain ⟨⟨n, hn, h1⟩, ⟨m, hm, h2⟩, -⟩ := hr
    rw [e] at hj
    cases hj with
    | regulator => exact ⟨n, m, _, _, h1, h2, Or.inr ⟨.reg hd hn hm, fun h => absurd (by rw [e]; exact .regulator) h⟩⟩
  · obtain ⟨d, hd, ⟨n, hn, h1⟩, ⟨m, hm, h2⟩, -⟩ := forall₂_mem_right hP.fuses hx
    cases hj with
    | fuse =>
      have := PlainStep.fuse (ds := ds) hd hn hm
      exact ⟨n, m, _, _, h1, h2, Or.inr ⟨.plain this, fun _ => this⟩⟩
  · cases hj

/-- Every device between two names is an element between buses of these names. -/
theorem Parts.step (hf : PlainFeeder objs) (hP : Parts mats objs ds g D lines regs) (s : ℝ) {n m : Txt} (h : FileStep objs ds n m) :
    ∃ e ∈ (D.network.factor s s).elements, ∃ f t p q, Joins e (some f) (some t) ∧ FileAt objs g n p f ∧ FileAt objs g m q t := by
  cases h with
  | plain h =>
    cases h with
    | @line x _ _ hx hne ha hb =>
      obtain ⟨e, he, a, b, bs, ha', hb', hbs, rfl⟩ := forall₂_mem_left hP.wires hx
      rw [ha] at ha'
      rw [hb] at hb'
      cases ha'
      cases hb'
      obtain ⟨p, hp⟩ := List.exists_mem_of_ne_nil _ hne
      obtain ⟨y, hy, h1, h2⟩ := forall₂_mem_left hbs hp
      exact ⟨_, (hP.mem s _).2 (Or.inl he), y.1, y.2, p, p, .phase hy, h1, h2⟩
    | @switch d _ _ hd ho ha hb =>
      obtain ⟨x, hx, ⟨n', hn, h1⟩, ⟨m', hm, h2⟩, hst⟩ := forall₂_mem_left hP.switches hd
      rw [ha] at hn
      rw [hb] at hm
      cases hn
      cases hm
      have hc : x.status = .closed := by
        cases hS : x.status with
        | closed => rfl
        | opened => rw [hst.1 hS] at ho; cases ho
      refine ⟨_, (hP.mem s _).2 (Or.inr (Or.inr (Or.inr (Or.inl ⟨x, hx, rfl⟩)))), x.f, x.t, _, _, ?_, h1, h2⟩
      rw [hc]
      exact .switch
    | @fuse d _ _ hd ha hb =>
      obtain ⟨x, hx, ⟨n', hn, h1⟩, ⟨m', hm, h2⟩, -⟩ := forall₂_mem_left hP.fuses hd
      rw [ha] at hn
      rw [hb] at hm
      cases hn
      cases hm
      exact ⟨_, (hP.mem s _).2 (Or.inr (Or.inr (Or.inr (Or.inr (Or.inr (Or.inr (Or.inl ⟨x, hx, rfl⟩))))))), x.f, x.t, _, _, .fuse, h1, h2⟩
  | @reg d _ _ hd ha hb =>
    obtain ⟨y, hy, hr, htap⟩ := forall₂_mem_left hP.settings hd
    obtain ⟨it, hi, hit⟩ := forall₂_mem_left hP.items hy
    obtain ⟨c, ratio, -, -, e⟩ := reg_ratio hr hit htap
    obtain ⟨⟨n', hn, h1⟩, ⟨m', hm, h2⟩, -⟩ := hr
    rw [ha] at hn
    rw [hb] at hm
    cases hn
    cases hm
    refine ⟨_, (hP.mem s _).2 (Or.inr (Or.inr (Or.inr (Or.inr (Or.inr (Or.inl ⟨it, hi, rfl⟩)))))), y.f, y.t, _, _, ?_, h1, h2⟩
    rw [e]
    exact .regulator
  | @coil o c p q _ _ hd ha hb =>
    obtain ⟨x, hx, hxd⟩ := forall₂_mem_left hP.xfmrs hd
    obtain ⟨c', hc', hcoil⟩ := hxd
    obtain ⟨fp, fn, tp, tn, a, gs, bs, v1, v2, s', r, y, e, ⟨n', hn, h1⟩, ⟨m', hm, h2⟩, -⟩ := coil_element hcoil
    rw [ha] at hn
    rw [hb] at hm
    cases hn
    cases hm
    refine ⟨_, (hP.mem s _).2 (Or.inr (Or.inl ⟨x, hx, rfl⟩)), fp, tp, _, _, ?_, h1, h2⟩
    rw [e]
    exact .primarySecondary
  | @tap o c _ _ hd ha hb =>
    obtain ⟨x, hx, hxd⟩ := forall₂_mem_left hP.xfmrs hd
    obtain ⟨k1, k2, -⟩ := hf.centerTaps o c hd
    obtain ⟨p, f', b0, b1, t1, b2, t2, a, g0, s0, g1, s1, g2, s2, v1, v2, s', r, y, e, hp, ⟨n', hn, h1⟩, ⟨m', hm, h2⟩, -⟩ := tap_element hxd k1 k2
    rw [ha] at hn
    rw [hb] at hm
    cases hn
    cases hm
    refine ⟨_, (hP.mem s _).2 (Or.inr (Or.inl ⟨x, hx, rfl⟩)), f', t1, _, _, ?_, h1, h2⟩
    rw [e]
    exact .tap1

theorem Parts.proper (hf : PlainFeeder objs) (hP : Parts mats objs ds g D lines regs) (s : ℝ) :
    ProperEnds (g.buses.map PhaseBus.object) (D.network.factor s s).elements := by
  intro e he f t hj
  obtain ⟨n, m, p, q, h1, h2, -⟩ := hP.joins hf s he hj
  exact ⟨pf_real h1, pf_real h2⟩

theorem nextTo_symm {R : Txt → Txt → Prop} {a b : Txt} (h : NextTo objs R a b) : NextTo objs R b a := by
  obtain ⟨n, m, hR, h1, h2⟩ := h
  exact ⟨m, n, hR.symm, h2, h1⟩

/-- What links two names in the network links them in the file. -/
theorem Parts.links (hf : PlainFeeder objs) (hP : Parts mats objs ds g D lines regs) (s : ℝ) {e : Element} (he : e ∈ (D.network.factor s s).elements) {a b : Txt}
    (h : LinksNames (g.buses.map PhaseBus.object) e a b) : NextTo objs (FileStep objs ds) a b ∧ (¬ Transforms e → NextTo objs (PlainStep objs ds) a b) := by
  obtain ⟨hab, f, t, hj, hn⟩ := h
  obtain ⟨n, m, p, q, h1, h2, hstep⟩ := hP.joins hf s he hj
  obtain ⟨r, hr, e1⟩ := pf_nameOf h1
  obtain ⟨r', hr', e2⟩ := pf_nameOf h2
  rw [e1, e2] at hn
  rcases hstep with rfl | ⟨h3, h4⟩
  · have := hP.busesOf.root _ _ _ hr hr'
    subst this
    exact absurd (by rcases hn with ⟨rfl, rfl⟩ | ⟨rfl, rfl⟩ <;> rfl) hab
  · rcases hn with ⟨rfl, rfl⟩ | ⟨rfl, rfl⟩
    · exact ⟨⟨n, m, Or.inl h3, hr, hr'⟩, fun h => ⟨n, m, Or.inl (h4 h), hr, hr'⟩⟩
    · exact ⟨⟨m, n, Or.inr h3, hr', hr⟩, fun h => ⟨m, n, Or.inr (h4 h), hr', hr⟩⟩

theorem Parts.linked (hf : PlainFeeder objs) (hP : Parts mats objs ds g D lines regs) (s : ℝ) {a b : Txt} (h : NextTo objs (FileStep objs ds) a b) (hab : a ≠ b) :
    Linked (g.buses.map PhaseBus.object) (D.network.factor s s).elements a b := by
  obtain ⟨n, m, hR, ha, hb⟩ := h
  have key : ∀ {n m a b : Txt}, FileStep objs ds n m → FileRoot objs n a → FileRoot objs m b → ∃ e ∈ (D.network.factor s s).elements, ∃ f t, Joins e (some f) (some t) ∧
      nameOf (g.buses.map PhaseBus.object) f = a ∧ nameOf (g.buses.map PhaseBus.object) t = b := by
    intro n m a b hst ha hb
    obtain ⟨e, he, f, t, p, q, hj, h1, h2⟩ := hP.step hf s hst
    obtain ⟨r, hr, e1⟩ := pf_nameOf h1
    obtain ⟨r', hr', e2⟩ := pf_nameOf h2
    rw [hP.busesOf.root _ _ _ hr ha] at e1
    rw [hP.busesOf.root _ _ _ hr' hb] at e2
    exact ⟨e, he, f, t, hj, e1, e2⟩
  rcases hR with hst | hst
  · obtain ⟨e, he, f, t, hj, e1, e2⟩ := key hst ha hb
    exact ⟨e, he, hab, f, t, hj, Or.inl ⟨e1, e2⟩⟩
  · obtain ⟨e, he, f, t, hj, e1, e2⟩ := key hst hb ha
    exact ⟨e, he, hab, f, t, hj, Or.inr ⟨e1, e2⟩⟩

/-- Paths of the network and ways of the file are the same. -/
theorem Parts.path (hf : PlainFeeder objs) (hP : Parts mats objs ds g D lines regs) (s : ℝ) (a b : Txt) :
    PathBetween (g.buses.map PhaseBus.object) (D.network.factor s s).elements a b ↔ FileJoined objs ds a b := by
  constructor
  · intro h
    induction h with
    | refl => exact .refl
    | tail _ h ih =>
      obtain ⟨e, he, hl⟩ := h
      exact ih.tail (hP.links hf s he hl).1
  · intro h
    induction h with
    | refl => exact .refl
    | @tail b c _ h ih =>
      by_cases hbc : b = c
      · exact hbc ▸ ih
      · exact ih.tail (hP.linked hf s h hbc)

theorem pf_connected (hgood : ∀ i ∈ D.items, i.refuses = false) : (g.pf D).connected = D.network.elements := by
  show (D.items.filter fun i => !i.refuses).map Item.element = D.items.map Item.element
  rw [List.filter_eq_self.2]
  intro i hi
  rw [hgood i hi]
  rfl

/-! ### The start vector -/

theorem pf_start {L : Library} (hb : D.network.buses = g.buses.length) {b : ℕ} {x : PhaseBus} (hx : g.buses[b]? = some x) :
    (D.network.assign L).voltages (dxInit L D.network (g.buses.map fun b => b.start.value)) (some b) = ⟨x.start.value.1, x.start.value.2⟩ := by
  obtain ⟨hlt, hget⟩ := List.getElem?_eq_some_iff.1 hx
  obtain ⟨r, i, h1, h2, h3, h4⟩ := C57_distribution_partial L D.network (buses := g.buses.map fun b => b.start.value) (by rw [List.length_map, hb]) (k := b) (by rw [hb]; exact hlt)
  generalize hv : dxInit L D.network (g.buses.map fun b => b.start.value) = v at *
  have e : (D.network.assign L).voltages v (some b) =
      ⟨readIdx v (nodeAt (D.network.assign L).nodes (some b)).vr, readIdx v (nodeAt (D.network.assign L).nodes (some b)).vi⟩ := rfl
  rw [e, h1, h2]
  show (⟨v r, v i⟩ : ℂ) = _
  rw [h3, h4, List.getElem_map, hget]

end Verif.Glm
