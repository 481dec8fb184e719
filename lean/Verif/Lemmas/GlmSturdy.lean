import Verif.Lemmas.GlmSupply
import Verif.Lemmas.Symmetry
import Verif.Lemmas.RawSupply

/-!
# A supplied feeder is sturdy
-/

namespace Verif

/-- A list of branches has no loop if it has none after buses are merged. -/
theorem loopless_merged (φ : ℕ → ℕ) {l : List (Ref × Ref)} (h : Loopless l) :
    ∀ m : List (Ref × Ref), m.map (fun b => (b.1.map φ, b.2.map φ)) = l → Loopless m := by
  induction h with
  | nil => intro m hm; rw [List.map_eq_nil_iff.1 hm]; exact .nil
  | @leaf l₁ l₂ f u k hl hfree hend ih =>
    intro m hm
    obtain ⟨m₁, m', rfl, h1, h2⟩ := List.map_eq_append_iff.1 hm
    obtain ⟨b, m₂, rfl, h3, h4⟩ := List.map_eq_cons_iff.1 h2
    obtain ⟨f', u'⟩ := b
    have hf : f'.map φ = f := congrArg Prod.fst h3
    have hu : u'.map φ = u := congrArg Prod.snd h3
    have hih := ih (m₁ ++ m₂) (by rw [List.map_append, h1, h4])
    have free : ∀ k', φ k' = k → ∀ b ∈ m₁ ++ m₂, b.1 ≠ some k' ∧ b.2 ≠ some k' := by
      intro k' hk' b hb
      have := hfree _ (by rw [← h1, ← h4, ← List.map_append]; exact List.mem_map_of_mem hb)
      refine ⟨fun e => this.1 ?_, fun e => this.2 ?_⟩
      · show b.1.map φ = some k
        rw [e, Option.map_some, hk']
      · show b.2.map φ = some k
        rw [e, Option.map_some, hk']
    rcases hend with ⟨e, ne⟩ | ⟨e, ne⟩
    · rw [e] at hf
      obtain ⟨k', rfl, hk'⟩ := Option.map_eq_some_iff.1 hf
      refine .leaf k' hih (free k' hk') (Or.inl ⟨rfl, fun e' => ne ?_⟩)
      rw [← hu, e', Option.map_some, hk']
    · rw [e] at hu
      obtain ⟨k', rfl, hk'⟩ := Option.map_eq_some_iff.1 hu
      refine .leaf k' hih (free k' hk') (Or.inr ⟨rfl, fun e' => ne ?_⟩)
      rw [← hf, e', Option.map_some, hk']

/-- Branches that begin at new buses make no loop. -/
theorem loopless_fresh {l : List (Ref × Ref)} (h : Loopless l) : ∀ new : List (ℕ × Ref), (new.map Prod.fst).Nodup →
    (∀ a ∈ new, ∀ b ∈ new, b.2 ≠ some a.1) → (∀ a ∈ new, ∀ b ∈ l, b.1 ≠ some a.1 ∧ b.2 ≠ some a.1) →
    Loopless (new.map (fun a => (some a.1, a.2)) ++ l)
  | [], _, _, _ => h
  | a :: new, h1, h2, h3 => by
    rw [List.map_cons, List.nodup_cons] at h1
    have ih := loopless_fresh h new h1.2 (fun x hx y hy => h2 x (by simp [hx]) y (by simp [hy])) (fun x hx => h3 x (by simp [hx]))
    rw [List.map_cons, List.cons_append]
    refine Loopless.leaf (l₁ := []) a.1 ih (fun b hb => ?_) (Or.inl ⟨rfl, h2 a (by simp) a (by simp)⟩)
    rw [List.nil_append] at hb
    rcases List.mem_append.1 hb with hb | hb
    · obtain ⟨y, hy, rfl⟩ := List.mem_map.1 hb
      refine ⟨fun e => h1.1 ?_, h2 a (by simp) y (by simp [hy])⟩
      rw [← Option.some.inj e]
      exact List.mem_map_of_mem hy
    · exact h3 a (by simp) b hb

namespace Glm

variable {M : Type} {objs : List (Txt × Obj)} {g : Grid M} {mats : M → (ℕ → ℕ → ℂ) × (ℕ → ℕ → ℝ)} {ds : List (List Char × M)} {D : DxNet}
  {lines : List Element} {regs : List Item}

/-! ### Conductances -/

theorem winding_pos {G B : ℝ} {r y : ℚ} {k : ℝ} (h : (⟨G, B⟩ : ℂ) * (toComplex (r, y) * (k : ℂ)) = 1) (hr : 0 < r) (hk : 0 < k) : 0 < G := by
  refine Raw.conductance_pos (r := (r : ℝ) * k) (x := (y : ℝ) * k) (B := B) ?_ (mul_pos (by exact_mod_cast hr) hk)
  rw [← h, mul_comm]
  congr 1
  apply Complex.ext <;> simp [toComplex]

theorem ratedCoil_ne (d : Bool) {v : ℚ} (hv : v ≠ 0) : ratedCoil d v ≠ 0 := by
  have : (v : ℝ) ≠ 0 := by exact_mod_cast hv
  rw [ratedCoil]
  split
  · exact this
  · exact div_ne_zero this (by simp)

/-! ### Elements -/

theorem Parts.mem (hP : Parts mats objs ds g D lines regs) (s : ℝ) (e : Element) : e ∈ (D.network.factor s s).elements ↔
    e ∈ lines ∨ (∃ x ∈ g.transformers, x.element = e) ∨ (∃ x ∈ g.slacks, Element.slack x.1 x.2.value.1 x.2.value.2 = e) ∨
    (∃ x ∈ g.switches, Element.switch (some x.f) (some x.t) x.status = e) ∨ (∃ x ∈ g.loads, x.element.factor s s = e) ∨ (∃ x ∈ regs, x.element = e) ∨
    (∃ x ∈ g.fuses, Element.fuse (some x.f) (some x.i) (some x.t) = e) ∨ ∃ x ∈ g.capacitors, x.item.element = e := by
  rw [hP.factored]
  simp only [List.mem_append, List.mem_map]

theorem Parts.tapOf (hf : PlainFeeder objs) (hP : Parts mats objs ds g D lines regs) {x : GXfmr} (hx : x ∈ g.transformers) :
    (∃ o c p q, .coil o (some c) p q ∈ declaredXfmrs objs ∧ IsBankCoil objs g o c p q x) ∨ ∃ o c, .tap o c ∈ declaredXfmrs objs ∧ IsFileTap objs g o c x := by
  obtain ⟨d, hd, hx⟩ := forall₂_mem_right hP.xfmrs hx
  cases d with
  | coil o c p q =>
    obtain ⟨c', rfl, hcoil⟩ := hx
    exact Or.inl ⟨o, c', p, q, hd, coil_element hcoil⟩
  | tap o c =>
    obtain ⟨t1, t2, -⟩ := hf.centerTaps o c hd
    exact Or.inr ⟨o, c, hd, tap_element hx t1 t2⟩

theorem Parts.resistive (hs : SuppliedFeeder mats objs ds) (hP : Parts mats objs ds g D lines regs) : ∀ e ∈ (D.network.factor 0 0).elements, e.Resistive := by
  intro e he
  rcases (hP.mem 0 e).1 he with he | ⟨x, hx, rfl⟩ | ⟨x, hx, rfl⟩ | ⟨x, hx, rfl⟩ | ⟨x, hx, rfl⟩ | ⟨x, hx, rfl⟩ | ⟨x, hx, rfl⟩ | ⟨x, hx, rfl⟩
  · obtain ⟨x, hx, a, b, bs, -, -, hbs, rfl⟩ := forall₂_mem_right hP.wires he
    have := hs.lines x.2 (List.of_mem_zip hx).2
    rw [Lossy, hbs.length_eq] at this
    exact this
  · rcases hP.tapOf hs.plain hx with ⟨o, c, p, q, hd, fp, fn, tp, tn, a, gs, bs, v1, v2, s, r, y, e, -, -, -, -, e1, e2, hi, hr, ha, hz⟩ |
      ⟨o, c, hd, p, f, b0, b1, t1, b2, t2, a, g0, s0, g1, s1, g2, s2, v1, v2, s, r, y, e, -, -, -, -, -, -, -, -, -, -, e1, e2, hi, hr, ha, hz⟩
    · obtain ⟨k1, k2, k3, k4⟩ := hs.coils o c p q hd
      have hv1 : v1 ≠ 0 := fun h0 => k3 (by rw [e1, h0])
      have hv2 : v2 ≠ 0 := fun h0 => k4 (by rw [e2, h0])
      have hs' : (0 : ℝ) < (s : ℚ) / 3 := div_pos (by exact_mod_cast k2 s hr) (by norm_num)
      have := ratedCoil_ne (deltaSides (c.attr "connect_type".toList)).2 hv2
      rw [e]
      refine ⟨?_, winding_pos hz (k1 r y hi) (div_pos (by positivity) hs')⟩
      rw [ha]
      exact div_ne_zero (ratedCoil_ne _ hv1) this
    · obtain ⟨k1, k2, k4⟩ := hs.taps o c hd
      obtain ⟨-, -, -, k5, k3⟩ := hs.plain.centerTaps o c hd
      have hv1 : v1 ≠ 0 := fun h0 => k3 (by rw [e1, h0])
      have hv2 : v2 ≠ 0 := fun h0 => k4 (by rw [e2, h0])
      have hs' : (0 : ℝ) < s := by exact_mod_cast k2 s hr
      have hv1' : (v1 : ℝ) ≠ 0 := by exact_mod_cast hv1
      have hv2' : (v2 : ℝ) ≠ 0 := by exact_mod_cast hv2
      obtain ⟨z0, z1, z2⟩ := hz (k5 r y hi) hv1
      have hr0 := k1 r y hi
      rw [e]
      refine ⟨?_, winding_pos z0 (by linarith) (div_pos (by positivity) hs'), winding_pos z1 hr0 (div_pos (by positivity) hs'),
        winding_pos z2 hr0 (div_pos (by positivity) hs')⟩
      rw [ha]
      exact div_ne_zero hv1' hv2'
  · trivial
  · trivial
  · obtain ⟨d, hd, a, rest, -, -, -, -, hz, -⟩ := forall₂_mem_right hP.loads hx
    refine ⟨mul_zero _, mul_zero _, ?_⟩
    show (0 : ℝ) ≤ (x.z.1 : ℝ)
    rw [hz]
    split
    · rename_i hk
      exact_mod_cast hs.impedances d hd hk
    · simp
  · obtain ⟨y, hy, hit⟩ := forall₂_mem_right hP.items hx
    obtain ⟨d, hd, hr, htap⟩ := forall₂_mem_right hP.settings hy
    obtain ⟨c, ratio, hc, hra, e⟩ := reg_ratio hr hit htap
    rw [e]
    exact ⟨hs.regs d hd c hc ratio hra, by norm_num⟩
  · trivial
  · trivial

/-! ### References -/

theorem fileTerm_valid {name : Option Txt} {p : Option Char} {r : Ref} (h : FileTerm objs g name p r) : Ref.Valid g.buses.length r := by
  cases p with
  | none => rw [show r = none from h]; trivial
  | some p =>
    obtain ⟨b, rfl, n, -, hb⟩ := h
    exact fileAt_lt hb

theorem inner_lt {b : ℕ} (h : Inner g b) : b < g.buses.length := by
  obtain ⟨x, hx, -⟩ := h
  exact (List.getElem?_eq_some_iff.1 hx).1

theorem fileAtOf_lt {name : Option Txt} {p : Char} {b : ℕ} (h : FileAtOf objs g name p b) : b < g.buses.length := by
  obtain ⟨n, -, hb⟩ := h
  exact fileAt_lt hb

theorem Parts.validAt (hf : PlainFeeder objs) (hP : Parts mats objs ds g D lines regs) (s : ℝ) : (D.network.factor s s).Valid := by
  intro e he
  show e.Valid D.network.buses
  rw [hP.buses]
  rcases (hP.mem s e).1 he with he | ⟨x, hx, rfl⟩ | ⟨x, hx, rfl⟩ | ⟨x, hx, rfl⟩ | ⟨x, hx, rfl⟩ | ⟨x, hx, rfl⟩ | ⟨x, hx, rfl⟩ | ⟨x, hx, rfl⟩
  · obtain ⟨x, hx, a, b, bs, -, -, hbs, rfl⟩ := forall₂_mem_right hP.wires he
    intro p hp
    obtain ⟨c, -, h1, h2⟩ := forall₂_mem_right hbs hp
    exact ⟨fileAt_lt h1, fileAt_lt h2⟩
  · rcases hP.tapOf hf hx with ⟨o, c, p, q, hd, fp, fn, tp, tn, a, gs, bs, v1, v2, s, r, y, e, h1, h2, h3, h4, -⟩ |
      ⟨o, c, hd, p, f, b0, b1, t1, b2, t2, a, g0, s0, g1, s1, g2, s2, v1, v2, s, r, y, e, -, h1, h2, h3, i0, i1, i2, -⟩
    · rw [e]
      exact ⟨fileAtOf_lt h1, fileTerm_valid h3, fileAtOf_lt h2, fileTerm_valid h4⟩
    · rw [e]
      exact ⟨fileAtOf_lt h1, inner_lt i0, inner_lt i1, fileAtOf_lt h2, inner_lt i2, fileAtOf_lt h3⟩
  · obtain ⟨d, -, h1, -⟩ := forall₂_mem_right hP.sources hx
    exact fileAt_lt h1
  · obtain ⟨d, -, h1, h2, -⟩ := forall₂_mem_right hP.switches hx
    exact ⟨fileAtOf_lt h1, fileAtOf_lt h2⟩
  · obtain ⟨d, -, a, rest, -, h1, h2, -⟩ := forall₂_mem_right hP.loads hx
    exact ⟨fileAt_lt h1, fileTerm_valid h2⟩
  · obtain ⟨y, hy, hit⟩ := forall₂_mem_right hP.items hx
    obtain ⟨d, -, hr, htap⟩ := forall₂_mem_right hP.settings hy
    obtain ⟨c, ratio, -, -, e⟩ := reg_ratio hr hit htap
    rw [e]
    exact ⟨fileAtOf_lt hr.1, inner_lt hr.2.2.1, fileAtOf_lt hr.2.1⟩
  · obtain ⟨d, -, h1, h2, h3, -⟩ := forall₂_mem_right hP.fuses hx
    exact ⟨fileAtOf_lt h1, inner_lt h3, fileAtOf_lt h2⟩
  · obtain ⟨d, -, h1, -⟩ := forall₂_mem_right hP.caps hx
    exact ⟨fileAtOf_lt h1, trivial⟩

theorem Parts.valid (hf : PlainFeeder objs) (hP : Parts mats objs ds g D lines regs) : D.network.Valid := by
  intro e he
  have := hP.validAt hf 0 (e.factor 0 0) (List.mem_map_of_mem he)
  cases e <;> exact this

/-! ### Held buses -/

theorem Parts.fed (hf : PlainFeeder objs) (hP : Parts mats objs ds g D lines regs) {n : Txt} {p : Char} (h : Fed objs ds n p) :
    ∀ b, FileAt objs g n p b → Held (D.network.factor 0 0).elements (some b) := by
  have hB := hP.busesOf
  have mem := hP.mem 0
  induction h with
  | source hx =>
    intro b hb
    obtain ⟨y, hy, hat, -⟩ := forall₂_mem_left hP.sources hx
    rw [hB.one _ _ _ _ hb hat]
    exact .forth ((mem _).2 (Or.inr (Or.inr (Or.inl ⟨y, hy, rfl⟩)))) ⟨rfl, rfl⟩ .ground
  | same hn hm _ ih =>
    intro b hb
    obtain ⟨r', x, hr', hx, e, hp, hv⟩ := hb
    have := hB.root _ _ _ hm hr'
    exact ih b ⟨_, x, hn, hx, by rw [this]; exact e, hp, hv⟩
  | line hx ha hb hp _ ih =>
    intro k hk
    obtain ⟨e, he, a', b', bs, ha', hb', hbs, rfl⟩ := forall₂_mem_left hP.wires hx
    rw [ha] at ha'
    rw [hb] at hb'
    cases ha'
    cases hb'
    obtain ⟨y, hy, h1, h2⟩ := forall₂_mem_left hbs hp
    rw [hB.one _ _ _ _ hk h2]
    exact .forth ((mem _).2 (Or.inl he)) ⟨y, hy, rfl, rfl⟩ (ih _ h1)
  | lineBack hx ha hb hp _ ih =>
    intro k hk
    obtain ⟨e, he, a', b', bs, ha', hb', hbs, rfl⟩ := forall₂_mem_left hP.wires hx
    rw [ha] at ha'
    rw [hb] at hb'
    cases ha'
    cases hb'
    obtain ⟨y, hy, h1, h2⟩ := forall₂_mem_left hbs hp
    rw [hB.one _ _ _ _ hk h1]
    exact .back ((mem _).2 (Or.inl he)) ⟨y, hy, rfl, rfl⟩ (ih _ h2)
  | switch hd ho ha hb _ ih =>
    intro k hk
    obtain ⟨x, hx, ⟨a', ha', h1⟩, ⟨b', hb', h2⟩, hst⟩ := forall₂_mem_left hP.switches hd
    rw [ha] at ha'
    rw [hb] at hb'
    cases ha'
    cases hb'
    rw [hB.one _ _ _ _ hk h2]
    have hc : x.status = .closed := by
      cases hx' : x.status with
      | closed => rfl
      | opened => rw [hst.1 hx'] at ho; cases ho
    exact .forth ((mem _).2 (Or.inr (Or.inr (Or.inr (Or.inl ⟨x, hx, rfl⟩))))) (by rw [hc]; exact ⟨rfl, rfl⟩) (ih _ h1)
  | switchBack hd ho ha hb _ ih =>
    intro k hk
    obtain ⟨x, hx, ⟨a', ha', h1⟩, ⟨b', hb', h2⟩, hst⟩ := forall₂_mem_left hP.switches hd
    rw [ha] at ha'
    rw [hb] at hb'
    cases ha'
    cases hb'
    rw [hB.one _ _ _ _ hk h1]
    have hc : x.status = .closed := by
      cases hx' : x.status with
      | closed => rfl
      | opened => rw [hst.1 hx'] at ho; cases ho
    exact .back ((mem _).2 (Or.inr (Or.inr (Or.inr (Or.inl ⟨x, hx, rfl⟩))))) (by rw [hc]; exact ⟨rfl, rfl⟩) (ih _ h2)
  | fuse hd ha hb _ ih =>
    intro k hk
    obtain ⟨x, hx, ⟨a', ha', h1⟩, ⟨b', hb', h2⟩, -⟩ := forall₂_mem_left hP.fuses hd
    rw [ha] at ha'
    rw [hb] at hb'
    cases ha'
    cases hb'
    rw [hB.one _ _ _ _ hk h2]
    have hm := (mem _).2 (Or.inr (Or.inr (Or.inr (Or.inr (Or.inr (Or.inr (Or.inl ⟨x, hx, rfl⟩)))))))
    exact .forth hm (Or.inr ⟨rfl, rfl⟩) (.forth hm (Or.inl ⟨rfl, rfl⟩) (ih _ h1))
  | fuseBack hd ha hb _ ih =>
    intro k hk
    obtain ⟨x, hx, ⟨a', ha', h1⟩, ⟨b', hb', h2⟩, -⟩ := forall₂_mem_left hP.fuses hd
    rw [ha] at ha'
    rw [hb] at hb'
    cases ha'
    cases hb'
    rw [hB.one _ _ _ _ hk h1]
    have hm := (mem _).2 (Or.inr (Or.inr (Or.inr (Or.inr (Or.inr (Or.inr (Or.inl ⟨x, hx, rfl⟩)))))))
    exact .back hm (Or.inl ⟨rfl, rfl⟩) (.back hm (Or.inr ⟨rfl, rfl⟩) (ih _ h2))
  | reg hd ha hb _ ih =>
    intro k hk
    obtain ⟨x, hx, hr, htap⟩ := forall₂_mem_left hP.settings hd
    obtain ⟨it, hit, hi⟩ := forall₂_mem_left hP.items hx
    obtain ⟨c, ratio, -, -, e⟩ := reg_ratio hr hi htap
    obtain ⟨⟨a', ha', h1⟩, ⟨b', hb', h2⟩, -⟩ := hr
    rw [ha] at ha'
    rw [hb] at hb'
    cases ha'
    cases hb'
    rw [hB.one _ _ _ _ hk h2]
    have hm := (mem _).2 (Or.inr (Or.inr (Or.inr (Or.inr (Or.inr (Or.inl ⟨it, hit, e⟩))))))
    exact .forth hm (Or.inr ⟨rfl, rfl⟩) (.forth hm (Or.inl ⟨rfl, rfl⟩) (ih _ h1))
  | regBack hd ha hb _ ih =>
    intro k hk
    obtain ⟨x, hx, hr, htap⟩ := forall₂_mem_left hP.settings hd
    obtain ⟨it, hit, hi⟩ := forall₂_mem_left hP.items hx
    obtain ⟨c, ratio, -, -, e⟩ := reg_ratio hr hi htap
    obtain ⟨⟨a', ha', h1⟩, ⟨b', hb', h2⟩, -⟩ := hr
    rw [ha] at ha'
    rw [hb] at hb'
    cases ha'
    cases hb'
    rw [hB.one _ _ _ _ hk h1]
    have hm := (mem _).2 (Or.inr (Or.inr (Or.inr (Or.inr (Or.inr (Or.inl ⟨it, hit, e⟩))))))
    exact .back hm (Or.inl ⟨rfl, rfl⟩) (.back hm (Or.inr ⟨rfl, rfl⟩) (ih _ h2))
  | @coil o c p q a0 b0 hd hdel ha hb _ _ ih ih' =>
    intro k hk
    obtain ⟨x, hx, hxf⟩ := forall₂_mem_left hP.xfmrs hd
    obtain ⟨c', hc', hcoil⟩ := hxf
    cases hc'
    obtain ⟨fp, fn, tp, tn, a, gs, bs, v1, v2, s, r, y, e, ⟨a', ha', h1⟩, ⟨b', hb', h2⟩, h3, h4, -⟩ := coil_element hcoil
    rw [ha] at ha'
    rw [hb] at hb'
    cases ha'
    cases hb'
    rw [hB.one _ _ _ _ hk h2]
    rw [hdel] at h4
    have htn : tn = none := h4
    have hm := (mem _).2 (Or.inr (Or.inl ⟨x, hx, e⟩))
    refine .secondary hm (ih _ h1) ?_ (by rw [htn]; exact .ground)
    by_cases h0 : (deltaSides (Obj.attr c "connect_type".toList)).1 = true
    · rw [if_pos h0] at h3
      obtain ⟨b, rfl, n, hn, hb''⟩ := h3
      rw [ha] at hn
      cases hn
      exact ih' h0 _ hb''
    · rw [if_neg h0] at h3
      rw [show fn = none from h3]
      exact .ground
  | tap hd hph ha hb _ h hmem ih =>
    intro k hk
    obtain ⟨x, hx, hxf⟩ := forall₂_mem_left hP.xfmrs hd
    obtain ⟨c1, c2, -⟩ := hf.centerTaps _ _ hd
    obtain ⟨p', f, b0, b1, t1, b2, t2, a, g0, s0, g1, s1, g2, s2, v1, v2, s, r, y, e, hp', ⟨a', ha', h1⟩, ⟨b', hb', h2⟩, ⟨b'', hb'', h3⟩, -⟩ :=
      tap_element hxf c1 c2
    rw [hph] at hp'
    rw [ha] at ha'
    rw [hb] at hb' hb''
    cases hp'
    cases ha'
    cases hb'
    cases hb''
    have hm := (mem _).2 (Or.inr (Or.inl ⟨x, hx, e⟩))
    have hp := Held.forth hm (Or.inl ⟨rfl, rfl⟩) (ih _ h1)
    simp only [List.mem_cons, List.not_mem_nil, or_false] at hmem
    rcases hmem with rfl | rfl
    · rw [hB.one _ _ _ _ hk h2]
      exact .forth hm (Or.inr (Or.inr (Or.inr (Or.inl ⟨rfl, rfl⟩)))) (.forth hm (Or.inr (Or.inl ⟨rfl, rfl⟩)) hp)
    · rw [hB.one _ _ _ _ hk h3]
      exact .forth hm (Or.inr (Or.inr (Or.inr (Or.inr ⟨rfl, rfl⟩)))) (.forth hm (Or.inr (Or.inr (Or.inl ⟨rfl, rfl⟩))) hp)

theorem Parts.heldOuter (hs : SuppliedFeeder mats objs ds) (hP : Parts mats objs ds g D lines regs) {b : ℕ} {x : PhaseBus} (hx : g.buses[b]? = some x)
    (hv : x.virtual = false) : Held (D.network.factor 0 0).elements (some b) := by
  obtain ⟨y, hy, hp, hn, hph⟩ := hP.busesOf.outer b x hx hv
  obtain ⟨b', hroot, -⟩ := hP.busesOf.have_ y hy hp
  exact hP.fed hs.plain (hs.fed y hy hp) b ⟨y.1.1, x, hroot, hx, hn.symm, hph.symm, hv⟩

theorem Parts.held (hs : SuppliedFeeder mats objs ds) (hP : Parts mats objs ds g D lines regs) :
    ∀ k < (D.network.factor 0 0).buses, Held (D.network.factor 0 0).elements (some k) := by
  intro k hk
  have hk : k < D.network.buses := hk
  rw [hP.buses] at hk
  have mem := hP.mem 0
  have outer : ∀ {name p b}, FileAt objs g name p b → Held (D.network.factor 0 0).elements (some b) := by
    rintro name p b ⟨r, x, -, hx, -, -, hv⟩
    exact hP.heldOuter hs hx hv
  cases hv : g.buses[k].virtual with
  | false => exact hP.heldOuter hs (List.getElem?_eq_getElem hk) hv
  | true =>
    have := hP.inner.2.2 k _ (List.getElem?_eq_getElem hk) hv
    rw [innerOf] at this
    rcases List.mem_append.1 this with h | h
    · rcases List.mem_append.1 h with h | h
      · obtain ⟨x, hx, hin⟩ := List.mem_flatMap.1 h
        rcases hP.tapOf hs.plain hx with ⟨o, c, p, q, hd, fp, fn, tp, tn, a, gs, bs, v1, v2, s, r, y, e, -⟩ |
          ⟨o, c, hd, p, f, b0, b1, t1, b2, t2, a, g0, s0, g1, s1, g2, s2, v1, v2, s, r, y, e, -, ⟨n, -, h1⟩, -⟩
        · cases x <;> simp [GXfmr.element, GXfmr.inner] at e hin
        · cases x with
          | coil => simp [GXfmr.element] at e
          | centerTap f' p' s1' t1' s2' t2' w0 w1 w2 r0 r1 r2 x0 x1 x2 pw =>
            have hm := (mem _).2 (Or.inr (Or.inl ⟨_, hx, rfl⟩))
            rw [GXfmr.element] at e hm
            injection e with e1
            subst e1
            have hp := Held.forth hm (Or.inl ⟨rfl, rfl⟩) (outer h1)
            simp only [GXfmr.inner, List.mem_cons, List.not_mem_nil, or_false] at hin
            rcases hin with rfl | rfl | rfl
            · exact hp
            · exact .forth hm (Or.inr (Or.inl ⟨rfl, rfl⟩)) hp
            · exact .forth hm (Or.inr (Or.inr (Or.inl ⟨rfl, rfl⟩))) hp
      · obtain ⟨x, hx, rfl⟩ := List.mem_map.1 h
        obtain ⟨d, -, hr, htap⟩ := forall₂_mem_right hP.settings hx
        obtain ⟨it, hit, hi⟩ := forall₂_mem_left hP.items hx
        obtain ⟨c, ratio, -, -, e⟩ := reg_ratio hr hi htap
        obtain ⟨⟨a', ha', h1⟩, -⟩ := hr
        exact .forth ((mem _).2 (Or.inr (Or.inr (Or.inr (Or.inr (Or.inr (Or.inl ⟨it, hit, e⟩))))))) (Or.inl ⟨rfl, rfl⟩) (outer h1)
    · obtain ⟨x, hx, rfl⟩ := List.mem_map.1 h
      obtain ⟨d, -, ⟨a', ha', h1⟩, -⟩ := forall₂_mem_right hP.fuses hx
      exact .forth ((mem _).2 (Or.inr (Or.inr (Or.inr (Or.inr (Or.inr (Or.inr (Or.inl ⟨x, hx, rfl⟩)))))))) (Or.inl ⟨rfl, rfl⟩) (outer h1)

/-! ### Loops -/

/-- The branches of center taps, from the halves to the primary. -/
def GXfmr.halves : GXfmr → List (ℕ × Ref)
  | .coil .. => []
  | .centerTap _ p s1 _ s2 .. => [(s1, some p), (s2, some p)]

/-- The inner primaries of center taps. -/
def GXfmr.primaries : GXfmr → List ℕ
  | .coil .. => []
  | .centerTap _ p .. => [p]

/-- The branches of center taps, regulators and fuses, from inner buses. -/
def newBranches (g : Grid M) : List (ℕ × Ref) :=
  g.transformers.flatMap GXfmr.halves ++ (g.regulators.map (fun x => (x.c, some x.t)) ++ g.fuses.map fun x => (x.i, some x.t))

/-- The branches of sources and closed switches. -/
def oldBranches (g : Grid M) : List (Ref × Ref) :=
  g.slacks.map (fun x => (some x.1, none)) ++ g.switches.flatMap fun x => if x.status = .closed then [(some x.f, some x.t)] else []

theorem Parts.rigid_perm (hP : Parts mats objs ds g D lines regs) :
    ((newBranches g).map (fun a => (some a.1, a.2)) ++ oldBranches g).Perm ((D.network.factor 0 0).elements.flatMap Element.rigid) := by
  have e1 : lines.flatMap Element.rigid = [] := by
    rw [List.flatMap_eq_nil_iff]
    intro e he
    obtain ⟨x, _, a, b, bs, _, _, _, rfl⟩ := forall₂_mem_right hP.wires he
    rfl
  have e2 : (g.transformers.map GXfmr.element).flatMap Element.rigid = (g.transformers.flatMap GXfmr.halves).map fun a => (some a.1, a.2) := by
    rw [List.flatMap_map, List.map_flatMap]
    refine List.flatMap_congr fun x _ => ?_
    cases x <;> rfl
  have e3 : (g.slacks.map (fun s => Element.slack s.1 s.2.value.1 s.2.value.2)).flatMap Element.rigid = g.slacks.map (fun x => (some x.1, none)) := by
    rw [List.flatMap_map]
    exact (List.map_eq_flatMap).symm
  have e4 : (g.switches.map (fun s => Element.switch (some s.f) (some s.t) s.status)).flatMap Element.rigid =
      g.switches.flatMap fun x => if x.status = .closed then [(some x.f, some x.t)] else [] := by
    rw [List.flatMap_map]
    refine List.flatMap_congr fun x _ => ?_
    cases x.status <;> rfl
  have e5 : (g.loads.map (fun x => x.element.factor 0 0)).flatMap Element.rigid = [] := by
    rw [List.flatMap_eq_nil_iff]
    intro e he
    obtain ⟨x, -, rfl⟩ := List.mem_map.1 he
    rfl
  have e6 : (regs.map Item.element).flatMap Element.rigid = (g.regulators.map (fun x => (x.c, (some x.t : Ref)))).map fun a => (some a.1, a.2) := by
    rw [List.flatMap_map, List.map_map]
    have : List.Forall₂ (fun (x : GReg) (it : Item) => it.element.rigid = [(some x.c, some x.t)]) g.regulators regs := by
      refine ((List.forall₂_and_left _ _).2 ⟨fun x hx => hx, hP.items⟩).imp fun x it hx => ?_
      obtain ⟨d, -, hr, htap⟩ := forall₂_mem_right hP.settings hx.1
      obtain ⟨c, ratio, -, -, e⟩ := reg_ratio hr hx.2 htap
      rw [e]
      rfl
    clear * - this
    generalize g.regulators = rs at this
    induction this with
    | nil => rfl
    | cons h _ ih => rw [List.flatMap_cons, h, ih]; rfl
  have e7 : (g.fuses.map (fun x => Element.fuse (some x.f) (some x.i) (some x.t))).flatMap Element.rigid =
      (g.fuses.map fun x => (x.i, (some x.t : Ref))).map fun a => (some a.1, a.2) := by
    rw [List.flatMap_map, List.map_map]
    exact (List.map_eq_flatMap).symm
  have e8 : (g.capacitors.map fun x => x.item.element).flatMap Element.rigid = [] := by
    rw [List.flatMap_eq_nil_iff]
    intro e he
    obtain ⟨x, -, rfl⟩ := List.mem_map.1 he
    rfl
  rw [hP.factored]
  simp only [List.flatMap_append]
  rw [e1, e2, e3, e4, e5, e6, e7, e8, newBranches, oldBranches]
  simp only [List.map_append, List.nil_append, List.append_nil, List.append_assoc]
  refine List.Perm.append_left _ ?_
  rw [← List.append_assoc, ← List.append_assoc _ _ (List.map _ _ ++ _)]
  exact List.perm_append_comm

theorem inner_split (ts : List GXfmr) : (ts.flatMap GXfmr.primaries ++ (ts.flatMap GXfmr.halves).map Prod.fst).Perm (ts.flatMap GXfmr.inner) := by
  rw [List.map_flatMap]
  refine (List.flatMap_append_perm _ _ _).trans (List.Perm.of_eq (List.flatMap_congr fun x _ => ?_))
  cases x <;> rfl

theorem Parts.loopless (hs : SuppliedFeeder mats objs ds) (hP : Parts mats objs ds g D lines regs) :
    Loopless ((D.network.factor 0 0).elements.flatMap Element.rigid) := by
  refine loopless_perm ?_ hP.rigid_perm
  have hperm : (g.transformers.flatMap GXfmr.primaries ++ (newBranches g).map Prod.fst).Perm (innerOf g.transformers g.regulators g.fuses) := by
    rw [newBranches, innerOf, List.map_append, List.map_append, ← List.append_assoc, List.append_assoc (List.flatMap GXfmr.inner _), List.map_map, List.map_map]
    exact (inner_split _).append_right _
  have hnd := hperm.nodup_iff.2 hP.inner.1
  rw [List.nodup_append] at hnd
  obtain ⟨-, hnd, hdis⟩ := hnd
  -- new branches begin at inner buses
  have hin : ∀ a ∈ newBranches g, Inner g a.1 := by
    intro a ha
    rw [newBranches, List.mem_append, List.mem_append, List.mem_flatMap, List.mem_map, List.mem_map] at ha
    rcases ha with ⟨x, hx, ha⟩ | ⟨x, hx, rfl⟩ | ⟨x, hx, rfl⟩
    · rcases hP.tapOf hs.plain hx with ⟨o, c, p, q, hd, fp, fn, tp, tn, a, gs, bs, v1, v2, s, r, y, e, -⟩ |
        ⟨o, c, hd, p, f, b0, b1, t1, b2, t2, a, g0, s0, g1, s1, g2, s2, v1, v2, s, r, y, e, -, -, -, -, i0, i1, i2, -⟩
      · cases x <;> simp [GXfmr.element, GXfmr.halves] at e ha
      · cases x with
        | coil => simp [GXfmr.element] at e
        | centerTap =>
          rw [GXfmr.element] at e
          injection e with e1 e2 e3 e4 e5
          subst e1 e2 e3 e5
          simp only [GXfmr.halves, List.mem_cons, List.not_mem_nil, or_false] at ha
          rcases ha with rfl | rfl
          · exact i1
          · exact i2
    · obtain ⟨d, -, hr, -⟩ := forall₂_mem_right hP.settings hx
      exact hr.2.2.1
    · obtain ⟨d, -, hr⟩ := forall₂_mem_right hP.fuses hx
      exact hr.2.2.1
  have apart : ∀ {a name p b}, a ∈ newBranches g → FileAt objs g name p b → b ≠ a.1 := by
    rintro a name p b ha ⟨r, x, -, hx, -, -, hv⟩ rfl
    obtain ⟨y, hy, hyv⟩ := hin a ha
    rw [hx] at hy
    cases hy
    rw [hv] at hyv
    cases hyv
  refine loopless_fresh ?_ _ hnd ?_ ?_
  · obtain ⟨num, hnum, hl⟩ := hs.ideal
    have hφ : ∀ {name p b}, FileAt objs g name p b → (fun b => (g.buses[b]?.map fun x => num x.name x.phase).getD 0) b = num name p := by
      rintro name p b ⟨r, x, hr, hx, hn, hp, -⟩
      show (g.buses[b]?.map fun x => num x.name x.phase).getD 0 = _
      rw [hx, Option.map_some, Option.getD_some, hn, hp, hnum _ _ _ hr]
    refine loopless_merged (fun b => (g.buses[b]?.map fun x => num x.name x.phase).getD 0) hl _ ?_
    rw [oldBranches, idealBranches, List.map_append]
    congr 1
    · have := hP.sources
      generalize declaredSources objs = xs, g.slacks = ys at this
      rw [List.map_map]
      induction this with
      | nil => rfl
      | cons h _ ih =>
        rw [List.map_cons, List.map_cons, ih]
        congr 1
        show (some _, none) = _
        rw [hφ h.1]
    · have := hP.switches
      generalize declaredSwitches objs = xs, g.switches = ys at this
      induction this with
      | nil => rfl
      | @cons d x _ _ h _ ih =>
        rw [List.flatMap_cons, List.map_append, ih, List.filter_cons]
        obtain ⟨⟨a, ha, h1⟩, ⟨b, hb, h2⟩, hst⟩ := h
        cases ho : d.isOpen with
        | true =>
          rw [hst.2 ho]
          rfl
        | false =>
          have hc : x.status = .closed := by
            cases hx' : x.status with
            | closed => rfl
            | opened => rw [hst.1 hx'] at ho; cases ho
          rw [if_pos hc]
          simp only [Bool.not_false, if_true, List.map_cons, List.map_nil, List.singleton_append, ha, hb, Option.map_some]
          congr 1
          exact Prod.ext (congrArg some (hφ h1)) (congrArg some (hφ h2))
  · intro a ha b hb e
    rw [newBranches, List.mem_append, List.mem_append, List.mem_flatMap, List.mem_map, List.mem_map] at hb
    rcases hb with ⟨x, hx, hb⟩ | ⟨x, hx, rfl⟩ | ⟨x, hx, rfl⟩
    · have hp : a.1 ∈ g.transformers.flatMap GXfmr.primaries := by
        refine List.mem_flatMap.2 ⟨x, hx, ?_⟩
        cases x with
        | coil => simp [GXfmr.halves] at hb
        | centerTap =>
          simp only [GXfmr.halves, List.mem_cons, List.not_mem_nil, or_false] at hb
          rcases hb with rfl | rfl <;> · cases e; simp [GXfmr.primaries]
      exact hdis _ hp _ (List.mem_map_of_mem ha) rfl
    · obtain ⟨d, -, hr, -⟩ := forall₂_mem_right hP.settings hx
      obtain ⟨n, -, h2⟩ := hr.2.1
      exact apart ha h2 (Option.some.inj e)
    · obtain ⟨d, -, hr⟩ := forall₂_mem_right hP.fuses hx
      obtain ⟨n, -, h2⟩ := hr.2.1
      exact apart ha h2 (Option.some.inj e)
  · intro a ha b hb
    rw [oldBranches, List.mem_append, List.mem_map, List.mem_flatMap] at hb
    rcases hb with ⟨x, hx, rfl⟩ | ⟨x, hx, hb⟩
    · obtain ⟨d, -, h1, -⟩ := forall₂_mem_right hP.sources hx
      exact ⟨fun e => apart ha h1 (Option.some.inj e), fun e => by cases e⟩
    · obtain ⟨d, -, ⟨n, -, h1⟩, ⟨n', -, h2⟩, -⟩ := forall₂_mem_right hP.switches hx
      split at hb
      · rw [List.mem_singleton.1 hb]
        exact ⟨fun e => apart ha h1 (Option.some.inj e), fun e => apart ha h2 (Option.some.inj e)⟩
      · cases hb

/-- The network of a supplied feeder without constant power is resistive, every bus is held and ideal conductors form no loop. -/
theorem Parts.sturdy (hs : SuppliedFeeder mats objs ds) (hP : Parts mats objs ds g D lines regs) : (D.network.factor 0 0).Sturdy :=
  ⟨hP.plain, hP.resistive hs, hP.held hs, hP.loopless hs⟩

end Glm

end Verif
