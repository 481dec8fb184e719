import Verif.Lemmas.Stamper

/-! The constructor of `MatrixStamper`: every stamp and residual ends up in a set, with a column that holds its own
input. -/

namespace Verif

open Ex

/-- Each old builder is still there with its columns unchanged. -/
def Grows (bs bs' : List InputBuilder) : Prop :=
  ∀ b ∈ bs, ∃ b' ∈ bs', b'.params = b.params ∧ b.inputs <+: b'.inputs

theorem Grows.refl (bs : List InputBuilder) : Grows bs bs := fun b hb => ⟨b, hb, rfl, List.prefix_refl _⟩

theorem Grows.trans {a b c : List InputBuilder} (h1 : Grows a b) (h2 : Grows b c) : Grows a c := by
  intro x hx
  obtain ⟨y, hy, e1, p1⟩ := h1 x hx
  obtain ⟨z, hz, e2, p2⟩ := h2 y hy
  exact ⟨z, hz, e2.trans e1, p1.trans p2⟩

/-- A column found before is found after. -/
def HasColumn (bs : List InputBuilder) (params : List Sym) (out : ℕ) (i : Input) : Prop :=
  ∃ b ∈ bs, b.params = params ∧ b.inputs[out]? = some i

theorem HasColumn.grow {bs bs' : List InputBuilder} (hg : Grows bs bs') {params : List Sym} {out : ℕ} {i : Input}
    (h : HasColumn bs params out i) : HasColumn bs' params out i := by
  obtain ⟨b, hb, hp, hi⟩ := h
  obtain ⟨b', hb', hp', hpre⟩ := hg b hb
  refine ⟨b', hb', hp'.trans hp, ?_⟩
  obtain ⟨hlt, _⟩ := List.getElem?_eq_some_iff.1 hi
  obtain ⟨t, ht⟩ := hpre
  rw [← ht, List.getElem?_append_left hlt]; exact hi

theorem addTo_spec (i : Input) (l : List Input) :
    l <+: (addTo i l).1 ∧ (addTo i l).1[(addTo i l).2]? = some i ∧ ∀ j ∈ (addTo i l).1, j ∈ l ∨ j = i := by
  unfold addTo
  split_ifs with h
  · refine ⟨List.prefix_refl _, ?_, fun j hj => Or.inl hj⟩
    rw [List.getElem?_eq_getElem (List.idxOf_lt_length_iff.2 h)]
    simp
  · refine ⟨List.prefix_append _ _, by simp, fun j hj => ?_⟩
    simpa using hj

/-- What the constructor keeps about a builder. -/
structure GoodBuilder (opt : Bool) (ps : List Placed) (b : InputBuilder) : Prop where
  opt : b.opt = opt
  iter : b.iter = -1
  tx : b.txIdx = if Sym.txFactor ∈ b.params then some (b.params.idxOf Sym.txFactor) else none
  src : ∀ i ∈ b.inputs, ∃ p ∈ ps, p.details.seg.parameters = b.params ∧ i = p.details.input p.consts

theorem GoodBuilder.mono {opt : Bool} {ps qs : List Placed} (h : ∀ p ∈ ps, p ∈ qs) {b : InputBuilder}
    (hb : GoodBuilder opt ps b) : GoodBuilder opt qs b :=
  ⟨hb.opt, hb.iter, hb.tx, fun i hi => by
    obtain ⟨p, hp, e⟩ := hb.src i hi; exact ⟨p, h p hp, e⟩⟩

theorem addInput_spec {opt : Bool} {ps : List Placed} {p : Placed} (hp : p ∈ ps) (hw : p.WellPlaced opt)
    (bs : List InputBuilder) (hn : (bs.map InputBuilder.params).Nodup) (hg : ∀ b ∈ bs, GoodBuilder opt ps b) :
    let r := addInput p.details.seg.parameters p.details.seg.txFactorIndex opt (p.details.input p.consts) bs
    (r.1.map InputBuilder.params).Nodup ∧ (∀ b ∈ r.1, GoodBuilder opt ps b) ∧ Grows bs r.1 ∧
    HasColumn r.1 p.details.seg.parameters r.2 (p.details.input p.consts) ∧
    ∀ k ∈ r.1.map InputBuilder.params, k ∈ bs.map InputBuilder.params ∨ k = p.details.seg.parameters := by
  induction bs with
  | nil =>
    refine ⟨by simp [addInput], ?_, fun b hb => absurd hb (by simp), ?_, by simp [addInput]⟩
    · intro b hb
      simp [addInput] at hb
      subst hb
      refine ⟨rfl, rfl, txFactorIndex_eq hw.tx, ?_⟩
      intro i hi
      simp at hi
      exact ⟨p, hp, rfl, hi⟩
    · exact ⟨_, by simp [addInput]; rfl, rfl, by simp [addInput]⟩
  | cons b bs ih =>
    simp only [List.map_cons, List.nodup_cons] at hn
    obtain ⟨i1, i2, i3, i4, i5⟩ := ih hn.2 fun b hb => hg b (by simp [hb])
    have ⟨a1, a2, a3⟩ := addTo_spec (p.details.input p.consts) b.inputs
    by_cases hk : b.params = p.details.seg.parameters
    · simp only [addInput, if_pos hk]
      have gb := hg b (by simp)
      refine ⟨by simpa using hn, ?_, ?_, ?_, ?_⟩
      · intro c hc
        rcases List.mem_cons.1 hc with rfl | hc
        · refine ⟨gb.opt, gb.iter, gb.tx, fun i hi => ?_⟩
          rcases a3 i hi with h | rfl
          · exact gb.src i h
          · exact ⟨p, hp, hk.symm, rfl⟩
        · exact hg c (by simp [hc])
      · intro c hc
        rcases List.mem_cons.1 hc with rfl | hc
        · exact ⟨_, List.mem_cons_self, rfl, a1⟩
        · exact ⟨c, by simp [hc], rfl, List.prefix_refl _⟩
      · exact ⟨_, List.mem_cons_self, hk, a2⟩
      · intro k hkm
        left; simpa using hkm
    · simp only [addInput, if_neg hk]
      refine ⟨?_, ?_, ?_, ?_, ?_⟩
      · simp only [List.map_cons, List.nodup_cons]
        refine ⟨fun hm => ?_, i1⟩
        rcases i5 _ hm with h | h
        · exact hn.1 h
        · exact hk h
      · intro c hc
        rcases List.mem_cons.1 hc with rfl | hc
        · exact hg c (by simp)
        · exact i2 c hc
      · intro c hc
        rcases List.mem_cons.1 hc with rfl | hc
        · exact ⟨c, by simp, rfl, List.prefix_refl _⟩
        · obtain ⟨d, hd, e⟩ := i3 c hc
          exact ⟨d, by simp [hd], e⟩
      · obtain ⟨c, hc, e⟩ := i4
        exact ⟨c, by simp [hc], e⟩
      · intro k hkm
        simp only [List.map_cons, List.mem_cons] at hkm ⊢
        rcases hkm with h | h
        · left; left; exact h
        · rcases i5 k h with h | h
          · left; right; exact h
          · right; exact h

theorem addInputExisting_spec {opt : Bool} {ps : List Placed} {p : Placed} (hp : p ∈ ps)
    (bs : List InputBuilder) (hn : (bs.map InputBuilder.params).Nodup) (hg : ∀ b ∈ bs, GoodBuilder opt ps b)
    (hex : p.details.seg.parameters ∈ bs.map InputBuilder.params) :
    let r := addInputExisting p.details.seg.parameters (p.details.input p.consts) bs
    r.1.map InputBuilder.params = bs.map InputBuilder.params ∧ (∀ b ∈ r.1, GoodBuilder opt ps b) ∧ Grows bs r.1 ∧
    HasColumn r.1 p.details.seg.parameters r.2 (p.details.input p.consts) := by
  induction bs with
  | nil => simp at hex
  | cons b bs ih =>
    simp only [List.map_cons, List.nodup_cons] at hn
    have ⟨a1, a2, a3⟩ := addTo_spec (p.details.input p.consts) b.inputs
    by_cases hk : b.params = p.details.seg.parameters
    · simp only [addInputExisting, if_pos hk]
      have gb := hg b (by simp)
      refine ⟨by simp, ?_, ?_, ?_⟩
      · intro c hc
        rcases List.mem_cons.1 hc with rfl | hc
        · refine ⟨gb.opt, gb.iter, gb.tx, fun i hi => ?_⟩
          rcases a3 i hi with h | rfl
          · exact gb.src i h
          · exact ⟨p, hp, hk.symm, rfl⟩
        · exact hg c (by simp [hc])
      · intro c hc
        rcases List.mem_cons.1 hc with rfl | hc
        · exact ⟨_, List.mem_cons_self, rfl, a1⟩
        · exact ⟨c, by simp [hc], rfl, List.prefix_refl _⟩
      · exact ⟨_, List.mem_cons_self, hk, a2⟩
    · obtain ⟨i1, i2, i3, i4⟩ := ih hn.2 (fun b hb => hg b (by simp [hb])) (by
        rcases List.mem_cons.1 hex with h | h
        · exact absurd h.symm hk
        · exact h)
      simp only [addInputExisting, if_neg hk]
      refine ⟨by simpa using i1, ?_, ?_, ?_⟩
      · intro c hc
        rcases List.mem_cons.1 hc with rfl | hc
        · exact hg c (by simp)
        · exact i2 c hc
      · intro c hc
        rcases List.mem_cons.1 hc with rfl | hc
        · exact ⟨c, by simp, rfl, List.prefix_refl _⟩
        · obtain ⟨d, hd, e⟩ := i3 c hc
          exact ⟨d, by simp [hd], e⟩
      · obtain ⟨c, hc, e⟩ := i4
        exact ⟨c, by simp [hc], e⟩

/-! ### Sets -/

theorem addStampItem_items (s : Stamp) (out : ℕ) (ts : List StampSet) :
    ((addStampItem s out ts).flatMap StampSet.items).Perm (ts.flatMap StampSet.items ++ [(s, out)]) := by
  induction ts with
  | nil => simp [addStampItem]
  | cons t ts ih =>
    unfold addStampItem
    split_ifs with h
    · simp only [List.flatMap_cons, List.append_assoc]
      exact List.Perm.append_left _ (List.perm_append_comm)
    · simp only [List.flatMap_cons, List.append_assoc]
      exact List.Perm.append_left _ ih

theorem addStampItem_mem {s : Stamp} {out : ℕ} {ts : List StampSet} {t : StampSet} (h : t ∈ addStampItem s out ts)
    {x : Stamp × ℕ} (hx : x ∈ t.items) : (∃ t' ∈ ts, t'.expr = t.expr ∧ x ∈ t'.items) ∨ (x = (s, out) ∧ t.expr = s.expr) := by
  induction ts with
  | nil =>
    simp [addStampItem] at h; subst h; simp at hx; exact Or.inr ⟨hx, rfl⟩
  | cons a ts ih =>
    unfold addStampItem at h
    split_ifs at h with he
    · rcases List.mem_cons.1 h with rfl | h
      · rcases List.mem_append.1 hx with hx | hx
        · exact Or.inl ⟨a, by simp, rfl, hx⟩
        · simp at hx; exact Or.inr ⟨hx, he⟩
      · exact Or.inl ⟨t, by simp [h], rfl, hx⟩
    · rcases List.mem_cons.1 h with rfl | h
      · exact Or.inl ⟨t, by simp, rfl, hx⟩
      · rcases ih h with ⟨t', ht', e⟩ | e
        · exact Or.inl ⟨t', by simp [ht'], e⟩
        · exact Or.inr e

theorem addResidualItem_items (r : Residual) (k : List Sym) (out : ℕ) (ts : List ResidualSet) :
    ((addResidualItem r k out ts).flatMap ResidualSet.items).Perm (ts.flatMap ResidualSet.items ++ [(r, out)]) := by
  induction ts with
  | nil => simp [addResidualItem]
  | cons t ts ih =>
    unfold addResidualItem
    split_ifs with h
    · simp only [List.flatMap_cons, List.append_assoc]
      exact List.Perm.append_left _ (List.perm_append_comm)
    · simp only [List.flatMap_cons, List.append_assoc]
      exact List.Perm.append_left _ ih

theorem addResidualItem_mem {r : Residual} {k : List Sym} {out : ℕ} {ts : List ResidualSet} {t : ResidualSet}
    (h : t ∈ addResidualItem r k out ts) :
    ((∃ t' ∈ ts, t'.seg = t.seg ∧ t'.firstOrder = t.firstOrder ∧ t'.builderKey = t.builderKey) ∨
      (t.seg = r.seg ∧ t.firstOrder = r.firstOrder ∧ t.builderKey = k)) ∧
    ∀ x ∈ t.items, (∃ t' ∈ ts, t'.seg = t.seg ∧ t'.firstOrder = t.firstOrder ∧ x ∈ t'.items) ∨
      (x = (r, out) ∧ t.seg = r.seg ∧ t.firstOrder = r.firstOrder) := by
  induction ts with
  | nil =>
    simp [addResidualItem] at h; subst h
    exact ⟨Or.inr ⟨rfl, rfl, rfl⟩, fun x hx => Or.inr ⟨by simpa using hx, rfl, rfl⟩⟩
  | cons a ts ih =>
    unfold addResidualItem at h
    split_ifs at h with he
    · rcases List.mem_cons.1 h with rfl | h
      · refine ⟨Or.inl ⟨a, by simp, rfl, rfl, rfl⟩, fun x hx => ?_⟩
        rcases List.mem_append.1 hx with hx | hx
        · exact Or.inl ⟨a, by simp, rfl, rfl, hx⟩
        · simp at hx; exact Or.inr ⟨hx, he.1, he.2⟩
      · exact ⟨Or.inl ⟨t, by simp [h], rfl, rfl, rfl⟩, fun x hx => Or.inl ⟨t, by simp [h], rfl, rfl, hx⟩⟩
    · rcases List.mem_cons.1 h with rfl | h
      · exact ⟨Or.inl ⟨t, by simp, rfl, rfl, rfl⟩, fun x hx => Or.inl ⟨t, by simp, rfl, rfl, hx⟩⟩
      · obtain ⟨h1, h2⟩ := ih h
        refine ⟨?_, fun x hx => ?_⟩
        · rcases h1 with ⟨t', ht', e⟩ | e
          · exact Or.inl ⟨t', by simp [ht'], e⟩
          · exact Or.inr e
        · rcases h2 x hx with ⟨t', ht', e⟩ | e
          · exact Or.inl ⟨t', by simp [ht'], e⟩
          · exact Or.inr e

theorem residualKey_eq {r : Residual} {k : List Sym} {ts : List ResidualSet}
    (h : ∀ t ∈ ts, t.builderKey = t.seg.parameters) (hk : k = r.seg.parameters) :
    residualKey r k ts = r.seg.parameters := by
  induction ts with
  | nil => exact hk
  | cons a ts ih =>
    unfold residualKey
    split_ifs with he
    · rw [h a (by simp), he.1]
    · exact ih fun t ht => h t (by simp [ht])

/-! ### The invariant -/

/-- What the constructor keeps. -/
structure Inv (opt : Bool) (ps : List Placed) (m : Stamper) : Prop where
  keys : (m.builders.map InputBuilder.params).Nodup
  good : ∀ b ∈ m.builders, GoodBuilder opt ps b
  sets : ∀ s ∈ m.stampSets, ∀ x ∈ s.items, x.1.expr = s.expr ∧
    HasColumn m.builders s.expr.seg.parameters x.2 x.1.input
  rkeys : ∀ s ∈ m.residualSets, s.builderKey = s.seg.parameters
  rsets : ∀ s ∈ m.residualSets, ∀ x ∈ s.items, x.1.seg = s.seg ∧ x.1.firstOrder = s.firstOrder ∧
    HasColumn m.builders s.seg.parameters x.2 x.1.input

theorem mem_stamps {p : Placed} {s : Stamp} (h : s ∈ p.stamps) :
    s.expr.seg = p.details.seg ∧ s.input = p.details.input p.consts := by
  unfold Placed.stamps at h
  obtain ⟨x, _, h⟩ := List.mem_flatMap.1 h
  obtain ⟨e, _, h⟩ := List.mem_filterMap.1 h
  unfold Placed.place at h
  split at h
  · simp at h
  · split at h
    · injection h with h; subst h; exact ⟨rfl, rfl⟩
    · simp only [Option.map_eq_some_iff] at h
      obtain ⟨c, _, rfl⟩ := h
      exact ⟨rfl, rfl⟩

theorem mem_residuals {p : Placed} {r : Residual} (h : r ∈ p.residuals) :
    r.seg = p.details.seg ∧ r.input = p.details.input p.consts ∧ r.firstOrder ∈ p.details.firstOrder ∧
    p.details.row r.firstOrder = some r.row := by
  unfold Placed.residuals at h
  obtain ⟨x, hx, h⟩ := List.mem_filterMap.1 h
  simp only [Option.map_eq_some_iff] at h
  obtain ⟨c, hc, rfl⟩ := h
  exact ⟨rfl, rfl, hx, hc⟩

theorem addStamp_inv {opt : Bool} {ps : List Placed} {p : Placed} (hp : p ∈ ps) (hw : p.WellPlaced opt)
    {m : Stamper} (hm : Inv opt ps m) {s : Stamp} (hs : s ∈ p.stamps) :
    Inv opt ps (m.addStamp opt s) ∧ Grows m.builders (m.addStamp opt s).builders ∧
    p.details.seg.parameters ∈ (m.addStamp opt s).builders.map InputBuilder.params ∧
    (((m.addStamp opt s).stampSets.flatMap StampSet.items).map Prod.fst).Perm
      ((m.stampSets.flatMap StampSet.items).map Prod.fst ++ [s]) ∧
    (m.addStamp opt s).residualSets = m.residualSets := by
  obtain ⟨e1, e2⟩ := mem_stamps hs
  obtain ⟨a1, a2, a3, a4, -⟩ := addInput_spec hp hw m.builders hm.keys hm.good
  have hunf : m.addStamp opt s = { m with
      builders := (addInput p.details.seg.parameters p.details.seg.txFactorIndex opt (p.details.input p.consts) m.builders).1
      stampSets := addStampItem s (addInput p.details.seg.parameters p.details.seg.txFactorIndex opt (p.details.input p.consts) m.builders).2 m.stampSets } := by
    unfold Stamper.addStamp; rw [e1, e2]
  rw [hunf]
  refine ⟨⟨a1, a2, ?_, hm.rkeys, ?_⟩, a3, ?_, ?_, rfl⟩
  · intro t ht x hx
    rcases addStampItem_mem ht hx with ⟨t', ht', he, hx'⟩ | ⟨rfl, he⟩
    · obtain ⟨f1, f2⟩ := hm.sets t' ht' x hx'
      rw [← he]
      exact ⟨f1, f2.grow a3⟩
    · refine ⟨he.symm, ?_⟩
      rw [he, e1]
      show HasColumn _ _ _ s.input
      rw [e2]; exact a4
  · intro t ht x hx
    obtain ⟨f1, f2, f3⟩ := hm.rsets t ht x hx
    exact ⟨f1, f2, f3.grow a3⟩
  · obtain ⟨b, hb, hk, _⟩ := a4
    exact List.mem_map.2 ⟨b, hb, hk⟩
  · have := (addStampItem_items s (addInput p.details.seg.parameters p.details.seg.txFactorIndex opt (p.details.input p.consts) m.builders).2 m.stampSets).map Prod.fst
    simpa using this

theorem addResidual_inv {opt : Bool} {ps : List Placed} {p : Placed} (hp : p ∈ ps)
    {m : Stamper} (hm : Inv opt ps m) {r : Residual} (hr : r ∈ p.residuals)
    (hex : p.details.seg.parameters ∈ m.builders.map InputBuilder.params) :
    let m' := m.addResidual p.details.seg.parameters r
    Inv opt ps m' ∧ Grows m.builders m'.builders ∧
    p.details.seg.parameters ∈ m'.builders.map InputBuilder.params ∧
    ((m'.residualSets.flatMap ResidualSet.items).map Prod.fst).Perm
      ((m.residualSets.flatMap ResidualSet.items).map Prod.fst ++ [r]) ∧
    m'.stampSets = m.stampSets := by
  obtain ⟨e1, e2, -, -⟩ := mem_residuals hr
  obtain ⟨a1, a2, a3, a4⟩ := addInputExisting_spec hp m.builders hm.keys hm.good hex
  have hkey : residualKey r p.details.seg.parameters m.residualSets = p.details.seg.parameters := by
    rw [residualKey_eq hm.rkeys (by rw [e1]), e1]
  have hunf : m.addResidual p.details.seg.parameters r = { m with
      builders := (addInputExisting p.details.seg.parameters (p.details.input p.consts) m.builders).1
      residualSets := addResidualItem r p.details.seg.parameters (addInputExisting p.details.seg.parameters (p.details.input p.consts) m.builders).2 m.residualSets } := by
    unfold Stamper.addResidual; simp only [hkey, e2]
  rw [hunf]
  refine ⟨⟨by simpa [a1] using hm.keys, a2, ?_, ?_, ?_⟩, a3, by simpa [a1] using hex, ?_, rfl⟩
  · intro t ht x hx
    obtain ⟨f1, f2⟩ := hm.sets t ht x hx
    exact ⟨f1, f2.grow a3⟩
  · intro t ht
    rcases (addResidualItem_mem ht).1 with ⟨t', ht', g1, _, g3⟩ | ⟨g1, _, g3⟩
    · rw [← g3, ← g1]; exact hm.rkeys t' ht'
    · rw [g3, g1, e1]
  · intro t ht x hx
    rcases (addResidualItem_mem ht).2 x hx with ⟨t', ht', g1, g2, hx'⟩ | ⟨rfl, g1, g2⟩
    · obtain ⟨f1, f2, f3⟩ := hm.rsets t' ht' x hx'
      rw [← g1, ← g2]
      exact ⟨f1, f2, f3.grow a3⟩
    · refine ⟨g1.symm, g2.symm, ?_⟩
      rw [g1, e1]
      show HasColumn _ _ _ r.input
      rw [e2]; exact a4
  · have := (addResidualItem_items r p.details.seg.parameters (addInputExisting p.details.seg.parameters (p.details.input p.consts) m.builders).2 m.residualSets).map Prod.fst
    simpa using this

theorem foldl_addStamp {opt : Bool} {ps : List Placed} {p : Placed} (hp : p ∈ ps) (hw : p.WellPlaced opt)
    (l : List Stamp) (hl : ∀ s ∈ l, s ∈ p.stamps) {m : Stamper} (hm : Inv opt ps m) :
    let m' := l.foldl (Stamper.addStamp opt) m
    Inv opt ps m' ∧ (l ≠ [] → p.details.seg.parameters ∈ m'.builders.map InputBuilder.params) ∧
    ((m'.stampSets.flatMap StampSet.items).map Prod.fst).Perm ((m.stampSets.flatMap StampSet.items).map Prod.fst ++ l) ∧
    m'.residualSets = m.residualSets ∧ Grows m.builders m'.builders := by
  induction l using List.reverseRecOn with
  | nil => exact ⟨hm, fun h => absurd rfl h, by simp, rfl, Grows.refl _⟩
  | append_singleton l s ih =>
    obtain ⟨i1, i2, i3, i4, i5⟩ := ih fun s hs => hl s (by simp [hs])
    obtain ⟨j1, j2, j3, j4, j5⟩ := addStamp_inv hp hw i1 (hl s (by simp))
    simp only [List.foldl_append, List.foldl_cons, List.foldl_nil]
    refine ⟨j1, fun _ => j3, ?_, j5.trans i4, i5.trans j2⟩
    refine j4.trans ?_
    rw [← List.append_assoc]
    exact i3.append_right _

theorem foldl_addResidual {opt : Bool} {ps : List Placed} {p : Placed} (hp : p ∈ ps)
    (l : List Residual) (hl : ∀ r ∈ l, r ∈ p.residuals) {m : Stamper} (hm : Inv opt ps m)
    (hex : l ≠ [] → p.details.seg.parameters ∈ m.builders.map InputBuilder.params) :
    let m' := l.foldl (Stamper.addResidual p.details.seg.parameters) m
    Inv opt ps m' ∧
    ((m'.residualSets.flatMap ResidualSet.items).map Prod.fst).Perm ((m.residualSets.flatMap ResidualSet.items).map Prod.fst ++ l) ∧
    m'.stampSets = m.stampSets ∧ (l ≠ [] → p.details.seg.parameters ∈ m'.builders.map InputBuilder.params) := by
  induction l using List.reverseRecOn with
  | nil => exact ⟨hm, by simp, rfl, fun h => absurd rfl h⟩
  | append_singleton l r ih =>
    have hex' := hex (by simp)
    obtain ⟨i1, i2, i3, i4⟩ := ih (fun s hs => hl s (by simp [hs])) (fun _ => hex')
    have hex'' : p.details.seg.parameters ∈ (l.foldl (Stamper.addResidual p.details.seg.parameters) m).builders.map InputBuilder.params := by
      by_cases h : l = []
      · subst h; exact hex'
      · exact i4 h
    obtain ⟨j1, j2, j3, j4, j5⟩ := addResidual_inv hp i1 (hl r (by simp)) hex''
    simp only [List.foldl_append, List.foldl_cons, List.foldl_nil]
    refine ⟨j1, ?_, j5.trans i3, fun _ => j3⟩
    refine j4.trans ?_
    rw [← List.append_assoc]
    exact i2.append_right _

theorem Inv.mono {opt : Bool} {ps qs : List Placed} (h : ∀ p ∈ ps, p ∈ qs) {m : Stamper} (hm : Inv opt ps m) :
    Inv opt qs m := ⟨hm.keys, fun b hb => (hm.good b hb).mono h, hm.sets, hm.rkeys, hm.rsets⟩

theorem staleKey_eq {prev : List Sym} {p : Placed} (h : p.stamps ≠ []) : staleKey prev p.stamps = p.details.seg.parameters := by
  unfold staleKey
  rw [List.getLast?_eq_getLast_of_ne_nil h]
  simp only
  rw [(mem_stamps (List.getLast_mem h)).1]

/-- The constructor places every stamp and every residual exactly once, with its own input. -/
theorem collect_spec (opt : Bool) (ps : List Placed) (hw : ∀ p ∈ ps, p.WellPlaced opt) :
    let m := Stamper.collect opt ps
    Inv opt ps m ∧ ((m.stampSets.flatMap StampSet.items).map Prod.fst).Perm (ps.flatMap Placed.stamps) ∧
    ((m.residualSets.flatMap ResidualSet.items).map Prod.fst).Perm (ps.flatMap Placed.residuals) := by
  unfold Stamper.collect
  induction ps using List.reverseRecOn with
  | nil => exact ⟨⟨by simp, by simp, by simp, by simp, by simp⟩, by simp, by simp⟩
  | append_singleton ps p ih =>
    obtain ⟨i1, i2, i3⟩ := ih fun q hq => hw q (by simp [hq])
    set mk := ps.foldl (Stamper.addCollection opt) (⟨[], [], []⟩, [])
    have hp : p ∈ ps ++ [p] := by simp
    have hwp := hw p hp
    have i1' : Inv opt (ps ++ [p]) mk.1 := i1.mono fun q hq => by simp [hq]
    obtain ⟨j1, j2, j3, j4, -⟩ := foldl_addStamp hp hwp p.stamps (fun s h => h) i1'
    simp only [List.foldl_append, List.foldl_cons, List.foldl_nil]
    have hstep : Stamper.addCollection opt mk p =
        (p.residuals.foldl (Stamper.addResidual (staleKey mk.2 p.stamps)) (p.stamps.foldl (Stamper.addStamp opt) mk.1),
          staleKey mk.2 p.stamps) := rfl
    rw [hstep]
    by_cases hr : p.residuals = []
    · simp only [hr, List.foldl_nil]
      refine ⟨j1, ?_, ?_⟩
      · simp only [List.flatMap_append, List.flatMap_cons, List.flatMap_nil, List.append_nil]
        exact j3.trans (i2.append_right _)
      · simp only [List.flatMap_append, List.flatMap_cons, List.flatMap_nil, List.append_nil, hr, j4]
        exact i3
    · have hs : p.stamps ≠ [] := hwp.stamped hr
      rw [staleKey_eq hs]
      obtain ⟨k1, k2, k3, -⟩ := foldl_addResidual hp p.residuals (fun r h => h) j1 (fun _ => j2 hs)
      refine ⟨k1, ?_, ?_⟩
      · simp only [List.flatMap_append, List.flatMap_cons, List.flatMap_nil, List.append_nil, k3]
        exact j3.trans (i2.append_right _)
      · simp only [List.flatMap_append, List.flatMap_cons, List.flatMap_nil, List.append_nil]
        refine k2.trans ?_
        rw [j4]
        exact i3.append_right _

end Verif
