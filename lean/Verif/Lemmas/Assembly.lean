import Verif.Lemmas.StamperBuild
import Verif.Props.Stamps
import Verif.Lemmas.Diff

/-! From the built stamper to what it emits: each stamp and residual is the value of its own part's expression at its own
arguments; sums of stamps are the linearised network equations. -/

namespace Verif

open Ex

/-! ### The built stamper -/

/-- What stays true of a built stamper under every update. -/
structure Frozen (opt : Bool) (ps : List Placed) (m : Stamper) : Prop where
  keys : (m.builders.map InputBuilder.params).Nodup
  mode : ∀ b ∈ m.builders, b.opt = opt
  tx : ∀ b ∈ m.builders, b.txIdx = if Sym.txFactor ∈ b.params then some (b.params.idxOf Sym.txFactor) else none
  src : ∀ b ∈ m.builders, ∀ i ∈ b.inputs, ∃ p ∈ ps, p.details.seg.parameters = b.params ∧ i = p.details.input p.consts
  sets : ∀ s ∈ m.stampSets, ∀ x ∈ s.items, x.1.expr = s.expr ∧ HasColumn m.builders s.expr.seg.parameters x.2 x.1.input
  rkeys : ∀ s ∈ m.residualSets, s.builderKey = s.seg.parameters
  rsets : ∀ s ∈ m.residualSets, ∀ x ∈ s.items, x.1.seg = s.seg ∧ x.1.firstOrder = s.firstOrder ∧
    HasColumn m.builders s.seg.parameters x.2 x.1.input
  perm : ((m.stampSets.flatMap StampSet.items).map Prod.fst).Perm (ps.flatMap Placed.stamps)
  rperm : ((m.residualSets.flatMap ResidualSet.items).map Prod.fst).Perm (ps.flatMap Placed.residuals)
  wp : ∀ p ∈ ps, p.WellPlaced opt

/-- All argument tables are at vector `v`, factor `t`, and carry iteration number `it`. -/
def Stamper.At (m : Stamper) (v : ℕ → ℝ) (t : ℝ) (it : ℤ) : Prop := ∀ b ∈ m.builders, b.Holds v t ∧ b.iter = it

theorem mapM_except_ok {α β : Type} (f : α → Except String β) (l : List α) (h : ∀ a ∈ l, ∃ b, f a = .ok b) :
    ∃ l', l.mapM f = .ok l' ∧ List.Forall₂ (fun a b => f a = .ok b) l l' := by
  induction l with
  | nil => exact ⟨[], rfl, List.Forall₂.nil⟩
  | cons a l ih =>
    obtain ⟨b, hb⟩ := h a (by simp)
    obtain ⟨l', hl', hf⟩ := ih fun x hx => h x (by simp [hx])
    refine ⟨b :: l', ?_, List.Forall₂.cons hb hf⟩
    rw [List.mapM_cons, hb]
    simp only [bind, Except.bind, hl', pure, Except.pure]

theorem forall2_mem_right {α β : Type*} {R : α → β → Prop} {l : List α} {l' : List β} (h : List.Forall₂ R l l') {b : β}
    (hb : b ∈ l') : ∃ a ∈ l, R a b := by
  induction h with
  | nil => simp at hb
  | cons hr _ ih =>
    rcases List.mem_cons.1 hb with rfl | hb
    · exact ⟨_, by simp, hr⟩
    · obtain ⟨a, ha, hab⟩ := ih hb
      exact ⟨a, by simp [ha], hab⟩

theorem forall2_mem_left {α β : Type*} {R : α → β → Prop} {l : List α} {l' : List β} (h : List.Forall₂ R l l') {a : α}
    (ha : a ∈ l) : ∃ b ∈ l', R a b := by
  induction h with
  | nil => simp at ha
  | cons hr _ ih =>
    rcases List.mem_cons.1 ha with rfl | ha
    · exact ⟨_, by simp, hr⟩
    · obtain ⟨b, hb, hab⟩ := ih ha
      exact ⟨b, by simp [hb], hab⟩

theorem forall2_map_eq {α β γ : Type*} {R : α → β → Prop} {l : List α} {l' : List β} (h : List.Forall₂ R l l')
    (f : α → γ) (g : β → γ) (hfg : ∀ a b, R a b → f a = g b) : l.map f = l'.map g := by
  induction h with
  | nil => rfl
  | cons hr _ ih => simp [hfg _ _ hr, ih]

/-- Columns survive any rewriting of the builders that keeps names and inputs. -/
theorem HasColumn.of_forall2 {bs bs' : List InputBuilder}
    (h : List.Forall₂ (fun a b => b.params = a.params ∧ b.inputs = a.inputs) bs bs')
    {k : List Sym} {out : ℕ} {i : Input} (hc : HasColumn bs k out i) : HasColumn bs' k out i := by
  obtain ⟨b, hb, hk, hi⟩ := hc
  obtain ⟨b', hb', e1, e2⟩ := forall2_mem_left h hb
  exact ⟨b', hb', e1.trans hk, by rw [e2]; exact hi⟩

theorem initial_length {p : Placed} {opt : Bool} (hw : p.WellPlaced opt) :
    (p.details.input p.consts).initial.length = p.details.seg.parameters.length := by
  simp [Input.initial, Details.input, Segment.parameters, Segment.vars, hw.consts, Nat.add_assoc]

theorem build_spec (opt : Bool) (ps : List Placed) (hw : ∀ p ∈ ps, p.WellPlaced opt) :
    ∃ m, Stamper.build opt ps = .ok m ∧ Frozen opt ps m ∧ ∀ t, (m.updateTx t).At (fun _ => 0) t (-1) := by
  obtain ⟨hi, hp, hr⟩ := collect_spec opt ps hw
  have hf : ∀ b ∈ (Stamper.collect opt ps).builders, ∃ b', b.freeze = .ok b' := by
    intro b hb
    refine ⟨_, if_pos ?_⟩
    simp only [List.all_eq_true, decide_eq_true_eq]
    intro i hib
    obtain ⟨p, hpp, e1, rfl⟩ := (hi.good b hb).src i hib
    rw [initial_length (hw p hpp), e1]
  obtain ⟨bs, hbs, hall⟩ := mapM_except_ok _ _ hf
  refine ⟨{ Stamper.collect opt ps with builders := bs }, ?_, ?_, ?_⟩
  · unfold Stamper.build
    simp only [hbs, bind, Except.bind, pure, Except.pure]
  · have h2 : List.Forall₂ (fun a b : InputBuilder => b.params = a.params ∧ b.inputs = a.inputs)
        (Stamper.collect opt ps).builders bs := by
      refine hall.imp fun a b hab => ?_
      obtain ⟨_, e1, e2, _⟩ := holds_freeze hab 0
      exact ⟨e2, e1⟩
    refine ⟨?_, ?_, ?_, ?_, ?_, hi.rkeys, ?_, hp, hr, hw⟩
    · rw [← forall2_map_eq h2 InputBuilder.params InputBuilder.params fun a b h => h.1.symm]
      exact hi.keys
    · intro b hb
      obtain ⟨a, ha, hab⟩ := forall2_mem_right hall hb
      obtain ⟨_, _, _, e, _⟩ := holds_freeze hab 0
      exact e.trans (hi.good a ha).opt
    · intro b hb
      obtain ⟨a, ha, hab⟩ := forall2_mem_right hall hb
      obtain ⟨_, _, e1, _, e2, _⟩ := holds_freeze hab 0
      rw [e1, e2]; exact (hi.good a ha).tx
    · intro b hb i hib
      obtain ⟨a, ha, hab⟩ := forall2_mem_right hall hb
      obtain ⟨_, e0, e1, _⟩ := holds_freeze hab 0
      rw [e1]
      rw [e0] at hib
      exact (hi.good a ha).src i hib
    · intro s hs x hx
      obtain ⟨f1, f2⟩ := hi.sets s hs x hx
      exact ⟨f1, f2.of_forall2 h2⟩
    · intro s hs x hx
      obtain ⟨f1, f2, f3⟩ := hi.rsets s hs x hx
      exact ⟨f1, f2, f3.of_forall2 h2⟩
  · intro t b hb
    obtain ⟨c, hc, rfl⟩ := List.mem_map.1 hb
    obtain ⟨a, ha, hac⟩ := forall2_mem_right hall hc
    obtain ⟨e0, _, _, _, _, e1, _⟩ := holds_freeze hac t
    refine ⟨e0, ?_⟩
    have : (InputBuilder.updateTx t c).iter = c.iter := by unfold InputBuilder.updateTx; split <;> rfl
    rw [this, e1]
    exact (hi.good a ha).iter

/-! ### Updates -/

theorem updateTx_fields (t : ℝ) (b : InputBuilder) : (b.updateTx t).params = b.params ∧ (b.updateTx t).inputs = b.inputs ∧
    (b.updateTx t).opt = b.opt ∧ (b.updateTx t).txIdx = b.txIdx ∧ (b.updateTx t).iter = b.iter := by
  unfold InputBuilder.updateTx; split <;> exact ⟨rfl, rfl, rfl, by simp_all, rfl⟩

theorem updateV_fields (v : ℕ → ℝ) (it : ℤ) (b : InputBuilder) : (b.updateV v it).params = b.params ∧
    (b.updateV v it).inputs = b.inputs ∧ (b.updateV v it).opt = b.opt ∧ (b.updateV v it).txIdx = b.txIdx ∧
    (b.updateV v it).iter = it := by
  unfold InputBuilder.updateV; split
  · rename_i h; exact ⟨rfl, rfl, rfl, rfl, h.symm⟩
  · exact ⟨rfl, rfl, rfl, rfl, rfl⟩

theorem Frozen.mapBuilders {opt : Bool} {ps : List Placed} {m : Stamper} (h : Frozen opt ps m) (f : InputBuilder → InputBuilder)
    (hf : ∀ b, (f b).params = b.params ∧ (f b).inputs = b.inputs ∧ (f b).opt = b.opt ∧ (f b).txIdx = b.txIdx) :
    Frozen opt ps { m with builders := m.builders.map f } := by
  have h2 : List.Forall₂ (fun a b : InputBuilder => b.params = a.params ∧ b.inputs = a.inputs) m.builders (m.builders.map f) := by
    generalize m.builders = l
    induction l with
    | nil => exact List.Forall₂.nil
    | cons a l ih => exact List.Forall₂.cons ⟨(hf a).1, (hf a).2.1⟩ ih
  refine ⟨?_, ?_, ?_, ?_, ?_, h.rkeys, ?_, h.perm, h.rperm, h.wp⟩
  · have : (m.builders.map f).map InputBuilder.params = m.builders.map InputBuilder.params := by
      rw [List.map_map]; exact List.map_congr_left fun b _ => (hf b).1
    rw [this]; exact h.keys
  · intro b hb
    obtain ⟨c, hc, rfl⟩ := List.mem_map.1 hb
    rw [(hf c).2.2.1]; exact h.mode c hc
  · intro b hb
    obtain ⟨c, hc, rfl⟩ := List.mem_map.1 hb
    rw [(hf c).2.2.2, (hf c).1]; exact h.tx c hc
  · intro b hb
    obtain ⟨c, hc, rfl⟩ := List.mem_map.1 hb
    rw [(hf c).2.1, (hf c).1]; exact h.src c hc
  · intro s hs x hx
    obtain ⟨f1, f2⟩ := h.sets s hs x hx
    exact ⟨f1, f2.of_forall2 h2⟩
  · intro s hs x hx
    obtain ⟨f1, f2, f3⟩ := h.rsets s hs x hx
    exact ⟨f1, f2, f3.of_forall2 h2⟩

theorem Frozen.updateTx {opt : Bool} {ps : List Placed} {m : Stamper} (h : Frozen opt ps m) (t : ℝ) :
    Frozen opt ps (m.updateTx t) := h.mapBuilders _ fun b => by
  obtain ⟨a1, a2, a3, a4, _⟩ := updateTx_fields t b; exact ⟨a1, a2, a3, a4⟩

theorem Frozen.updateV {opt : Bool} {ps : List Placed} {m : Stamper} (h : Frozen opt ps m) (v : ℕ → ℝ) (it : ℤ) :
    Frozen opt ps (m.updateV v it) := h.mapBuilders _ fun b => by
  obtain ⟨a1, a2, a3, a4, _⟩ := updateV_fields v it b; exact ⟨a1, a2, a3, a4⟩

theorem Frozen.txConst {opt : Bool} {ps : List Placed} {m : Stamper} (h : Frozen opt ps m) {b : InputBuilder}
    (hb : b ∈ m.builders) : b.TxConst := by
  intro k hk i hi
  obtain ⟨p, hp, e, rfl⟩ := h.src b hb i hi
  have hw := h.wp p hp
  have := h.tx b hb
  rw [← e, ← txFactorIndex_eq hw.tx, hk] at this
  unfold Segment.txFactorIndex at this
  split_ifs at this with hc
  injection this with this
  show k < p.consts.length
  rw [this, hw.consts]
  exact List.idxOf_lt_length_iff.2 hc

theorem At.updateTx {m : Stamper} {v : ℕ → ℝ} {t : ℝ} {it : ℤ} (h : m.At v t it) (u : ℝ) : (m.updateTx u).At v u it := by
  intro b hb
  obtain ⟨c, hc, rfl⟩ := List.mem_map.1 hb
  exact ⟨holds_updateTx (h c hc).1, (updateTx_fields u c).2.2.2.2.trans (h c hc).2⟩

theorem At.updateV {opt : Bool} {ps : List Placed} {m : Stamper} (hf : Frozen opt ps m) {v : ℕ → ℝ} {t : ℝ} {it : ℤ}
    (h : m.At v t it) (w : ℕ → ℝ) {k : ℤ} (hk : k ≠ it) : (m.updateV w k).At w t k := by
  intro b hb
  obtain ⟨c, hc, rfl⟩ := List.mem_map.1 hb
  exact ⟨holds_updateV (hf.txConst hc) (h c hc).1 (by rw [(h c hc).2]; exact hk), (updateV_fields w k c).2.2.2.2⟩

/-- With the stored iteration number nothing is updated: the tables keep the old vector. -/
theorem At.updateV_same {m : Stamper} {v : ℕ → ℝ} {t : ℝ} {it : ℤ} (h : m.At v t it) (w : ℕ → ℝ) : m.updateV w it = m := by
  unfold Stamper.updateV
  congr 1
  conv_rhs => rw [← List.map_id m.builders]
  exact List.map_congr_left fun b hb => Verif.updateV_same (h b hb).2.symm

/-! ### Values -/

theorem builder_find {m : Stamper} (hk : (m.builders.map InputBuilder.params).Nodup) {b : InputBuilder} (hb : b ∈ m.builders) :
    m.builder b.params = some b := by
  unfold Stamper.builder
  generalize m.builders = l at *
  induction l with
  | nil => simp at hb
  | cons c l ih =>
    simp only [List.map_cons, List.nodup_cons] at hk
    rcases List.mem_cons.1 hb with rfl | hb
    · simp
    · have : c.params ≠ b.params := fun h => hk.1 (h ▸ List.mem_map.2 ⟨b, hb, rfl⟩)
      rw [List.find?_cons_of_neg (by simpa using this)]
      exact ih hk.2 hb

/-- The value read for a column that holds part `p`'s input is computed at `p`'s own arguments. -/
theorem value_own {opt : Bool} {ps : List Placed} {m : Stamper} (hf : Frozen opt ps m) {v : ℕ → ℝ} {t : ℝ} {it : ℤ}
    (h : m.At v t it) {p : Placed} (hp : p ∈ ps) {out : ℕ}
    (hc : HasColumn m.builders p.details.seg.parameters out (p.details.input p.consts)) (e : Ex) :
    m.value p.details.seg.parameters e out = eval (p.env t v) e := by
  obtain ⟨b, hb, hk, hi⟩ := hc
  have hfind := builder_find hf.keys hb
  unfold Stamper.value
  rw [← hk, hfind]
  simp only [InputBuilder.output]
  congr 1
  have hw := hf.wp p hp
  rw [(h b hb).1, List.getD_eq_getElem?_getD, List.getElem?_map, hi]
  simp only [Option.map_some, Option.getD_some]
  rw [hf.tx b hb, hf.mode b hb, hk, ← txFactorIndex_eq hw.tx]
  exact argEnv_own p opt hw t v

/-- Value of a stamp at its own arguments, as a function of the stamp alone. -/
noncomputable def Stamp.own (opt : Bool) (t : ℝ) (v : ℕ → ℝ) (s : Stamp) : ℝ :=
  eval (argEnv s.expr.seg.parameters (setTx s.expr.seg.txFactorIndex t (s.input.filled opt v))) s.expr.entry.expr

theorem own_eq {opt : Bool} {p : Placed} (hw : p.WellPlaced opt) {s : Stamp} (hs : s ∈ p.stamps) (t : ℝ) (v : ℕ → ℝ) :
    s.own opt t v = eval (p.env t v) s.expr.entry.expr := by
  obtain ⟨e1, e2⟩ := mem_stamps hs
  unfold Stamp.own
  rw [e1, e2, argEnv_own p opt hw]

/-- Value of a residual at its own arguments, as a function of the residual alone. -/
noncomputable def Residual.own (opt : Bool) (t : ℝ) (v : ℕ → ℝ) (r : Residual) : ℝ :=
  eval (argEnv r.seg.parameters (setTx r.seg.txFactorIndex t (r.input.filled opt v))) (r.seg.derivative r.firstOrder)

theorem flatMap_filter_map {α β γ : Type*} (l : List α) (P : α → Bool) (f : α → List β) (Q : β → Bool)
    (g : α → β → γ) (g' : β → γ) (h : ∀ a ∈ l, ∀ b ∈ f a, Q b = P a ∧ g a b = g' b) :
    (l.filter P).flatMap (fun a => (f a).map (g a)) = ((l.flatMap f).filter Q).map g' := by
  induction l with
  | nil => rfl
  | cons a l ih =>
    have ih' := ih fun b hb => h b (by simp [hb])
    have ha := h a (by simp)
    simp only [List.flatMap_cons, List.filter_append, List.map_append, ← ih', List.filter_cons]
    cases hP : P a with
    | true =>
      rw [if_pos rfl, List.flatMap_cons]
      congr 1
      rw [List.filter_eq_self.2 fun b hb => by rw [(ha b hb).1, hP]]
      exact List.map_congr_left fun b hb => (ha b hb).2
    | false =>
      have : (f a).filter Q = [] := List.filter_eq_nil_iff.2 fun b hb => by rw [(ha b hb).1, hP]; simp
      rw [this]; simp

/-- Everything emitted, in terms of each part alone. -/
theorem emit_perm {opt : Bool} {ps : List Placed} {m : Stamper} (hf : Frozen opt ps m) {v : ℕ → ℝ} {t : ℝ} {it : ℤ}
    (h : m.At v t it) (lin : Bool) : (m.emit lin).Perm (ps.flatMap fun p => p.emitted t v lin) := by
  have hsrc : ∀ s ∈ m.stampSets, ∀ x ∈ s.items, ∃ p ∈ ps, x.1 ∈ p.stamps := by
    intro s hs x hx
    have : x.1 ∈ (m.stampSets.flatMap StampSet.items).map Prod.fst :=
      List.mem_map.2 ⟨x, List.mem_flatMap.2 ⟨s, hs, hx⟩, rfl⟩
    obtain ⟨p, hp, hps⟩ := List.mem_flatMap.1 (hf.perm.mem_iff.1 this)
    exact ⟨p, hp, hps⟩
  have e1 : m.emit lin = (((m.stampSets.flatMap StampSet.items).map Prod.fst).filter
      fun s => s.expr.entry.isLinear = lin).map fun s => (s.row, s.col, s.own opt t v) := by
    unfold Stamper.emit
    rw [flatMap_filter_map m.stampSets _ StampSet.items (fun x => decide (x.1.expr.entry.isLinear = lin))
      (fun s it => (it.1.row, it.1.col, m.value s.expr.seg.parameters s.expr.entry.expr it.2))
      (fun x => (x.1.row, x.1.col, x.1.own opt t v))]
    · rw [List.filter_map, List.map_map]; rfl
    · intro s hs x hx
      obtain ⟨f1, f2⟩ := hf.sets s hs x hx
      obtain ⟨p, hp, hps⟩ := hsrc s hs x hx
      obtain ⟨g1, g2⟩ := mem_stamps hps
      refine ⟨by rw [f1], ?_⟩
      rw [own_eq (hf.wp p hp) hps, ← f1]
      rw [← f1, g1, g2] at f2
      simp only [g1]
      rw [value_own hf h hp f2]
  rw [e1]
  refine ((hf.perm.filter _).map _).trans (List.Perm.of_eq ?_)
  rw [List.filter_flatMap, List.map_flatMap]
  have : ∀ l : List Placed, (∀ p ∈ l, p ∈ ps) → (l.flatMap fun p => List.map (fun s => (s.row, s.col, Stamp.own opt t v s))
      (List.filter (fun s => decide (s.expr.entry.isLinear = lin)) p.stamps)) = l.flatMap fun p => p.emitted t v lin := by
    intro l hl
    induction l with
    | nil => rfl
    | cons p l ih =>
      rw [List.flatMap_cons, List.flatMap_cons, ih fun q hq => hl q (by simp [hq])]
      congr 1
      unfold Placed.emitted
      apply List.map_congr_left
      intro s hs
      rw [own_eq (hf.wp p (hl p (by simp))) (List.mem_filter.1 hs).1]
  exact this ps fun _ h => h

/-- All residual contributions, in terms of each part alone. -/
theorem contributions_perm {opt : Bool} {ps : List Placed} {m : Stamper} (hf : Frozen opt ps m) {v : ℕ → ℝ} {t : ℝ} {it : ℤ}
    (h : m.At v t it) : m.contributions.Perm (ps.flatMap fun p => p.equations t v) := by
  have hsrc : ∀ s ∈ m.residualSets, ∀ x ∈ s.items, ∃ p ∈ ps, x.1 ∈ p.residuals := by
    intro s hs x hx
    have : x.1 ∈ (m.residualSets.flatMap ResidualSet.items).map Prod.fst :=
      List.mem_map.2 ⟨x, List.mem_flatMap.2 ⟨s, hs, hx⟩, rfl⟩
    obtain ⟨p, hp, hps⟩ := List.mem_flatMap.1 (hf.rperm.mem_iff.1 this)
    exact ⟨p, hp, hps⟩
  have e1 : m.contributions = ((m.residualSets.flatMap ResidualSet.items).map Prod.fst).map fun r => (r.row, r.own opt t v) := by
    unfold Stamper.contributions
    have := flatMap_filter_map m.residualSets (fun _ => true) ResidualSet.items (fun _ => true)
      (fun s it => (it.1.row, m.value s.builderKey (s.seg.derivative s.firstOrder) it.2))
      (fun x => (x.1.row, x.1.own opt t v)) (by
        intro s hs x hx
        obtain ⟨f1, f2, f3⟩ := hf.rsets s hs x hx
        obtain ⟨p, hp, hps⟩ := hsrc s hs x hx
        obtain ⟨g1, g2, _⟩ := mem_residuals hps
        refine ⟨rfl, ?_⟩
        simp only [Prod.mk.injEq, true_and]
        rw [hf.rkeys s hs]
        unfold Residual.own
        rw [← f1, ← f2]
        rw [← f1, g1, g2] at f3
        rw [g1, g2, argEnv_own p opt (hf.wp p hp)]
        exact value_own hf h hp f3 _)
    simp only [List.filter_true] at this
    rw [this, List.map_map]; rfl
  rw [e1]
  refine (hf.rperm.map _).trans (List.Perm.of_eq ?_)
  rw [List.map_flatMap]
  have : ∀ l : List Placed, (∀ p ∈ l, p ∈ ps) → (l.flatMap fun p => p.residuals.map fun r => (r.row, r.own opt t v))
      = l.flatMap fun p => p.equations t v := by
    intro l hl
    induction l with
    | nil => rfl
    | cons p l ih =>
      rw [List.flatMap_cons, List.flatMap_cons, ih fun q hq => hl q (by simp [hq])]
      congr 1
      unfold Placed.residuals Placed.equations
      rw [List.map_filterMap]
      apply List.filterMap_congr
      intro x _
      rw [Option.map_map]
      congr 1
      funext r
      simp only [Function.comp, Residual.own]
      rw [argEnv_own p opt (hf.wp p (hl p (by simp)))]
  exact this ps fun _ h => h

/-! ### Sums -/

/-- What one emitted stamp adds to `A v - J`. -/
def linVal (v : ℕ → ℝ) (e : ℕ × Option ℕ × ℝ) : ℝ :=
  match e.2.1 with
  | some c => e.2.2 * v c
  | none => -e.2.2

/-- `A v - J` of row `i`, from the list of emitted stamps. -/
def linRow (v : ℕ → ℝ) (l : List (ℕ × Option ℕ × ℝ)) (i : ℕ) : ℝ := ((l.filter fun e => e.1 = i).map (linVal v)).sum

theorem linRow_append (v : ℕ → ℝ) (a b : List (ℕ × Option ℕ × ℝ)) (i : ℕ) : linRow v (a ++ b) i = linRow v a i + linRow v b i := by
  simp [linRow]

theorem linRow_cons (v : ℕ → ℝ) (e : ℕ × Option ℕ × ℝ) (b : List (ℕ × Option ℕ × ℝ)) (i : ℕ) :
    linRow v (e :: b) i = (if e.1 = i then linVal v e else 0) + linRow v b i := by
  unfold linRow
  rw [List.filter_cons]
  by_cases h : e.1 = i <;> simp [h]

theorem linRow_perm (v : ℕ → ℝ) {a b : List (ℕ × Option ℕ × ℝ)} (h : a.Perm b) (i : ℕ) : linRow v a i = linRow v b i :=
  ((h.filter _).map _).sum_eq

/-- The assembled matrix applied to `v`, minus the assembled right-hand side. -/
theorem sum_matOf (n : ℕ) (v : ℕ → ℝ) (l : List (ℕ × Option ℕ × ℝ)) (hl : ∀ e ∈ l, ∀ c, e.2.1 = some c → c < n) (i : ℕ) :
    (∑ j ∈ Finset.range n, Builder.matOf (tripsOf l) i j * v j) - jOf l i = linRow v l i := by
  induction l with
  | nil => simp [Builder.matOf, tripsOf, jOf, linRow]
  | cons e l ih =>
    have ih' := ih fun a ha => hl a (by simp [ha])
    rw [linRow_cons, ← ih']
    obtain ⟨r, c, x⟩ := e
    cases c with
    | none =>
      have h1 : tripsOf ((r, none, x) :: l) = tripsOf l := by simp [tripsOf]
      have h2 : jOf ((r, none, x) :: l) i = (if r = i then x else 0) + jOf l i := by
        unfold jOf; rw [List.filter_cons]; by_cases h : r = i <;> simp [h]
      rw [h1, h2]
      by_cases h : r = i <;> simp [h, linVal] <;> ring
    | some c =>
      have hc : c < n := hl (r, some c, x) (by simp) c rfl
      have h1 : tripsOf ((r, some c, x) :: l) = ⟨r, c, x⟩ :: tripsOf l := by simp [tripsOf]
      have h2 : jOf ((r, some c, x) :: l) i = jOf l i := by
        unfold jOf; rw [List.filter_cons]; simp
      have h3 : ∀ j, Builder.matOf (⟨r, c, x⟩ :: tripsOf l) i j = (if r = i ∧ c = j then x else 0) + Builder.matOf (tripsOf l) i j := by
        intro j
        unfold Builder.matOf; rw [List.filter_cons]; by_cases h : r = i ∧ c = j <;> simp [h]
      rw [h1, h2]
      simp only [h3, add_mul, Finset.sum_add_distrib]
      have h4 : (∑ j ∈ Finset.range n, (if r = i ∧ c = j then x else 0) * v j) = if r = i then x * v c else 0 := by
        by_cases h : r = i
        · simp only [h, true_and, if_true, ite_mul, zero_mul]
          rw [Finset.sum_ite_eq]; simp [hc]
        · simp [h]
      rw [h4]
      by_cases h : r = i <;> simp [h, linVal] <;> ring

theorem rowTotal_append (a b : List (ℕ × ℝ)) (i : ℕ) : rowTotal (a ++ b) i = rowTotal a i + rowTotal b i := by
  simp [rowTotal]

theorem rowTotal_perm {a b : List (ℕ × ℝ)} (h : a.Perm b) (i : ℕ) : rowTotal a i = rowTotal b i :=
  ((h.filter _).map _).sum_eq

theorem mem_tripsOf {l : List (ℕ × Option ℕ × ℝ)} {t : Trip} (h : t ∈ tripsOf l) : (t.row, some t.col, t.val) ∈ l := by
  obtain ⟨e, he, hm⟩ := List.mem_filterMap.1 h
  obtain ⟨c, hc, rfl⟩ := Option.map_eq_some_iff.1 hm
  rw [← hc]; exact he

/-- What a part's stamps must be at a point for its rows to be Newton rows. -/
structure Placed.Regular (p : Placed) (t : ℝ) (v : ℕ → ℝ) : Prop where
  nodup : p.details.seg.vars.Nodup
  trig : TrigFree p.details.seg.vars p.details.seg.lagrange
  disj : ∀ x ∈ p.details.seg.vars, x ∉ p.details.seg.constants
  defined : Defined (p.env t v) p.details.seg.lagrange

theorem Placed.env_var {p : Placed} {t : ℝ} {v : ℕ → ℝ} (hd : ∀ x ∈ p.details.seg.vars, x ∉ p.details.seg.constants) {x : Sym}
    (hx : x ∈ p.details.seg.vars) : p.env t v x = readIdx v (p.details.varMap x) := by
  unfold Placed.env Part.env Placed.point Placed.part
  simp [hd x hx, hx]

/-- One row of one part. -/
theorem entries_linVal {p : Placed} {v : ℕ → ℝ} {x : Sym} {r : ℕ} (env : Env)
    (henv : ∀ y ∈ p.details.seg.vars, env y = readIdx v (p.details.varMap y)) (hr : p.details.row x = some r)
    (es : List Entry) (hes : ∀ e ∈ es, ∀ y, e.col = some y → y ∈ p.details.seg.vars) :
    (((es.filterMap (p.place x)).map fun s => (s.row, s.col, eval env s.expr.entry.expr)).map (linVal v)).sum
      = (es.map fun e => match e.col with | some y => eval env e.expr * env y | none => -eval env e.expr).sum := by
  induction es with
  | nil => rfl
  | cons e es ih =>
    have ih' := ih fun a ha => hes a (by simp [ha])
    rw [List.map_cons, List.sum_cons, ← ih', List.filterMap_cons]
    unfold Placed.place
    simp only [hr]
    cases hc : e.col with
    | none => simp [linVal]
    | some y =>
      have hy := henv y (hes e (by simp) y hc)
      cases hm : p.details.varMap y with
      | none => simp [hy, hm, readIdx]
      | some c => simp [hy, hm, readIdx, linVal]

theorem sum_entries (env : Env) (vars : List Sym) (hn : vars.Nodup) (es : List Entry)
    (hes : ∀ e ∈ es, ∀ y, e.col = some y → y ∈ vars) :
    (es.map fun e => match e.col with | some y => eval env e.expr * env y | none => -eval env e.expr).sum
      = (vars.map fun y => entrySum env es (some y) * env y).sum - entrySum env es none := by
  induction es with
  | nil => simp [entrySum]
  | cons e es ih =>
    rw [List.map_cons, List.sum_cons, ih fun a ha => hes a (by simp [ha])]
    have hcons : ∀ c, entrySum env (e :: es) c = (if e.col = c then eval env e.expr else 0) + entrySum env es c := by
      intro c; unfold entrySum; rw [List.filter_cons]; by_cases h : e.col = c <;> simp [h]
    simp only [hcons, add_mul, List.sum_map_add]
    cases hc : e.col with
    | none => simp; ring
    | some y =>
      have hy := hes e (by simp) y hc
      have : (vars.map fun z => (if some y = some z then eval env e.expr else 0) * env z).sum = eval env e.expr * env y := by
        rw [← sum_map_ite_eq vars hn y hy (fun z => eval env e.expr * env z)]
        congr 1
        apply List.map_congr_left
        intro z _
        by_cases h : y = z
        · subst h; simp
        · simp [h, Ne.symm h]
      rw [this]; simp; ring

theorem segment_newton {p : Placed} {t : ℝ} {v : ℕ → ℝ} (hr : p.Regular t v) (x : Sym) :
    IsNewtonRow p.details.seg.vars (fun w => eval w (p.details.seg.derivative x)) (p.env t v)
      (fun y => entrySum (p.env t v) (p.details.seg.entries x) (some y)) (entrySum (p.env t v) (p.details.seg.entries x) none) :=
  C01_stamps_are_newton_row _ hr.nodup _ _ (defined_diff x hr.defined) (trigFree_diff x hr.trig)

theorem part_row {p : Placed} {t : ℝ} {v : ℕ → ℝ} (hr : p.Regular t v) (i : ℕ) :
    linRow v (p.stamps.map fun s => (s.row, s.col, eval (p.env t v) s.expr.entry.expr)) i = rowTotal (p.equations t v) i := by
  unfold Placed.stamps Placed.equations
  generalize p.details.firstOrder = xs
  induction xs with
  | nil => rfl
  | cons x xs ih =>
    rw [List.flatMap_cons, List.map_append, linRow_append, ih]
    have hsplit : (x :: xs).filterMap (fun x => (p.details.row x).map fun r => (r, eval (p.env t v) (p.details.seg.derivative x)))
      = ((p.details.row x).map fun r => (r, eval (p.env t v) (p.details.seg.derivative x))).toList ++
        xs.filterMap (fun x => (p.details.row x).map fun r => (r, eval (p.env t v) (p.details.seg.derivative x))) := by
      rw [List.filterMap_cons]; cases p.details.row x <;> rfl
    rw [hsplit, rowTotal_append]
    congr 1
    cases hx : p.details.row x with
    | none =>
      have : (p.details.seg.entries x).filterMap (p.place x) = [] := by
        rw [List.filterMap_eq_nil_iff]; intro e _; simp [Placed.place, hx]
      simp [this, linRow, rowTotal]
    | some r =>
      have hrow : ∀ s ∈ (p.details.seg.entries x).filterMap (p.place x), s.row = r := by
        intro s hs
        obtain ⟨e, _, he⟩ := List.mem_filterMap.1 hs
        unfold Placed.place at he
        simp only [hx] at he
        split at he
        · injection he with he; subst he; rfl
        · obtain ⟨c, _, rfl⟩ := Option.map_eq_some_iff.1 he; rfl
      have hcols : ∀ e ∈ p.details.seg.entries x, ∀ y, e.col = some y → y ∈ p.details.seg.vars :=
        (C01_entry_columns p.details.seg.vars (p.details.seg.derivative x)).1
      by_cases hri : r = i
      · have hf : List.filter (fun e : ℕ × Option ℕ × ℝ => decide (e.1 = i))
            (((p.details.seg.entries x).filterMap (p.place x)).map fun s => (s.row, s.col, eval (p.env t v) s.expr.entry.expr))
            = ((p.details.seg.entries x).filterMap (p.place x)).map fun s => (s.row, s.col, eval (p.env t v) s.expr.entry.expr) := by
          rw [List.filter_eq_self]
          intro e he
          obtain ⟨s, hs, rfl⟩ := List.mem_map.1 he
          simp [hrow s hs, hri]
        unfold linRow
        rw [hf, entries_linVal (p.env t v) (fun y hy => Placed.env_var hr.disj hy) hx _ hcols,
          sum_entries _ _ hr.nodup _ hcols, (segment_newton hr x).value]
        simp [rowTotal, hri]
      · have hf : List.filter (fun e : ℕ × Option ℕ × ℝ => decide (e.1 = i))
            (((p.details.seg.entries x).filterMap (p.place x)).map fun s => (s.row, s.col, eval (p.env t v) s.expr.entry.expr)) = [] := by
          rw [List.filter_eq_nil_iff]
          intro e he
          obtain ⟨s, hs, rfl⟩ := List.mem_map.1 he
          simp [hrow s hs, hri]
        unfold linRow
        rw [hf]; simp [rowTotal, hri]

theorem emitted_both (p : Placed) (t : ℝ) (v : ℕ → ℝ) :
    (p.emitted t v true ++ p.emitted t v false).Perm (p.stamps.map fun s => (s.row, s.col, eval (p.env t v) s.expr.entry.expr)) := by
  unfold Placed.emitted
  rw [← List.map_append]
  refine List.Perm.map _ ?_
  have := List.filter_append_perm (fun s : Stamp => s.expr.entry.isLinear) p.stamps
  simpa using this

/-- All stamps of all parts, per row: `A v - J` is the network equation. -/
theorem network_row (ps : List Placed) (t : ℝ) (v : ℕ → ℝ) (hr : ∀ p ∈ ps, p.Regular t v) (i : ℕ) :
    linRow v ((ps.flatMap fun p => p.emitted t v true) ++ (ps.flatMap fun p => p.emitted t v false)) i = networkEq ps t v i := by
  unfold networkEq
  induction ps with
  | nil => rfl
  | cons p ps ih =>
    have ih' := ih fun q hq => hr q (by simp [hq])
    rw [linRow_append] at ih' ⊢
    simp only [List.flatMap_cons, linRow_append, rowTotal_append]
    rw [← ih', ← part_row (hr p (by simp)) i, ← linRow_perm v (emitted_both p t v) i, linRow_append]
    ring

end Verif
