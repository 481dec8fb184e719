import Verif.Lemmas.Placement
import Verif.Lemmas.Assembly
import Verif.Props.DeviceStamps

/-! Every part of every network of library elements is well placed. -/

namespace Verif

open Ex Devices

theorem entry_of_sum_ne {env : Env} {es : List Entry} {c : Option Sym} (h : entrySum env es c ≠ 0) :
    ∃ e ∈ es, e.col = c := by
  by_contra hne
  apply h
  have : es.filter (fun e => e.col = c) = [] := by
    rw [List.filter_eq_nil_iff]
    intro e he hc
    exact hne ⟨e, he, by simpa using hc⟩
  simp [entrySum, this]

/-- A part has a stamp as soon as one of its placed equations is non-zero at a point where the variables without a
column are zero. -/
theorem stamps_ne_nil (p : Placed) (env : Env) {x : Sym} {r : ℕ} (hx : x ∈ p.details.firstOrder)
    (hr : p.details.row x = some r) (hn : p.details.seg.vars.Nodup)
    (ht : TrigFree p.details.seg.vars p.details.seg.lagrange) (hd : Defined env p.details.seg.lagrange)
    (h0 : ∀ y ∈ p.details.seg.vars, p.details.varMap y = none → env y = 0)
    (hne : eval env (p.details.seg.derivative x) ≠ 0) : p.stamps ≠ [] := by
  have hnew := C01_stamps_are_newton_row p.details.seg.vars hn (p.details.seg.derivative x) env (defined_diff x hd)
    (trigFree_diff x ht)
  have hval := hnew.value
  have : ∃ e ∈ p.details.seg.entries x, e.col = none ∨ ∃ y c, e.col = some y ∧ p.details.varMap y = some c := by
    by_contra hno
    apply hne
    rw [← hval]
    have hj : entrySum env (evals p.details.seg.vars (splitExpr p.details.seg.vars (p.details.seg.derivative x))) none = 0 := by
      by_contra hj
      obtain ⟨e, he, hc⟩ := entry_of_sum_ne hj
      exact hno ⟨e, he, Or.inl hc⟩
    rw [hj, sub_zero]
    apply List.sum_eq_zero
    intro z hz
    obtain ⟨y, hy, rfl⟩ := List.mem_map.1 hz
    cases hm : p.details.varMap y with
    | none => simp [h0 y hy hm]
    | some c =>
      have : entrySum env (evals p.details.seg.vars (splitExpr p.details.seg.vars (p.details.seg.derivative x))) (some y) = 0 := by
        by_contra hj
        obtain ⟨e, he, hc⟩ := entry_of_sum_ne hj
        exact hno ⟨e, he, Or.inr ⟨y, c, hc, hm⟩⟩
      rw [this, zero_mul]
  obtain ⟨e, he, hc⟩ := this
  intro hnil
  unfold Placed.stamps at hnil
  rw [List.flatMap_eq_nil_iff] at hnil
  have h1 := hnil x hx
  rw [List.filterMap_eq_nil_iff] at h1
  have h2 := h1 e he
  unfold Placed.place at h2
  rw [hr] at h2
  rcases hc with hc | ⟨y, c, hc, hm⟩
  · simp [hc] at h2
  · simp [hc, hm] at h2

/-- The four indices of a proper bus (all present, multipliers in optimization mode only) or of ground. -/
def Node.Proper (opt : Bool) (n : Node) : Prop :=
  n = Node.ground ∨ (n.vr.isSome ∧ n.vi.isSome ∧ n.lr.isSome = opt ∧ n.li.isSome = opt)

theorem Node.Proper.lr_none {n : Node} (h : n.Proper false) : n.lr = none := by
  rcases h with rfl | ⟨_, _, h, _⟩
  · rfl
  · simpa using h

theorem Node.Proper.li_none {n : Node} (h : n.Proper false) : n.li = none := by
  rcases h with rfl | ⟨_, _, _, h⟩
  · rfl
  · simpa using h

theorem ground_proper (opt : Bool) : Node.ground.Proper opt := Or.inl rfl

theorem assignBuses_proper (opt : Bool) (k n : ℕ) :
    (assignBuses opt k n).1.length = k ∧ ∀ b ∈ (assignBuses opt k n).1, b.Proper opt ∧ b ≠ Node.ground := by
  induction k generalizing n with
  | zero => simp [assignBuses]
  | succ k ih =>
    obtain ⟨h1, h2⟩ := ih (assignBus opt n).2
    refine ⟨by simp [assignBuses, h1], fun b hb => ?_⟩
    simp only [assignBuses, List.mem_cons] at hb
    rcases hb with rfl | hb
    · cases opt <;> simp [assignBus, Node.Proper, Node.ground]
    · exact h2 b hb

theorem nodeAt_proper {opt : Bool} {nodes : List Node} (h : ∀ b ∈ nodes, b.Proper opt ∧ b ≠ Node.ground) (r : Ref) :
    (nodeAt nodes r).Proper opt := by
  cases r with
  | none => exact Or.inl rfl
  | some k =>
    unfold nodeAt
    simp only [List.getD_eq_getElem?_getD]
    cases hk : nodes[k]? with
    | none => exact Or.inl rfl
    | some b => exact (h b (List.mem_of_getElem? hk)).1

theorem nodeAt_ne_ground {opt : Bool} {nodes : List Node} (h : ∀ b ∈ nodes, b.Proper opt ∧ b ≠ Node.ground) {k : ℕ}
    (hk : k < nodes.length) : nodeAt nodes (some k) ≠ Node.ground := by
  unfold nodeAt
  simp only [List.getD_eq_getElem?_getD, List.getElem?_eq_getElem hk, Option.getD_some]
  exact (h _ (List.getElem_mem hk)).2

theorem Node.Proper.some {opt : Bool} {n : Node} (h : n.Proper opt) (hg : n ≠ Node.ground) :
    n.vr.isSome ∧ n.vi.isSome ∧ n.lr.isSome = opt ∧ n.li.isSome = opt := by
  rcases h with h | h
  · exact absurd h hg
  · exact h

/-- Row and column maps of one pair of phases; a line is the case of equal pairs. -/
def pairDetails (seg : Segment) (rf rt cf ct : Node) (opt : Bool) : Details :=
  ⟨seg, fun s => (terminalDict cf ct s).join, fun s => (terminalDict rf rt s).join, opt⟩

theorem lineDetails_eq (seg : Segment) (f t : Node) (opt : Bool) : lineDetails seg f t opt = pairDetails seg f t f t opt := rfl

/-- A segment of the line kind. -/
structure LineLike (seg : Segment) : Prop where
  primals : seg.primals = terminals
  duals : seg.duals = [.LrFrom, .LiFrom, .LrTo, .LiTo]
  nodup : seg.parameters.Nodup
  tx : Sym.txFactor ∉ seg.vars
  trig : TrigFree seg.vars seg.lagrange
  /-- a point with the real from voltage one and every other variable zero where the from row does not vanish -/
  from_ne : ∃ env, Defined env seg.lagrange ∧ (∀ y ∈ seg.vars, y ≠ .VrFrom → env y = 0) ∧ eval env (seg.derivative .LrFrom) ≠ 0
  to_ne : ∃ env, Defined env seg.lagrange ∧ (∀ y ∈ seg.vars, y ≠ .VrTo → env y = 0) ∧ eval env (seg.derivative .LrTo) ≠ 0

theorem LineLike.row {seg : Segment} (h : LineLike seg) (rf rt cf ct : Node) (opt : Bool) :
    (pairDetails seg rf rt cf ct opt).row .LrFrom = (if opt then rf.lr else rf.vr) ∧
    (pairDetails seg rf rt cf ct opt).row .LiFrom = (if opt then rf.li else rf.vi) ∧
    (pairDetails seg rf rt cf ct opt).row .LrTo = (if opt then rt.lr else rt.vr) ∧
    (pairDetails seg rf rt cf ct opt).row .LiTo = (if opt then rt.li else rt.vi) := by
  have h0 : ∀ d ∈ [Sym.LrFrom, .LiFrom, .LrTo, .LiTo], seg.dualPrimal d = terminals[[Sym.LrFrom, .LiFrom, .LrTo, .LiTo].idxOf d]? := by
    intro d hd
    unfold Segment.dualPrimal
    rw [h.duals, h.primals, if_pos hd]
  unfold Details.row pairDetails
  cases opt with
  | true => exact ⟨rfl, rfl, rfl, rfl⟩
  | false =>
    simp only [Bool.false_eq_true, if_false]
    rw [h0 _ (by simp), h0 _ (by simp), h0 _ (by simp), h0 _ (by simp)]
    exact ⟨rfl, rfl, rfl, rfl⟩

theorem LineLike.wellPlaced {seg : Segment} (h : LineLike seg) {rf rt cf ct : Node} {opt : Bool} {consts : List ℝ}
    (hc : consts.length = seg.constants.length)
    (h1 : rf.Proper opt) (h2 : rt.Proper opt) (h3 : cf.Proper opt) (h4 : ct.Proper opt)
    (hf : rf ≠ Node.ground → cf ≠ Node.ground) (ht : rt ≠ Node.ground → ct ≠ Node.ground) :
    (Placed.mk (pairDetails seg rf rt cf ct opt) consts).WellPlaced opt := by
  refine ⟨rfl, hc, ?_, h.nodup, h.tx, ?_⟩
  · intro ho d hd
    subst ho
    have hd' : d ∈ [Sym.LrFrom, .LiFrom, .LrTo, .LiTo] := h.duals ▸ hd
    simp at hd'
    rcases hd' with rfl | rfl | rfl | rfl
    · exact h3.lr_none
    · exact h3.li_none
    · exact h4.lr_none
    · exact h4.li_none
  · intro hres
    obtain ⟨r, hr⟩ := List.exists_mem_of_ne_nil _ hres
    obtain ⟨_, _, hfo, hrow⟩ := mem_residuals hr
    have hnv : seg.vars.Nodup := (List.nodup_append.1 h.nodup).2.1
    have hground : rf ≠ Node.ground ∨ rt ≠ Node.ground := by
      by_contra hno
      push Not at hno
      obtain ⟨rfl, rfl⟩ := hno
      have : ∀ s, (pairDetails seg Node.ground Node.ground cf ct opt).eqnMap s = none := by
        intro s; show (terminalDict Node.ground Node.ground s).join = none
        cases s <;> rfl
      unfold Details.row at hrow
      simp only [this] at hrow
      split_ifs at hrow
      · cases hq : (pairDetails seg Node.ground Node.ground cf ct opt).seg.dualPrimal r.firstOrder <;> simp [hq] at hrow
    have hmem : ∀ d ∈ [Sym.LrFrom, .LiFrom, .LrTo, .LiTo], d ∈ (pairDetails seg rf rt cf ct opt).firstOrder := by
      intro d hd
      unfold Details.firstOrder
      have : d ∈ seg.duals := h.duals ▸ hd
      split_ifs
      · exact List.mem_append_right _ this
      · exact this
    obtain ⟨hrow1, _, hrow3, _⟩ := h.row rf rt cf ct opt
    rcases hground with hg | hg
    · obtain ⟨env, e1, e2, e3⟩ := h.from_ne
      obtain ⟨a1, a2, a3, a4⟩ := h1.some hg
      obtain ⟨c1, _⟩ := h3.some (hf hg)
      have : ∃ r, (pairDetails seg rf rt cf ct opt).row .LrFrom = some r := by
        rw [hrow1]; cases opt
        · exact Option.isSome_iff_exists.1 a1
        · exact Option.isSome_iff_exists.1 a3
      obtain ⟨r, hr⟩ := this
      refine stamps_ne_nil ⟨_, consts⟩ env (hmem _ (by simp)) hr hnv h.trig e1 (fun y hy hm => e2 y hy ?_) e3
      rintro rfl
      have : cf.vr = none := hm
      simp [this] at c1
    · obtain ⟨env, e1, e2, e3⟩ := h.to_ne
      obtain ⟨a1, a2, a3, a4⟩ := h2.some hg
      obtain ⟨c1, _⟩ := h4.some (ht hg)
      have : ∃ r, (pairDetails seg rf rt cf ct opt).row .LrTo = some r := by
        rw [hrow3]; cases opt
        · exact Option.isSome_iff_exists.1 a1
        · exact Option.isSome_iff_exists.1 a3
      obtain ⟨r, hr⟩ := this
      refine stamps_ne_nil ⟨_, consts⟩ env (hmem _ (by simp)) hr hnv h.trig e1 (fun y hy hm => e2 y hy ?_) e3
      rintro rfl
      have : ct.vr = none := hm
      simp [this] at c1

/-- No negative power occurs. -/
def Ex.noNeg : Ex → Bool
  | .num _ => true
  | .sym _ => true
  | .add a b => a.noNeg && b.noNeg
  | .mul a b => a.noNeg && b.noNeg
  | .pow a n => a.noNeg && decide (0 ≤ n)
  | .sin a => a.noNeg
  | .cos a => a.noNeg

theorem defined_of_noNeg {env : Env} {e : Ex} (h : e.noNeg = true) : Defined env e := by
  induction e with
  | num q => trivial
  | sym s => trivial
  | add a b iha ihb => simp only [Ex.noNeg, Bool.and_eq_true] at h; exact ⟨iha h.1, ihb h.2⟩
  | mul a b iha ihb => simp only [Ex.noNeg, Bool.and_eq_true] at h; exact ⟨iha h.1, ihb h.2⟩
  | pow a n iha =>
    simp only [Ex.noNeg, Bool.and_eq_true, decide_eq_true_eq] at h
    exact ⟨iha h.1, Or.inl h.2⟩
  | sin a iha => exact iha h
  | cos a iha => exact iha h

variable {L : Library}

/-- An environment given by constants and one variable equal to one. -/
noncomputable def probe (seg : Segment) (consts : List ℝ) (x : Sym) : Env :=
  Part.env ⟨seg, consts⟩ 0 (fun y => if y = x then 1 else 0)

theorem probe_zero {seg : Segment} {consts : List ℝ} {x y : Sym} (hp : seg.parameters.Nodup) (hy : y ∈ seg.vars) (hne : y ≠ x) :
    probe seg consts x y = 0 := by
  have : y ∉ seg.constants := fun hc => (List.nodup_append.1 hp).2.2 y hc y hy rfl
  simp [probe, Part.env, this, hne]

theorem line_like (hL : L.Loaded) : LineLike L.line := by
  obtain ⟨h1, h2, h3⟩ := line_shape hL
  obtain ⟨n, h⟩ := hL.line
  have hv : L.line.vars = terminals ++ [.LrFrom, .LiFrom, .LrTo, .LiTo] := by
    unfold Segment.vars; rw [h1, h2]; rfl
  have hnd : L.line.parameters.Nodup := by unfold Segment.parameters; rw [h3, hv]; decide
  have hdef : ∀ env, Defined env L.line.lagrange := fun env =>
    defined_twoTerminal h rfl rfl rfl rfl (defined_of_noNeg (by decide)) (defined_of_noNeg (by decide)) (by simp [lineArgs])
  refine ⟨by simpa using h1, by simpa using h2, hnd, by rw [hv]; decide,
    (segments_wellformed hL L.line (by simp [Library.segments])).2 _ fun _ h => h, ?_, ?_⟩
  · refine ⟨probe L.line [1, 0, 0] .VrFrom, hdef _, fun y hy hne => probe_zero hnd hy hne, ?_⟩
    have := (line_rows hL 1 0 0 0 (fun y => if y = .VrFrom then 1 else 0)).1
    show Part.row ⟨L.line, [1, 0, 0]⟩ 0 _ .LrFrom ≠ 0
    rw [this]; simp
  · refine ⟨probe L.line [1, 0, 0] .VrTo, hdef _, fun y hy hne => probe_zero hnd hy hne, ?_⟩
    have := (line_rows hL 1 0 0 0 (fun y => if y = .VrTo then 1 else 0)).2.2.1
    show Part.row ⟨L.line, [1, 0, 0]⟩ 0 _ .LrTo ≠ 0
    rw [this]; simp

theorem shunt_like (hL : L.Loaded) : LineLike L.shunt := by
  obtain ⟨h1, h2, h3⟩ := shunt_shape hL
  obtain ⟨n, h⟩ := hL.shunt
  have hv : L.shunt.vars = terminals ++ [.LrFrom, .LiFrom, .LrTo, .LiTo] := by
    unfold Segment.vars; rw [h1, h2]; rfl
  have hnd : L.shunt.parameters.Nodup := by unfold Segment.parameters; rw [h3, hv]; decide
  have hdef : ∀ env, Defined env L.shunt.lagrange := fun env =>
    defined_twoTerminal h rfl rfl rfl rfl (defined_of_noNeg (by decide)) (defined_of_noNeg (by decide)) (by simp [shuntArgs])
  refine ⟨by simpa using h1, by simpa using h2, hnd, by rw [hv]; decide,
    (segments_wellformed hL L.shunt (by simp [Library.segments])).2 _ fun _ h => h, ?_, ?_⟩
  · refine ⟨probe L.shunt [1, 0, 0] .VrFrom, hdef _, fun y hy hne => probe_zero hnd hy hne, ?_⟩
    have := (shunt_rows hL 1 0 0 0 (fun y => if y = .VrFrom then 1 else 0)).1
    show Part.row ⟨L.shunt, [1, 0, 0]⟩ 0 _ .LrFrom ≠ 0
    rw [this]; simp
  · refine ⟨probe L.shunt [1, 0, 0] .VrTo, hdef _, fun y hy hne => probe_zero hnd hy hne, ?_⟩
    have := (shunt_rows hL 1 0 0 0 (fun y => if y = .VrTo then 1 else 0)).2.2.1
    show Part.row ⟨L.shunt, [1, 0, 0]⟩ 0 _ .LrTo ≠ 0
    rw [this]; simp

theorem defined_pq {env : Env} (hv : (env .VrFrom - env .VrTo) ^ 2 + (env .ViFrom - env .ViTo) ^ 2 ≠ 0) :
    Defined env pqKclR ∧ Defined env pqKclI := by
  have e1 : eval env (Ex.pow Vr 2 + Ex.pow Vi 2) ≠ 0 := by simpa [Vr, Vi, zpow_ofNat] using hv
  constructor
  · exact ⟨⟨⟨trivial, trivial, trivial, trivial⟩, trivial, trivial, trivial, trivial⟩,
      ⟨⟨⟨trivial, trivial, trivial⟩, Or.inl (by norm_num)⟩, ⟨trivial, trivial, trivial⟩, Or.inl (by norm_num)⟩,
      Or.inr e1⟩
  · exact ⟨⟨⟨trivial, trivial, trivial, trivial⟩, trivial, trivial, trivial, trivial, trivial⟩,
      ⟨⟨⟨trivial, trivial, trivial⟩, Or.inl (by norm_num)⟩, ⟨trivial, trivial, trivial⟩, Or.inl (by norm_num)⟩,
      Or.inr e1⟩

theorem defined_centerTap {env : Env} (h : env .tr + (1 - env .tr) * env .txFactor ≠ 0) : Defined env Devices.centerTap.lagrange := by
  have e1 : eval env scaledTr ≠ 0 := by simpa [scaledTr] using h
  have hs : Defined env scaledTr := defined_of_noNeg (by decide)
  have hinv : Defined env (Ex.num 1 / scaledTr) := ⟨trivial, hs, Or.inr e1⟩
  have hn : ∀ {e : Ex}, e.noNeg = true → Defined env e := fun h => defined_of_noNeg h
  show Defined env (dot ctDuals ctEqns)
  simp only [ctDuals, ctEqns, dot]
  simp only [defined_hadd, defined_hmul, defined_hsub, hinv, true_and]
  repeat' apply And.intro
  all_goals exact defined_of_noNeg (by decide)

theorem pq_like (hL : L.Loaded) : LineLike L.pq := by
  obtain ⟨h1, h2, h3⟩ := pq_shape hL
  obtain ⟨n, h⟩ := hL.pq
  have hv : L.pq.vars = terminals ++ [.LrFrom, .LiFrom, .LrTo, .LiTo] := by
    unfold Segment.vars; rw [h1, h2]; rfl
  have hnd : L.pq.parameters.Nodup := by unfold Segment.parameters; rw [h3, hv]; decide
  have hdef : ∀ env : Env, (env .VrFrom - env .VrTo) ^ 2 + (env .ViFrom - env .ViTo) ^ 2 ≠ 0 → Defined env L.pq.lagrange :=
    fun env he => defined_twoTerminal h rfl rfl rfl rfl (defined_pq he).1 (defined_pq he).2 (by simp [pqArgs])
  have hc : L.pq.constants = [.P, .Q] := h3
  refine ⟨by simpa using h1, by simpa using h2, hnd, by rw [hv]; decide,
    (segments_wellformed hL L.pq (by simp [Library.segments])).2 _ fun _ h => h, ?_, ?_⟩
  · refine ⟨probe L.pq [1, 0] .VrFrom, hdef _ (by simp [probe, Part.env, hc]), fun y hy hne => probe_zero hnd hy hne, ?_⟩
    have := (pq_rows hL 1 0 0 (fun y => if y = .VrFrom then 1 else 0)).1
    show Part.row ⟨L.pq, [1, 0]⟩ 0 _ .LrFrom ≠ 0
    rw [this]; simp [pqR]
  · refine ⟨probe L.pq [1, 0] .VrTo, hdef _ (by simp [probe, Part.env, hc]), fun y hy hne => probe_zero hnd hy hne, ?_⟩
    have := (pq_rows hL 1 0 0 (fun y => if y = .VrTo then 1 else 0)).2.2.1
    show Part.row ⟨L.pq, [1, 0]⟩ 0 _ .LrTo ≠ 0
    rw [this]; simp [pqR]

theorem ic_like (hL : L.Loaded) : LineLike L.ic := by
  obtain ⟨h1, h2, h3⟩ := ic_shape hL
  obtain ⟨n, h⟩ := hL.ic
  have hv : L.ic.vars = terminals ++ [.LrFrom, .LiFrom, .LrTo, .LiTo] := by
    unfold Segment.vars; rw [h1, h2]; rfl
  have hnd : L.ic.parameters.Nodup := by unfold Segment.parameters; rw [h3, hv]; decide
  have hdef : ∀ env, Defined env L.ic.lagrange := fun env =>
    defined_twoTerminal h rfl rfl rfl rfl (defined_of_noNeg (by decide)) (defined_of_noNeg (by decide)) (by simp [icArgs])
  refine ⟨by simpa using h1, by simpa using h2, hnd, by rw [hv]; decide,
    (segments_wellformed hL L.ic (by simp [Library.segments])).2 _ fun _ h => h, ?_, ?_⟩
  · refine ⟨probe L.ic [1, 0] .VrFrom, hdef _, fun y hy hne => probe_zero hnd hy hne, ?_⟩
    have := (ic_rows hL 1 0 0 (fun y => if y = .VrFrom then 1 else 0)).1
    show Part.row ⟨L.ic, [1, 0]⟩ 0 _ .LrFrom ≠ 0
    rw [this]; simp
  · refine ⟨probe L.ic [1, 0] .VrTo, hdef _, fun y hy hne => probe_zero hnd hy hne, ?_⟩
    have := (ic_rows hL 1 0 0 (fun y => if y = .VrTo then 1 else 0)).2.2.1
    show Part.row ⟨L.ic, [1, 0]⟩ 0 _ .LrTo ≠ 0
    rw [this]; simp

/-- A two-terminal segment without own unknowns is placed like a line. -/
theorem twoTerminalDetails_lineLike {seg : Segment} (h : LineLike seg) (f t : Node) (n : ℕ) (opt : Bool) :
    twoTerminalDetails seg f t n opt = (lineDetails seg f t opt, n) := by
  have hp : ∀ s ∈ terminals, (terminalDict f t s).isSome := by
    intro s hs; simp [terminals] at hs; rcases hs with rfl | rfl | rfl | rfl <;> rfl
  have hd : ∀ s ∈ [Sym.LrFrom, .LiFrom, .LrTo, .LiTo], (terminalDict f t s).isSome := by
    intro s hs; simp at hs; rcases hs with rfl | rfl | rfl | rfl <;> rfl
  have e1 := allocMissing_present (terminalDict f t) n terminals [] hp
  have e2 := allocMissing_present (terminalDict f t) n [.LrFrom, .LiFrom, .LrTo, .LiTo] [] hd
  rw [List.append_nil] at e1 e2
  have e0 : allocMissing (terminalDict f t) n [] = (terminalDict f t, n) := rfl
  rw [e0] at e1 e2
  have e3 : skipMissing (terminalDict f t) [.LrFrom, .LiFrom, .LrTo, .LiTo] = terminalDict f t := by
    funext x
    rw [skipMissing_spec]
    split_ifs with hx
    · have := hd x hx.1; rw [hx.2] at this; simp at this
    · rfl
  unfold twoTerminalDetails lineDetails
  rw [h.primals, h.duals, e1]
  cases opt with
  | true => simp only [if_true, e2]
  | false => simp only [e3, Bool.false_eq_true, if_false]

/-- Row of the first own equation of a two-terminal device. -/
theorem twoTerminal_own_row {seg : Segment} (f t : Node) (n : ℕ) (opt : Bool) {o l : Sym} {own lams : List Sym}
    (hp : seg.primals = terminals ++ o :: own) (hd : seg.duals = [.LrFrom, .LiFrom, .LrTo, .LiTo] ++ l :: lams)
    (hn : ((o :: own) ++ (l :: lams)).Nodup) (hmiss : ∀ s ∈ (o :: own) ++ (l :: lams), terminalDict f t s = none) :
    ∃ r, (twoTerminalDetails seg f t n opt).1.row l = some r ∧ l ∈ (twoTerminalDetails seg f t n opt).1.firstOrder := by
  obtain ⟨h1, h2, h3, h4, h5, h6, h7⟩ := twoTerminalDetails_spec f t n opt hp hd hn hmiss
  have hl : l ∈ seg.duals := by rw [hd]; simp
  have hmem : l ∈ (twoTerminalDetails seg f t n opt).1.firstOrder := by
    unfold Details.firstOrder; rw [h3, h1]
    split_ifs
    · exact List.mem_append_right _ hl
    · exact hl
  have hl4 : ∀ d ∈ [Sym.LrFrom, .LiFrom, .LrTo, .LiTo], d ≠ l := by
    intro d hm he
    have := hmiss l (by simp)
    rw [← he] at this
    simp at hm; rcases hm with rfl | rfl | rfl | rfl <;> simp [terminalDict] at this
  unfold Details.row
  rw [h3, h2]
  cases opt with
  | true =>
    refine ⟨n + (o :: own).length + (l :: lams).idxOf l, ?_, hmem⟩
    simp only [if_true]
    rw [h6 l (by simp)]; rfl
  | false =>
    have hidx : seg.duals.idxOf l = 4 := by
      rw [hd, List.idxOf_append_of_notMem (fun hm => hl4 l hm rfl)]
      simp
    have hdp : seg.dualPrimal l = some o := by
      unfold Segment.dualPrimal
      rw [if_pos hl, hidx, hp]; rfl
    refine ⟨n + (o :: own).idxOf o, ?_, hmem⟩
    simp only [h1, hdp, Bool.false_eq_true, if_false, Option.bind_some]
    exact h5 o (by simp)

theorem twoTerminal_wellPlaced {seg : Segment} {f t : Node} {n : ℕ} {opt : Bool} {o l : Sym} {own lams : List Sym}
    (hp : seg.primals = terminals ++ o :: own) (hd : seg.duals = [.LrFrom, .LiFrom, .LrTo, .LiTo] ++ l :: lams)
    (hn : ((o :: own) ++ (l :: lams)).Nodup) (hmiss : ∀ s ∈ (o :: own) ++ (l :: lams), terminalDict f t s = none)
    (hpar : seg.parameters.Nodup) (htx : Sym.txFactor ∉ seg.vars) (htrig : TrigFree seg.vars seg.lagrange)
    (hf : f.Proper opt) (ht : t.Proper opt) (consts : List ℝ) (hc : consts.length = seg.constants.length)
    (env : Env) (hdef : Defined env seg.lagrange)
    (h0 : ∀ y ∈ seg.vars, (twoTerminalDetails seg f t n opt).1.varMap y = none → env y = 0)
    (hne : eval env (seg.derivative l) ≠ 0) :
    (Placed.mk (twoTerminalDetails seg f t n opt).1 consts).WellPlaced opt := by
  obtain ⟨h1, h2, h3, h4, h5, h6, h7⟩ := twoTerminalDetails_spec f t n opt hp hd hn hmiss
  refine ⟨h3, by rw [h1]; exact hc, ?_, by rw [h1]; exact hpar, by rw [h1]; exact htx, ?_⟩
  · intro ho d hdm
    subst ho
    simp only at hdm ⊢
    rw [h1, hd] at hdm
    rcases List.mem_append.1 hdm with hm | hm
    · simp at hm
      rcases hm with rfl | rfl | rfl | rfl
      · rw [h4 .LrFrom f.lr rfl]; exact hf.lr_none
      · rw [h4 .LiFrom f.li rfl]; exact hf.li_none
      · rw [h4 .LrTo t.lr rfl]; exact ht.lr_none
      · rw [h4 .LiTo t.li rfl]; exact ht.li_none
    · rw [h6 d hm]; rfl
  · intro _
    obtain ⟨r, hr, hmem⟩ := twoTerminal_own_row f t n opt hp hd hn hmiss
    refine stamps_ne_nil ⟨_, consts⟩ env hmem hr ?_ ?_ ?_ ?_ ?_
    · rw [h1]; exact (List.nodup_append.1 hpar).2.1
    · rw [h1]; exact htrig
    · rw [h1]; exact hdef
    · simp only [h1]; exact h0
    · rw [h1]; exact hne

theorem slack_wellPlaced (hL : L.Loaded) {f t : Node} {n : ℕ} {opt : Bool} (hf : f.Proper opt) (ht : t.Proper opt) (a b : ℝ) :
    (Placed.mk (twoTerminalDetails L.slack f t n opt).1 [a, b]).WellPlaced opt := by
  obtain ⟨m, h1, h2, h3⟩ := slack_shape hL
  obtain ⟨n', h⟩ := hL.slack
  have hv : L.slack.vars = terminals ++ [.ISr, .ISi] ++ ([.LrFrom, .LiFrom, .LrTo, .LiTo] ++ [.lam m, .lam (m + 1)]) := by
    unfold Segment.vars; rw [h1, h2]
  have hnd : L.slack.parameters.Nodup := by
    unfold Segment.parameters; rw [h3, hv]; simp [terminals]
  obtain ⟨_, _, _, _, d, e, hde, hrow, _⟩ := slack_rows hL 1 0 0 (fun y => if y = .tr then 1 else 0)
  have hdl : d = .lam m := by simp [h2] at hde; exact hde.1.symm
  subst hdl
  refine twoTerminal_wellPlaced h1 h2 (by simp) (by simp [terminalDict]) hnd (by rw [hv]; simp [terminals])
    ((segments_wellformed hL L.slack (by simp [Library.segments])).2 _ fun _ h => h) hf ht [a, b] (by rw [h3]; rfl)
    (probe L.slack [1, 0] .tr) ?_ ?_ ?_
  · refine defined_twoTerminal h rfl rfl rfl rfl trivial trivial ?_
    intro e he
    simp [slackArgs] at he
    rcases he with rfl | rfl <;> exact defined_of_noNeg (by decide)
  · intro y hy _
    exact probe_zero hnd hy (by rintro rfl; rw [hv] at hy; simp [terminals] at hy)
  · show Part.row ⟨L.slack, [1, 0]⟩ 0 _ (.lam m) ≠ 0
    rw [hrow]; simp

theorem vs_wellPlaced (hL : L.Loaded) {f t : Node} {n : ℕ} {opt : Bool} (hf : f.Proper opt) (ht : t.Proper opt) (a b : ℝ) :
    (Placed.mk (twoTerminalDetails L.vs f t n opt).1 [a, b]).WellPlaced opt := by
  obtain ⟨m, h1, h2, h3⟩ := vs_shape hL
  obtain ⟨n', h⟩ := hL.vs
  have hv : L.vs.vars = terminals ++ [.Ir, .Ii] ++ ([.LrFrom, .LiFrom, .LrTo, .LiTo] ++ [.lam m, .lam (m + 1)]) := by
    unfold Segment.vars; rw [h1, h2]
  have hnd : L.vs.parameters.Nodup := by
    unfold Segment.parameters; rw [h3, hv]; simp [terminals]
  obtain ⟨_, _, _, _, d, e, hde, hrow, _⟩ := vs_rows hL 1 0 0 (fun y => if y = .tr then 1 else 0)
  have hdl : d = .lam m := by simp [h2] at hde; exact hde.1.symm
  subst hdl
  refine twoTerminal_wellPlaced h1 h2 (by simp) (by simp [terminalDict]) hnd (by rw [hv]; simp [terminals])
    ((segments_wellformed hL L.vs (by simp [Library.segments])).2 _ fun _ h => h) hf ht [a, b] (by rw [h3]; rfl)
    (probe L.vs [1, 0] .tr) ?_ ?_ ?_
  · refine defined_twoTerminal h rfl rfl rfl rfl trivial trivial ?_
    intro e he
    simp [vsArgs] at he
    rcases he with rfl | rfl <;> exact defined_of_noNeg (by decide)
  · intro y hy _
    exact probe_zero hnd hy (by rintro rfl; rw [hv] at hy; simp [terminals] at hy)
  · show Part.row ⟨L.vs, [1, 0]⟩ 0 _ (.lam m) ≠ 0
    rw [hrow]; simp

theorem gen_wellPlaced (hL : L.Loaded) {f t : Node} {n : ℕ} {opt : Bool} (hf : f.Proper opt) (ht : t.Proper opt)
    (hg : f ≠ Node.ground) (a b : ℝ) :
    (Placed.mk (twoTerminalDetails L.gen f t n opt).1 [a, b]).WellPlaced opt := by
  obtain ⟨m, h1, h2, h3⟩ := gen_shape hL
  obtain ⟨n', h⟩ := hL.gen
  have hv : L.gen.vars = terminals ++ [.Q] ++ ([.LrFrom, .LiFrom, .LrTo, .LiTo] ++ [.lam m]) := by
    unfold Segment.vars; rw [h1, h2]
  have hnd : L.gen.parameters.Nodup := by
    unfold Segment.parameters; rw [h3, hv]; simp [terminals]
  obtain ⟨_, _, _, _, d, hde, hrow⟩ := gen_rows hL 0 0 0 (fun y => if y = .VrFrom then 1 else 0)
  have hdl : d = .lam m := by simp [h2] at hde; exact hde.symm
  subst hdl
  obtain ⟨_, _, _, s4, _⟩ := twoTerminalDetails_spec f t n opt h1 h2 (by simp) (by simp [terminalDict])
  refine twoTerminal_wellPlaced h1 h2 (by simp) (by simp [terminalDict]) hnd (by rw [hv]; simp [terminals])
    ((segments_wellformed hL L.gen (by simp [Library.segments])).2 _ fun _ h => h) hf ht [a, b] (by rw [h3]; rfl)
    (probe L.gen [0, 0] .VrFrom) ?_ ?_ ?_
  · have he : ((probe L.gen [0, 0] .VrFrom) .VrFrom - (probe L.gen [0, 0] .VrFrom) .VrTo) ^ 2 +
        ((probe L.gen [0, 0] .VrFrom) .ViFrom - (probe L.gen [0, 0] .VrFrom) .ViTo) ^ 2 ≠ 0 := by
      simp [probe, Part.env, h3]
    refine defined_twoTerminal h rfl rfl rfl rfl (defined_pq he).1 (defined_pq he).2 ?_
    intro e he
    simp [genArgs] at he
    subst he
    exact defined_of_noNeg (by decide)
  · intro y hy hm
    refine probe_zero hnd hy ?_
    rintro rfl
    rw [s4 .VrFrom f.vr rfl] at hm
    have := (hf.some hg).1
    simp [hm] at this
  · show Part.row ⟨L.gen, [0, 0]⟩ 0 _ (.lam m) ≠ 0
    rw [hrow]; simp

theorem xfmr_wellPlaced {fp fn tn : Node} {n : ℕ} {opt : Bool} (h1 : fp.Proper opt) (h2 : fn.Proper opt) (h3 : tn.Proper opt)
    (a b c : ℝ) :
    (Placed.mk ⟨Devices.xfmr, xfmrMap fp fn (xfmrPrim opt n) (xfmrSec opt n) tn,
      xfmrMap fp fn (xfmrPrim opt n) (xfmrSec opt n) tn, opt⟩ [a, b, c]).WellPlaced opt := by
  have hnd : Devices.xfmr.parameters.Nodup := by decide
  refine ⟨rfl, rfl, ?_, hnd, (by decide : Sym.txFactor ∉ Devices.xfmr.vars), ?_⟩
  · intro ho d hd
    subst ho
    simp only [Devices.xfmr, xfmrDuals] at hd
    simp at hd
    rcases hd with rfl | rfl | rfl | rfl | rfl | rfl | rfl | rfl | rfl | rfl
    · exact h1.lr_none
    · exact h1.li_none
    · exact h2.lr_none
    · exact h2.li_none
    · rfl
    · rfl
    · rfl
    · rfl
    · exact h3.lr_none
    · exact h3.li_none
  · intro _
    have hrow := (xfmr_rows 1 0 0 0 (fun y => if y = .VrSecPos then 1 else 0)).2.2.2.2.1
    obtain ⟨L, hL⟩ := library_exists
    have htrig := (segments_wellformed hL Devices.xfmr (by simp [Library.segments])).2 _ fun _ h => h
    refine stamps_ne_nil (x := .LirPrim) (r := if opt then n + 4 else n) _ (probe Devices.xfmr [1, 0, 0] .VrSecPos) ?_ ?_
      (List.nodup_append.1 hnd).2.1 htrig (defined_of_noNeg (by decide : Devices.xfmr.lagrange.noNeg = true)) ?_ ?_
    · cases opt
      · exact (by decide : Sym.LirPrim ∈ Devices.xfmr.duals)
      · exact (by decide : Sym.LirPrim ∈ Devices.xfmr.vars)
    · cases opt <;> rfl
    · intro y hy hm
      refine probe_zero hnd hy ?_
      rintro rfl
      simp [xfmrMap, xfmrSec] at hm
    · show Part.row ⟨Devices.xfmr, [1, 0, 0]⟩ 0 _ .LirPrim ≠ 0
      rw [hrow]; simp [xTr, xAng]

theorem ct_wellPlaced {p s1 s2 : Node} {n : ℕ} {opt : Bool} (h2 : s1.Proper opt) (hg : s1 ≠ Node.ground) (a b : ℝ) :
    (Placed.mk ⟨Devices.centerTap, ctMap opt p s1 s2 n, ctMap opt p s1 s2 n, opt⟩ [a, b]).WellPlaced opt := by
  have hnd : Devices.centerTap.parameters.Nodup := by decide
  refine ⟨rfl, rfl, ?_, hnd, (by decide : Sym.txFactor ∉ Devices.centerTap.vars), ?_⟩
  · intro ho d hd
    subst ho
    simp only [Devices.centerTap, ctDuals] at hd
    simp at hd
    rcases hd with rfl | rfl | rfl | rfl | rfl | rfl | rfl | rfl | rfl | rfl <;> rfl
  · intro _
    have hrow := (ct_rows 1 0 0 (fun y => if y = .IrL1 then 1 else 0)).2.2.2.2.1
    obtain ⟨L, hL⟩ := library_exists
    have htrig := (segments_wellformed hL Devices.centerTap (by simp [Library.segments])).2 _ fun _ h => h
    obtain ⟨a1, a2, a3, a4⟩ := h2.some hg
    have hr : ∃ r, (Details.mk Devices.centerTap (ctMap opt p s1 s2 n) (ctMap opt p s1 s2 n) opt).row .LrL1 = some r := by
      cases opt
      · exact Option.isSome_iff_exists.1 a1
      · exact Option.isSome_iff_exists.1 a3
    obtain ⟨r, hr⟩ := hr
    refine stamps_ne_nil (x := .LrL1) (r := r) _ (probe Devices.centerTap [1, 0] .IrL1) ?_ hr
      (List.nodup_append.1 hnd).2.1 htrig ?_ ?_ ?_
    · cases opt
      · exact (by decide : Sym.LrL1 ∈ Devices.centerTap.duals)
      · exact (by decide : Sym.LrL1 ∈ Devices.centerTap.vars)
    · exact defined_centerTap (by simp [probe, Part.env, Devices.centerTap])
    · intro y hy hm
      refine probe_zero hnd hy ?_
      rintro rfl
      simp [ctMap] at hm
    · show Part.row ⟨Devices.centerTap, [1, 0]⟩ 0 _ .LrL1 ≠ 0
      rw [hrow]; simp

theorem l2_wellPlaced {b : Node} {n : ℕ} : (placeL2 b n).1.WellPlaced true := by
  have hnd : Devices.l2.parameters.Nodup := by decide
  refine ⟨rfl, rfl, by simp, hnd, (by decide : Sym.txFactor ∉ Devices.l2.vars), ?_⟩
  intro _
  obtain ⟨L, hL⟩ := library_exists
  have htrig := (segments_wellformed hL Devices.l2 (by simp [Library.segments])).2 _ fun _ h => h
  refine stamps_ne_nil (x := .Iir) (r := n) _ (fun s => if s = .Iir then 1 else 0) (by decide : Sym.Iir ∈ Devices.l2.vars) rfl
    (List.nodup_append.1 hnd).2.1 htrig (defined_of_noNeg (by decide : Devices.l2.lagrange.noNeg = true)) ?_ ?_
  · intro y _ hm
    split_ifs with hy
    · subst hy; simp [placeL2] at hm
    · rfl
  · simp [placeL2, Devices.l2, Segment.derivative, eval_diff_hadd, eval_diff_hmul, eval_diff_sym]
    simp [diff]

theorem l1_wellPlaced {b : Node} {n : ℕ} : (placeL1 b n).1.WellPlaced true := by
  have hnd : Devices.l1.parameters.Nodup := by decide
  refine ⟨rfl, rfl, by simp, hnd, (by decide : Sym.txFactor ∉ Devices.l1.vars), ?_⟩
  intro _
  obtain ⟨L, hL⟩ := library_exists
  have htrig := (segments_wellformed hL Devices.l1 (by simp [Library.segments])).2 _ fun _ h => h
  refine stamps_ne_nil (x := .IirPlus) (r := n) _ (fun _ => 0) (by decide : Sym.IirPlus ∈ Devices.l1.vars) rfl
    (List.nodup_append.1 hnd).2.1 htrig (defined_of_noNeg (by decide : Devices.l1.lagrange.noNeg = true)) (fun _ _ _ => rfl) ?_
  simp [placeL1, Devices.l1, Segment.derivative, eval_diff_hadd, eval_diff_hmul, eval_diff_hsub, eval_diff_sym]

end Verif
