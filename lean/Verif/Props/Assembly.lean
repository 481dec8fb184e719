import Verif.Lemmas.Assembly
import Verif.Spec.Clock

/-!
# C02, C08, C58, C59: the assembled system
-/

namespace Verif

open Ex

/-- The tables follow the clock through any history of updates. -/
theorem follows_clock (opt : Bool) (ps : List Placed) (hw : ∀ p ∈ ps, p.WellPlaced opt) (t : ℝ) (us : List Upd) :
    ∃ m, Stamper.build opt ps = .ok m ∧
      let m' := us.foldl Stamper.update (m.updateTx t)
      Frozen opt ps m' ∧ m'.At (Clock.run t us).v (Clock.run t us).t (Clock.run t us).it := by
  obtain ⟨m, hm, hf, hat⟩ := build_spec opt ps hw
  refine ⟨m, hm, ?_⟩
  induction us using List.reverseRecOn with
  | nil => exact ⟨hf.updateTx t, hat t⟩
  | append_singleton us u ih =>
    obtain ⟨i1, i2⟩ := ih
    simp only [List.foldl_append, List.foldl_cons, List.foldl_nil, Clock.run]
    cases u with
    | tx s => exact ⟨i1.updateTx s, At.updateTx i2 s⟩
    | v w it =>
      refine ⟨i1.updateV w it, ?_⟩
      show (Stamper.updateV w it _).At _ _ _
      simp only [Clock.step]
      split_ifs with h
      · have := At.updateV_same i2 w
        rw [h, show (List.foldl Clock.step ⟨fun _ => 0, t, -1⟩ us).it = (Clock.run t us).it from rfl, this]
        exact i2
      · exact At.updateV i1 i2 w h

/-- **C58.** Build the stamper from any list of device parts and apply any history of updates that starts, as
`stamp_linear` does, with the homotopy factor. Then, although parts share argument columns and compiled expressions,
what is stamped is exactly, up to order, every part's own stamps evaluated at that part's own constants and
terminals; and the residual contributions are exactly every part's own equations. The vector and factor are those of
the independent `Clock`. -/
theorem C58_sharing_does_not_mix (opt : Bool) (ps : List Placed) (hw : ∀ p ∈ ps, p.WellPlaced opt) (t : ℝ)
    (us : List Upd) :
    ∃ m, Stamper.build opt ps = .ok m ∧
      let m' := us.foldl Stamper.update (m.updateTx t)
      let c := Clock.run t us
      (∀ lin, (m'.emit lin).Perm (ps.flatMap fun p => p.emitted c.t c.v lin)) ∧
      m'.contributions.Perm (ps.flatMap fun p => p.equations c.t c.v) := by
  obtain ⟨m, hm, h1, h2⟩ := follows_clock opt ps hw t us
  exact ⟨m, hm, fun lin => emit_perm h1 h2 lin, contributions_perm h1 h2⟩

/-- **C58, sharing.** Two stamps that use the same column of the same argument table have identical constants and
indices. -/
theorem C58_same_column_same_input (opt : Bool) (ps : List Placed) (hw : ∀ p ∈ ps, p.WellPlaced opt) (m : Stamper)
    (hm : Stamper.build opt ps = .ok m) (s s' : StampSet) (hs : s ∈ m.stampSets) (hs' : s' ∈ m.stampSets)
    (x x' : Stamp × ℕ) (hx : x ∈ s.items) (hx' : x' ∈ s'.items) (hcol : x.2 = x'.2)
    (htab : s.expr.seg.parameters = s'.expr.seg.parameters) : x.1.input = x'.1.input := by
  obtain ⟨m0, hm0, hf, _⟩ := build_spec opt ps hw
  rw [hm] at hm0; injection hm0 with hm0; subst hm0
  obtain ⟨_, b, hb, hk, hi⟩ := hf.sets s hs x hx
  obtain ⟨_, b', hb', hk', hi'⟩ := hf.sets s' hs' x' hx'
  have e1 := builder_find hf.keys hb
  have e2 := builder_find hf.keys hb'
  rw [hk, htab, ← hk', e2] at e1
  injection e1 with e1
  subst e1
  rw [hcol, hi'] at hi
  exact (Option.some.inj hi).symm

/-- **C59.** A variable of a part that is tied to ground (index SKIP) is evaluated as zero in every stamp and residual,
whatever vectors the tables were updated with; and no stamp is ever placed in its column. -/
theorem C59_ground_reads_zero (opt : Bool) (p : Placed) (hw : p.WellPlaced opt) (t : ℝ) (us : List Upd) (x : Sym)
    (hx : x ∈ p.details.seg.vars) (hg : p.details.varMap x = none) :
    (p.env (Clock.run t us).t (Clock.run t us).v) x = 0 ∧
    ∀ s ∈ p.stamps, s.expr.entry.col ≠ some x := by
  constructor
  · have hnc : ∀ y ∈ p.details.seg.vars, y ∉ p.details.seg.constants := fun y hy hc =>
      (List.nodup_append.1 hw.params).2.2 y hc y hy rfl
    rw [Placed.env_var hnc hx, hg]; rfl
  · intro s hs hcol
    unfold Placed.stamps at hs
    obtain ⟨z, _, h⟩ := List.mem_flatMap.1 hs
    obtain ⟨e, _, h⟩ := List.mem_filterMap.1 h
    unfold Placed.place at h
    split at h
    · simp at h
    · split at h
      · rename_i hce
        injection h with h; subst h; simp [hce] at hcol
      · rename_i y hce
        obtain ⟨c, hc, rfl⟩ := Option.map_eq_some_iff.1 h
        simp only [hce, Option.some.injEq] at hcol
        subst hcol
        rw [hg] at hc; simp at hc

/-! ### C02 -/

/-- **C02, one row.** For any placed parts whose equations are regular at `v`, and any linearisation history ending at
`v`: the assembled matrix applied to `v` minus the assembled right-hand side is the network equation, row by row. -/
theorem C02_linearisation_identity (opt : Bool) (ps : List Placed) (hw : ∀ p ∈ ps, p.WellPlaced opt) (t : ℝ) (us : List Upd)
    (hr : ∀ p ∈ ps, p.Regular (Clock.run t us).t (Clock.run t us).v) (n : ℕ)
    (hn : ∀ p ∈ ps, ∀ x ∈ p.details.seg.vars, ∀ c, p.details.varMap x = some c → c < n) :
    ∃ m, Stamper.build opt ps = .ok m ∧
      let m' := us.foldl Stamper.update (m.updateTx t)
      let l := m'.emit true ++ m'.emit false
      let c := Clock.run t us
      ∀ i, (∑ j ∈ Finset.range n, Builder.matOf (tripsOf l) i j * c.v j) - jOf l i = networkEq ps c.t c.v i := by
  obtain ⟨m, hm, h1, h2⟩ := follows_clock opt ps hw t us
  refine ⟨m, hm, ?_⟩
  intro m' l c i
  have hperm : l.Perm ((ps.flatMap fun p => p.emitted c.t c.v true) ++ (ps.flatMap fun p => p.emitted c.t c.v false)) :=
    (emit_perm h1 h2 true).append (emit_perm h1 h2 false)
  rw [sum_matOf n c.v l ?_ i, linRow_perm c.v hperm, network_row ps c.t c.v hr]
  intro e he k hk
  have hmem := hperm.mem_iff.1 he
  have : ∃ p ∈ ps, ∃ s ∈ p.stamps, s.col = e.2.1 := by
    rcases List.mem_append.1 hmem with h | h <;>
    · obtain ⟨p, hp, h⟩ := List.mem_flatMap.1 h
      obtain ⟨s, hs, rfl⟩ := List.mem_map.1 h
      exact ⟨p, hp, s, (List.mem_filter.1 hs).1, rfl⟩
  obtain ⟨p, hp, s, hs, hcol⟩ := this
  rw [hk] at hcol
  unfold Placed.stamps at hs
  obtain ⟨x, _, h⟩ := List.mem_flatMap.1 hs
  obtain ⟨en, hen, h⟩ := List.mem_filterMap.1 h
  unfold Placed.place at h
  split at h
  · simp at h
  · split at h
    · injection h with h; subst h; simp at hcol
    · rename_i y hce
      obtain ⟨c', hc', rfl⟩ := Option.map_eq_some_iff.1 h
      simp only [Option.some.injEq] at hcol
      subst hcol
      exact hn p hp y ((C01_entry_columns p.details.seg.vars (p.details.seg.derivative x)).1 en hen y hce) _ hc'

/-- **C02.** If solving the system assembled at `v` returns `v` itself then every network equation is zero at `v`, and
conversely. -/
theorem C02_fixed_point_iff_solution (opt : Bool) (ps : List Placed) (hw : ∀ p ∈ ps, p.WellPlaced opt) (t : ℝ)
    (us : List Upd) (hr : ∀ p ∈ ps, p.Regular (Clock.run t us).t (Clock.run t us).v) (n : ℕ)
    (hn : ∀ p ∈ ps, ∀ x ∈ p.details.seg.vars, ∀ c, p.details.varMap x = some c → c < n) :
    ∃ m, Stamper.build opt ps = .ok m ∧
      let m' := us.foldl Stamper.update (m.updateTx t)
      let l := m'.emit true ++ m'.emit false
      let c := Clock.run t us
      ((∀ i, ∑ j ∈ Finset.range n, Builder.matOf (tripsOf l) i j * c.v j = jOf l i) ↔
        ∀ i, networkEq ps c.t c.v i = 0) := by
  obtain ⟨m, hm, h⟩ := C02_linearisation_identity opt ps hw t us hr n hn
  refine ⟨m, hm, ?_⟩
  intro m' l c
  constructor
  · intro hs i
    have e : (∑ j ∈ Finset.range n, Builder.matOf (tripsOf l) i j * c.v j) - jOf l i = networkEq ps c.t c.v i := h i
    rw [← e, hs i, sub_self]
  · intro hz i
    have e : (∑ j ∈ Finset.range n, Builder.matOf (tripsOf l) i j * c.v j) - jOf l i = networkEq ps c.t c.v i := h i
    rw [hz i] at e
    linarith

/-! ### C08 -/

/-- The rows a part's equations are placed on. -/
def Placed.rows (p : Placed) : Set ℕ := {r | ∃ x ∈ p.details.firstOrder, p.details.row x = some r}

/-- The columns a part's unknowns have. In plain mode only primal variables are unknowns. -/
def Placed.cols (p : Placed) : Set ℕ :=
  {c | ∃ x, (x ∈ p.details.seg.primals ∨ (p.details.opt = true ∧ x ∈ p.details.seg.duals)) ∧ p.details.varMap x = some c}

/-- **C08, square.** A part whose equation map is its variable map (all devices but the mutual parts of unbalanced
lines), with as many multipliers as primal variables, puts its equations exactly on the rows of its unknowns. -/
theorem C08_rows_are_columns (p : Placed) (hmap : p.details.eqnMap = p.details.varMap)
    (hlen : p.details.seg.primals.length = p.details.seg.duals.length) (hn : p.details.seg.duals.Nodup) :
    p.rows = p.cols := by
  ext r
  unfold Placed.rows Placed.cols Details.firstOrder Details.row
  cases hopt : p.details.opt with
  | true => simp [hmap, Segment.vars]
  | false =>
    simp only [Bool.false_eq_true, if_false, Set.mem_ofPred_eq, false_and, or_false]
    constructor
    · rintro ⟨d, hd, h⟩
      obtain ⟨x, hx, hr⟩ := Option.bind_eq_some_iff.1 h
      unfold Segment.dualPrimal at hx
      rw [if_pos hd] at hx
      exact ⟨x, List.mem_of_getElem? hx, hmap ▸ hr⟩
    · rintro ⟨x, hx, hr⟩
      obtain ⟨k, hk, rfl⟩ := List.getElem_of_mem hx
      refine ⟨p.details.seg.duals[k]'(hlen ▸ hk), List.getElem_mem _, ?_⟩
      unfold Segment.dualPrimal
      rw [if_pos (List.getElem_mem _), List.Nodup.idxOf_getElem hn, List.getElem?_eq_getElem hk]
      simpa [hmap] using hr

/-- **C08, one equation per row.** Distinct unknowns give distinct rows: no two equations of a part share a row. -/
theorem C08_rows_injective (p : Placed) (hopt : p.details.opt = false)
    (hp : p.details.seg.primals.Nodup)
    (hinj : ∀ x ∈ p.details.seg.primals, ∀ y ∈ p.details.seg.primals, ∀ r, p.details.eqnMap x = some r →
      p.details.eqnMap y = some r → x = y)
    (d d' : Sym) (hd : d ∈ p.details.firstOrder) (hd' : d' ∈ p.details.firstOrder) (r : ℕ)
    (h : p.details.row d = some r) (h' : p.details.row d' = some r) : d = d' := by
  unfold Details.firstOrder at hd hd'
  unfold Details.row at h h'
  simp only [hopt, Bool.false_eq_true, if_false] at h h' hd hd'
  obtain ⟨x, hx, hr⟩ := Option.bind_eq_some_iff.1 h
  obtain ⟨x', hx', hr'⟩ := Option.bind_eq_some_iff.1 h'
  unfold Segment.dualPrimal at hx hx'
  rw [if_pos hd] at hx
  rw [if_pos hd'] at hx'
  have hxx := hinj x (List.mem_of_getElem? hx) x' (List.mem_of_getElem? hx') r hr hr'
  subst hxx
  obtain ⟨h1, e1⟩ := List.getElem?_eq_some_iff.1 hx
  obtain ⟨h2, e2⟩ := List.getElem?_eq_some_iff.1 hx'
  have := (hp.getElem_inj_iff (hi := h1) (hj := h2)).1 (e1.trans e2.symm)
  exact (List.idxOf_inj hd).1 this

/-- **C08, nothing on ground.** Every stamp comes from an equation with a row and, unless it goes to `J`, a variable
with a column; every residual from an equation with a row. -/
theorem C08_no_ground_row (p : Placed) :
    (∀ s ∈ p.stamps, s.row ∈ p.rows ∧ ∀ c, s.col = some c → ∃ y ∈ p.details.seg.vars, p.details.varMap y = some c) ∧
    (∀ r ∈ p.residuals, r.row ∈ p.rows) := by
  constructor
  · intro s hs
    unfold Placed.stamps at hs
    obtain ⟨x, hx, h⟩ := List.mem_flatMap.1 hs
    obtain ⟨e, he, h⟩ := List.mem_filterMap.1 h
    unfold Placed.place at h
    split at h
    · simp at h
    · rename_i r hr
      split at h
      · injection h with h; subst h
        exact ⟨⟨x, hx, hr⟩, by simp⟩
      · rename_i y hy
        obtain ⟨c, hc, rfl⟩ := Option.map_eq_some_iff.1 h
        refine ⟨⟨x, hx, hr⟩, fun c' hc' => ⟨y, ?_, ?_⟩⟩
        · exact (C01_entry_columns p.details.seg.vars (p.details.seg.derivative x)).1 e he y hy
        · simp only [Option.some.injEq] at hc'; subst hc'; exact hc
  · intro r hr
    obtain ⟨_, _, h1, h2⟩ := mem_residuals hr
    exact ⟨r.firstOrder, h1, h2⟩

/-! ### Examples

Two resistors of conductance 2 from the unknowns 0 and 1 to ground: they have equal constants but different places. -/

/-- The segment of a conductance between two terminals, real parts only. -/
def exSeg : Segment :=
  ⟨Ex.sym .LrFrom * (Ex.sym .G * Ex.sym .VrFrom - Ex.sym .G * Ex.sym .VrTo) -
      Ex.sym .LrTo * (Ex.sym .G * Ex.sym .VrFrom - Ex.sym .G * Ex.sym .VrTo),
    [.G], [.VrFrom, .VrTo], [.LrFrom, .LrTo]⟩

/-- The segment from the unknown `k` to ground with conductance 2. -/
def exPlaced (k : ℕ) : Placed :=
  ⟨⟨exSeg, fun x => if x = .VrFrom then some k else none, fun x => if x = .VrFrom then some k else none, false⟩, [2]⟩

theorem exPlaced_wellPlaced (k : ℕ) : (exPlaced k).WellPlaced false where
  mode := rfl
  consts := rfl
  plain := fun _ d hd => by
    have : d = .LrFrom ∨ d = .LrTo := by simpa [exPlaced, exSeg] using hd
    rcases this with rfl | rfl <;> rfl
  params := show exSeg.parameters.Nodup by decide
  tx := show Sym.txFactor ∉ exSeg.vars by decide
  stamped := fun _ h => by
    have e : (exSeg.entries .LrFrom).any (fun e => e.col = some .VrFrom) = true := by decide +kernel
    obtain ⟨e, he, hc⟩ := List.any_eq_true.1 e
    have hm : (⟨⟨exSeg, .LrFrom, e⟩, (exPlaced k).details.input [2], k, some k⟩ : Stamp) ∈ (exPlaced k).stamps :=
      List.mem_flatMap.2 ⟨.LrFrom, show Sym.LrFrom ∈ exSeg.duals by decide, List.mem_filterMap.2 ⟨e, he, by
        simp only [decide_eq_true_eq] at hc
        unfold Placed.place
        rw [show (exPlaced k).details.row .LrFrom = some k from rfl, hc]
        rfl⟩⟩
    rw [h] at hm
    simp at hm

theorem exPlaced_regular (k : ℕ) (t : ℝ) (v : ℕ → ℝ) : (exPlaced k).Regular t v where
  nodup := show exSeg.vars.Nodup by decide
  trig := by simp [exPlaced, exSeg, TrigFree, HSub.hSub, Sub.sub, HMul.hMul, Mul.mul]
  disj := show ∀ x ∈ exSeg.vars, x ∉ exSeg.constants by decide
  defined := by simp [exPlaced, exSeg, Defined, HSub.hSub, Sub.sub, HMul.hMul, Mul.mul]

theorem exPlaced_pair : ∀ p ∈ [exPlaced 0, exPlaced 1], p.WellPlaced false := by
  simp [exPlaced_wellPlaced]

theorem exPlaced_below : ∀ p ∈ [exPlaced 0, exPlaced 1], ∀ x ∈ p.details.seg.vars, ∀ c, p.details.varMap x = some c → c < 2 := by
  intro p hp x _ c hc
  simp at hp
  rcases hp with rfl | rfl <;> simp [exPlaced] at hc <;> omega

theorem exPlaced_equations (k : ℕ) (t : ℝ) (v : ℕ → ℝ) : (exPlaced k).equations t v = [(k, 2 * v k)] := by
  have h1 : (exPlaced k).env t v .G = 2 := rfl
  have h2 : (exPlaced k).env t v .VrFrom = v k := rfl
  have h3 : (exPlaced k).env t v .VrTo = 0 := rfl
  have h : eval ((exPlaced k).env t v) (exSeg.derivative .LrFrom) = 2 * v k := by
    have e : exSeg.derivative .LrFrom = diff .LrFrom exSeg.lagrange := rfl
    rw [e, exSeg]
    simp [eval_diff_hmul, eval_diff_hsub, eval_diff_sym, h1, h2, h3]
  rw [← h]
  rfl

/-- **C58** on the two resistors: four factors are stamped, one matrix entry each, none mixed up. -/
example (t : ℝ) (us : List Upd) : ∃ m, Stamper.build false [exPlaced 0, exPlaced 1] = .ok m :=
  (C58_sharing_does_not_mix false _ exPlaced_pair t us).imp fun _ h => h.1

example (m : Stamper) (hm : Stamper.build false [exPlaced 0, exPlaced 1] = .ok m) (s s' : StampSet) (hs : s ∈ m.stampSets)
    (hs' : s' ∈ m.stampSets) (x x' : Stamp × ℕ) (hx : x ∈ s.items) (hx' : x' ∈ s'.items) (hcol : x.2 = x'.2)
    (htab : s.expr.seg.parameters = s'.expr.seg.parameters) : x.1.input = x'.1.input :=
  C58_same_column_same_input false _ exPlaced_pair m hm s s' hs hs' x x' hx hx' hcol htab

/-- The far end of the resistor is ground: it reads zero although the current vector is one everywhere. -/
example : ((exPlaced 0).env 0 (fun _ => 1)) .VrTo = 0 ∧ ((exPlaced 0).env 0 (fun _ => 1)) .VrFrom = 1 :=
  ⟨(C59_ground_reads_zero false (exPlaced 0) (exPlaced_wellPlaced 0) 0 [.v (fun _ => 1) 0] .VrTo (by decide) rfl).1, rfl⟩

/-- At voltages `3` and `5` the linearised system misses zero by the currents `6` and `10`. -/
example : ∃ m, Stamper.build false [exPlaced 0, exPlaced 1] = .ok m ∧
    let v : ℕ → ℝ := fun i => if i = 0 then 3 else 5
    let m' := [Upd.v v 0].foldl Stamper.update (m.updateTx 0)
    let l := m'.emit true ++ m'.emit false
    ∀ i, (∑ j ∈ Finset.range 2, Builder.matOf (tripsOf l) i j * v j) - jOf l i = if i = 0 then 6 else if i = 1 then 10 else 0 := by
  obtain ⟨m, hm, h⟩ := C02_linearisation_identity false [exPlaced 0, exPlaced 1] exPlaced_pair 0
    [.v (fun i => if i = 0 then 3 else 5) 0] (by simp [exPlaced_regular]) 2 exPlaced_below
  refine ⟨m, hm, ?_⟩
  intro v m' l i
  refine (h i).trans ?_
  unfold networkEq
  simp only [List.flatMap_cons, List.flatMap_nil, exPlaced_equations]
  simp only [rowTotal, Clock.run]
  rcases i with _ | _ | i <;> simp [Clock.step] <;> norm_num

/-- The zero vector is the solution, and the system assembled there returns it. -/
example : ∃ m, Stamper.build false [exPlaced 0, exPlaced 1] = .ok m ∧
    let m' := [Upd.v (fun _ => 0) 0].foldl Stamper.update (m.updateTx 0)
    let l := m'.emit true ++ m'.emit false
    ∀ i, ∑ j ∈ Finset.range 2, Builder.matOf (tripsOf l) i j * (fun _ => (0 : ℝ)) j = jOf l i := by
  obtain ⟨m, hm, h⟩ := C02_fixed_point_iff_solution false [exPlaced 0, exPlaced 1] exPlaced_pair 0
    [.v (fun _ => 0) 0] (by simp [exPlaced_regular]) 2 exPlaced_below
  refine ⟨m, hm, h.2 fun i => ?_⟩
  unfold networkEq
  simp only [List.flatMap_cons, List.flatMap_nil, exPlaced_equations]
  simp only [rowTotal, Clock.run]
  rcases i with _ | _ | i <;> simp [Clock.step]

example : (exPlaced 1).rows = (exPlaced 1).cols ∧ 1 ∈ (exPlaced 1).rows :=
  ⟨C08_rows_are_columns (exPlaced 1) rfl rfl (show exSeg.duals.Nodup by decide), .LrFrom, show Sym.LrFrom ∈ exSeg.duals by decide, rfl⟩

example (d d' : Sym) (hd : d ∈ exSeg.duals) (hd' : d' ∈ exSeg.duals) (h : (exPlaced 1).details.row d = some 1)
    (h' : (exPlaced 1).details.row d' = some 1) : d = d' :=
  C08_rows_injective (exPlaced 1) rfl (show exSeg.primals.Nodup by decide) (fun x _ y _ r hx hy => by
    simp only [exPlaced, Option.ite_none_right_eq_some] at hx hy
    rw [hx.1, hy.1]) d d' hd hd' 1 h h'

/-- The resistor has stamps, and all lie in row and column 1. -/
example : (exPlaced 1).stamps ≠ [] ∧ ∀ s ∈ (exPlaced 1).stamps, s.row ∈ (exPlaced 1).rows :=
  ⟨(exPlaced_wellPlaced 1).stamped (by simp [Placed.residuals, exPlaced, exSeg, Details.firstOrder, Details.row, Segment.dualPrimal]),
    fun s hs => ((C08_no_ground_row (exPlaced 1)).1 s hs).1⟩

end Verif
