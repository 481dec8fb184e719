import Verif.Lemmas.NewtonStep
import Verif.Lemmas.KirchhoffNetwork
import Verif.Lemmas.NetworkBelow
import Verif.Lemmas.ZeroCheck
import Verif.Spec.Linear

/-! Networks all of whose stamps are flagged linear. -/

namespace Verif

open Ex Devices

/-- Every entry of the row is flagged linear. -/
def Segment.linearAt (s : Segment) (x : Sym) : Bool := (s.entries x).all fun e => e.isLinear

theorem exAdd (a b : Ex) : a + b = Ex.add a b := rfl
theorem exMul (a b : Ex) : a * b = Ex.mul a b := rfl
theorem exSub (a b : Ex) : a - b = Ex.add a (Ex.mul (Ex.num (-1)) b) := rfl
theorem exNeg (a : Ex) : -a = (Ex.mul (Ex.num (-1)) a) := rfl

theorem neg_one_ne_one : ¬ ((-1 : ℚ) = 1) := by norm_num

theorem slack_linear {n : ℕ} {s : Segment} (h : twoTerminal n slackArgs = .ok s) : ∀ d ∈ s.duals, s.linearAt d = true := by
  have : s = ⟨twoTerminalLagrange none (.sym .ISr) (.sym .ISi) (.sym .ISr) (.sym .ISi) n [Devices.Vr - .sym .Vrset, Devices.Vi - .sym .Viset],
    [.Vrset, .Viset], terminals ++ [.ISr, .ISi], [.LrFrom, .LiFrom, .LrTo, .LiTo, .lam n, .lam (n+1)]⟩ := by
    have h2 : twoTerminal n slackArgs = .ok _ := rfl
    rw [h] at h2; injection h2
  subst this
  intro d hd
  unfold Segment.linearAt Segment.entries Segment.split Segment.derivative
  simp only [List.mem_cons, List.not_mem_nil, or_false] at hd
  rcases hd with rfl | rfl | rfl | rfl | rfl | rfl
  all_goals
    simp [twoTerminalLagrange, addEqualities, Devices.Vr, Devices.Vi, exAdd, exMul, exSub, exNeg, diff, sadd, Ex.smul,
      Segment.vars, terminals, evals, splitExpr, splitTerms, addends, expand, splitStep, Mono.toEx, factorEx, isConstant,
      mulMonos, Mono.mul, insertFactor, isLinear, getLinearTerm, has, hasPow, addEntry, entryLinear, neg_one_ne_one]

theorem vs_linear {n : ℕ} {s : Segment} (h : twoTerminal n vsArgs = .ok s) : ∀ d ∈ s.duals, s.linearAt d = true := by
  have : s = ⟨twoTerminalLagrange none (.sym .Ir) (.sym .Ii) (.sym .Ir) (.sym .Ii) n
      [.sym .VrSet - (.sym .VrFrom - .sym .VrTo), .sym .ViSet - (.sym .ViFrom - .sym .ViTo)],
    [.VrSet, .ViSet], terminals ++ [.Ir, .Ii], [.LrFrom, .LiFrom, .LrTo, .LiTo, .lam n, .lam (n+1)]⟩ := by
    have h2 : twoTerminal n vsArgs = .ok _ := rfl
    rw [h] at h2; injection h2
  subst this
  intro d hd
  unfold Segment.linearAt Segment.entries Segment.split Segment.derivative
  simp only [List.mem_cons, List.not_mem_nil, or_false] at hd
  rcases hd with rfl | rfl | rfl | rfl | rfl | rfl
  all_goals
    simp [twoTerminalLagrange, addEqualities, exAdd, exMul, exSub, exNeg, diff, sadd, Ex.smul,
      Segment.vars, terminals, evals, splitExpr, splitTerms, addends, expand, splitStep, Mono.toEx, factorEx, isConstant,
      mulMonos, Mono.mul, insertFactor, isLinear, getLinearTerm, has, hasPow, addEntry, entryLinear, neg_one_ne_one]

/-- The segment of a two-terminal definition without equality constraints. -/
def plainSegment (kr ki : Ex) (consts : List Sym) : Segment :=
  ⟨twoTerminalLagrange none kr ki kr ki 0 [], consts, terminals, [.LrFrom, .LiFrom, .LrTo, .LiTo]⟩

theorem line_linear {n : ℕ} {s : Segment} (h : twoTerminal n lineArgs = .ok s) : ∀ d ∈ s.duals, s.linearAt d = true := by
  have : s = plainSegment (admittanceKclR lineG lineB) (admittanceKclI lineG lineB) [.G, .B, .txFactor] := by
    have h2 : twoTerminal n lineArgs = .ok _ := rfl
    rw [h] at h2; injection h2
  subst this
  have hall : [Sym.LrFrom, .LiFrom, .LrTo, .LiTo].all (plainSegment (admittanceKclR lineG lineB)
      (admittanceKclI lineG lineB) [.G, .B, .txFactor]).linearAt = true := by decide +kernel
  exact fun d hd => List.all_eq_true.1 hall d hd

theorem shunt_linear {n : ℕ} {s : Segment} (h : twoTerminal n shuntArgs = .ok s) : ∀ d ∈ s.duals, s.linearAt d = true := by
  have : s = plainSegment (admittanceKclR shuntG shuntB) (admittanceKclI shuntG shuntB) [.G, .B, .txFactor] := by
    have h2 : twoTerminal n shuntArgs = .ok _ := rfl
    rw [h] at h2; injection h2
  subst this
  have hall : [Sym.LrFrom, .LiFrom, .LrTo, .LiTo].all (plainSegment (admittanceKclR shuntG shuntB)
      (admittanceKclI shuntG shuntB) [.G, .B, .txFactor]).linearAt = true := by decide +kernel
  exact fun d hd => List.all_eq_true.1 hall d hd

theorem ic_linear {n : ℕ} {s : Segment} (h : twoTerminal n icArgs = .ok s) : ∀ d ∈ s.duals, s.linearAt d = true := by
  have : s = plainSegment (.sym .IP) (.sym .IQ) [.IP, .IQ] := by
    have h2 : twoTerminal n icArgs = .ok _ := rfl
    rw [h] at h2; injection h2
  subst this
  have hall : [Sym.LrFrom, .LiFrom, .LrTo, .LiTo].all (plainSegment (.sym .IP) (.sym .IQ) [.IP, .IQ]).linearAt = true := by
    decide +kernel
  exact fun d hd => List.all_eq_true.1 hall d hd

theorem xfmr_linear : ∀ d ∈ xfmr.duals, xfmr.linearAt d = true := by
  have hall : xfmrDuals.all xfmr.linearAt = true := by decide +kernel
  exact fun d hd => List.all_eq_true.1 hall d hd

/-- Every entry of the row is flagged linear or is a right-hand side that vanishes identically. -/
def Segment.affineAt (s : Segment) (x : Sym) : Bool :=
  (s.entries x).all fun e => e.isLinear || (e.col.isNone && isZero e.expr)

theorem affineAt_of_linearAt {s : Segment} {x : Sym} (h : s.linearAt x = true) : s.affineAt x = true := by
  unfold Segment.linearAt at h
  unfold Segment.affineAt
  rw [List.all_eq_true] at h ⊢
  intro e he
  rw [h e he]; rfl

theorem centerTap_affine : ∀ d ∈ centerTap.duals, centerTap.affineAt d = true := by
  have hall : ctDuals.all centerTap.affineAt = true := by decide +kernel
  exact fun d hd => List.all_eq_true.1 hall d hd

/-- Stamps of the part that are not flagged linear are right-hand sides that vanish identically. -/
def Placed.LinearStamps (p : Placed) : Prop :=
  ∀ s ∈ p.stamps, s.expr.entry.isLinear = false → s.col = none ∧ ∀ env, eval env s.expr.entry.expr = 0

theorem affineStamps_of {p : Placed} (ho : p.details.opt = false)
    (h : ∀ d ∈ p.details.seg.duals, p.details.seg.affineAt d = true) : p.LinearStamps := by
  intro s hs hl
  unfold Placed.stamps Details.firstOrder at hs
  rw [ho] at hs
  obtain ⟨x, hx, h3⟩ := List.mem_flatMap.1 hs
  obtain ⟨e, he, h4⟩ := List.mem_filterMap.1 h3
  have hse : s.expr.entry = e ∧ (e.col = none → s.col = none) := by
    unfold Placed.place at h4
    split at h4
    · simp at h4
    · split at h4
      · injection h4 with h4; subst h4; exact ⟨rfl, fun _ => rfl⟩
      · rename_i hc
        obtain ⟨c, _, rfl⟩ := Option.map_eq_some_iff.1 h4
        exact ⟨rfl, fun h => by rw [h] at hc; simp at hc⟩
  have := List.all_eq_true.1 (h x (by simpa using hx)) e he
  rw [hse.1] at hl
  rw [hl, Bool.false_or, Bool.and_eq_true, Option.isNone_iff_eq_none] at this
  exact ⟨hse.2 this.1, fun env => by rw [hse.1]; exact isZero_sound this.2 env⟩

theorem linearStamps_of {p : Placed} (ho : p.details.opt = false)
    (h : ∀ d ∈ p.details.seg.duals, p.details.seg.linearAt d = true) : p.LinearStamps :=
  affineStamps_of ho fun d hd => affineAt_of_linearAt (h d hd)

variable {L : Library}

theorem place_linear (hL : L.Loaded) (nodes : List Node) (e : Element) (n : ℕ) (he : e.Linear) :
    ∀ p ∈ (e.place L false nodes n).1, p.LinearStamps := by
  obtain ⟨nl, hl0⟩ := hL.line
  obtain ⟨ns, hs0⟩ := hL.shunt
  obtain ⟨nv, hv0⟩ := hL.vs
  obtain ⟨nk, hk0⟩ := hL.slack
  obtain ⟨ni, hi0⟩ := hL.ic
  have hl : ∀ f u c, Placed.LinearStamps ⟨lineDetails L.line f u false, c⟩ := fun f u c => linearStamps_of rfl (line_linear hl0)
  have hs : ∀ f u c, Placed.LinearStamps ⟨lineDetails L.shunt f u false, c⟩ := fun f u c => linearStamps_of rfl (shunt_linear hs0)
  have htt : ∀ seg f u c m, (∀ d ∈ seg.duals, seg.linearAt d = true) → ∀ p ∈ (placeTwoTerminal seg false f u c m).1, p.LinearStamps := by
    intro seg f u c m hseg p hp
    simp only [placeTwoTerminal, List.mem_cons, List.not_mem_nil, or_false] at hp
    subst hp
    exact linearStamps_of rfl hseg
  have hx : ∀ a b c d tr ang g y m, ∀ p ∈ (placeTransformer L false a b c d tr ang g y m).1, p.LinearStamps := by
    intro a b c d tr ang g y m p hp
    simp only [placeTransformer, List.mem_cons, List.not_mem_nil, or_false] at hp
    rcases hp with rfl | rfl
    · exact linearStamps_of rfl xfmr_linear
    · exact hl _ _ _
  intro p hp
  cases e with
  | line f u g b bl =>
    simp only [Element.place, List.mem_cons, List.not_mem_nil, or_false] at hp
    rcases hp with rfl | rfl | rfl
    · exact hl _ _ _
    · exact hs _ _ _
    · exact hs _ _ _
  | unbalanced ph y sh =>
    simp only [Element.place, placeUnbalanced, List.mem_flatMap, List.mem_range] at hp
    obtain ⟨i, hi, j, hj, hp⟩ := hp
    simp only [placePair, List.mem_cons, List.not_mem_nil, or_false] at hp
    rcases hp with rfl | rfl | rfl
    · by_cases hij : i = j
      · refine linearStamps_of rfl ?_
        simp only [hij, if_true]; exact line_linear hl0
      · refine linearStamps_of rfl ?_
        simp only [hij, if_false]; exact shunt_linear hs0
    · exact linearStamps_of rfl (shunt_linear hs0)
    · exact linearStamps_of rfl (shunt_linear hs0)
  | transformer => exact hx _ _ _ _ _ _ _ _ _ p hp
  | centerTap f p0 s1 t1 s2 t2 ratio g0 b0 g1 b1 g2 b2 =>
    simp only [Element.place, List.mem_cons, List.not_mem_nil, or_false] at hp
    rcases hp with rfl | rfl | rfl | rfl
    · exact affineStamps_of rfl centerTap_affine
    · exact hl _ _ _
    · exact hl _ _ _
    · exact hl _ _ _
  | slack b vr vi => exact htt _ _ _ _ _ (slack_linear hk0) p hp
  | switch f u s =>
    cases s with
    | opened => simp [Element.place] at hp
    | closed => exact htt _ _ _ _ _ (vs_linear hv0) p hp
  | generator => exact he.elim
  | load f u l =>
    simp only [Element.place, placeLoad] at hp
    have he' : l.P = 0 ∧ l.Q = 0 := he
    rw [if_pos he'] at hp
    simp only [List.nil_append, List.mem_append] at hp
    rcases hp with hp | hp
    · split_ifs at hp
      · simp at hp
      · exact htt _ _ _ _ _ (ic_linear hi0) p hp
    · split_ifs at hp
      · simp at hp
      · simp only [List.mem_cons, List.not_mem_nil, or_false] at hp
        subst hp
        exact hs _ _ _
  | voltageSource f u vr vi => exact htt _ _ _ _ _ (vs_linear hv0) p hp
  | shunt b g s =>
    simp only [Element.place, List.mem_cons, List.not_mem_nil, or_false] at hp
    subst hp; exact hs _ _ _
  | regulator f c u tr g b =>
    simp only [Element.place, List.mem_append] at hp
    rcases hp with hp | hp
    · exact hx _ _ _ _ _ _ _ _ _ p hp
    · exact htt _ _ _ _ _ (vs_linear hv0) p hp
  | fuse f i u =>
    simp only [Element.place, List.mem_cons] at hp
    rcases hp with rfl | hp
    · exact hl _ _ _
    · exact htt _ _ _ _ _ (vs_linear hv0) p hp
  | capacitor f u sw b =>
    cases sw with
    | opened => simp [Element.place] at hp
    | closed =>
      simp only [Element.place, List.mem_cons, List.not_mem_nil, or_false] at hp
      subst hp; exact hs _ _ _

theorem placeElements_linear (hL : L.Loaded) (nodes : List Node) (es : List Element) (n : ℕ) (he : ∀ e ∈ es, e.Linear) :
    ∀ p ∈ (placeElements L false nodes n es).1.flatten, p.LinearStamps := by
  induction es generalizing n with
  | nil => simp [placeElements]
  | cons e es ih =>
    intro p hp
    simp only [placeElements, List.flatten_cons, List.mem_append] at hp
    rcases hp with hp | hp
    · exact place_linear hL nodes e n (he e (by simp)) p hp
    · exact ih _ (fun x hx => he x (by simp [hx])) p hp

theorem network_linearStamps (hL : L.Loaded) (N : Network) (hN : N.Linear) : ∀ p ∈ (N.assign L).all, p.LinearStamps := by
  intro p hp
  have ho := hN.1
  unfold Assignment.all Network.assign Network.opt at hp
  rw [ho] at hp
  simp only [Option.isSome_none, List.append_nil] at hp
  exact placeElements_linear hL _ _ _ hN.2 p hp

theorem network_linear_regular (hL : L.Loaded) (N : Network) (hv : N.Valid) (hN : N.Linear) (t : ℝ) (ht : N.RatiosNonzero t)
    (v : ℕ → ℝ) : ∀ p ∈ (N.assign L).all, p.Regular t v := by
  apply network_regular hL N hv
  intro e he
  have h1 := hN.2 e he
  have h2 := ht e he
  cases e <;> simp_all [Element.RegularAt, Element.Linear, Element.RatioNonzero]

/-! ### The run -/

/-- Emissions that contribute nothing. -/
def Silent (l : List Emission) : Prop := ∀ e ∈ l, e.2.1 = none ∧ e.2.2 = 0

theorem Silent.trips {l : List Emission} (h : Silent l) : tripsOf l = [] := by
  unfold tripsOf
  rw [List.filterMap_eq_nil_iff]
  intro e he
  rw [(h e he).1]; rfl

theorem Silent.j {l : List Emission} (h : Silent l) (i : ℕ) : jOf l i = 0 := by
  unfold jOf
  apply List.sum_eq_zero
  intro x hx
  obtain ⟨e, he, rfl⟩ := List.mem_map.1 hx
  exact (h e (List.mem_filter.1 he).1).2

theorem Silent.row {l : List Emission} (h : Silent l) (x : ℕ → ℝ) (i : ℕ) : linRow x l i = 0 := by
  unfold linRow
  apply List.sum_eq_zero
  intro y hy
  obtain ⟨e, he, rfl⟩ := List.mem_map.1 hy
  obtain ⟨h1, h2⟩ := h e (List.mem_filter.1 he).1
  unfold linVal
  rw [h1, h2]; simp

theorem emitted_false_silent {ps : List Placed} (h : ∀ p ∈ ps, p.LinearStamps) (t : ℝ) (v : ℕ → ℝ) :
    Silent (ps.flatMap fun p => p.emitted t v false) := by
  intro e he
  obtain ⟨p, hp, he⟩ := List.mem_flatMap.1 he
  unfold Placed.emitted at he
  obtain ⟨s, hs, rfl⟩ := List.mem_map.1 he
  obtain ⟨h1, h2⟩ := List.mem_filter.1 hs
  obtain ⟨h3, h4⟩ := h p hp s h1 (by simpa using h2)
  exact ⟨h3, h4 _⟩

/-- The equations of a linear network at `x`, from the stamps at any `w`. -/
theorem linear_row {ps : List Placed} (h : ∀ p ∈ ps, p.LinearStamps) (t : ℝ) (hr : ∀ v, ∀ p ∈ ps, p.Regular t v)
    (x w : ℕ → ℝ) (i : ℕ) : linRow x (ps.flatMap fun p => p.emitted t w true) i = networkEq ps t x i := by
  rw [← network_row ps t x (hr x) i, linRow_append, (emitted_false_silent h t x).row, add_zero]
  have e : (ps.flatMap fun p => p.emitted t w true) = ps.flatMap fun p => p.emitted t x true :=
    List.flatMap_congr fun p hp => emitted_linear (hr x p hp).disj t w x
  rw [e]

variable {C : NRContext} {opt : Bool} {ps : List Placed} {m : Stamper} {v0 : ℕ → ℝ} {it0 : ℤ} {vInit : ℕ → ℝ} {tx : ℝ}

theorem linear_cur (hlin : ∀ p ∈ ps, p.LinearStamps) (hr : Ready opt ps m v0 it0) {k : ℕ} {st : NRState Stamper}
    (h : RunReach C Stamper.ops m vInit tx k st) : Silent (Stamper.ops.stampNonlinear st.stamper st.vPrev k).2 := by
  obtain ⟨i1, _, i3⟩ := reach_at hr h
  obtain ⟨j1, j2⟩ := mid_at i1 i3
  have hcur := emit_perm j1 j2 false
  intro e he
  exact emitted_false_silent hlin _ _ e (hcur.mem_iff.1 he)

theorem linear_builder (hlin : ∀ p ∈ ps, p.LinearStamps) (hr : Ready opt ps m v0 it0) {k : ℕ} {st : NRState Stamper}
    (h : RunReach C Stamper.ops m vInit tx k st) : st.Y = Builder.empty.stamps (tripsOf (Stamper.ops.stampLinear m tx).2) := by
  induction h with
  | start => rfl
  | @step k st st' hreach hp ih =>
    obtain ⟨F, ⟨_, hF⟩ | ⟨_, _, hF⟩ | ⟨hb, ht, hF⟩⟩ := nrPass_cases hp
    · simp at hF
    · simp at hF
    · injection hF with hF
      subst hF
      show (st.Y.stamps (tripsOf _)).clear _ = _
      rw [(linear_cur hlin hr hreach).trips, ih]
      rfl

/-- The linear system of any pass is the network's equations. -/
theorem linear_system (hlin : ∀ p ∈ ps, p.LinearStamps) (hr : Ready opt ps m v0 it0) (hreg : ∀ v, ∀ p ∈ ps, p.Regular tx v)
    (hn : ∀ p ∈ ps, ∀ x ∈ p.details.seg.vars, ∀ c, p.details.varMap x = some c → c < C.size) {k : ℕ} {st : NRState Stamper}
    (h : RunReach C Stamper.ops m vInit tx k st) (x : ℕ → ℝ) :
    Solves C.size (Builder.matOf (st.Y.stamps (tripsOf (Stamper.ops.stampNonlinear st.stamper st.vPrev k).2)).entries)
      (fun i => jOf (Stamper.ops.stampLinear m tx).2 i + jOf (Stamper.ops.stampNonlinear st.stamper st.vPrev k).2 i) x ↔
      ∀ i < C.size, networkEq ps tx x i = 0 := by
  have p1 : (Stamper.ops.stampLinear m tx).2.Perm (ps.flatMap fun p => p.emitted tx v0 true) :=
    emit_perm (hr.frozen.updateTx tx) (hr.at_ tx) true
  have hcur := linear_cur hlin hr h
  set A := Builder.matOf (st.Y.stamps (tripsOf (Stamper.ops.stampNonlinear st.stamper st.vPrev k).2)).entries with hAdef
  have hA : A = Builder.matOf (tripsOf (Stamper.ops.stampLinear m tx).2) := by
    obtain ⟨A', hA, h2⟩ := C04_matrix_current_partial (tripsOf (Stamper.ops.stampLinear m tx).2) [] [] (by simp)
    have e : Builder.newton (tripsOf (Stamper.ops.stampLinear m tx).2) ([] ++ [[]]) =
        (Builder.empty.stamps (tripsOf (Stamper.ops.stampLinear m tx).2)).stamps [] := rfl
    rw [e] at hA
    unfold Builder.toMatrix at hA
    simp at hA
    rw [hAdef, hcur.trips, linear_builder hlin hr h]
    funext i j
    have := h2 i j
    rw [← hA] at this
    simpa using this
  have hc : ∀ e ∈ (Stamper.ops.stampLinear m tx).2, ∀ c, e.2.1 = some c → c < C.size := by
    intro e he c hec
    exact emitted_cols ps tx v0 C.size hn e (List.mem_append_left _ (p1.mem_iff.1 he)) c hec
  have hrow : ∀ i, (∑ j ∈ Finset.range C.size, A i j * x j) - jOf (Stamper.ops.stampLinear m tx).2 i = networkEq ps tx x i := by
    intro i
    rw [hA, sum_matOf C.size x _ hc i, linRow_perm x p1 i, linear_row hlin tx hreg]
  unfold Solves
  simp only [hcur.j, add_zero]
  constructor
  · intro hs i hi
    rw [← hrow i, hs i hi, sub_self]
  · intro hs i hi
    have := hrow i
    rw [hs i hi] at this
    linarith

/-- Whatever an exact solver returns in any pass solves the equations. -/
theorem linear_pass (hlin : ∀ p ∈ ps, p.LinearStamps) (hr : Ready opt ps m v0 it0) (hreg : ∀ v, ∀ p ∈ ps, p.Regular tx v)
    (hn : ∀ p ∈ ps, ∀ x ∈ p.details.seg.vars, ∀ c, p.details.varMap x = some c → c < C.size) {k : ℕ} {st : NRState Stamper}
    (h : RunReach C Stamper.ops m vInit tx k st) (F : RunFacts C Stamper.ops m vInit tx k st) (x : ℕ → ℝ) :
    Solves C.size F.A (fun i => jOf (Stamper.ops.stampLinear m tx).2 i + jOf (Stamper.ops.stampNonlinear st.stamper st.vPrev k).2 i) x ↔
      ∀ i < C.size, networkEq ps tx x i = 0 := by
  have hm := F.mat
  unfold Builder.toMatrix at hm
  split_ifs at hm
  injection hm with hm
  rw [← hm]
  exact linear_system hlin hr hreg hn h x

end Verif
