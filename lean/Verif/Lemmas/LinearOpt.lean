import Verif.Lemmas.Linear

/-! Linear networks with infeasibility analysis (`L1` or `L2`): every stamp is flagged linear or vanishes. -/

namespace Verif

open Ex Devices

theorem slack_affine {n : ℕ} {s : Segment} (h : twoTerminal n slackArgs = .ok s) : ∀ d ∈ s.vars, s.affineAt d = true := by
  intro d hd
  rcases List.mem_append.1 hd with hp | hd
  swap
  · exact affineAt_of_linearAt (slack_linear h d hd)
  clear hd
  have : s = ⟨twoTerminalLagrange none (.sym .ISr) (.sym .ISi) (.sym .ISr) (.sym .ISi) n [Devices.Vr - .sym .Vrset, Devices.Vi - .sym .Viset],
    [.Vrset, .Viset], terminals ++ [.ISr, .ISi], [.LrFrom, .LiFrom, .LrTo, .LiTo, .lam n, .lam (n+1)]⟩ := by
    have h2 : twoTerminal n slackArgs = .ok _ := rfl
    rw [h] at h2; injection h2
  subst this
  refine affineAt_of_linearAt ?_
  unfold Segment.linearAt Segment.entries Segment.split Segment.derivative
  simp only [terminals, List.cons_append, List.nil_append, List.mem_cons, List.not_mem_nil, or_false] at hp
  rcases hp with rfl | rfl | rfl | rfl | rfl | rfl
  all_goals
    simp [twoTerminalLagrange, addEqualities, Devices.Vr, Devices.Vi, exAdd, exMul, exSub, exNeg, diff, sadd, Ex.smul,
      Segment.vars, terminals, evals, splitExpr, splitTerms, addends, expand, splitStep, Mono.toEx, factorEx, isConstant,
      mulMonos, Mono.mul, insertFactor, isLinear, getLinearTerm, has, hasPow, addEntry, entryLinear, neg_one_ne_one]

theorem vs_affine {n : ℕ} {s : Segment} (h : twoTerminal n vsArgs = .ok s) : ∀ d ∈ s.vars, s.affineAt d = true := by
  intro d hd
  rcases List.mem_append.1 hd with hp | hd
  swap
  · exact affineAt_of_linearAt (vs_linear h d hd)
  clear hd
  have : s = ⟨twoTerminalLagrange none (.sym .Ir) (.sym .Ii) (.sym .Ir) (.sym .Ii) n
      [.sym .VrSet - (.sym .VrFrom - .sym .VrTo), .sym .ViSet - (.sym .ViFrom - .sym .ViTo)],
    [.VrSet, .ViSet], terminals ++ [.Ir, .Ii], [.LrFrom, .LiFrom, .LrTo, .LiTo, .lam n, .lam (n+1)]⟩ := by
    have h2 : twoTerminal n vsArgs = .ok _ := rfl
    rw [h] at h2; injection h2
  subst this
  refine affineAt_of_linearAt ?_
  unfold Segment.linearAt Segment.entries Segment.split Segment.derivative
  simp only [terminals, List.cons_append, List.nil_append, List.mem_cons, List.not_mem_nil, or_false] at hp
  rcases hp with rfl | rfl | rfl | rfl | rfl | rfl
  all_goals
    simp [twoTerminalLagrange, addEqualities, exAdd, exMul, exSub, exNeg, diff, sadd, Ex.smul,
      Segment.vars, terminals, evals, splitExpr, splitTerms, addends, expand, splitStep, Mono.toEx, factorEx, isConstant,
      mulMonos, Mono.mul, insertFactor, isLinear, getLinearTerm, has, hasPow, addEntry, entryLinear, neg_one_ne_one]

theorem line_affine {n : ℕ} {s : Segment} (h : twoTerminal n lineArgs = .ok s) : ∀ d ∈ s.vars, s.affineAt d = true := by
  have : s = plainSegment (admittanceKclR lineG lineB) (admittanceKclI lineG lineB) [.G, .B, .txFactor] := by
    have h2 : twoTerminal n lineArgs = .ok _ := rfl
    rw [h] at h2; injection h2
  subst this
  have hall : (plainSegment (admittanceKclR lineG lineB) (admittanceKclI lineG lineB) [.G, .B, .txFactor]).vars.all (plainSegment (admittanceKclR lineG lineB)
      (admittanceKclI lineG lineB) [.G, .B, .txFactor]).affineAt = true := by decide +kernel
  exact fun d hd => List.all_eq_true.1 hall d hd

theorem shunt_affine {n : ℕ} {s : Segment} (h : twoTerminal n shuntArgs = .ok s) : ∀ d ∈ s.vars, s.affineAt d = true := by
  have : s = plainSegment (admittanceKclR shuntG shuntB) (admittanceKclI shuntG shuntB) [.G, .B, .txFactor] := by
    have h2 : twoTerminal n shuntArgs = .ok _ := rfl
    rw [h] at h2; injection h2
  subst this
  have hall : (plainSegment (admittanceKclR shuntG shuntB) (admittanceKclI shuntG shuntB) [.G, .B, .txFactor]).vars.all (plainSegment (admittanceKclR shuntG shuntB)
      (admittanceKclI shuntG shuntB) [.G, .B, .txFactor]).affineAt = true := by decide +kernel
  exact fun d hd => List.all_eq_true.1 hall d hd

theorem ic_affine {n : ℕ} {s : Segment} (h : twoTerminal n icArgs = .ok s) : ∀ d ∈ s.vars, s.affineAt d = true := by
  have : s = plainSegment (.sym .IP) (.sym .IQ) [.IP, .IQ] := by
    have h2 : twoTerminal n icArgs = .ok _ := rfl
    rw [h] at h2; injection h2
  subst this
  have hall : (plainSegment (.sym .IP) (.sym .IQ) [.IP, .IQ]).vars.all (plainSegment (.sym .IP) (.sym .IQ) [.IP, .IQ]).affineAt = true := by
    decide +kernel
  exact fun d hd => List.all_eq_true.1 hall d hd

theorem xfmr_affine : ∀ d ∈ xfmr.vars, xfmr.affineAt d = true := by
  have hall : xfmr.vars.all xfmr.affineAt = true := by decide +kernel
  exact fun d hd => List.all_eq_true.1 hall d hd

theorem ct_affine : ∀ d ∈ centerTap.vars, centerTap.affineAt d = true := by
  have hall : centerTap.vars.all centerTap.affineAt = true := by decide +kernel
  exact fun d hd => List.all_eq_true.1 hall d hd

theorem l2_affine : ∀ d ∈ l2.vars, l2.affineAt d = true := by
  have hall : l2.vars.all l2.affineAt = true := by decide +kernel
  exact fun d hd => List.all_eq_true.1 hall d hd

theorem l1_affine : ∀ d ∈ l1.vars, l1.affineAt d = true := by
  have hall : l1.vars.all l1.affineAt = true := by decide +kernel
  exact fun d hd => List.all_eq_true.1 hall d hd

theorem stamps_of_affine {p : Placed} (h : ∀ d ∈ p.details.seg.vars, p.details.seg.affineAt d = true) : p.LinearStamps := by
  intro s hs hl
  unfold Placed.stamps at hs
  obtain ⟨x, hx, h3⟩ := List.mem_flatMap.1 hs
  obtain ⟨e, he, h4⟩ := List.mem_filterMap.1 h3
  have hx' : x ∈ p.details.seg.vars := by
    unfold Details.firstOrder at hx
    split at hx
    · exact hx
    · exact List.mem_append_right _ hx
  have hse : s.expr.entry = e ∧ (e.col = none → s.col = none) := by
    unfold Placed.place at h4
    split at h4
    · simp at h4
    · split at h4
      · injection h4 with h4; subst h4; exact ⟨rfl, fun _ => rfl⟩
      · rename_i hc
        obtain ⟨c, _, rfl⟩ := Option.map_eq_some_iff.1 h4
        exact ⟨rfl, fun h => by rw [h] at hc; simp at hc⟩
  have := List.all_eq_true.1 (h x hx') e he
  rw [hse.1] at hl
  rw [hl, Bool.false_or, Bool.and_eq_true, Option.isNone_iff_eq_none] at this
  exact ⟨hse.2 this.1, fun env => by rw [hse.1]; exact isZero_sound this.2 env⟩

variable {L : Library}

theorem place_affine (hL : L.Loaded) (opt : Bool) (nodes : List Node) (e : Element) (n : ℕ) (he : e.Linear) :
    ∀ p ∈ (e.place L opt nodes n).1, p.LinearStamps := by
  obtain ⟨nl, hl0⟩ := hL.line
  obtain ⟨ns, hs0⟩ := hL.shunt
  obtain ⟨nv, hv0⟩ := hL.vs
  obtain ⟨nk, hk0⟩ := hL.slack
  obtain ⟨ni, hi0⟩ := hL.ic
  have hl : ∀ f u c, Placed.LinearStamps ⟨lineDetails L.line f u opt, c⟩ := fun f u c => stamps_of_affine (line_affine hl0)
  have hs : ∀ f u c, Placed.LinearStamps ⟨lineDetails L.shunt f u opt, c⟩ := fun f u c => stamps_of_affine (shunt_affine hs0)
  have htt : ∀ seg f u c m, (∀ d ∈ seg.vars, seg.affineAt d = true) → ∀ p ∈ (placeTwoTerminal seg opt f u c m).1, p.LinearStamps := by
    intro seg f u c m hseg p hp
    simp only [placeTwoTerminal, List.mem_cons, List.not_mem_nil, or_false] at hp
    subst hp
    exact stamps_of_affine hseg
  have hx : ∀ a b c d tr ang g y m, ∀ p ∈ (placeTransformer L opt a b c d tr ang g y m).1, p.LinearStamps := by
    intro a b c d tr ang g y m p hp
    simp only [placeTransformer, List.mem_cons, List.not_mem_nil, or_false] at hp
    rcases hp with rfl | rfl
    · exact stamps_of_affine xfmr_affine
    · exact hl _ _ _
  intro p hp
  cases e with
  | line f u g b bl =>
    simp only [Element.place, List.mem_cons, List.not_mem_nil, or_false] at hp
    rcases hp with rfl | rfl | rfl
    · exact hl _ _ _
    · exact hs _ _ _
    · exact hs _ _ _
  | unbalanced ph y sh =>
    simp only [Element.place, placeUnbalanced, List.mem_flatMap, List.mem_range] at hp
    obtain ⟨i, hi, j, hj, hp⟩ := hp
    simp only [placePair, List.mem_cons, List.not_mem_nil, or_false] at hp
    rcases hp with rfl | rfl | rfl
    · by_cases hij : i = j
      · refine stamps_of_affine ?_
        simp only [hij, if_true]; exact line_affine hl0
      · refine stamps_of_affine ?_
        simp only [hij, if_false]; exact shunt_affine hs0
    · exact stamps_of_affine (shunt_affine hs0)
    · exact stamps_of_affine (shunt_affine hs0)
  | transformer => exact hx _ _ _ _ _ _ _ _ _ p hp
  | centerTap f p0 s1 t1 s2 t2 ratio g0 b0 g1 b1 g2 b2 =>
    simp only [Element.place, List.mem_cons, List.not_mem_nil, or_false] at hp
    rcases hp with rfl | rfl | rfl | rfl
    · exact stamps_of_affine ct_affine
    · exact hl _ _ _
    · exact hl _ _ _
    · exact hl _ _ _
  | slack b vr vi => exact htt _ _ _ _ _ (slack_affine hk0) p hp
  | switch f u s =>
    cases s with
    | opened => simp [Element.place] at hp
    | closed => exact htt _ _ _ _ _ (vs_affine hv0) p hp
  | generator => exact he.elim
  | load f u l =>
    simp only [Element.place, placeLoad] at hp
    have he' : l.P = 0 ∧ l.Q = 0 := he
    rw [if_pos he'] at hp
    simp only [List.nil_append, List.mem_append] at hp
    rcases hp with hp | hp
    · split_ifs at hp
      · simp at hp
      · exact htt _ _ _ _ _ (ic_affine hi0) p hp
    · split_ifs at hp
      · simp at hp
      · simp only [List.mem_cons, List.not_mem_nil, or_false] at hp
        subst hp
        exact hs _ _ _
  | voltageSource f u vr vi => exact htt _ _ _ _ _ (vs_affine hv0) p hp
  | shunt b g s =>
    simp only [Element.place, List.mem_cons, List.not_mem_nil, or_false] at hp
    subst hp; exact hs _ _ _
  | regulator f c u tr g b =>
    simp only [Element.place, List.mem_append] at hp
    rcases hp with hp | hp
    · exact hx _ _ _ _ _ _ _ _ _ p hp
    · exact htt _ _ _ _ _ (vs_affine hv0) p hp
  | fuse f i u =>
    simp only [Element.place, List.mem_cons] at hp
    rcases hp with rfl | hp
    · exact hl _ _ _
    · exact htt _ _ _ _ _ (vs_affine hv0) p hp
  | capacitor f u sw b =>
    cases sw with
    | opened => simp [Element.place] at hp
    | closed =>
      simp only [Element.place, List.mem_cons, List.not_mem_nil, or_false] at hp
      subst hp; exact hs _ _ _

theorem placeElements_affine (hL : L.Loaded) (opt : Bool) (nodes : List Node) (es : List Element) (n : ℕ) (he : ∀ e ∈ es, e.Linear) :
    ∀ p ∈ (placeElements L opt nodes n es).1.flatten, p.LinearStamps := by
  induction es generalizing n with
  | nil => simp [placeElements]
  | cons e es ih =>
    intro p hp
    simp only [placeElements, List.flatten_cons, List.mem_append] at hp
    rcases hp with hp | hp
    · exact place_affine hL opt nodes e n (he e (by simp)) p hp
    · exact ih _ (fun x hx => he x (by simp [hx])) p hp

theorem placeInfeasibility_affine (o : OptKind) (nodes : List Node) (n : ℕ) : ∀ p ∈ (placeInfeasibility o n nodes).1, p.LinearStamps := by
  induction nodes generalizing n with
  | nil => simp [placeInfeasibility]
  | cons b bs ih =>
    intro p hp
    simp only [placeInfeasibility, List.mem_cons] at hp
    rcases hp with rfl | hp
    · cases o with
      | L1 => exact stamps_of_affine l1_affine
      | L2 => exact stamps_of_affine l2_affine
    · exact ih _ p hp

/-- All stamps of a linear network with infeasibility analysis. -/
theorem network_affineStamps (hL : L.Loaded) (N : Network) (hlin : ∀ e ∈ N.elements, e.Linear) :
    ∀ p ∈ (N.assign L).all, p.LinearStamps := by
  intro p hp
  rcases List.mem_append.1 hp with hp | hp
  · exact placeElements_affine hL _ _ _ _ hlin p hp
  · unfold Network.assign at hp
    cases ho : N.optimization with
    | none => simp [ho] at hp
    | some o =>
      simp only [ho] at hp
      exact placeInfeasibility_affine o _ _ p hp

theorem network_affine_regular (hL : L.Loaded) (N : Network) (hv : N.Valid) (hlin : ∀ e ∈ N.elements, e.Linear) (t : ℝ) (ht : N.RatiosNonzero t)
    (v : ℕ → ℝ) : ∀ p ∈ (N.assign L).all, p.Regular t v := by
  apply network_regular hL N hv
  intro e he
  have h1 := hlin e he
  have h2 := ht e he
  cases e <;> simp_all [Element.RegularAt, Element.Linear, Element.RatioNonzero]

/-- The equations of a linear network are a matrix and a constant. -/
theorem network_rows (hL : L.Loaded) (N : Network) (hv : N.Valid) (hlin : ∀ e ∈ N.elements, e.Linear) (t : ℝ) (ht : N.RatiosNonzero t) :
    ∃ (A : ℕ → ℕ → ℝ) (b : ℕ → ℝ), ∀ v i, networkEq (N.assign L).all t v i = (∑ j ∈ Finset.range (N.assign L).size, A i j * v j) - b i := by
  refine ⟨Builder.matOf (tripsOf ((N.assign L).all.flatMap fun p => p.emitted t (fun _ => 0) true)),
    jOf ((N.assign L).all.flatMap fun p => p.emitted t (fun _ => 0) true), fun v i => ?_⟩
  rw [sum_matOf _ v _ (fun e he c hc => emitted_cols _ t (fun _ => 0) _ (fun p hp x hx c hc => network_below hL N p hp x hx c hc) e
    (List.mem_append_left _ he) c hc) i]
  exact (linear_row (network_affineStamps hL N hlin) t (network_affine_regular hL N hv hlin t ht) v (fun _ => 0) i).symm

end Verif
