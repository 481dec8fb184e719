import Verif.Lemmas.NetworkBelow
import Verif.Lemmas.Transformer

/-! From placed parts to currents and laws, plain mode. -/

namespace Verif

open Ex Devices ComplexConjugate

variable {L : Library}

/-- Contribution of a complex equation at a node to row `i`. -/
def nodeRow (n : Node) (z : ℂ) (i : ℕ) : ℝ := (if n.vr = some i then z.re else 0) + (if n.vi = some i then z.im else 0)

theorem nodeRow_add (n : Node) (z w : ℂ) (i : ℕ) : nodeRow n (z + w) i = nodeRow n z i + nodeRow n w i := by
  unfold nodeRow; split_ifs <;> simp <;> ring

theorem nodeRow_neg (n : Node) (z : ℂ) (i : ℕ) : nodeRow n (-z) i = -nodeRow n z i := by
  unfold nodeRow; split_ifs <;> simp <;> ring

theorem nodeRow_zero (n : Node) (i : ℕ) : nodeRow n 0 i = 0 := by
  unfold nodeRow; split_ifs <;> simp

theorem nodeRow_ground (z : ℂ) (i : ℕ) : nodeRow Node.ground z i = 0 := by simp [nodeRow, Node.ground]

theorem ground_volt (v : ℕ → ℝ) : Node.ground.volt v = 0 := rfl

/-- Contribution of a list of laws starting at row `n` to row `i`. -/
def lawRow (n : ℕ) (ls : List ℝ) (i : ℕ) : ℝ := if n ≤ i then ls.getD (i - n) 0 else 0

theorem lawRow_nil (n i : ℕ) : lawRow n [] i = 0 := by simp [lawRow]

theorem lawRow_append (n : ℕ) (a b : List ℝ) (i : ℕ) : lawRow n (a ++ b) i = lawRow n a i + lawRow (n + a.length) b i := by
  unfold lawRow
  simp only [List.getD_eq_getElem?_getD]
  by_cases h : n ≤ i
  · rw [if_pos h, if_pos h]
    by_cases h2 : n + a.length ≤ i
    · rw [if_pos h2, List.getElem?_append_right (by omega), List.getElem?_eq_none (l := a) (by omega)]
      simp [Nat.sub_sub]
    · rw [if_neg h2, List.getElem?_append_left (by omega)]; simp
  · rw [if_neg h, if_neg h, if_neg (by omega)]; simp

theorem lawRow_both (n : ℕ) (z : ℂ) (i : ℕ) :
    lawRow n (both z) i = (if some n = some i then z.re else 0) + (if some (n + 1) = some i then z.im else 0) := by
  unfold lawRow both
  simp only [Option.some.injEq]
  by_cases h : n ≤ i
  · rw [if_pos h]
    obtain ⟨k, rfl⟩ := Nat.exists_eq_add_of_le h
    rw [Nat.add_sub_cancel_left]
    match k with
    | 0 => simp
    | 1 => simp
    | k + 2 => simp
  · rw [if_neg h, if_neg (by omega), if_neg (by omega)]; simp

theorem lawRow_one (n : ℕ) (x : ℝ) (i : ℕ) : lawRow n [x] i = if some n = some i then x else 0 := by
  unfold lawRow
  simp only [Option.some.injEq]
  by_cases h : n ≤ i
  · rw [if_pos h]
    obtain ⟨k, rfl⟩ := Nat.exists_eq_add_of_le h
    rw [Nat.add_sub_cancel_left]
    match k with
    | 0 => simp
    | k + 1 => simp
  · rw [if_neg h, if_neg (by omega)]

theorem rowTotal_filterMap (l : List Sym) (row : Sym → Idx) (val : Sym → ℝ) (i : ℕ) :
    rowTotal (l.filterMap fun x => (row x).map fun r => (r, val x)) i = (l.map fun x => if row x = some i then val x else 0).sum := by
  induction l with
  | nil => rfl
  | cons x l ih =>
    rw [List.map_cons, List.sum_cons, ← ih]
    cases hr : row x with
    | none => simp [hr]
    | some r =>
      simp only [hr, List.filterMap_cons, Option.map_some, Option.some.injEq]
      unfold rowTotal
      by_cases h : r = i
      · simp [h]
      · simp [h]

theorem equations_total (p : Placed) (t : ℝ) (v : ℕ → ℝ) (i : ℕ) :
    rowTotal (p.equations t v) i =
      (p.details.firstOrder.map fun x => if p.details.row x = some i then p.part.row t (p.point v) x else 0).sum :=
  rowTotal_filterMap _ _ _ i

/-! ### Line-like parts -/

theorem pair_point {seg : Segment} (h : LineLike seg) (rf rt cf ct : Node) (opt : Bool) (consts : List ℝ) (v : ℕ → ℝ) :
    let p : Placed := ⟨pairDetails seg rf rt cf ct opt, consts⟩
    p.point v .VrFrom = readIdx v cf.vr ∧ p.point v .ViFrom = readIdx v cf.vi ∧
    p.point v .VrTo = readIdx v ct.vr ∧ p.point v .ViTo = readIdx v ct.vi := by
  have hm : ∀ s ∈ terminals, s ∈ seg.vars := by
    intro s hs; unfold Segment.vars; rw [h.primals]; exact List.mem_append_left _ hs
  exact ⟨if_pos (hm .VrFrom (by simp [terminals])), if_pos (hm .ViFrom (by simp [terminals])),
    if_pos (hm .VrTo (by simp [terminals])), if_pos (hm .ViTo (by simp [terminals]))⟩

theorem pair_total {seg : Segment} (h : LineLike seg) (rf rt cf ct : Node) (consts : List ℝ) (t : ℝ) (v : ℕ → ℝ) (i : ℕ)
    (I : ℂ) (h1 : Part.row ⟨seg, consts⟩ t (Placed.point ⟨pairDetails seg rf rt cf ct false, consts⟩ v) .LrFrom = I.re)
    (h2 : Part.row ⟨seg, consts⟩ t (Placed.point ⟨pairDetails seg rf rt cf ct false, consts⟩ v) .LiFrom = I.im)
    (h3 : Part.row ⟨seg, consts⟩ t (Placed.point ⟨pairDetails seg rf rt cf ct false, consts⟩ v) .LrTo = -I.re)
    (h4 : Part.row ⟨seg, consts⟩ t (Placed.point ⟨pairDetails seg rf rt cf ct false, consts⟩ v) .LiTo = -I.im) :
    rowTotal (Placed.equations ⟨pairDetails seg rf rt cf ct false, consts⟩ t v) i = nodeRow rf I i + nodeRow rt (-I) i := by
  rw [equations_total]
  have hfo : (pairDetails seg rf rt cf ct false).firstOrder = [.LrFrom, .LiFrom, .LrTo, .LiTo] := by
    unfold Details.firstOrder; exact h.duals
  obtain ⟨r1, r2, r3, r4⟩ := h.row rf rt cf ct false
  simp only [hfo, List.map_cons, List.map_nil, List.sum_cons, List.sum_nil, r1, r2, r3, r4, Bool.false_eq_true, if_false]
  have hpart : Placed.part ⟨pairDetails seg rf rt cf ct false, consts⟩ = ⟨seg, consts⟩ := rfl
  rw [hpart, h1, h2, h3, h4]
  unfold nodeRow
  simp only [Complex.neg_re, Complex.neg_im]
  ring

theorem line_total (hL : L.Loaded) (rf rt cf ct : Node) (g b z t : ℝ) (v : ℕ → ℝ) (i : ℕ) :
    rowTotal (Placed.equations ⟨pairDetails L.line rf rt cf ct false, [g, b, z]⟩ t v) i =
      nodeRow rf (stiff t g b * (cf.volt v - ct.volt v)) i + nodeRow rt (-(stiff t g b * (cf.volt v - ct.volt v))) i := by
  obtain ⟨p1, p2, p3, p4⟩ := pair_point (line_like hL) rf rt cf ct false [g, b, z] v
  obtain ⟨r1, r2, r3, r4⟩ := line_rows hL g b z t (Placed.point ⟨pairDetails L.line rf rt cf ct false, [g, b, z]⟩ v)
  refine pair_total (line_like hL) rf rt cf ct [g, b, z] t v i _ ?_ ?_ ?_ ?_
  · rw [r1, p1, p2, p3, p4]; simp [stiff, Node.volt]
  · rw [r2, p1, p2, p3, p4]; simp [stiff, Node.volt]
  · rw [r3, p1, p2, p3, p4]; simp [stiff, Node.volt]
  · rw [r4, p1, p2, p3, p4]; simp [stiff, Node.volt]

theorem shunt_total (hL : L.Loaded) (rf rt cf ct : Node) (g b z t : ℝ) (v : ℕ → ℝ) (i : ℕ) :
    rowTotal (Placed.equations ⟨pairDetails L.shunt rf rt cf ct false, [g, b, z]⟩ t v) i =
      nodeRow rf (faded t g b * (cf.volt v - ct.volt v)) i + nodeRow rt (-(faded t g b * (cf.volt v - ct.volt v))) i := by
  obtain ⟨p1, p2, p3, p4⟩ := pair_point (shunt_like hL) rf rt cf ct false [g, b, z] v
  obtain ⟨r1, r2, r3, r4⟩ := shunt_rows hL g b z t (Placed.point ⟨pairDetails L.shunt rf rt cf ct false, [g, b, z]⟩ v)
  refine pair_total (shunt_like hL) rf rt cf ct [g, b, z] t v i _ ?_ ?_ ?_ ?_
  · rw [r1, p1, p2, p3, p4]; simp [faded, Node.volt]
  · rw [r2, p1, p2, p3, p4]; simp [faded, Node.volt]
  · rw [r3, p1, p2, p3, p4]; simp [faded, Node.volt]
  · rw [r4, p1, p2, p3, p4]; simp [faded, Node.volt]

theorem conj_div_re (P Q : ℝ) (U : ℂ) : (conj ((⟨P, Q⟩ : ℂ) / U)).re = pqR P Q U.re U.im := by
  rw [Complex.conj_re, Complex.div_re, pqR, Complex.normSq_apply]
  rw [show U.re * U.re + U.im * U.im = U.re ^ 2 + U.im ^ 2 by ring]; ring

theorem conj_div_im (P Q : ℝ) (U : ℂ) : (conj ((⟨P, Q⟩ : ℂ) / U)).im = pqI P Q U.re U.im := by
  rw [Complex.conj_im, Complex.div_im, pqI, Complex.normSq_apply]
  rw [show U.re * U.re + U.im * U.im = U.re ^ 2 + U.im ^ 2 by ring]; ring

theorem pq_total (hL : L.Loaded) (f u : Node) (P Q t : ℝ) (v : ℕ → ℝ) (i : ℕ) :
    rowTotal (Placed.equations ⟨lineDetails L.pq f u false, [P, Q]⟩ t v) i =
      nodeRow f (conj ((⟨P, Q⟩ : ℂ) / (f.volt v - u.volt v))) i + nodeRow u (-(conj ((⟨P, Q⟩ : ℂ) / (f.volt v - u.volt v)))) i := by
  rw [lineDetails_eq]
  obtain ⟨p1, p2, p3, p4⟩ := pair_point (pq_like hL) f u f u false [P, Q] v
  obtain ⟨r1, r2, r3, r4⟩ := pq_rows hL P Q t (Placed.point ⟨pairDetails L.pq f u f u false, [P, Q]⟩ v)
  refine pair_total (pq_like hL) f u f u [P, Q] t v i _ ?_ ?_ ?_ ?_
  · rw [r1, p1, p2, p3, p4, conj_div_re]; rfl
  · rw [r2, p1, p2, p3, p4, conj_div_im]; rfl
  · rw [r3, p1, p2, p3, p4, conj_div_re]; rfl
  · rw [r4, p1, p2, p3, p4, conj_div_im]; rfl

theorem ic_total (hL : L.Loaded) (f u : Node) (a b t : ℝ) (v : ℕ → ℝ) (i : ℕ) :
    rowTotal (Placed.equations ⟨lineDetails L.ic f u false, [a, b]⟩ t v) i =
      nodeRow f ⟨a, b⟩ i + nodeRow u (-⟨a, b⟩) i := by
  rw [lineDetails_eq]
  obtain ⟨r1, r2, r3, r4⟩ := ic_rows hL a b t (Placed.point ⟨pairDetails L.ic f u f u false, [a, b]⟩ v)
  exact pair_total (ic_like hL) f u f u [a, b] t v i ⟨a, b⟩ r1 r2 r3 r4

/-! ### Two-terminal devices with own unknowns -/

theorem twoTerminal_point {seg : Segment} {f t : Node} {n : ℕ} {own lams : List Sym}
    (hp : seg.primals = terminals ++ own) (hd : seg.duals = [.LrFrom, .LiFrom, .LrTo, .LiTo] ++ lams)
    (hn : (own ++ lams).Nodup) (hmiss : ∀ s ∈ own ++ lams, terminalDict f t s = none) (consts : List ℝ) (v : ℕ → ℝ) :
    let p : Placed := ⟨(twoTerminalDetails seg f t n false).1, consts⟩
    p.point v .VrFrom = readIdx v f.vr ∧ p.point v .ViFrom = readIdx v f.vi ∧
    p.point v .VrTo = readIdx v t.vr ∧ p.point v .ViTo = readIdx v t.vi ∧
    ∀ s ∈ own, p.point v s = v (n + own.idxOf s) := by
  obtain ⟨h1, h2, h3, h4, h5, h6, h7⟩ := twoTerminalDetails_spec f t n false hp hd hn hmiss
  have hm : ∀ s ∈ terminals ++ own, s ∈ (twoTerminalDetails seg f t n false).1.seg.vars := by
    intro s hs; rw [h1]; unfold Segment.vars; rw [hp]; exact List.mem_append_left _ hs
  refine ⟨?_, ?_, ?_, ?_, ?_⟩
  · rw [← h4 .VrFrom f.vr rfl]; exact if_pos (hm .VrFrom (by simp [terminals]))
  · rw [← h4 .ViFrom f.vi rfl]; exact if_pos (hm .ViFrom (by simp [terminals]))
  · rw [← h4 .VrTo t.vr rfl]; exact if_pos (hm .VrTo (by simp [terminals]))
  · rw [← h4 .ViTo t.vi rfl]; exact if_pos (hm .ViTo (by simp [terminals]))
  · intro s hs
    have := h5 s hs
    rw [show v (n + own.idxOf s) = readIdx v (some (n + own.idxOf s)) from rfl, ← this]
    exact if_pos (hm s (List.mem_append_right _ hs))

theorem twoTerminal_rows {seg : Segment} {f t : Node} {n : ℕ} {own lams : List Sym}
    (hp : seg.primals = terminals ++ own) (hd : seg.duals = [.LrFrom, .LiFrom, .LrTo, .LiTo] ++ lams)
    (hn : (own ++ lams).Nodup) (hmiss : ∀ s ∈ own ++ lams, terminalDict f t s = none) :
    let d := (twoTerminalDetails seg f t n false).1
    d.seg = seg ∧ d.firstOrder = [.LrFrom, .LiFrom, .LrTo, .LiTo] ++ lams ∧
    d.row .LrFrom = f.vr ∧ d.row .LiFrom = f.vi ∧ d.row .LrTo = t.vr ∧ d.row .LiTo = t.vi ∧
    ∀ k (hk : k < lams.length), k < own.length → d.row lams[k] = some (n + k) := by
  obtain ⟨h1, h2, h3, h4, h5, h6, h7⟩ := twoTerminalDetails_spec f t n false hp hd hn hmiss
  have hdp : ∀ x, (twoTerminalDetails seg f t n false).1.row x =
      (seg.dualPrimal x).bind (twoTerminalDetails seg f t n false).1.varMap := by
    intro x; unfold Details.row; rw [h3, h2, h1]; rfl
  have hfour : ∀ x ∈ [Sym.LrFrom, .LiFrom, .LrTo, .LiTo], seg.dualPrimal x =
      (terminals ++ own)[[Sym.LrFrom, .LiFrom, .LrTo, .LiTo].idxOf x]? := by
    intro x hx
    unfold Segment.dualPrimal
    rw [hp, hd, if_pos (List.mem_append_left _ hx), List.idxOf_append_of_mem hx]
  refine ⟨h1, ?_, ?_, ?_, ?_, ?_, ?_⟩
  · unfold Details.firstOrder; rw [h3, h1, hd]; rfl
  · rw [hdp, hfour _ (by simp)]; exact h4 .VrFrom _ rfl
  · rw [hdp, hfour _ (by simp)]; exact h4 .ViFrom _ rfl
  · rw [hdp, hfour _ (by simp)]; exact h4 .VrTo _ rfl
  · rw [hdp, hfour _ (by simp)]; exact h4 .ViTo _ rfl
  · intro k hk hko
    have hnl : lams.Nodup := (List.nodup_append.1 hn).2.1
    have hno : own.Nodup := (List.nodup_append.1 hn).1
    have hnot : lams[k] ∉ [Sym.LrFrom, .LiFrom, .LrTo, .LiTo] := by
      intro hm
      have := hmiss lams[k] (List.mem_append_right _ (List.getElem_mem hk))
      simp at hm
      rcases hm with hm | hm | hm | hm <;> rw [hm] at this <;> simp [terminalDict] at this
    have : seg.dualPrimal lams[k] = some own[k] := by
      unfold Segment.dualPrimal
      rw [hp, hd, if_pos (List.mem_append_right _ (List.getElem_mem hk)), List.idxOf_append_of_notMem hnot,
        hnl.idxOf_getElem]
      rw [List.getElem?_append_right (by simp [terminals])]
      simp [terminals, List.getElem?_eq_getElem hko]
    rw [hdp, this]
    show (twoTerminalDetails seg f t n false).1.varMap own[k] = _
    rw [h5 _ (List.getElem_mem hko), hno.idxOf_getElem]

theorem slack_total (hL : L.Loaded) (f u : Node) (n : ℕ) (a b t : ℝ) (v : ℕ → ℝ) (i : ℕ) :
    (twoTerminalDetails L.slack f u n false).2 = n + 2 ∧
    rowTotal (Placed.equations ⟨(twoTerminalDetails L.slack f u n false).1, [a, b]⟩ t v) i =
      nodeRow f ⟨v n, v (n + 1)⟩ i + nodeRow u (-⟨v n, v (n + 1)⟩) i + lawRow n (both (f.volt v - u.volt v - ⟨a, b⟩)) i := by
  obtain ⟨m, s1, s2, s3⟩ := slack_shape hL
  have hn : ([Sym.ISr, .ISi] ++ [Sym.lam m, .lam (m + 1)]).Nodup := by simp
  have hmiss : ∀ s ∈ [Sym.ISr, .ISi] ++ [Sym.lam m, .lam (m + 1)], terminalDict f u s = none := by simp [terminalDict]
  refine ⟨by rw [(twoTerminalDetails_spec f u n false s1 s2 hn hmiss).2.2.2.2.2.2]; rfl, ?_⟩
  obtain ⟨p1, p2, p3, p4, p5⟩ := twoTerminal_point (n := n) s1 s2 hn hmiss [a, b] v
  obtain ⟨g0, g1, g2, g3, g4, g5, g6⟩ := twoTerminal_rows (n := n) s1 s2 hn hmiss
  have q1 := p5 .ISr (by simp)
  have q2 := p5 .ISi (by simp)
  have k1 := g6 0 (by simp) (by simp)
  have k2 := g6 1 (by simp) (by simp)
  simp only [List.getElem_cons_zero, List.getElem_cons_succ] at k1 k2
  set p : Placed := ⟨(twoTerminalDetails L.slack f u n false).1, [a, b]⟩ with hp
  obtain ⟨r1, r2, r3, r4, d, e, hde, r5, r6⟩ := slack_rows hL a b t (p.point v)
  have hd1 : d = .lam m ∧ e = .lam (m + 1) := by
    simp [s2] at hde; exact ⟨hde.1.symm, hde.2.symm⟩
  obtain ⟨rfl, rfl⟩ := hd1
  have hpart : p.part = ⟨L.slack, [a, b]⟩ := by unfold Placed.part; rw [hp]; simp only [g0]
  rw [equations_total, hpart]
  have e0 : p.details.firstOrder = [.LrFrom, .LiFrom, .LrTo, .LiTo] ++ [.lam m, .lam (m + 1)] := g1
  have e1 : p.details.row .LrFrom = f.vr := g2
  have e2 : p.details.row .LiFrom = f.vi := g3
  have e3 : p.details.row .LrTo = u.vr := g4
  have e4 : p.details.row .LiTo = u.vi := g5
  have e5 : p.details.row (.lam m) = some n := k1
  have e6 : p.details.row (.lam (m + 1)) = some (n + 1) := k2
  rw [e0, lawRow_both]
  simp only [List.cons_append, List.nil_append, List.map_cons, List.map_nil, List.sum_cons, List.sum_nil, e1, e2, e3, e4, e5, e6]
  rw [r1, r2, r3, r4, r5, r6, p1, p2, p3, p4, q1, q2]
  simp only [nodeRow, Node.volt, List.idxOf_cons_self, Complex.neg_re, Complex.neg_im, Complex.sub_re, Complex.sub_im]
  have : List.idxOf Sym.ISi [Sym.ISr, Sym.ISi] = 1 := by decide
  rw [this]
  simp only [Nat.add_zero]
  ring

theorem vs_total (hL : L.Loaded) (f u : Node) (n : ℕ) (a b t : ℝ) (v : ℕ → ℝ) (i : ℕ) :
    (twoTerminalDetails L.vs f u n false).2 = n + 2 ∧
    rowTotal (Placed.equations ⟨(twoTerminalDetails L.vs f u n false).1, [a, b]⟩ t v) i =
      nodeRow f ⟨v n, v (n + 1)⟩ i + nodeRow u (-⟨v n, v (n + 1)⟩) i + lawRow n (both (⟨a, b⟩ - (f.volt v - u.volt v))) i := by
  obtain ⟨m, s1, s2, s3⟩ := vs_shape hL
  have hn : ([Sym.Ir, .Ii] ++ [Sym.lam m, .lam (m + 1)]).Nodup := by simp
  have hmiss : ∀ s ∈ [Sym.Ir, .Ii] ++ [Sym.lam m, .lam (m + 1)], terminalDict f u s = none := by simp [terminalDict]
  refine ⟨by rw [(twoTerminalDetails_spec f u n false s1 s2 hn hmiss).2.2.2.2.2.2]; rfl, ?_⟩
  obtain ⟨p1, p2, p3, p4, p5⟩ := twoTerminal_point (n := n) s1 s2 hn hmiss [a, b] v
  obtain ⟨g0, g1, g2, g3, g4, g5, g6⟩ := twoTerminal_rows (n := n) s1 s2 hn hmiss
  have q1 := p5 .Ir (by simp)
  have q2 := p5 .Ii (by simp)
  have k1 := g6 0 (by simp) (by simp)
  have k2 := g6 1 (by simp) (by simp)
  simp only [List.getElem_cons_zero, List.getElem_cons_succ] at k1 k2
  set p : Placed := ⟨(twoTerminalDetails L.vs f u n false).1, [a, b]⟩ with hp
  obtain ⟨r1, r2, r3, r4, d, e, hde, r5, r6⟩ := vs_rows hL a b t (p.point v)
  have hd1 : d = .lam m ∧ e = .lam (m + 1) := by
    simp [s2] at hde; exact ⟨hde.1.symm, hde.2.symm⟩
  obtain ⟨rfl, rfl⟩ := hd1
  have hpart : p.part = ⟨L.vs, [a, b]⟩ := by unfold Placed.part; rw [hp]; simp only [g0]
  rw [equations_total, hpart]
  have e0 : p.details.firstOrder = [.LrFrom, .LiFrom, .LrTo, .LiTo] ++ [.lam m, .lam (m + 1)] := g1
  have e1 : p.details.row .LrFrom = f.vr := g2
  have e2 : p.details.row .LiFrom = f.vi := g3
  have e3 : p.details.row .LrTo = u.vr := g4
  have e4 : p.details.row .LiTo = u.vi := g5
  have e5 : p.details.row (.lam m) = some n := k1
  have e6 : p.details.row (.lam (m + 1)) = some (n + 1) := k2
  rw [e0, lawRow_both]
  simp only [List.cons_append, List.nil_append, List.map_cons, List.map_nil, List.sum_cons, List.sum_nil, e1, e2, e3, e4, e5, e6]
  rw [r1, r2, r3, r4, r5, r6, p1, p2, p3, p4, q1, q2]
  simp only [nodeRow, Node.volt, List.idxOf_cons_self, Complex.neg_re, Complex.neg_im, Complex.sub_re, Complex.sub_im]
  have : List.idxOf Sym.Ii [Sym.Ir, Sym.Ii] = 1 := by decide
  rw [this]
  simp only [Nat.add_zero]
  ring

theorem gen_total (hL : L.Loaded) (f u : Node) (n : ℕ) (P V t : ℝ) (v : ℕ → ℝ) (i : ℕ) :
    (twoTerminalDetails L.gen f u n false).2 = n + 1 ∧
    rowTotal (Placed.equations ⟨(twoTerminalDetails L.gen f u n false).1, [P, V]⟩ t v) i =
      nodeRow f (conj ((⟨P, v n⟩ : ℂ) / (f.volt v - u.volt v))) i + nodeRow u (-conj ((⟨P, v n⟩ : ℂ) / (f.volt v - u.volt v))) i +
      lawRow n [V ^ 2 - Complex.normSq (f.volt v - u.volt v)] i := by
  obtain ⟨m, s1, s2, s3⟩ := gen_shape hL
  have hn : ([Sym.Q] ++ [Sym.lam m]).Nodup := by simp
  have hmiss : ∀ s ∈ [Sym.Q] ++ [Sym.lam m], terminalDict f u s = none := by simp [terminalDict]
  refine ⟨by rw [(twoTerminalDetails_spec f u n false s1 s2 hn hmiss).2.2.2.2.2.2]; rfl, ?_⟩
  obtain ⟨p1, p2, p3, p4, p5⟩ := twoTerminal_point (n := n) s1 s2 hn hmiss [P, V] v
  obtain ⟨g0, g1, g2, g3, g4, g5, g6⟩ := twoTerminal_rows (n := n) s1 s2 hn hmiss
  have q1 := p5 .Q (by simp)
  have k1 := g6 0 (by simp) (by simp)
  simp only [List.getElem_cons_zero] at k1
  set p : Placed := ⟨(twoTerminalDetails L.gen f u n false).1, [P, V]⟩ with hp
  obtain ⟨r1, r2, r3, r4, d, hde, r5⟩ := gen_rows hL P V t (p.point v)
  have hd1 : d = .lam m := by
    simp [s2] at hde; exact hde.symm
  subst hd1
  have hpart : p.part = ⟨L.gen, [P, V]⟩ := by unfold Placed.part; rw [hp]; simp only [g0]
  rw [equations_total, hpart]
  have e0 : p.details.firstOrder = [.LrFrom, .LiFrom, .LrTo, .LiTo] ++ [.lam m] := g1
  have e1 : p.details.row .LrFrom = f.vr := g2
  have e2 : p.details.row .LiFrom = f.vi := g3
  have e3 : p.details.row .LrTo = u.vr := g4
  have e4 : p.details.row .LiTo = u.vi := g5
  have e5 : p.details.row (.lam m) = some n := k1
  rw [e0, lawRow_one]
  simp only [List.cons_append, List.nil_append, List.map_cons, List.map_nil, List.sum_cons, List.sum_nil, e1, e2, e3, e4, e5]
  rw [r1, r2, r3, r4, r5, p1, p2, p3, p4, q1]
  simp only [nodeRow, Complex.neg_re, Complex.neg_im, conj_div_re, conj_div_im, Complex.normSq_apply]
  simp only [Node.volt, List.idxOf_cons_self, Complex.sub_re, Complex.sub_im, Nat.add_zero]
  ring_nf

/-! ### Transformers -/

theorem xfmr_total (fp fn tn : Node) (n : ℕ) (tr ang z t : ℝ) (v : ℕ → ℝ) (i : ℕ) :
    let m := xfmrMap fp fn (xfmrPrim false n) (xfmrSec false n) tn
    let I : ℂ := ⟨v n, v (n + 1)⟩
    let S : ℂ := ⟨v (n + 2), v (n + 3)⟩
    rowTotal (Placed.equations ⟨⟨xfmr, m, m, false⟩, [tr, ang, z]⟩ t v) i =
      nodeRow fp I i + nodeRow fn (-I) i + nodeRow tn (conj (turns t tr ang) * I) i +
      lawRow n (both ((fp.volt v - fn.volt v) - turns t tr ang * (S - tn.volt v))) i +
      lawRow (n + 2) (both (-(conj (turns t tr ang) * I))) i := by
  intro m I S
  set p : Placed := ⟨⟨xfmr, m, m, false⟩, [tr, ang, z]⟩ with hp
  obtain ⟨r1, r2, r3, r4, r5, r6, r7, r8, r9, r10⟩ := xfmr_rows tr ang z t (p.point v)
  rw [equations_total]
  have e0 : p.details.firstOrder = xfmrDuals := rfl
  have hpt : ∀ s ∈ xfmrPrimals, p.point v s = readIdx v (m s) := by
    intro s hs
    exact if_pos (show s ∈ xfmrPrimals ++ xfmrDuals from List.mem_append_left _ hs)
  have a1 := hpt .VrPriPos (by decide)
  have a2 := hpt .ViPriPos (by decide)
  have a3 := hpt .VrPriNeg (by decide)
  have a4 := hpt .ViPriNeg (by decide)
  have a5 := hpt .IrPrim (by decide)
  have a6 := hpt .IiPrim (by decide)
  have a7 := hpt .VrSecPos (by decide)
  have a8 := hpt .ViSecPos (by decide)
  have a9 := hpt .VrSecNeg (by decide)
  have a10 := hpt .ViSecNeg (by decide)
  have hrow : ∀ d, p.details.row d = (xfmr.dualPrimal d).bind m := fun d => rfl
  have b1 : p.details.row .LrPriPos = fp.vr := rfl
  have b2 : p.details.row .LiPriPos = fp.vi := rfl
  have b3 : p.details.row .LrPriNeg = fn.vr := rfl
  have b4 : p.details.row .LiPriNeg = fn.vi := rfl
  have b5 : p.details.row .LirPrim = some n := rfl
  have b6 : p.details.row .LiiPrim = some (n + 1) := rfl
  have b7 : p.details.row .LrSecPos = some (n + 2) := rfl
  have b8 : p.details.row .LiSecPos = some (n + 3) := rfl
  have b9 : p.details.row .LrSecNeg = tn.vr := rfl
  have b10 : p.details.row .LiSecNeg = tn.vi := rfl
  rw [e0, lawRow_both, lawRow_both]
  simp only [xfmrDuals, List.map_cons, List.map_nil, List.sum_cons, List.sum_nil, b1, b2, b3, b4, b5, b6, b7, b8, b9, b10]
  have hpart : p.part = ⟨xfmr, [tr, ang, z]⟩ := rfl
  rw [hpart, r1, r2, r3, r4, r5, r6, r7, r8, r9, r10, a1, a2, a3, a4, a5, a6, a7, a8, a9, a10]
  simp only [nodeRow, Node.volt, turns, xTr, xAng, ratioAt, m, xfmrMap, xfmrPrim, xfmrSec, readIdx, I, S,
    Complex.neg_re, Complex.neg_im, Complex.sub_re, Complex.sub_im, Complex.mul_re, Complex.mul_im, Complex.conj_re,
    Complex.conj_im]
  ring_nf

theorem ct_total (p0 s1 s2 : Node) (n : ℕ) (tr z t : ℝ) (v : ℕ → ℝ) (i : ℕ) :
    let m := ctMap false p0 s1 s2 n
    let I1 : ℂ := ⟨v n, v (n + 1)⟩
    let I2 : ℂ := ⟨v (n + 2), v (n + 3)⟩
    rowTotal (Placed.equations ⟨⟨centerTap, m, m, false⟩, [tr, z]⟩ t v) i =
      nodeRow p0 (((1 / ratioAt t tr : ℝ) : ℂ) * (I2 - I1)) i + nodeRow s1 I1 i + nodeRow s2 I2 i +
      lawRow n (both (s1.volt v - ((1 / ratioAt t tr : ℝ) : ℂ) * p0.volt v)) i +
      lawRow (n + 2) (both (s2.volt v + ((1 / ratioAt t tr : ℝ) : ℂ) * p0.volt v)) i := by
  intro m I1 I2
  set p : Placed := ⟨⟨centerTap, m, m, false⟩, [tr, z]⟩ with hp
  obtain ⟨r1, r2, r3, r4, r5, r6, r7, r8, r9, r10⟩ := ct_rows tr z t (p.point v)
  rw [equations_total]
  have e0 : p.details.firstOrder = ctDuals := rfl
  have hpt : ∀ s ∈ ctPrimals, p.point v s = readIdx v (m s) := by
    intro s hs
    exact if_pos (show s ∈ ctPrimals ++ ctDuals from List.mem_append_left _ hs)
  have a1 := hpt .VrPri (by decide)
  have a2 := hpt .ViPri (by decide)
  have a3 := hpt .IrL1 (by decide)
  have a4 := hpt .IiL1 (by decide)
  have a5 := hpt .VrL1 (by decide)
  have a6 := hpt .ViL1 (by decide)
  have a7 := hpt .IrL2 (by decide)
  have a8 := hpt .IiL2 (by decide)
  have a9 := hpt .VrL2 (by decide)
  have a10 := hpt .ViL2 (by decide)
  have b1 : p.details.row .LrPri = p0.vr := rfl
  have b2 : p.details.row .LiPri = p0.vi := rfl
  have b3 : p.details.row .LirL1 = some n := rfl
  have b4 : p.details.row .LiiL1 = some (n + 1) := rfl
  have b5 : p.details.row .LrL1 = s1.vr := rfl
  have b6 : p.details.row .LiL1 = s1.vi := rfl
  have b7 : p.details.row .LirL2 = some (n + 2) := rfl
  have b8 : p.details.row .LiiL2 = some (n + 3) := rfl
  have b9 : p.details.row .LrL2 = s2.vr := rfl
  have b10 : p.details.row .LiL2 = s2.vi := rfl
  rw [e0, lawRow_both, lawRow_both]
  simp only [ctDuals, List.map_cons, List.map_nil, List.sum_cons, List.sum_nil, b1, b2, b3, b4, b5, b6, b7, b8, b9, b10]
  have hpart : p.part = ⟨centerTap, [tr, z]⟩ := rfl
  rw [hpart, r1, r2, r3, r4, r5, r6, r7, r8, r9, r10, a1, a2, a3, a4, a5, a6, a7, a8, a9, a10]
  simp only [nodeRow, Node.volt, xTr, ratioAt, m, ctMap, readIdx, I1, I2, Complex.add_re, Complex.add_im,
    Complex.sub_re, Complex.sub_im, Complex.mul_re, Complex.mul_im, Complex.ofReal_re, Complex.ofReal_im]
  ring_nf

end Verif
