import Verif.Lemmas.Kirchhoff

/-! The equations of one element are its currents and laws; then of a whole network. -/

namespace Verif

open Ex Devices ComplexConjugate

variable {L : Library}

/-- Contribution of a list of drawn currents to row `i`. -/
def drawRow (nodes : List Node) (ds : List (Ref × ℂ)) (i : ℕ) : ℝ := (ds.map fun d => nodeRow (nodeAt nodes d.1) d.2 i).sum

theorem drawRow_append (nodes : List Node) (a b : List (Ref × ℂ)) (i : ℕ) :
    drawRow nodes (a ++ b) i = drawRow nodes a i + drawRow nodes b i := by simp [drawRow]

theorem drawRow_cons (nodes : List Node) (r : Ref) (z : ℂ) (b : List (Ref × ℂ)) (i : ℕ) :
    drawRow nodes ((r, z) :: b) i = nodeRow (nodeAt nodes r) z i + drawRow nodes b i := by simp [drawRow]

theorem drawRow_nil (nodes : List Node) (i : ℕ) : drawRow nodes [] i = 0 := rfl

theorem drawRow_branch (nodes : List Node) (f u : Ref) (I : ℂ) (i : ℕ) :
    drawRow nodes (branch f u I) i = nodeRow (nodeAt nodes f) I i + nodeRow (nodeAt nodes u) (-I) i := by
  simp [drawRow, branch]

theorem nodeAt_none (nodes : List Node) : nodeAt nodes none = Node.ground := rfl

theorem lawRow_both_add (n : ℕ) (z w : ℂ) (i : ℕ) : lawRow n (both (z + w)) i = lawRow n (both z) i + lawRow n (both w) i := by
  rw [lawRow_both, lawRow_both, lawRow_both]
  split_ifs <;> simp <;> ring

theorem nodeRow_sec (n : ℕ) (z : ℂ) (i : ℕ) : nodeRow (xfmrSec false n) z i = lawRow (n + 2) (both z) i := by
  rw [lawRow_both]; rfl

theorem placeTransformer_total (hL : L.Loaded) (nodes : List Node) (fp fn tp tn : Ref) (tr ang g b t : ℝ) (n : ℕ) (v : ℕ → ℝ)
    (i : ℕ) :
    let V : Ref → ℂ := fun r => (nodeAt nodes r).volt v
    let x := placeTransformer L false (nodeAt nodes fp) (nodeAt nodes fn) (nodeAt nodes tp) (nodeAt nodes tn) tr ang g b n
    let I : ℂ := ⟨v n, v (n + 1)⟩
    let S : ℂ := ⟨v (n + 2), v (n + 3)⟩
    x.2 = n + 4 ∧ (xfmrLaws t V fp fn tp tn tr ang g b I S).length = 4 ∧
    rowTotal (x.1.flatMap fun p => p.equations t v) i =
      drawRow nodes (xfmrDraws t V fp fn tp tn tr ang g b I S) i + lawRow n (xfmrLaws t V fp fn tp tn tr ang g b I S) i := by
  intro V x I S
  refine ⟨rfl, rfl, ?_⟩
  show rowTotal (List.flatMap _ [_, _]) i = _
  simp only [List.flatMap_cons, List.flatMap_nil, List.append_nil, rowTotal_append]
  have h1 := xfmr_total (nodeAt nodes fp) (nodeAt nodes fn) (nodeAt nodes tn) n tr ang 0 t v i
  have h2 := line_total hL (xfmrSec false n) (nodeAt nodes tp) (xfmrSec false n) (nodeAt nodes tp) g b 0 t v i
  rw [← lineDetails_eq] at h2
  simp only at h1
  rw [h1, h2]
  have hS : (xfmrSec false n).volt v = S := rfl
  rw [hS]
  unfold xfmrDraws xfmrLaws
  rw [drawRow_append, drawRow_branch, drawRow_cons, drawRow_cons, drawRow_nil, lawRow_append,
    show n + (both ((V fp - V fn) - turns t tr ang * (S - V tn))).length = n + 2 from rfl, lawRow_both_add,
    nodeRow_sec]
  simp only [V, I]
  ring

theorem unbalanced_total (hL : L.Loaded) (nodes : List Node) (ph : List (ℕ × ℕ)) (y : ℕ → ℕ → ℂ) (sh : ℕ → ℕ → ℝ) (t : ℝ)
    (v : ℕ → ℝ) (a b i : ℕ) :
    let V : Ref → ℂ := fun r => (nodeAt nodes r).volt v
    rowTotal ((placePair L false (fun k => nodeAt nodes (some k)) ph y sh a b).flatMap fun p => p.equations t v) i =
      drawRow nodes
      (let pi := ph.getD a (0, 0)
      let pj := ph.getD b (0, 0)
      let Y := if a = b then stiff t (y a b).re (y a b).im else faded t (y a b).re (y a b).im
      branch (some pi.1) (some pi.2) (Y * (V (some pj.1) - V (some pj.2))) ++
      [(some pi.1, faded t 0 (sh a b / 2) * V (some pj.1)), (some pi.2, faded t 0 (sh a b / 2) * V (some pj.2))]) i := by
  intro V
  simp only [placePair, List.flatMap_cons, List.flatMap_nil, List.append_nil, rowTotal_append, drawRow_append, drawRow_branch,
    drawRow_cons, drawRow_nil]
  set pi := ph.getD a (0, 0)
  set pj := ph.getD b (0, 0)
  have h2 := shunt_total hL (nodeAt nodes (some pi.1)) Node.ground (nodeAt nodes (some pj.1)) Node.ground 0 (sh a b / 2) 0 t v i
  have h3 := shunt_total hL (nodeAt nodes (some pi.2)) Node.ground (nodeAt nodes (some pj.2)) Node.ground 0 (sh a b / 2) 0 t v i
  unfold pairDetails at h2 h3
  rw [h2, h3]
  simp only [ground_volt, sub_zero, nodeRow_ground, add_zero]
  congr 1
  by_cases hab : a = b
  · simp only [hab, if_true]
    exact line_total hL (nodeAt nodes (some pi.1)) (nodeAt nodes (some pi.2)) (nodeAt nodes (some pj.1))
      (nodeAt nodes (some pj.2)) _ _ 0 t v i
  · simp only [hab, if_false]
    exact shunt_total hL (nodeAt nodes (some pi.1)) (nodeAt nodes (some pi.2)) (nodeAt nodes (some pj.1))
      (nodeAt nodes (some pj.2)) _ _ 0 t v i

theorem rowTotal_flatMap {α : Type} (l : List α) (f : α → List (ℕ × ℝ)) (i : ℕ) :
    rowTotal (l.flatMap f) i = (l.map fun a => rowTotal (f a) i).sum := by
  induction l with
  | nil => rfl
  | cons a l ih => rw [List.flatMap_cons, rowTotal_append, ih]; simp

theorem drawRow_flatMap {α : Type} (nodes : List Node) (l : List α) (f : α → List (Ref × ℂ)) (i : ℕ) :
    drawRow nodes (l.flatMap f) i = (l.map fun a => drawRow nodes (f a) i).sum := by
  induction l with
  | nil => rfl
  | cons a l ih => rw [List.flatMap_cons, drawRow_append, ih]; simp

theorem GB_inv (l : Load) (t : ℝ) : faded t l.GB.1 l.GB.2 = (1 - t) * l.Z⁻¹ := by
  unfold Load.GB faded
  by_cases h : l.Z = 0
  · apply Complex.ext <;> simp [h]
  · simp only [ne_eq, h, not_false_eq_true, if_true]
    apply Complex.ext <;> simp [Complex.inv_re, Complex.inv_im, Complex.normSq_apply] <;>
      rw [show l.Z.re ^ 2 + l.Z.im ^ 2 = l.Z.re * l.Z.re + l.Z.im * l.Z.im by ring] <;> ring

theorem pairAt_eq {w : List ℝ} {v : ℕ → ℝ} {n k : ℕ} (h1 : w.getD k 0 = v (n + k)) (h2 : w.getD (k + 1) 0 = v (n + (k + 1))) :
    pairAt w k = ⟨v (n + k), v (n + (k + 1))⟩ := by unfold pairAt; rw [h1, h2]

/-- One element: rows, currents, laws. -/
theorem place_kirchhoff (hL : L.Loaded) (nodes : List Node) (e : Element) (n : ℕ) (t : ℝ) (v : ℕ → ℝ) (w : List ℝ)
    (hw : ∀ k < (e.laws t (fun r => (nodeAt nodes r).volt v) w).length, w.getD k 0 = v (n + k)) :
    let V : Ref → ℂ := fun r => (nodeAt nodes r).volt v
    (e.place L false nodes n).2 = n + (e.laws t V w).length ∧
    ∀ i, rowTotal ((e.place L false nodes n).1.flatMap fun p => p.equations t v) i =
      drawRow nodes (e.draws t V w) i + lawRow n (e.laws t V w) i := by
  intro V
  have hV : ∀ r, (nodeAt nodes r).volt v = V r := fun _ => rfl
  cases e with
  | line f u g b bl =>
    refine ⟨rfl, fun i => ?_⟩
    simp only [Element.place, Element.draws, Element.laws, List.flatMap_cons, List.flatMap_nil, List.append_nil,
      rowTotal_append, drawRow_append, drawRow_branch, drawRow_cons, drawRow_nil, lineDetails_eq, line_total hL, shunt_total hL,
      ground_volt, sub_zero, nodeRow_ground, lawRow_nil, add_zero, hV]
  | unbalanced ph y sh =>
    refine ⟨rfl, fun i => ?_⟩
    simp only [Element.place, Element.draws, Element.laws, placeUnbalanced, lawRow_nil, add_zero, List.flatMap_assoc]
    rw [rowTotal_flatMap, drawRow_flatMap]
    congr 1
    refine List.map_congr_left fun a _ => ?_
    rw [rowTotal_flatMap, drawRow_flatMap]
    congr 1
    refine List.map_congr_left fun b _ => ?_
    exact unbalanced_total hL nodes ph y sh t v a b i
  | transformer fp fn tp tn tr ang g b =>
    have hlen : ∀ I S, (xfmrLaws t V fp fn tp tn tr ang g b I S).length = 4 := fun _ _ => rfl
    have h0 := hw 0 (by show 0 < 4; omega)
    have h1 := hw 1 (by show 1 < 4; omega)
    have h2 := hw 2 (by show 2 < 4; omega)
    have h3 := hw 3 (by show 3 < 4; omega)
    refine ⟨rfl, fun i => ?_⟩
    simp only [Element.draws, Element.laws]
    rw [pairAt_eq h0 h1, pairAt_eq h2 h3]
    exact (placeTransformer_total hL nodes fp fn tp tn tr ang g b t n v i).2.2
  | centerTap f p s1 t1 s2 t2 ratio g0 b0 g1 b1 g2 b2 =>
    have h0 := hw 0 (by show 0 < 4; omega)
    have h1 := hw 1 (by show 1 < 4; omega)
    have h2 := hw 2 (by show 2 < 4; omega)
    have h3 := hw 3 (by show 3 < 4; omega)
    refine ⟨rfl, fun i => ?_⟩
    simp only [Element.place, Element.draws, Element.laws, List.flatMap_cons, List.flatMap_nil, List.append_nil,
      rowTotal_append, drawRow_append, drawRow_branch, drawRow_cons, drawRow_nil, lineDetails_eq, line_total hL, lawRow_append,
      ct_total]
    rw [pairAt_eq h0 h1, pairAt_eq h2 h3]
    simp only [hV, Nat.add_zero]
    rw [show n + (both (V (some s1) - ((1 / ratioAt t ratio : ℝ) : ℂ) * V (some p))).length = n + 2 from rfl]
    ring
  | slack b vr vi =>
    have h0 := hw 0 (by show 0 < 2; omega)
    have h1 := hw 1 (by show 1 < 2; omega)
    refine ⟨(slack_total hL _ _ n vr vi t v 0).1, fun i => ?_⟩
    simp only [Element.place, Element.draws, Element.laws, placeTwoTerminal, List.flatMap_cons, List.flatMap_nil, List.append_nil,
      drawRow_cons, drawRow_nil, (slack_total hL _ _ n vr vi t v i).2]
    rw [pairAt_eq h0 h1]
    simp only [ground_volt, sub_zero, nodeRow_ground, add_zero, hV]
  | switch f u s =>
    cases s with
    | opened => exact ⟨rfl, fun i => by simp [Element.place, Element.draws, Element.laws, drawRow, lawRow, rowTotal]⟩
    | closed =>
      have h0 := hw 0 (by show 0 < 2; omega)
      have h1 := hw 1 (by show 1 < 2; omega)
      refine ⟨(vs_total hL _ _ n 0 0 t v 0).1, fun i => ?_⟩
      simp only [Element.place, Element.draws, Element.laws, placeTwoTerminal, List.flatMap_cons, List.flatMap_nil,
        List.append_nil, drawRow_branch, (vs_total hL _ _ n 0 0 t v i).2]
      rw [pairAt_eq h0 h1, show (⟨0, 0⟩ : ℂ) = 0 from rfl, zero_sub]
      rfl
  | generator b P Vset =>
    have h0 := hw 0 (by show 0 < 1; omega)
    refine ⟨(gen_total hL _ _ n P Vset t v 0).1, fun i => ?_⟩
    simp only [Element.place, Element.draws, Element.laws, placeTwoTerminal, List.flatMap_cons, List.flatMap_nil, List.append_nil,
      drawRow_cons, drawRow_nil, (gen_total hL _ _ n P Vset t v i).2]
    rw [h0]
    simp only [ground_volt, sub_zero, nodeRow_ground, add_zero, hV]
  | load f u l =>
    refine ⟨placeLoad_counter hL false _ _ l n, fun i => ?_⟩
    simp only [Element.place, Element.draws, Element.laws, placeLoad, placeTwoTerminal, List.flatMap_append, rowTotal_append,
      drawRow_branch, lawRow_nil, add_zero]
    have h1 : rowTotal ((if l.P = 0 ∧ l.Q = 0 then ([], n) else
        ([(⟨(twoTerminalDetails L.pq (nodeAt nodes f) (nodeAt nodes u) n false).1, [l.P, l.Q]⟩ : Placed)],
          (twoTerminalDetails L.pq (nodeAt nodes f) (nodeAt nodes u) n false).2)).1.flatMap fun p => p.equations t v) i =
        nodeRow (nodeAt nodes f) (conj ((⟨l.P, l.Q⟩ : ℂ) / (V f - V u))) i +
        nodeRow (nodeAt nodes u) (-conj ((⟨l.P, l.Q⟩ : ℂ) / (V f - V u))) i := by
      split_ifs with h
      · rw [h.1, h.2, show (⟨0, 0⟩ : ℂ) = 0 from rfl]
        simp [nodeRow_zero, rowTotal]
      · simp only [List.flatMap_cons, List.flatMap_nil, List.append_nil, twoTerminalDetails_lineLike (pq_like hL)]
        exact pq_total hL (nodeAt nodes f) (nodeAt nodes u) l.P l.Q t v i
    have h2 : ∀ m, rowTotal ((if l.IP = 0 ∧ l.IQ = 0 then ([], m) else
        ([(⟨(twoTerminalDetails L.ic (nodeAt nodes f) (nodeAt nodes u) m false).1, [l.IP, l.IQ]⟩ : Placed)],
          (twoTerminalDetails L.ic (nodeAt nodes f) (nodeAt nodes u) m false).2)).1.flatMap fun p => p.equations t v) i =
        nodeRow (nodeAt nodes f) ⟨l.IP, l.IQ⟩ i + nodeRow (nodeAt nodes u) (-⟨l.IP, l.IQ⟩) i := by
      intro m
      split_ifs with h
      · rw [h.1, h.2, show (⟨0, 0⟩ : ℂ) = 0 from rfl]
        simp [nodeRow_zero, rowTotal]
      · simp only [List.flatMap_cons, List.flatMap_nil, List.append_nil, twoTerminalDetails_lineLike (ic_like hL)]
        exact ic_total hL (nodeAt nodes f) (nodeAt nodes u) l.IP l.IQ t v i
    have h3 : rowTotal ((if l.Z = 0 then [] else
        [(⟨lineDetails L.shunt (nodeAt nodes f) (nodeAt nodes u) false, [l.GB.1, l.GB.2, 0]⟩ : Placed)]).flatMap
          fun p => p.equations t v) i =
        nodeRow (nodeAt nodes f) ((1 - t) * l.Z⁻¹ * (V f - V u)) i + nodeRow (nodeAt nodes u) (-((1 - t) * l.Z⁻¹ * (V f - V u))) i := by
      split_ifs with h
      · rw [h]; simp [nodeRow_zero, rowTotal]
      · simp only [List.flatMap_cons, List.flatMap_nil, List.append_nil]
        rw [← GB_inv]
        exact shunt_total hL (nodeAt nodes f) (nodeAt nodes u) (nodeAt nodes f) (nodeAt nodes u) l.GB.1 l.GB.2 0 t v i
    rw [h1, h2, h3]
    simp only [nodeRow_add, nodeRow_neg]
    ring
  | voltageSource f u vr vi =>
    have h0 := hw 0 (by show 0 < 2; omega)
    have h1 := hw 1 (by show 1 < 2; omega)
    refine ⟨(vs_total hL _ _ n vr vi t v 0).1, fun i => ?_⟩
    simp only [Element.place, Element.draws, Element.laws, placeTwoTerminal, List.flatMap_cons, List.flatMap_nil,
      List.append_nil, drawRow_branch, (vs_total hL _ _ n vr vi t v i).2]
    rw [pairAt_eq h0 h1]
    rfl
  | shunt b g s =>
    refine ⟨rfl, fun i => ?_⟩
    simp only [Element.place, Element.draws, Element.laws, List.flatMap_cons, List.flatMap_nil, List.append_nil,
      drawRow_cons, drawRow_nil, lineDetails_eq, shunt_total hL, ground_volt, sub_zero, nodeRow_ground, lawRow_nil, add_zero, hV]
  | regulator f c u tr g b =>
    have h0 := hw 0 (by show 0 < 6; omega)
    have h1 := hw 1 (by show 1 < 6; omega)
    have h2 := hw 2 (by show 2 < 6; omega)
    have h3 := hw 3 (by show 3 < 6; omega)
    have h4 := hw 4 (by show 4 < 6; omega)
    have h5 := hw 5 (by show 5 < 6; omega)
    refine ⟨(vs_total hL _ _ (n + 4) 0 0 t v 0).1, fun i => ?_⟩
    obtain ⟨x1, x2, x3⟩ := placeTransformer_total hL nodes f none c none tr 0 g b t n v i
    simp only [nodeAt_none] at x3
    have e : (Element.place L false nodes n (.regulator f c u tr g b)).1 =
      (placeTransformer L false (nodeAt nodes f) Node.ground (nodeAt nodes c) Node.ground tr 0 g b n).1 ++
      [⟨(twoTerminalDetails L.vs (nodeAt nodes c) (nodeAt nodes u) (n + 4) false).1, [0, 0]⟩] := rfl
    rw [e, List.flatMap_append, rowTotal_append, x3]
    simp only [Element.draws, Element.laws, List.flatMap_cons, List.flatMap_nil, List.append_nil, drawRow_append, lawRow_append,
      drawRow_branch, (vs_total hL _ _ (n + 4) 0 0 t v i).2]
    rw [pairAt_eq h0 h1, pairAt_eq h2 h3, pairAt_eq h4 h5]
    have hlen : ∀ I S, (xfmrLaws t V f none c none tr 0 g b I S).length = 4 := fun _ _ => rfl
    rw [hlen, show (⟨0, 0⟩ : ℂ) = 0 from rfl, zero_sub]
    simp only [hV, Nat.add_zero, Nat.add_assoc]
    ring
  | fuse f k u =>
    have h0 := hw 0 (by show 0 < 2; omega)
    have h1 := hw 1 (by show 1 < 2; omega)
    refine ⟨(vs_total hL _ _ n 0 0 t v 0).1, fun i => ?_⟩
    simp only [Element.place, Element.draws, Element.laws, placeTwoTerminal, List.flatMap_cons, List.flatMap_nil,
      List.append_nil, rowTotal_append, drawRow_append, drawRow_branch, (vs_total hL _ _ n 0 0 t v i).2, lineDetails_eq,
      line_total hL]
    rw [pairAt_eq h0 h1, show (⟨0, 0⟩ : ℂ) = 0 from rfl, zero_sub]
    simp only [hV, Nat.add_zero]
    ring
  | capacitor f u sw b =>
    cases sw with
    | opened => exact ⟨rfl, fun i => by simp [Element.place, Element.draws, Element.laws, drawRow, lawRow, rowTotal]⟩
    | closed =>
      refine ⟨rfl, fun i => ?_⟩
      simp only [Element.place, Element.draws, Element.laws, List.flatMap_cons, List.flatMap_nil, List.append_nil,
        drawRow_branch, lineDetails_eq, shunt_total hL, lawRow_nil, add_zero, hV]

end Verif
