import Verif.Lemmas.WellPlaced
import Verif.Spec.Kirchhoff

/-! Every part of every valid network is well placed. -/

namespace Verif

open Ex Devices

variable {L : Library}

theorem line_placed {seg : Segment} (h : LineLike seg) {f t : Node} {opt : Bool} {consts : List ℝ}
    (hc : consts.length = seg.constants.length) (h1 : f.Proper opt) (h2 : t.Proper opt) :
    (Placed.mk (lineDetails seg f t opt) consts).WellPlaced opt := by
  rw [lineDetails_eq]
  exact h.wellPlaced hc h1 h2 h1 h2 id id

theorem xfmrSec_proper (opt : Bool) (n : ℕ) : (xfmrSec opt n).Proper opt := by
  cases opt <;> simp [xfmrSec, Node.Proper]

theorem placeTransformer_wellPlaced (hL : L.Loaded) {opt : Bool} {fp fn tp tn : Node} (h1 : fp.Proper opt) (h2 : fn.Proper opt)
    (h3 : tp.Proper opt) (h4 : tn.Proper opt) (tr ang g b : ℝ) (n : ℕ) :
    ∀ p ∈ (placeTransformer L opt fp fn tp tn tr ang g b n).1, p.WellPlaced opt := by
  intro p hp
  simp only [placeTransformer, List.mem_cons, List.not_mem_nil, or_false] at hp
  rcases hp with rfl | rfl
  · exact xfmr_wellPlaced h1 h2 h4 tr ang 0
  · exact line_placed (line_like hL) (by rw [(line_shape hL).2.2]; rfl) (xfmrSec_proper opt n) h3

theorem place_wellPlaced (hL : L.Loaded) {opt : Bool} {nodes : List Node} (hn : ∀ b ∈ nodes, b.Proper opt ∧ b ≠ Node.ground)
    (e : Element) (hv : e.Valid nodes.length) (n : ℕ) : ∀ p ∈ (e.place L opt nodes n).1, p.WellPlaced opt := by
  have N := nodeAt_proper hn
  have G := ground_proper opt
  have hl : ∀ (f t : Node) a b c, f.Proper opt → t.Proper opt → (Placed.mk (lineDetails L.line f t opt) [a, b, c]).WellPlaced opt :=
    fun f t a b c h1 h2 => line_placed (line_like hL) (by rw [(line_shape hL).2.2]; rfl) h1 h2
  have hs : ∀ (f t : Node) a b c, f.Proper opt → t.Proper opt → (Placed.mk (lineDetails L.shunt f t opt) [a, b, c]).WellPlaced opt :=
    fun f t a b c h1 h2 => line_placed (shunt_like hL) (by rw [(shunt_shape hL).2.2]; rfl) h1 h2
  intro p hp
  cases e with
  | line f t g b bl =>
    simp only [Element.place, List.mem_cons, List.not_mem_nil, or_false] at hp
    rcases hp with rfl | rfl | rfl
    · exact hl _ _ _ _ _ (N f) (N t)
    · exact hs _ _ _ _ _ (N f) G
    · exact hs _ _ _ _ _ (N t) G
  | unbalanced ph y sh =>
    simp only [Element.place, placeUnbalanced, List.mem_flatMap, List.mem_range] at hp
    obtain ⟨i, hi, j, hj, hp⟩ := hp
    have hg : ∀ i, i < ph.length → nodeAt nodes (some (ph.getD i (0, 0)).1) ≠ Node.ground ∧
        nodeAt nodes (some (ph.getD i (0, 0)).2) ≠ Node.ground := by
      intro i hi
      have hm : ph.getD i (0, 0) ∈ ph := by
        rw [List.getD_eq_getElem?_getD, List.getElem?_eq_getElem hi]; exact List.getElem_mem hi
      obtain ⟨a, b⟩ := hv _ hm
      exact ⟨nodeAt_ne_ground hn a, nodeAt_ne_ground hn b⟩
    obtain ⟨gi1, gi2⟩ := hg i hi
    obtain ⟨gj1, gj2⟩ := hg j hj
    simp only [placePair, List.mem_cons, List.not_mem_nil, or_false] at hp
    rcases hp with rfl | rfl | rfl
    · by_cases hij : i = j
      · simp only [hij, if_true]
        exact (line_like hL).wellPlaced (by rw [(line_shape hL).2.2]; rfl) (N _) (N _) (N _) (N _) (fun _ => gj1) (fun _ => gj2)
      · simp only [hij, if_false]
        exact (shunt_like hL).wellPlaced (by rw [(shunt_shape hL).2.2]; rfl) (N _) (N _) (N _) (N _) (fun _ => gj1) (fun _ => gj2)
    · exact (shunt_like hL).wellPlaced (by rw [(shunt_shape hL).2.2]; rfl) (N _) G (N _) G (fun _ => gj1) (fun h => h)
    · exact (shunt_like hL).wellPlaced (by rw [(shunt_shape hL).2.2]; rfl) (N _) G (N _) G (fun _ => gj2) (fun h => h)
  | transformer fp fn tp tn tr ang g b =>
    exact placeTransformer_wellPlaced hL (N _) (N _) (N _) (N _) _ _ _ _ _ p hp
  | centerTap f p0 s1 t1 s2 t2 ratio g0 b0 g1 b1 g2 b2 =>
    simp only [Element.place, List.mem_cons, List.not_mem_nil, or_false] at hp
    rcases hp with rfl | rfl | rfl | rfl
    · exact ct_wellPlaced (N _) (nodeAt_ne_ground hn hv.2.2.1) _ _
    · exact hl _ _ _ _ _ (N _) (N _)
    · exact hl _ _ _ _ _ (N _) (N _)
    · exact hl _ _ _ _ _ (N _) (N _)
  | slack b vr vi =>
    simp only [Element.place, placeTwoTerminal, List.mem_cons, List.not_mem_nil, or_false] at hp
    subst hp; exact slack_wellPlaced hL (N _) G vr vi
  | switch f t s =>
    cases s with
    | opened => simp [Element.place] at hp
    | closed =>
      simp only [Element.place, placeTwoTerminal, List.mem_cons, List.not_mem_nil, or_false] at hp
      subst hp; exact vs_wellPlaced hL (N _) (N _) 0 0
  | generator b P V =>
    simp only [Element.place, placeTwoTerminal, List.mem_cons, List.not_mem_nil, or_false] at hp
    subst hp; exact gen_wellPlaced hL (N _) G (nodeAt_ne_ground hn hv) P V
  | load f t l =>
    simp only [Element.place, placeLoad, placeTwoTerminal] at hp
    obtain ⟨a1, a2, a3⟩ := pq_shape hL
    obtain ⟨b1, b2, b3⟩ := ic_shape hL
    rcases List.mem_append.1 hp with hp | hp
    · rcases List.mem_append.1 hp with hp | hp
      · split_ifs at hp
        · simp at hp
        · simp only [List.mem_cons, List.not_mem_nil, or_false] at hp
          subst hp
          rw [twoTerminalDetails_lineLike (pq_like hL)]
          exact line_placed (pq_like hL) (by rw [a3]; rfl) (N _) (N _)
      · have : ∃ m, p = ⟨(twoTerminalDetails L.ic (nodeAt nodes f) (nodeAt nodes t) m opt).1, [l.IP, l.IQ]⟩ := by
          split_ifs at hp <;> simp at hp <;> exact ⟨_, hp⟩
        obtain ⟨m, rfl⟩ := this
        rw [twoTerminalDetails_lineLike (ic_like hL)]
        exact line_placed (ic_like hL) (by rw [b3]; rfl) (N _) (N _)
    · split_ifs at hp
      · simp at hp
      · simp only [List.mem_cons, List.not_mem_nil, or_false] at hp
        subst hp; exact hs _ _ _ _ _ (N _) (N _)
  | voltageSource f t vr vi =>
    simp only [Element.place, placeTwoTerminal, List.mem_cons, List.not_mem_nil, or_false] at hp
    subst hp; exact vs_wellPlaced hL (N _) (N _) vr vi
  | shunt b g s =>
    simp only [Element.place, List.mem_cons, List.not_mem_nil, or_false] at hp
    subst hp; exact hs _ _ _ _ _ (N _) G
  | regulator f c t tr g b =>
    simp only [Element.place, placeTwoTerminal] at hp
    rcases List.mem_append.1 hp with hp | hp
    · exact placeTransformer_wellPlaced hL (N _) G (N _) G _ _ _ _ _ p hp
    · simp only [List.mem_cons, List.not_mem_nil, or_false] at hp
      subst hp; exact vs_wellPlaced hL (N _) (N _) 0 0
  | fuse f i t =>
    simp only [Element.place, placeTwoTerminal, List.mem_cons, List.not_mem_nil, or_false] at hp
    rcases hp with rfl | rfl
    · exact hl _ _ _ _ _ (N _) (N _)
    · exact vs_wellPlaced hL (N _) (N _) 0 0
  | capacitor f t sw b =>
    cases sw with
    | opened => simp [Element.place] at hp
    | closed =>
      simp only [Element.place, List.mem_cons, List.not_mem_nil, or_false] at hp
      subst hp; exact hs _ _ _ _ _ (N _) (N _)

theorem placeElements_wellPlaced (hL : L.Loaded) {opt : Bool} {nodes : List Node}
    (hn : ∀ b ∈ nodes, b.Proper opt ∧ b ≠ Node.ground) (es : List Element) (hv : ∀ e ∈ es, e.Valid nodes.length) (n : ℕ) :
    ∀ p ∈ (placeElements L opt nodes n es).1.flatten, p.WellPlaced opt := by
  induction es generalizing n with
  | nil => simp [placeElements]
  | cons e es ih =>
    intro p hp
    simp only [placeElements, List.flatten_cons, List.mem_append] at hp
    rcases hp with hp | hp
    · exact place_wellPlaced hL hn e (hv e (by simp)) n p hp
    · exact ih (fun x hx => hv x (by simp [hx])) _ p hp

theorem placeInfeasibility_wellPlaced (k : OptKind) (n : ℕ) (bs : List Node) :
    ∀ p ∈ (placeInfeasibility k n bs).1, p.WellPlaced true := by
  induction bs generalizing n with
  | nil => simp [placeInfeasibility]
  | cons b bs ih =>
    intro p hp
    simp only [placeInfeasibility, List.mem_cons] at hp
    rcases hp with rfl | hp
    · cases k
      · exact l1_wellPlaced
      · exact l2_wellPlaced
    · exact ih _ p hp

/-- Every placed part of a valid network is well placed. -/
theorem network_wellPlaced (hL : L.Loaded) (N : Network) (hv : N.Valid) : ∀ p ∈ (N.assign L).all, p.WellPlaced N.opt := by
  obtain ⟨h1, h2⟩ := assignBuses_proper N.opt N.buses 0
  intro p hp
  unfold Assignment.all Network.assign at hp
  rcases List.mem_append.1 hp with hp | hp
  · refine placeElements_wellPlaced hL h2 N.elements ?_ _ p hp
    intro e he; rw [h1]; exact hv e he
  · cases ho : N.optimization with
    | none => simp [ho] at hp
    | some k =>
      simp only [ho] at hp
      have : N.opt = true := by simp [Network.opt, ho]
      rw [this]
      exact placeInfeasibility_wellPlaced k _ _ p hp

end Verif
