import Verif.Lemmas.NetworkPlaced
import Verif.Props.Placement

/-! Every column used by a part of a network is below the matrix size, and every part is regular where its elements are. -/

namespace Verif

open Ex Devices

variable {L : Library}

/-- All indices of a node are below `m`. -/
structure Node.Below (m : ℕ) (b : Node) : Prop where
  vr : ∀ c, b.vr = some c → c < m
  vi : ∀ c, b.vi = some c → c < m
  lr : ∀ c, b.lr = some c → c < m
  li : ∀ c, b.li = some c → c < m

/-- All columns of a part are below `m`. -/
def Placed.Below (m : ℕ) (p : Placed) : Prop := ∀ x ∈ p.details.seg.vars, ∀ c, p.details.varMap x = some c → c < m

theorem Node.Below.mono {m m' : ℕ} (h : m ≤ m') {b : Node} (hb : b.Below m) : b.Below m' :=
  ⟨fun c hc => lt_of_lt_of_le (hb.vr c hc) h, fun c hc => lt_of_lt_of_le (hb.vi c hc) h,
   fun c hc => lt_of_lt_of_le (hb.lr c hc) h, fun c hc => lt_of_lt_of_le (hb.li c hc) h⟩

theorem Placed.Below.mono {m m' : ℕ} (h : m ≤ m') {p : Placed} (hb : p.Below m) : p.Below m' :=
  fun x hx c hc => lt_of_lt_of_le (hb x hx c hc) h

theorem ground_below (m : ℕ) : Node.ground.Below m := by
  constructor <;> intro c hc <;> cases hc

theorem terminalDict_below {m : ℕ} {f t : Node} (hf : f.Below m) (ht : t.Below m) (s : Sym) (c : ℕ)
    (h : (terminalDict f t s).join = some c) : c < m := by
  cases s <;> first
    | exact hf.vr c h
    | exact hf.vi c h
    | exact hf.lr c h
    | exact hf.li c h
    | exact ht.vr c h
    | exact ht.vi c h
    | exact ht.lr c h
    | exact ht.li c h
    | cases h

theorem line_below {m : ℕ} {f t : Node} (hf : f.Below m) (ht : t.Below m) (seg : Segment) (opt : Bool) (consts : List ℝ) :
    (Placed.mk (lineDetails seg f t opt) consts).Below m := fun x _ c hc => terminalDict_below hf ht x c hc

theorem twoTerminal_below {seg : Segment} {f t : Node} {n : ℕ} {opt : Bool} {own lams : List Sym}
    (hp : seg.primals = terminals ++ own) (hd : seg.duals = [.LrFrom, .LiFrom, .LrTo, .LiTo] ++ lams)
    (hn : (own ++ lams).Nodup) (hmiss : ∀ s ∈ own ++ lams, terminalDict f t s = none)
    (hf : f.Below n) (ht : t.Below n) (consts : List ℝ) :
    (Placed.mk (twoTerminalDetails seg f t n opt).1 consts).Below (twoTerminalDetails seg f t n opt).2 ∧
    n ≤ (twoTerminalDetails seg f t n opt).2 := by
  obtain ⟨h1, h2, h3, h4, h5, h6, h7⟩ := twoTerminalDetails_spec f t n opt hp hd hn hmiss
  refine ⟨?_, by rw [h7]; omega⟩
  intro x hx c hc
  simp only at hx hc
  rw [h1] at hx
  unfold Segment.vars at hx
  rw [hp, hd] at hx
  have hterm : x ∈ terminals ∨ x ∈ [Sym.LrFrom, .LiFrom, .LrTo, .LiTo] → c < n := by
    intro hx
    have : ∃ i, terminalDict f t x = some i := by
      simp [terminals] at hx
      rcases hx with (rfl | rfl | rfl | rfl) | rfl | rfl | rfl | rfl <;> exact ⟨_, rfl⟩
    obtain ⟨i, hi⟩ := this
    rw [h4 x i hi] at hc
    exact terminalDict_below hf ht x c (by rw [hi]; exact hc)
  rw [h7]
  rcases List.mem_append.1 hx with hx | hx
  · rcases List.mem_append.1 hx with hx | hx
    · have := hterm (Or.inl hx); omega
    · rw [h5 x hx] at hc
      have := List.idxOf_lt_length_iff.2 hx
      injection hc with hc; omega
  · rcases List.mem_append.1 hx with hx | hx
    · have := hterm (Or.inr hx); omega
    · rw [h6 x hx] at hc
      have := List.idxOf_lt_length_iff.2 hx
      cases opt
      · cases hc
      · simp only [if_true] at hc ⊢
        injection hc with hc; omega

theorem assignBuses_below (opt : Bool) (k n : ℕ) :
    n ≤ (assignBuses opt k n).2 ∧ ∀ b ∈ (assignBuses opt k n).1, b.Below (assignBuses opt k n).2 := by
  induction k generalizing n with
  | zero => simp [assignBuses]
  | succ k ih =>
    obtain ⟨h1, h2⟩ := ih (assignBus opt n).2
    have h0 : n ≤ (assignBus opt n).2 := by cases opt <;> simp [assignBus]
    refine ⟨le_trans h0 h1, fun b hb => ?_⟩
    simp only [assignBuses, List.mem_cons] at hb
    rcases hb with rfl | hb
    · refine Node.Below.mono h1 ?_
      cases opt <;> constructor <;> intro c hc <;> simp [assignBus] at hc ⊢ <;> omega
    · exact h2 b hb

theorem nodeAt_below {m : ℕ} {nodes : List Node} (h : ∀ b ∈ nodes, b.Below m) (r : Ref) : (nodeAt nodes r).Below m := by
  cases r with
  | none => exact ground_below m
  | some k =>
    unfold nodeAt
    simp only [List.getD_eq_getElem?_getD]
    cases hk : nodes[k]? with
    | none => exact ground_below m
    | some b => exact h b (List.mem_of_getElem? hk)

theorem xfmr_below {opt : Bool} {fp fn tp tn : Node} {n : ℕ} (h1 : fp.Below n) (h2 : fn.Below n) (h3 : tp.Below n)
    (h4 : tn.Below n) (tr ang g b : ℝ) :
    n ≤ (placeTransformer L opt fp fn tp tn tr ang g b n).2 ∧
    ∀ p ∈ (placeTransformer L opt fp fn tp tn tr ang g b n).1, p.Below (placeTransformer L opt fp fn tp tn tr ang g b n).2 := by
  have hle : n ≤ (placeTransformer L opt fp fn tp tn tr ang g b n).2 := by cases opt <;> simp [placeTransformer]
  have hsec : (xfmrSec opt n).Below (placeTransformer L opt fp fn tp tn tr ang g b n).2 := by
    cases opt <;> constructor <;> intro c hc <;> simp [xfmrSec, placeTransformer] at hc ⊢ <;> omega
  have hprim : (xfmrPrim opt n).Below (placeTransformer L opt fp fn tp tn tr ang g b n).2 := by
    cases opt <;> constructor <;> intro c hc <;> simp [xfmrPrim, placeTransformer] at hc ⊢ <;> omega
  refine ⟨hle, ?_⟩
  intro p hp
  simp only [placeTransformer, List.mem_cons, List.not_mem_nil, or_false] at hp
  rcases hp with rfl | rfl
  · intro x _ c hc
    change xfmrMap fp fn (xfmrPrim opt n) (xfmrSec opt n) tn x = some c at hc
    cases x <;> first
      | exact (h1.mono hle).vr c hc
      | exact (h1.mono hle).vi c hc
      | exact (h1.mono hle).lr c hc
      | exact (h1.mono hle).li c hc
      | exact (h2.mono hle).vr c hc
      | exact (h2.mono hle).vi c hc
      | exact (h2.mono hle).lr c hc
      | exact (h2.mono hle).li c hc
      | exact (h4.mono hle).vr c hc
      | exact (h4.mono hle).vi c hc
      | exact (h4.mono hle).lr c hc
      | exact (h4.mono hle).li c hc
      | exact hsec.vr c hc
      | exact hsec.vi c hc
      | exact hsec.lr c hc
      | exact hsec.li c hc
      | exact hprim.vr c hc
      | exact hprim.vi c hc
      | exact hprim.lr c hc
      | exact hprim.li c hc
      | cases hc
  · exact line_below hsec (h3.mono hle) _ _ _

theorem vs_below (hL : L.Loaded) {f t : Node} {n : ℕ} {opt : Bool} (hf : f.Below n) (ht : t.Below n) (consts : List ℝ) :
    n ≤ (placeTwoTerminal L.vs opt f t consts n).2 ∧
    ∀ p ∈ (placeTwoTerminal L.vs opt f t consts n).1, p.Below (placeTwoTerminal L.vs opt f t consts n).2 := by
  obtain ⟨m, h1, h2, h3⟩ := vs_shape hL
  obtain ⟨a, b⟩ := twoTerminal_below (opt := opt) h1 h2 (by simp) (by simp [terminalDict]) hf ht consts
  refine ⟨b, ?_⟩
  intro p hp
  simp only [placeTwoTerminal, List.mem_cons, List.not_mem_nil, or_false] at hp
  subst hp; exact a

theorem place_below (hL : L.Loaded) {opt : Bool} {nodes : List Node} {n : ℕ} (hn : ∀ b ∈ nodes, b.Below n) (e : Element) :
    n ≤ (e.place L opt nodes n).2 ∧ ∀ p ∈ (e.place L opt nodes n).1, p.Below (e.place L opt nodes n).2 := by
  have N := nodeAt_below hn
  have G := ground_below n
  cases e with
  | line f t g b bl =>
    refine ⟨le_rfl, fun p hp => ?_⟩
    simp only [Element.place, List.mem_cons, List.not_mem_nil, or_false] at hp ⊢
    rcases hp with rfl | rfl | rfl
    · exact line_below (N _) (N _) _ _ _
    · exact line_below (N _) G _ _ _
    · exact line_below (N _) G _ _ _
  | unbalanced ph y sh =>
    refine ⟨le_rfl, fun p hp => ?_⟩
    simp only [Element.place, placeUnbalanced, List.mem_flatMap, List.mem_range] at hp
    obtain ⟨i, hi, j, hj, hp⟩ := hp
    simp only [placePair, List.mem_cons, List.not_mem_nil, or_false] at hp
    rcases hp with rfl | rfl | rfl
    · exact fun x _ c hc => terminalDict_below (N _) (N _) x c hc
    · exact fun x _ c hc => terminalDict_below (N _) G x c hc
    · exact fun x _ c hc => terminalDict_below (N _) G x c hc
  | transformer fp fn tp tn tr ang g b => exact xfmr_below (N _) (N _) (N _) (N _) _ _ _ _
  | centerTap f p0 s1 t1 s2 t2 ratio g0 b0 g1 b1 g2 b2 =>
    have hle : n ≤ if opt then n + 8 else n + 4 := by cases opt <;> simp
    refine ⟨hle, fun p hp => ?_⟩
    have N' := fun r => (N r).mono hle
    simp only [Element.place, List.mem_cons, List.not_mem_nil, or_false] at hp
    rcases hp with rfl | rfl | rfl | rfl
    · intro x hx c hc
      change ctMap opt (nodeAt nodes (some p0)) (nodeAt nodes (some s1)) (nodeAt nodes (some s2)) n x = some c at hc
      show c < if opt then n + 8 else n + 4
      cases opt
      · cases x <;> first
          | exact (N' (some p0)).vr c hc
          | exact (N' (some p0)).vi c hc
          | exact (N' (some p0)).lr c hc
          | exact (N' (some p0)).li c hc
          | exact (N' (some s1)).vr c hc
          | exact (N' (some s1)).vi c hc
          | exact (N' (some s1)).lr c hc
          | exact (N' (some s1)).li c hc
          | exact (N' (some s2)).vr c hc
          | exact (N' (some s2)).vi c hc
          | exact (N' (some s2)).lr c hc
          | exact (N' (some s2)).li c hc
          | (injection hc with hc; simp; omega)
          | cases hc
      · cases x <;> first
          | exact (N' (some p0)).vr c hc
          | exact (N' (some p0)).vi c hc
          | exact (N' (some p0)).lr c hc
          | exact (N' (some p0)).li c hc
          | exact (N' (some s1)).vr c hc
          | exact (N' (some s1)).vi c hc
          | exact (N' (some s1)).lr c hc
          | exact (N' (some s1)).li c hc
          | exact (N' (some s2)).vr c hc
          | exact (N' (some s2)).vi c hc
          | exact (N' (some s2)).lr c hc
          | exact (N' (some s2)).li c hc
          | (injection hc with hc; simp; omega)
          | cases hc
    · exact line_below (N' _) (N' _) _ _ _
    · exact line_below (N' _) (N' _) _ _ _
    · exact line_below (N' _) (N' _) _ _ _
  | slack b vr vi =>
    obtain ⟨m, h1, h2, h3⟩ := slack_shape hL
    obtain ⟨a, b⟩ := twoTerminal_below (opt := opt) h1 h2 (by simp) (by simp [terminalDict]) (N (some b)) G [vr, vi]
    refine ⟨b, fun p hp => ?_⟩
    simp only [Element.place, placeTwoTerminal, List.mem_cons, List.not_mem_nil, or_false] at hp
    subst hp; exact a
  | switch f t s =>
    cases s with
    | opened => exact ⟨le_rfl, by simp [Element.place]⟩
    | closed => exact vs_below hL (N _) (N _) _
  | generator b P V =>
    obtain ⟨m, h1, h2, h3⟩ := gen_shape hL
    obtain ⟨a, b⟩ := twoTerminal_below (opt := opt) h1 h2 (by simp) (by simp [terminalDict]) (N (some b)) G [P, V]
    refine ⟨b, fun p hp => ?_⟩
    simp only [Element.place, placeTwoTerminal, List.mem_cons, List.not_mem_nil, or_false] at hp
    subst hp; exact a
  | load f t l =>
    have hc : (Element.place L opt nodes n (.load f t l)).2 = n := placeLoad_counter hL opt _ _ l n
    rw [hc]
    refine ⟨le_rfl, fun p hp => ?_⟩
    simp only [Element.place, placeLoad, placeTwoTerminal] at hp
    rcases List.mem_append.1 hp with hp | hp
    · rcases List.mem_append.1 hp with hp | hp
      · split_ifs at hp
        · simp at hp
        · simp only [List.mem_cons, List.not_mem_nil, or_false] at hp
          subst hp
          rw [twoTerminalDetails_lineLike (pq_like hL)]
          exact line_below (N _) (N _) _ _ _
      · have : ∃ m, p = ⟨(twoTerminalDetails L.ic (nodeAt nodes f) (nodeAt nodes t) m opt).1, [l.IP, l.IQ]⟩ := by
          split_ifs at hp <;> simp at hp <;> exact ⟨_, hp⟩
        obtain ⟨m, rfl⟩ := this
        rw [twoTerminalDetails_lineLike (ic_like hL)]
        exact line_below (N _) (N _) _ _ _
    · split_ifs at hp
      · simp at hp
      · simp only [List.mem_cons, List.not_mem_nil, or_false] at hp
        subst hp; exact line_below (N _) (N _) _ _ _
  | voltageSource f t vr vi => exact vs_below hL (N _) (N _) _
  | shunt b g s =>
    refine ⟨le_rfl, fun p hp => ?_⟩
    simp only [Element.place, List.mem_cons, List.not_mem_nil, or_false] at hp ⊢
    subst hp; exact line_below (N _) G _ _ _
  | regulator f c t tr g b =>
    obtain ⟨a1, a2⟩ := xfmr_below (L := L) (opt := opt) (N f) G (N c) G tr 0 g b
    obtain ⟨b1, b2⟩ := vs_below (opt := opt) hL ((N c).mono a1) ((N t).mono a1) [0, 0]
    refine ⟨le_trans a1 b1, fun p hp => ?_⟩
    rcases List.mem_append.1 hp with hp | hp
    · exact (a2 p hp).mono b1
    · exact b2 p hp
  | fuse f i t =>
    obtain ⟨b1, b2⟩ := vs_below (opt := opt) hL (N i) (N t) [0, 0]
    refine ⟨b1, fun p hp => ?_⟩
    rcases List.mem_cons.1 hp with rfl | hp
    · exact (line_below (N _) (N _) _ _ _).mono b1
    · exact b2 p hp
  | capacitor f t sw b =>
    cases sw with
    | opened => exact ⟨le_rfl, by simp [Element.place]⟩
    | closed =>
      refine ⟨le_rfl, fun p hp => ?_⟩
      simp only [Element.place, List.mem_cons, List.not_mem_nil, or_false] at hp ⊢
      subst hp; exact line_below (N _) (N _) _ _ _

theorem placeElements_below (hL : L.Loaded) {opt : Bool} {nodes : List Node} (es : List Element) {n : ℕ}
    (hn : ∀ b ∈ nodes, b.Below n) :
    n ≤ (placeElements L opt nodes n es).2 ∧
    ∀ p ∈ (placeElements L opt nodes n es).1.flatten, p.Below (placeElements L opt nodes n es).2 := by
  induction es generalizing n with
  | nil => simp [placeElements]
  | cons e es ih =>
    obtain ⟨a1, a2⟩ := place_below (opt := opt) hL hn e
    obtain ⟨b1, b2⟩ := ih fun b hb => (hn b hb).mono a1
    refine ⟨le_trans a1 b1, fun p hp => ?_⟩
    simp only [placeElements, List.flatten_cons, List.mem_append] at hp
    rcases hp with hp | hp
    · exact (a2 p hp).mono b1
    · exact b2 p hp

theorem placeInfeasibility_below (k : OptKind) (bs : List Node) {n : ℕ} (hn : ∀ b ∈ bs, b.Below n) :
    n ≤ (placeInfeasibility k n bs).2 ∧ ∀ p ∈ (placeInfeasibility k n bs).1, p.Below (placeInfeasibility k n bs).2 := by
  induction bs generalizing n with
  | nil => simp [placeInfeasibility]
  | cons b bs ih =>
    have hb := hn b (by simp)
    cases k with
    | L1 =>
      obtain ⟨b1, b2⟩ := ih (n := n + 4) fun b hb => (hn b (by simp [hb])).mono (by omega)
      refine ⟨le_trans (by omega) b1, fun p hp => ?_⟩
      simp only [placeInfeasibility, List.mem_cons] at hp
      rcases hp with rfl | hp
      · refine Placed.Below.mono b1 ?_
        intro x hx c hc
        cases x <;> first
          | exact lt_of_lt_of_le (hb.vr c hc) (by omega)
          | exact lt_of_lt_of_le (hb.vi c hc) (by omega)
          | exact lt_of_lt_of_le (hb.lr c hc) (by omega)
          | exact lt_of_lt_of_le (hb.li c hc) (by omega)
          | (injection hc with hc; omega)
          | cases hc
      · exact b2 p hp
    | L2 =>
      obtain ⟨b1, b2⟩ := ih (n := n + 2) fun b hb => (hn b (by simp [hb])).mono (by omega)
      refine ⟨le_trans (by omega) b1, fun p hp => ?_⟩
      simp only [placeInfeasibility, List.mem_cons] at hp
      rcases hp with rfl | hp
      · refine Placed.Below.mono b1 ?_
        intro x hx c hc
        cases x <;> first
          | exact lt_of_lt_of_le (hb.vr c hc) (by omega)
          | exact lt_of_lt_of_le (hb.vi c hc) (by omega)
          | exact lt_of_lt_of_le (hb.lr c hc) (by omega)
          | exact lt_of_lt_of_le (hb.li c hc) (by omega)
          | (injection hc with hc; omega)
          | cases hc
      · exact b2 p hp

/-- Every column of every part is below the matrix size. -/
theorem network_below (hL : L.Loaded) (N : Network) : ∀ p ∈ (N.assign L).all, p.Below (N.assign L).size := by
  obtain ⟨h1, h2⟩ := assignBuses_below N.opt N.buses 0
  obtain ⟨e1, e2⟩ := placeElements_below (opt := N.opt) hL N.elements h2
  intro p hp
  cases ho : N.optimization with
  | none =>
    unfold Assignment.all Network.assign at hp
    unfold Network.assign
    simp only [ho, List.append_nil] at hp ⊢
    exact e2 p hp
  | some k =>
    obtain ⟨f1, f2⟩ := placeInfeasibility_below k (assignBuses N.opt N.buses 0).1 fun b hb => (h2 b hb).mono e1
    unfold Assignment.all Network.assign at hp
    unfold Network.assign
    simp only [ho] at hp ⊢
    rcases List.mem_append.1 hp with hp | hp
    · exact (e2 p hp).mono f1
    · exact f2 p hp

end Verif
