import Verif.Spec.Optimization
import Verif.Lemmas.GradientNetwork

/-! Optimization mode and plain mode place the same parts, unknown by unknown and equation by equation. -/

namespace Verif

open Ex Devices

variable {L : Library}

/-- The function `S` tells where the blocks from `n` on (plain) are in optimization mode (from `n'` on). -/
def BlocksAgree (S : ℕ → ℕ × ℕ) : ℕ → ℕ → List ℕ → Prop
  | _, _, [] => True
  | n, n', m :: ms => (∀ j < m, S (n + j) = (n' + j, n' + m + j)) ∧ BlocksAgree S (n + m) (n' + 2 * m) ms

theorem BlocksAgree.append {S : ℕ → ℕ × ℕ} {n n' : ℕ} {a b : List ℕ} :
    BlocksAgree S n n' (a ++ b) ↔ BlocksAgree S n n' a ∧ BlocksAgree S (n + a.sum) (n' + 2 * a.sum) b := by
  induction a generalizing n n' with
  | nil => simp [BlocksAgree]
  | cons m a ih =>
    simp only [List.cons_append, BlocksAgree, ih, List.sum_cons, and_assoc]
    rw [show n + m + a.sum = n + (m + a.sum) by ring, show n' + 2 * m + 2 * a.sum = n' + 2 * (m + a.sum) by ring]

theorem blocksAgree_shift {S : ℕ → ℕ × ℕ} {k n n' : ℕ} {ms : List ℕ} (h : BlocksAgree (fun r => S (r - k)) n n' ms) (hk : k ≤ n) :
    BlocksAgree S (n - k) n' ms := by
  induction ms generalizing n n' with
  | nil => trivial
  | cons m ms ih =>
    refine ⟨fun j hj => ?_, ?_⟩
    · have := h.1 j hj
      rw [show n - k + j = n + j - k by omega]; exact this
    · rw [show n - k + m = n + m - k by omega]; exact ih h.2 (by omega)

theorem blocksAgree_congr {S T : ℕ → ℕ × ℕ} {n n' : ℕ} {ms : List ℕ} (h : ∀ r, n ≤ r → S r = T r) (hS : BlocksAgree S n n' ms) :
    BlocksAgree T n n' ms := by
  induction ms generalizing n n' with
  | nil => trivial
  | cons m ms ih => exact ⟨fun j hj => by rw [← h _ (by omega)]; exact hS.1 j hj, ih (fun r hr => h r (by omega)) hS.2⟩

theorem blocksAgree_translate {S : ℕ → ℕ × ℕ} {k n n' : ℕ} {ms : List ℕ} (h : BlocksAgree S n n' ms) :
    BlocksAgree (fun r => S (r - k)) (n + k) n' ms := by
  induction ms generalizing n n' with
  | nil => trivial
  | cons m ms ih =>
    refine ⟨fun j hj => ?_, ?_⟩
    · show S (n + k + j - k) = _
      rw [show n + k + j - k = n + j by omega]; exact h.1 j hj
    · rw [show n + k + m = n + m + k by omega]; exact ih h.2

theorem twinOf_agree (n' : ℕ) (ms : List ℕ) : BlocksAgree (twinOf n' ms) 0 n' ms := by
  induction ms generalizing n' with
  | nil => trivial
  | cons m ms ih =>
    refine ⟨fun j hj => ?_, ?_⟩
    · simp [twinOf, hj]
    · have := blocksAgree_translate (k := m) (ih (n' + 2 * m))
      rw [Nat.zero_add] at this ⊢
      refine blocksAgree_congr (fun r hr => ?_) this
      simp [twinOf, Nat.not_lt.2 hr]

theorem twinOf_ge (n' : ℕ) (ms : List ℕ) (r : ℕ) : n' ≤ (twinOf n' ms r).1 ∧ n' ≤ (twinOf n' ms r).2 := by
  induction ms generalizing n' r with
  | nil => unfold twinOf; simp only; omega
  | cons m ms ih =>
    unfold twinOf
    split_ifs with h
    · simp only; omega
    · have := ih (n' + 2 * m) (r - m)
      omega

theorem twinOf_lt (n' : ℕ) (ms : List ℕ) (r : ℕ) (hr : r < ms.sum) :
    (twinOf n' ms r).1 < n' + 2 * ms.sum ∧ (twinOf n' ms r).2 < n' + 2 * ms.sum := by
  induction ms generalizing n' r with
  | nil => simp at hr
  | cons m ms ih =>
    rw [List.sum_cons] at hr ⊢
    unfold twinOf
    split_ifs with h
    · simp only; omega
    · have := ih (n' + 2 * m) (r - m) (by omega)
      omega

/-- No two unknowns share an index, no two equations share a multiplier, no unknown is a multiplier. -/
theorem twinOf_inj (n' : ℕ) (ms : List ℕ) (r s : ℕ) :
    ((twinOf n' ms r).1 = (twinOf n' ms s).1 → r = s) ∧ ((twinOf n' ms r).2 = (twinOf n' ms s).2 → r = s) ∧
    (twinOf n' ms r).1 ≠ (twinOf n' ms s).2 := by
  induction ms generalizing n' r s with
  | nil => unfold twinOf; simp only; omega
  | cons m ms ih =>
    unfold twinOf
    split_ifs with h1 h2 h2
    · simp only; omega
    · have := twinOf_ge (n' + 2 * m) ms (s - m)
      simp only; omega
    · have := twinOf_ge (n' + 2 * m) ms (r - m)
      simp only; omega
    · obtain ⟨a, b, c⟩ := ih (n' + 2 * m) (r - m) (s - m)
      exact ⟨fun h => by have := a h; omega, fun h => by have := b h; omega, c⟩

/-! ### Nodes and parts -/

/-- The indices of a node in the two modes. -/
structure TwinNode (S : ℕ → ℕ × ℕ) (a b : Node) : Prop where
  vr : b.vr = a.vr.map fun r => (S r).1
  vi : b.vi = a.vi.map fun r => (S r).1
  lr : b.lr = a.vr.map fun r => (S r).2
  li : b.li = a.vi.map fun r => (S r).2

theorem TwinNode.ground (S : ℕ → ℕ × ℕ) : TwinNode S Node.ground Node.ground := ⟨rfl, rfl, rfl, rfl⟩

/-- The same part in the two modes. -/
structure Twin (S : ℕ → ℕ × ℕ) (p q : Placed) : Prop where
  plain : p.details.opt = false
  opt : q.details.opt = true
  seg : q.details.seg = p.details.seg
  consts : q.consts = p.consts
  primals : ∀ x ∈ p.details.seg.primals, q.details.varMap x = (p.details.varMap x).map fun r => (S r).1
  rows : ∀ x ∈ p.details.seg.primals, q.details.eqnMap x = (p.details.eqnMap x).map fun r => (S r).1
  duals : ∀ d ∈ p.details.seg.duals, q.details.eqnMap d = (p.details.row d).map fun r => (S r).2
  vals : ∀ d ∈ p.details.seg.duals, ∃ k : Idx, q.details.varMap d = k.map fun r => (S r).2

/-- The values of the multipliers when rows and unknowns share indices. -/
theorem vals_of_self {S : ℕ → ℕ × ℕ} {p q : Placed} (hs : q.details.eqnMap = q.details.varMap)
    (h : ∀ d ∈ p.details.seg.duals, q.details.eqnMap d = (p.details.row d).map fun r => (S r).2) :
    ∀ d ∈ p.details.seg.duals, ∃ k : Idx, q.details.varMap d = k.map fun r => (S r).2 :=
  fun d hd => ⟨p.details.row d, by rw [← hs]; exact h d hd⟩

theorem twin_pair {S : ℕ → ℕ × ℕ} {seg : Segment} (h : LineLike seg) {rf rt cf ct rf' rt' cf' ct' : Node}
    (h1 : TwinNode S rf rf') (h2 : TwinNode S rt rt') (h3 : TwinNode S cf cf') (h4 : TwinNode S ct ct') (consts : List ℝ) :
    Twin S ⟨pairDetails seg rf rt cf ct false, consts⟩ ⟨pairDetails seg rf' rt' cf' ct' true, consts⟩ := by
  refine ⟨rfl, rfl, rfl, rfl, ?_, ?_, ?_, ?_⟩
  · intro x hx
    have hx' : x ∈ terminals := h.primals ▸ hx
    simp [terminals] at hx'
    rcases hx' with rfl | rfl | rfl | rfl
    exacts [h3.vr, h3.vi, h4.vr, h4.vi]
  · intro x hx
    have hx' : x ∈ terminals := h.primals ▸ hx
    simp [terminals] at hx'
    rcases hx' with rfl | rfl | rfl | rfl
    exacts [h1.vr, h1.vi, h2.vr, h2.vi]
  · intro d hd
    have hd' : d ∈ [Sym.LrFrom, .LiFrom, .LrTo, .LiTo] := h.duals ▸ hd
    obtain ⟨r1, r2, r3, r4⟩ := h.row rf rt cf ct false
    simp only [Bool.false_eq_true, if_false] at r1 r2 r3 r4
    simp at hd'
    rcases hd' with rfl | rfl | rfl | rfl
    · rw [r1]; exact h1.lr
    · rw [r2]; exact h1.li
    · rw [r3]; exact h2.lr
    · rw [r4]; exact h2.li
  · intro d hd
    have hd' : d ∈ [Sym.LrFrom, .LiFrom, .LrTo, .LiTo] := h.duals ▸ hd
    simp at hd'
    rcases hd' with rfl | rfl | rfl | rfl
    exacts [⟨_, h3.lr⟩, ⟨_, h3.li⟩, ⟨_, h4.lr⟩, ⟨_, h4.li⟩]

theorem twin_twoTerminal {S : ℕ → ℕ × ℕ} {seg : Segment} {own lams : List Sym}
    (hp : seg.primals = terminals ++ own) (hd : seg.duals = [.LrFrom, .LiFrom, .LrTo, .LiTo] ++ lams)
    (hn : (own ++ lams).Nodup) (hmiss : ∀ (f t : Node), ∀ s ∈ own ++ lams, terminalDict f t s = none) (hl : lams.length = own.length)
    {f t f' t' : Node} (h1 : TwinNode S f f') (h2 : TwinNode S t t') {n n' : ℕ}
    (hS : ∀ j < own.length, S (n + j) = (n' + j, n' + own.length + j)) (consts : List ℝ) :
    Twin S ⟨(twoTerminalDetails seg f t n false).1, consts⟩ ⟨(twoTerminalDetails seg f' t' n' true).1, consts⟩ ∧
    (twoTerminalDetails seg f t n false).2 = n + own.length ∧ (twoTerminalDetails seg f' t' n' true).2 = n' + 2 * own.length := by
  obtain ⟨a1, a2, a3, a4, a5, a6, a7⟩ := twoTerminalDetails_spec f t n false hp hd hn (hmiss f t)
  obtain ⟨b1, b2, b3, b4, b5, b6, b7⟩ := twoTerminalDetails_spec f' t' n' true hp hd hn (hmiss f' t')
  obtain ⟨c1, c2, c3, c4, c5, c6, c7⟩ := twoTerminal_rows (f := f) (t := t) (n := n) hp hd hn (hmiss f t)
  have hprim : ∀ x ∈ (Placed.mk (twoTerminalDetails seg f t n false).1 consts).details.seg.primals,
      (twoTerminalDetails seg f' t' n' true).1.varMap x = ((twoTerminalDetails seg f t n false).1.varMap x).map fun r => (S r).1 := by
    intro x hx
    have hx' : x ∈ terminals ++ own := by
      have : x ∈ seg.primals := a1 ▸ hx
      rwa [hp] at this
    rcases List.mem_append.1 hx' with hx' | hx'
    · simp [terminals] at hx'
      rcases hx' with rfl | rfl | rfl | rfl
      · rw [b4 _ _ rfl, a4 _ _ rfl]; exact h1.vr
      · rw [b4 _ _ rfl, a4 _ _ rfl]; exact h1.vi
      · rw [b4 _ _ rfl, a4 _ _ rfl]; exact h2.vr
      · rw [b4 _ _ rfl, a4 _ _ rfl]; exact h2.vi
    · rw [b5 x hx', a5 x hx', Option.map_some, hS _ (List.idxOf_lt_length_of_mem hx')]
  have hduals : ∀ d ∈ (Placed.mk (twoTerminalDetails seg f t n false).1 consts).details.seg.duals,
      (twoTerminalDetails seg f' t' n' true).1.eqnMap d = ((twoTerminalDetails seg f t n false).1.row d).map fun r => (S r).2 := by
    intro d hdm
    have hd' : d ∈ [Sym.LrFrom, .LiFrom, .LrTo, .LiTo] ++ lams := by
      have : d ∈ seg.duals := a1 ▸ hdm
      rwa [hd] at this
    rw [b2]
    rcases List.mem_append.1 hd' with hd' | hd'
    · simp at hd'
      rcases hd' with rfl | rfl | rfl | rfl
      · rw [c3, b4 _ _ rfl]; exact h1.lr
      · rw [c4, b4 _ _ rfl]; exact h1.li
      · rw [c5, b4 _ _ rfl]; exact h2.lr
      · rw [c6, b4 _ _ rfl]; exact h2.li
    · rw [b6 d hd', if_pos rfl]
      have hk := List.idxOf_lt_length_of_mem hd'
      have := c7 (lams.idxOf d) hk (by omega)
      rw [List.getElem_idxOf] at this
      rw [this, Option.map_some, hS _ (by omega)]
  refine ⟨⟨a3, b3, ?_, rfl, hprim, ?_, hduals, vals_of_self b2 hduals⟩, by rw [a7]; simp, by rw [b7, hl]; simp; ring⟩
  · rw [show (Placed.mk (twoTerminalDetails seg f' t' n' true).1 consts).details.seg = seg from b1]; exact a1.symm
  · intro x hx
    have := hprim x hx
    rw [← b2, ← a2] at this; exact this

theorem twin_xfmr {S : ℕ → ℕ × ℕ} {fp fn prim sec tn fp' fn' prim' sec' tn' : Node} (h1 : TwinNode S fp fp') (h2 : TwinNode S fn fn')
    (h3 : TwinNode S prim prim') (h4 : TwinNode S sec sec') (h5 : TwinNode S tn tn') (consts : List ℝ) :
    Twin S ⟨⟨xfmr, xfmrMap fp fn prim sec tn, xfmrMap fp fn prim sec tn, false⟩, consts⟩
      ⟨⟨xfmr, xfmrMap fp' fn' prim' sec' tn', xfmrMap fp' fn' prim' sec' tn', true⟩, consts⟩ := by
  have hp : ∀ x ∈ xfmrPrimals, xfmrMap fp' fn' prim' sec' tn' x = (xfmrMap fp fn prim sec tn x).map fun r => (S r).1 := by
    intro x hx'
    simp [xfmrPrimals] at hx'
    rcases hx' with rfl | rfl | rfl | rfl | rfl | rfl | rfl | rfl | rfl | rfl
    exacts [h1.vr, h1.vi, h2.vr, h2.vi, h3.vr, h3.vi, h4.vr, h4.vi, h5.vr, h5.vi]
  suffices hd : ∀ d ∈ xfmrDuals, xfmrMap fp' fn' prim' sec' tn' d = ((⟨xfmr, xfmrMap fp fn prim sec tn, xfmrMap fp fn prim sec tn, false⟩ : Details).row d).map fun r => (S r).2 from
    ⟨rfl, rfl, rfl, rfl, hp, hp, hd, vals_of_self rfl hd⟩
  · intro x hx
    have hx' : x ∈ xfmrDuals := hx
    simp [xfmrDuals] at hx'
    rcases hx' with rfl | rfl | rfl | rfl | rfl | rfl | rfl | rfl | rfl | rfl
    exacts [h1.lr, h1.li, h2.lr, h2.li, h3.lr, h3.li, h4.lr, h4.li, h5.lr, h5.li]

theorem twin_ct {S : ℕ → ℕ × ℕ} {p s1 s2 p' s1' s2' : Node} {n n' : ℕ} (h1 : TwinNode S p p') (h2 : TwinNode S s1 s1')
    (h3 : TwinNode S s2 s2') (hS : ∀ j < 4, S (n + j) = (n' + j, n' + 4 + j)) (consts : List ℝ) :
    Twin S ⟨⟨centerTap, ctMap false p s1 s2 n, ctMap false p s1 s2 n, false⟩, consts⟩
      ⟨⟨centerTap, ctMap true p' s1' s2' n', ctMap true p' s1' s2' n', true⟩, consts⟩ := by
  have e0 : S n = (n', n' + 4) := hS 0 (by omega)
  have e1 := hS 1 (by omega)
  have e2 := hS 2 (by omega)
  have e3 := hS 3 (by omega)
  have hp : ∀ x ∈ ctPrimals, ctMap true p' s1' s2' n' x = (ctMap false p s1 s2 n x).map fun r => (S r).1 := by
    intro x hx'
    simp [ctPrimals] at hx'
    rcases hx' with rfl | rfl | rfl | rfl | rfl | rfl | rfl | rfl | rfl | rfl
    · exact h1.vr
    · exact h1.vi
    · show some n' = some (S n).1; rw [e0]
    · show some (n' + 1) = some (S (n + 1)).1; rw [e1]
    · exact h2.vr
    · exact h2.vi
    · show some (n' + 2) = some (S (n + 2)).1; rw [e2]
    · show some (n' + 3) = some (S (n + 3)).1; rw [e3]
    · exact h3.vr
    · exact h3.vi
  suffices hd : ∀ d ∈ ctDuals, ctMap true p' s1' s2' n' d = ((⟨centerTap, ctMap false p s1 s2 n, ctMap false p s1 s2 n, false⟩ : Details).row d).map fun r => (S r).2 from
    ⟨rfl, rfl, rfl, rfl, hp, hp, hd, vals_of_self rfl hd⟩
  · intro x hx
    have hx' : x ∈ ctDuals := hx
    simp [ctDuals] at hx'
    rcases hx' with rfl | rfl | rfl | rfl | rfl | rfl | rfl | rfl | rfl | rfl
    · exact h1.lr
    · exact h1.li
    · show some (n' + 4) = some (S n).2; rw [e0]
    · show some (n' + 5) = some (S (n + 1)).2; rw [e1]
    · exact h2.lr
    · exact h2.li
    · show some (n' + 6) = some (S (n + 2)).2; rw [e2]
    · show some (n' + 7) = some (S (n + 3)).2; rw [e3]
    · exact h3.lr
    · exact h3.li

theorem twin_placeTransformer (hL : L.Loaded) {S : ℕ → ℕ × ℕ} {fp fn tp tn fp' fn' tp' tn' : Node} {n n' : ℕ}
    (h1 : TwinNode S fp fp') (h2 : TwinNode S fn fn') (h3 : TwinNode S tp tp') (h4 : TwinNode S tn tn')
    (hS : ∀ j < 4, S (n + j) = (n' + j, n' + 4 + j)) (tr ang g b : ℝ) :
    List.Forall₂ (Twin S) (placeTransformer L false fp fn tp tn tr ang g b n).1 (placeTransformer L true fp' fn' tp' tn' tr ang g b n').1 := by
  have e0 : S n = (n', n' + 4) := hS 0 (by omega)
  have e1 := hS 1 (by omega)
  have e2 := hS 2 (by omega)
  have e3 := hS 3 (by omega)
  have hprim : TwinNode S (xfmrPrim false n) (xfmrPrim true n') := by
    refine ⟨?_, ?_, ?_, ?_⟩
    · show some n' = some (S n).1; rw [e0]
    · show some (n' + 1) = some (S (n + 1)).1; rw [e1]
    · show some (n' + 4) = some (S n).2; rw [e0]
    · show some (n' + 5) = some (S (n + 1)).2; rw [e1]
  have hsec : TwinNode S (xfmrSec false n) (xfmrSec true n') := by
    refine ⟨?_, ?_, ?_, ?_⟩
    · show some (n' + 2) = some (S (n + 2)).1; rw [e2]
    · show some (n' + 3) = some (S (n + 3)).1; rw [e3]
    · show some (n' + 6) = some (S (n + 2)).2; rw [e2]
    · show some (n' + 7) = some (S (n + 3)).2; rw [e3]
  exact .cons (twin_xfmr h1 h2 hprim hsec h4 _) (.cons (twin_pair (line_like hL) hsec h3 hsec h3 _) .nil)

/-- One element in the two modes. -/
theorem place_twin (hL : L.Loaded) {S : ℕ → ℕ × ℕ} {nodes nodes' : List Node} (hN : ∀ r, TwinNode S (nodeAt nodes r) (nodeAt nodes' r))
    (e : Element) (n n' : ℕ) (hS : BlocksAgree S n n' e.blocks) :
    List.Forall₂ (Twin S) (e.place L false nodes n).1 (e.place L true nodes' n').1 ∧
    (e.place L false nodes n).2 = n + e.blocks.sum ∧ (e.place L true nodes' n').2 = n' + 2 * e.blocks.sum := by
  have G := TwinNode.ground S
  have hline := fun {f t f' t'} (h1 : TwinNode S f f') (h2 : TwinNode S t t') c => twin_pair (line_like hL) h1 h2 h1 h2 c
  have hshunt := fun {f t f' t'} (h1 : TwinNode S f f') (h2 : TwinNode S t t') c => twin_pair (shunt_like hL) h1 h2 h1 h2 c
  have hvs : ∀ {f t f' t' : Node} {m m' : ℕ} (c : List ℝ), TwinNode S f f' → TwinNode S t t' → (∀ j < 2, S (m + j) = (m' + j, m' + 2 + j)) →
      List.Forall₂ (Twin S) (placeTwoTerminal L.vs false f t c m).1 (placeTwoTerminal L.vs true f' t' c m').1 ∧
      (placeTwoTerminal L.vs false f t c m).2 = m + 2 ∧ (placeTwoTerminal L.vs true f' t' c m').2 = m' + 4 := by
    intro f t f' t' m m' c h1 h2 h3
    obtain ⟨k, a1, a2, a3⟩ := vs_shape hL
    obtain ⟨b1, b2, b3⟩ := twin_twoTerminal a1 a2 (by simp) (by intro f t; simp [terminalDict]) rfl h1 h2 h3 c
    exact ⟨.cons b1 .nil, b2, b3⟩
  cases e with
  | line f t g b bl => exact ⟨.cons (hline (hN f) (hN t) _) (.cons (hshunt (hN f) G _) (.cons (hshunt (hN t) G _) .nil)), rfl, rfl⟩
  | unbalanced ph y sh =>
    refine ⟨?_, rfl, rfl⟩
    have hflat : ∀ {α : Type} (l : List α) (f g : α → List Placed), (∀ a, List.Forall₂ (Twin S) (f a) (g a)) →
        List.Forall₂ (Twin S) (l.flatMap f) (l.flatMap g) := by
      intro α l f g h
      induction l with
      | nil => exact .nil
      | cons a l ih => rw [List.flatMap_cons, List.flatMap_cons]; exact List.rel_append (h a) ih
    refine hflat _ _ _ fun i => hflat _ _ _ fun j => ?_
    refine .cons ?_ (.cons (twin_pair (shunt_like hL) (hN _) G (hN _) G _) (.cons (twin_pair (shunt_like hL) (hN _) G (hN _) G _) .nil))
    by_cases h : i = j
    · subst h; simp only [if_true]; exact twin_pair (line_like hL) (hN _) (hN _) (hN _) (hN _) _
    · simp only [h, if_false]; exact twin_pair (shunt_like hL) (hN _) (hN _) (hN _) (hN _) _
  | transformer fp fn tp tn tr ang g b =>
    exact ⟨twin_placeTransformer hL (hN _) (hN _) (hN _) (hN _) hS.1 _ _ _ _, rfl, rfl⟩
  | centerTap f p s1 t1 s2 t2 ratio g0 b0 g1 b1 g2 b2 =>
    exact ⟨.cons (twin_ct (hN _) (hN _) (hN _) hS.1 _) (.cons (hline (hN _) (hN _) _) (.cons (hline (hN _) (hN _) _)
      (.cons (hline (hN _) (hN _) _) .nil))), rfl, rfl⟩
  | slack b vr vi =>
    obtain ⟨k, a1, a2, a3⟩ := slack_shape hL
    obtain ⟨b1, b2, b3⟩ := twin_twoTerminal a1 a2 (by simp) (by intro f t; simp [terminalDict]) rfl (hN (some b)) G hS.1 [vr, vi]
    exact ⟨.cons b1 .nil, b2, b3⟩
  | switch f t s => cases s with
    | opened => exact ⟨.nil, rfl, rfl⟩
    | closed => exact hvs [0, 0] (hN f) (hN t) hS.1
  | generator b P Vset =>
    obtain ⟨k, a1, a2, a3⟩ := gen_shape hL
    obtain ⟨b1, b2, b3⟩ := twin_twoTerminal a1 a2 (by simp) (by intro f t; simp [terminalDict]) rfl (hN (some b)) G hS.1 [P, Vset]
    exact ⟨.cons b1 .nil, b2, b3⟩
  | load f t l =>
    have hpq : ∀ c m m', List.Forall₂ (Twin S) (placeTwoTerminal L.pq false (nodeAt nodes f) (nodeAt nodes t) c m).1
        (placeTwoTerminal L.pq true (nodeAt nodes' f) (nodeAt nodes' t) c m').1 ∧
        (placeTwoTerminal L.pq false (nodeAt nodes f) (nodeAt nodes t) c m).2 = m ∧
        (placeTwoTerminal L.pq true (nodeAt nodes' f) (nodeAt nodes' t) c m').2 = m' := by
      intro c m m'
      unfold placeTwoTerminal
      simp only [twoTerminalDetails_lineLike (pq_like hL)]
      exact ⟨.cons (twin_pair (pq_like hL) (hN f) (hN t) (hN f) (hN t) c) .nil, trivial, trivial⟩
    have hic : ∀ c m m', List.Forall₂ (Twin S) (placeTwoTerminal L.ic false (nodeAt nodes f) (nodeAt nodes t) c m).1
        (placeTwoTerminal L.ic true (nodeAt nodes' f) (nodeAt nodes' t) c m').1 ∧
        (placeTwoTerminal L.ic false (nodeAt nodes f) (nodeAt nodes t) c m).2 = m ∧
        (placeTwoTerminal L.ic true (nodeAt nodes' f) (nodeAt nodes' t) c m').2 = m' := by
      intro c m m'
      unfold placeTwoTerminal
      simp only [twoTerminalDetails_lineLike (ic_like hL)]
      exact ⟨.cons (twin_pair (ic_like hL) (hN f) (hN t) (hN f) (hN t) c) .nil, trivial, trivial⟩
    simp only [Element.place, placeLoad]
    have hz : List.Forall₂ (Twin S) (if l.Z = 0 then [] else [⟨lineDetails L.shunt (nodeAt nodes f) (nodeAt nodes t) false, [l.GB.1, l.GB.2, 0]⟩])
        (if l.Z = 0 then [] else [⟨lineDetails L.shunt (nodeAt nodes' f) (nodeAt nodes' t) true, [l.GB.1, l.GB.2, 0]⟩]) := by
      split_ifs
      · exact .nil
      · exact .cons (hshunt (hN f) (hN t) _) .nil
    by_cases h1 : l.P = 0 ∧ l.Q = 0 <;> by_cases h2 : l.IP = 0 ∧ l.IQ = 0
    · simp only [h1, h2, and_self, if_true]
      exact ⟨List.rel_append (List.rel_append .nil .nil) hz, rfl, rfl⟩
    · simp only [h1, h2, and_self, if_true, if_false]
      obtain ⟨a, b, c⟩ := hic [l.IP, l.IQ] n n'
      exact ⟨List.rel_append (List.rel_append .nil a) hz, b, c⟩
    · simp only [h1, h2, and_self, if_true, if_false]
      obtain ⟨a, b, c⟩ := hpq [l.P, l.Q] n n'
      exact ⟨List.rel_append (List.rel_append a .nil) hz, b, c⟩
    · simp only [h1, h2, if_false]
      obtain ⟨a, b, c⟩ := hpq [l.P, l.Q] n n'
      rw [b, c]
      obtain ⟨a', b', c'⟩ := hic [l.IP, l.IQ] n n'
      exact ⟨List.rel_append (List.rel_append a a') hz, b', c'⟩
  | voltageSource f t vr vi => exact hvs [vr, vi] (hN f) (hN t) hS.1
  | shunt b g s => exact ⟨.cons (hshunt (hN (some b)) G _) .nil, rfl, rfl⟩
  | regulator f c t tr g b =>
    have h1 := twin_placeTransformer hL (hN f) G (hN c) G hS.1 tr 0 g b
    obtain ⟨a1, a2, a3⟩ := hvs (m := n + 4) (m' := n' + 8) [0, 0] (hN c) (hN t) hS.2.1
    exact ⟨List.rel_append h1 a1, a2, a3⟩
  | fuse f i t =>
    obtain ⟨a1, a2, a3⟩ := hvs [0, 0] (hN i) (hN t) hS.1
    exact ⟨.cons (hline (hN f) (hN i) _) a1, a2, a3⟩
  | capacitor f t sw b => cases sw with
    | opened => exact ⟨.nil, rfl, rfl⟩
    | closed => exact ⟨.cons (hshunt (hN f) (hN t) _) .nil, rfl, rfl⟩

theorem placeElements_twin (hL : L.Loaded) {S : ℕ → ℕ × ℕ} {nodes nodes' : List Node} (hN : ∀ r, TwinNode S (nodeAt nodes r) (nodeAt nodes' r))
    (es : List Element) (n n' : ℕ) (hS : BlocksAgree S n n' (es.flatMap Element.blocks)) :
    List.Forall₂ (List.Forall₂ (Twin S)) (placeElements L false nodes n es).1 (placeElements L true nodes' n' es).1 ∧
    (placeElements L false nodes n es).2 = n + (es.flatMap Element.blocks).sum ∧
    (placeElements L true nodes' n' es).2 = n' + 2 * (es.flatMap Element.blocks).sum := by
  induction es generalizing n n' with
  | nil => exact ⟨.nil, rfl, rfl⟩
  | cons e es ih =>
    rw [List.flatMap_cons, BlocksAgree.append] at hS
    obtain ⟨a1, a2, a3⟩ := place_twin hL hN e n n' hS.1
    obtain ⟨b1, b2, b3⟩ := ih _ _ hS.2
    simp only [placeElements, List.flatMap_cons, List.sum_append, a2, a3]
    exact ⟨.cons a1 b1, by rw [b2]; ring, by rw [b3]; ring⟩

theorem assignBuses_twin {S : ℕ → ℕ × ℕ} (k n n' : ℕ) (hS : BlocksAgree S n n' (List.replicate k 2)) :
    List.Forall₂ (TwinNode S) (assignBuses false k n).1 (assignBuses true k n').1 ∧
    (assignBuses false k n).2 = n + 2 * k ∧ (assignBuses true k n').2 = n' + 4 * k := by
  induction k generalizing n n' with
  | zero => exact ⟨.nil, rfl, rfl⟩
  | succ k ih =>
    rw [List.replicate_succ] at hS
    obtain ⟨a1, a2, a3⟩ := ih (n + 2) (n' + 4) hS.2
    have e0 : S n = (n', n' + 2) := hS.1 0 (by omega)
    have e1 := hS.1 1 (by omega)
    refine ⟨.cons ⟨?_, ?_, ?_, ?_⟩ a1, ?_, ?_⟩
    · show some n' = some (S n).1; rw [e0]
    · show some (n' + 1) = some (S (n + 1)).1; rw [e1]
    · show some (n' + 2) = some (S n).2; rw [e0]
    · show some (n' + 3) = some (S (n + 1)).2; rw [e1]
    · show (assignBuses false k (n + 2)).2 = _; rw [a2]; ring
    · show (assignBuses true k (n' + 4)).2 = _; rw [a3]; ring

theorem nodeAt_twin {S : ℕ → ℕ × ℕ} {a b : List Node} (h : List.Forall₂ (TwinNode S) a b) (r : Ref) : TwinNode S (nodeAt a r) (nodeAt b r) := by
  cases r with
  | none => exact TwinNode.ground S
  | some k =>
    show TwinNode S (a.getD k _) (b.getD k _)
    induction h generalizing k with
    | nil => exact TwinNode.ground S
    | cons h _ ih => cases k with
      | zero => exact h
      | succ k => exact ih k

theorem sum_replicate_two (k : ℕ) : (List.replicate k 2).sum = 2 * k := by simp [mul_comm]

/-- The two networks. -/
theorem network_twin (hL : L.Loaded) (N : Network) (o : OptKind) (ho : N.optimization = some o) :
    List.Forall₂ (TwinNode N.twin) (N.plain.assign L).nodes (N.assign L).nodes ∧
    List.Forall₂ (List.Forall₂ (Twin N.twin)) (N.plain.assign L).parts (N.assign L).parts ∧
    (N.plain.assign L).infeasibility = [] ∧ (N.plain.assign L).size = N.unknowns ∧
    (N.assign L).infeasibility = (placeInfeasibility o (2 * N.unknowns) (assignBuses true N.buses 0).1).1 ∧
    (N.assign L).nodes = (assignBuses true N.buses 0).1 := by
  have hS := twinOf_agree 0 N.blocks
  have hS' : BlocksAgree N.twin 0 0 (List.replicate N.buses 2 ++ N.elements.flatMap Element.blocks) := hS
  rw [BlocksAgree.append, sum_replicate_two] at hS'
  obtain ⟨a1, a2, a3⟩ := assignBuses_twin N.buses 0 0 hS'.1
  obtain ⟨b1, b2, b3⟩ := placeElements_twin hL (nodeAt_twin a1) N.elements _ _ hS'.2
  have hopt : N.opt = true := by simp [Network.opt, ho]
  have hsum : N.unknowns = 2 * N.buses + (N.elements.flatMap Element.blocks).sum := by
    unfold Network.unknowns Network.blocks; rw [List.sum_append, sum_replicate_two]
  have ea : (assignBuses false N.buses 0).2 = 0 + 2 * N.buses := a2
  have eb : (assignBuses true N.buses 0).2 = 0 + 2 * (2 * N.buses) := by rw [a3]; ring
  unfold Network.assign
  rw [hopt, ho]
  simp only [Network.plain, Network.opt, Option.isSome_none]
  rw [ea, eb]
  refine ⟨a1, b1, trivial, ?_, ?_, trivial⟩
  · rw [b2, hsum]; ring
  · rw [b3, hsum]; congr 2; ring

end Verif
