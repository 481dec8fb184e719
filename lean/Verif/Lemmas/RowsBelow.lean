import Verif.Lemmas.NetworkBelow

/-! Every row used by a part of a network is below the matrix size. -/

namespace Verif

open Ex Devices

variable {L : Library}

/-- All rows of a part are below `m`. -/
def Placed.RowsBelow (m : ℕ) (p : Placed) : Prop := ∀ x ∈ p.details.firstOrder, ∀ r, p.details.row x = some r → r < m

/-- The rows of a part are its own columns, or those of two nodes. -/
def Placed.RowsOf (nodes : List Node) (p : Placed) : Prop :=
  p.details.eqnMap = p.details.varMap ∨
  ∃ a b : Ref, p.details.eqnMap = fun s => (terminalDict (nodeAt nodes a) (nodeAt nodes b) s).join

theorem rowsBelow_of {nodes : List Node} {m : ℕ} (hn : ∀ b ∈ nodes, b.Below m) {p : Placed} (h : p.RowsOf nodes) (hb : p.Below m) :
    p.RowsBelow m := by
  intro x hx r hr
  have key : ∃ y ∈ p.details.seg.vars, p.details.eqnMap y = some r := by
    unfold Details.firstOrder at hx
    unfold Details.row at hr
    cases ho : p.details.opt with
    | true =>
      simp only [ho, if_true] at hx hr
      exact ⟨x, hx, hr⟩
    | false =>
      simp only [ho, Bool.false_eq_true, if_false] at hx hr
      obtain ⟨y, hy, hyr⟩ := Option.bind_eq_some_iff.1 hr
      unfold Segment.dualPrimal at hy
      rw [if_pos hx] at hy
      exact ⟨y, List.mem_append_left _ (List.mem_of_getElem? hy), hyr⟩
  obtain ⟨y, hy, hyr⟩ := key
  rcases h with h | ⟨a, b, h⟩
  · rw [h] at hyr; exact hb y hy r hyr
  · rw [h] at hyr; exact terminalDict_below (nodeAt_below hn a) (nodeAt_below hn b) y r hyr

theorem place_rowsOf {opt : Bool} {nodes : List Node} {n : ℕ} (e : Element) : ∀ p ∈ (e.place L opt nodes n).1, p.RowsOf nodes := by
  intro p hp
  cases e with
  | unbalanced ph y sh =>
    simp only [Element.place, placeUnbalanced, List.mem_flatMap, List.mem_range] at hp
    obtain ⟨i, hi, j, hj, hp⟩ := hp
    simp only [placePair, List.mem_cons, List.not_mem_nil, or_false] at hp
    rcases hp with rfl | rfl | rfl
    · exact Or.inr ⟨some _, some _, rfl⟩
    · exact Or.inr ⟨some _, none, rfl⟩
    · exact Or.inr ⟨some _, none, rfl⟩
  | switch f t s =>
    cases s with
    | opened => simp [Element.place] at hp
    | closed =>
      simp only [Element.place, placeTwoTerminal, List.mem_cons, List.not_mem_nil, or_false] at hp
      subst hp; exact Or.inl rfl
  | capacitor f t sw b =>
    cases sw with
    | opened => simp [Element.place] at hp
    | closed =>
      simp only [Element.place, List.mem_cons, List.not_mem_nil, or_false] at hp
      subst hp; exact Or.inl rfl
  | load f t l =>
    simp only [Element.place, placeLoad, placeTwoTerminal, List.mem_append] at hp
    rcases hp with (hp | hp) | hp
    · split_ifs at hp
      · simp at hp
      · simp only [List.mem_cons, List.not_mem_nil, or_false] at hp
        subst hp; exact Or.inl rfl
    · have : ∃ m, p = ⟨(twoTerminalDetails L.ic (nodeAt nodes f) (nodeAt nodes t) m opt).1, [l.IP, l.IQ]⟩ := by
        split_ifs at hp <;> simp at hp <;> exact ⟨_, hp⟩
      obtain ⟨m, rfl⟩ := this
      exact Or.inl rfl
    · split_ifs at hp
      · simp at hp
      · simp only [List.mem_cons, List.not_mem_nil, or_false] at hp
        subst hp; exact Or.inl rfl
  | line f t g b bl =>
    simp only [Element.place, List.mem_cons, List.not_mem_nil, or_false] at hp
    rcases hp with rfl | rfl | rfl <;> exact Or.inl rfl
  | transformer fp fn tp tn tr ang g b =>
    simp only [Element.place, placeTransformer, List.mem_cons, List.not_mem_nil, or_false] at hp
    rcases hp with rfl | rfl <;> exact Or.inl rfl
  | centerTap f p0 s1 t1 s2 t2 ratio g0 b0 g1 b1 g2 b2 =>
    simp only [Element.place, List.mem_cons, List.not_mem_nil, or_false] at hp
    rcases hp with rfl | rfl | rfl | rfl <;> exact Or.inl rfl
  | regulator f c t tr g b =>
    simp only [Element.place, placeTransformer, placeTwoTerminal, List.mem_append, List.mem_cons, List.not_mem_nil, or_false] at hp
    rcases hp with (rfl | rfl) | rfl <;> exact Or.inl rfl
  | fuse f i t =>
    simp only [Element.place, placeTwoTerminal, List.mem_cons, List.not_mem_nil, or_false] at hp
    rcases hp with rfl | rfl <;> exact Or.inl rfl
  | slack b vr vi =>
    simp only [Element.place, placeTwoTerminal, List.mem_cons, List.not_mem_nil, or_false] at hp
    subst hp; exact Or.inl rfl
  | generator b P V =>
    simp only [Element.place, placeTwoTerminal, List.mem_cons, List.not_mem_nil, or_false] at hp
    subst hp; exact Or.inl rfl
  | voltageSource f t vr vi =>
    simp only [Element.place, placeTwoTerminal, List.mem_cons, List.not_mem_nil, or_false] at hp
    subst hp; exact Or.inl rfl
  | shunt b g s =>
    simp only [Element.place, List.mem_cons, List.not_mem_nil, or_false] at hp
    subst hp; exact Or.inl rfl

theorem placeElements_rowsOf {opt : Bool} {nodes : List Node} (es : List Element) {n : ℕ} :
    ∀ p ∈ (placeElements L opt nodes n es).1.flatten, p.RowsOf nodes := by
  induction es generalizing n with
  | nil => simp [placeElements]
  | cons e es ih =>
    intro p hp
    simp only [placeElements, List.flatten_cons, List.mem_append] at hp
    rcases hp with hp | hp
    · exact place_rowsOf e p hp
    · exact ih p hp

theorem placeInfeasibility_rowsOf (k : OptKind) (nodes bs : List Node) {n : ℕ} :
    ∀ p ∈ (placeInfeasibility k n bs).1, p.RowsOf nodes := by
  induction bs generalizing n with
  | nil => simp [placeInfeasibility]
  | cons b bs ih =>
    intro p hp
    simp only [placeInfeasibility, List.mem_cons] at hp
    rcases hp with rfl | hp
    · cases k <;> exact Or.inl rfl
    · exact ih p hp

/-- The rows of every part of a network are inside the matrix. -/
theorem network_rows_below (hL : L.Loaded) (N : Network) : ∀ p ∈ (N.assign L).all, p.RowsBelow (N.assign L).size := by
  intro p hp
  obtain ⟨h1, h2⟩ := assignBuses_below N.opt N.buses 0
  obtain ⟨e1, e2⟩ := placeElements_below (opt := N.opt) hL N.elements h2
  have hb := network_below hL N p hp
  cases ho : N.optimization with
  | none =>
    unfold Assignment.all Network.assign at hp
    unfold Network.assign at hb ⊢
    simp only [ho, List.append_nil] at hp hb ⊢
    exact rowsBelow_of (fun b hb => (h2 b hb).mono e1) (placeElements_rowsOf _ p hp) hb
  | some k =>
    obtain ⟨f1, f2⟩ := placeInfeasibility_below k (assignBuses N.opt N.buses 0).1 fun b hb => (h2 b hb).mono e1
    unfold Assignment.all Network.assign at hp
    unfold Network.assign at hb ⊢
    simp only [ho] at hp hb ⊢
    have hn : ∀ b ∈ (assignBuses N.opt N.buses 0).1, b.Below (placeInfeasibility k (placeElements L N.opt (assignBuses N.opt N.buses 0).1
        (assignBuses N.opt N.buses 0).2 N.elements).2 (assignBuses N.opt N.buses 0).1).2 := fun b hb => ((h2 b hb).mono e1).mono f1
    rcases List.mem_append.1 hp with hp | hp
    · exact rowsBelow_of hn (placeElements_rowsOf _ p hp) hb
    · exact rowsBelow_of hn (placeInfeasibility_rowsOf _ _ _ p hp) hb

end Verif
