import Verif.Lemmas.Placement
import Verif.Spec.Unknowns

/-!
# C07: the index assignment
-/

namespace Verif

open Ex Devices

/-- `k` fresh indices from `n`. -/
def fresh (n k : ℕ) : List Idx := (List.range' n k).map some

theorem fresh_append (n k l : ℕ) : fresh n k ++ fresh (n + k) l = fresh n (k + l) := by
  unfold fresh; rw [← List.map_append, List.range'_append_1]

theorem assignBuses_fresh (opt : Bool) (k n : ℕ) :
    ∃ m, (assignBuses opt k n).2 = n + m ∧ (assignBuses opt k n).1.flatMap (Node.unknowns opt) = fresh n m := by
  induction k generalizing n with
  | zero => exact ⟨0, rfl, rfl⟩
  | succ k ih =>
    cases opt with
    | true =>
      obtain ⟨m, h1, h2⟩ := ih (n + 4)
      refine ⟨4 + m, ?_, ?_⟩
      · simp only [assignBuses, assignBus, if_true, h1]; omega
      · rw [← fresh_append n 4 m, ← h2]; rfl
    | false =>
      obtain ⟨m, h1, h2⟩ := ih (n + 2)
      refine ⟨2 + m, ?_, ?_⟩
      · simp only [assignBuses, assignBus, h1, Bool.false_eq_true, if_false]; omega
      · rw [← fresh_append n 2 m, ← h2]; rfl

theorem map_idx_fresh (own : List Sym) (hn : own.Nodup) (n : ℕ) (m : Sym → Idx) (h : ∀ s ∈ own, m s = some (n + own.idxOf s)) :
    own.map m = fresh n own.length := by
  apply List.ext_getElem
  · simp [fresh]
  · intro i h1 h2
    simp only [List.getElem_map, fresh, List.getElem_range', one_mul]
    rw [h _ (List.getElem_mem _), hn.idxOf_getElem]

theorem twoTerminal_fresh {seg : Segment} (f t : Node) (n : ℕ) (opt : Bool) {own lams : List Sym}
    (hp : seg.primals = terminals ++ own) (hd : seg.duals = [.LrFrom, .LiFrom, .LrTo, .LiTo] ++ lams)
    (hn : (own ++ lams).Nodup) (hmiss : ∀ s ∈ own ++ lams, terminalDict f t s = none) (consts : List ℝ)
    (before after : List Placed) :
    ∃ m, (placeTwoTerminal seg opt f t consts n).2 = n + m ∧
      (twoTerminalUnknowns opt before.length seg own).map
        (unknownIdx (before ++ (placeTwoTerminal seg opt f t consts n).1 ++ after)) = fresh n m := by
  obtain ⟨_, _, _, _, h1, h2, h3⟩ := twoTerminalDetails_spec f t n opt hp hd hn hmiss
  have hidx : ∀ s, unknownIdx (before ++ (placeTwoTerminal seg opt f t consts n).1 ++ after) (before.length, s) =
      (twoTerminalDetails seg f t n opt).1.varMap s := by
    intro s; simp [unknownIdx, placeTwoTerminal]
  have hno : own.Nodup := (List.nodup_append.1 hn).1
  have hnl : lams.Nodup := (List.nodup_append.1 hn).2.1
  refine ⟨own.length + if opt then lams.length else 0, by rw [← Nat.add_assoc]; exact h3, ?_⟩
  unfold twoTerminalUnknowns
  rw [List.map_map]
  simp only [Function.comp_def, hidx]
  rw [List.map_append, map_idx_fresh own hno n _ h1, ← fresh_append]
  congr 1
  cases opt with
  | true =>
    simp only [if_true, hd, List.drop_append_of_le_length (show 4 ≤ [Sym.LrFrom, .LiFrom, .LrTo, .LiTo].length from le_rfl)]
    exact map_idx_fresh lams hnl _ _ fun s hs => by simpa using h2 s hs
  | false => rfl

theorem xfmr_fresh {L : Library} (opt : Bool) (fp fn tp tn : Node) (tr ang g b : ℝ) (n : ℕ) (after : List Placed) :
    ∃ m, (placeTransformer L opt fp fn tp tn tr ang g b n).2 = n + m ∧
      ((xfmrUnknowns opt 0).map (unknownIdx ((placeTransformer L opt fp fn tp tn tr ang g b n).1 ++ after))) = fresh n m := by
  cases opt with
  | true => exact ⟨8, rfl, rfl⟩
  | false => exact ⟨4, rfl, rfl⟩

theorem placeLoad_counter {L : Library} (hL : L.Loaded) (opt : Bool) (f t : Node) (l : Load) (n : ℕ) :
    (placeLoad L opt f t l n).2 = n := by
  obtain ⟨a1, a2, _⟩ := pq_shape hL
  obtain ⟨b1, b2, _⟩ := ic_shape hL
  have h1 : ∀ n c, (placeTwoTerminal L.pq opt f t c n).2 = n := by
    intro n c
    obtain ⟨_, _, _, _, _, _, h⟩ := twoTerminalDetails_spec f t n opt a1 a2 (by simp) (by simp)
    show (twoTerminalDetails L.pq f t n opt).2 = n
    rw [h]; simp
  have h2 : ∀ n c, (placeTwoTerminal L.ic opt f t c n).2 = n := by
    intro n c
    obtain ⟨_, _, _, _, _, _, h⟩ := twoTerminalDetails_spec f t n opt b1 b2 (by simp) (by simp)
    show (twoTerminalDetails L.ic f t n opt).2 = n
    rw [h]; simp
  unfold placeLoad
  simp only
  split_ifs <;> simp [h1, h2]

/-- One element takes the next indices, one for each of its own unknowns. -/
theorem place_fresh {L : Library} (hL : L.Loaded) (opt : Bool) (nodes : List Node) (e : Element) (n : ℕ) :
    ∃ m, (e.place L opt nodes n).2 = n + m ∧
      ((Element.unknowns L opt e).map (unknownIdx (e.place L opt nodes n).1)) = fresh n m := by
  have vs : ∀ f t c n before, ∃ m, (placeTwoTerminal L.vs opt f t c n).2 = n + m ∧
      ((twoTerminalUnknowns opt (before : List Placed).length L.vs [.Ir, .Ii]).map
        (unknownIdx (before ++ (placeTwoTerminal L.vs opt f t c n).1))) = fresh n m := by
    intro f t c n before
    obtain ⟨k, h1, h2, _⟩ := vs_shape hL
    obtain ⟨m, e1, e2⟩ := twoTerminal_fresh f t n opt h1 h2 (by simp) (by simp [terminalDict]) c before []
    rw [List.append_nil] at e2
    exact ⟨m, e1, e2⟩
  cases e with
  | line f t g b bl => exact ⟨0, rfl, rfl⟩
  | unbalanced ph y sh => exact ⟨0, rfl, rfl⟩
  | transformer fp fn tp tn tr ang g b =>
    obtain ⟨m, h1, h2⟩ := xfmr_fresh (L := L) opt (nodeAt nodes fp) (nodeAt nodes fn) (nodeAt nodes tp) (nodeAt nodes tn)
      tr ang g b n []
    rw [List.append_nil] at h2
    exact ⟨m, h1, h2⟩
  | centerTap f p s1 t1 s2 t2 ratio g0 b0 g1 b1 g2 b2 =>
    cases opt with
    | true => exact ⟨8, rfl, rfl⟩
    | false => exact ⟨4, rfl, rfl⟩
  | slack b vr vi =>
    obtain ⟨k, h1, h2, _⟩ := slack_shape hL
    obtain ⟨m, e1, e2⟩ := twoTerminal_fresh (nodeAt nodes (some b)) Node.ground n opt h1 h2 (by simp)
      (by simp [terminalDict]) [vr, vi] [] []
    rw [List.append_nil, List.nil_append] at e2
    exact ⟨m, e1, e2⟩
  | switch f t s =>
    cases s with
    | opened => exact ⟨0, rfl, rfl⟩
    | closed => exact vs (nodeAt nodes f) (nodeAt nodes t) [0, 0] n []
  | generator b P V =>
    obtain ⟨k, h1, h2, _⟩ := gen_shape hL
    obtain ⟨m, e1, e2⟩ := twoTerminal_fresh (nodeAt nodes (some b)) Node.ground n opt h1 h2 (by simp)
      (by simp [terminalDict]) [P, V] [] []
    rw [List.append_nil, List.nil_append] at e2
    exact ⟨m, e1, e2⟩
  | load f t l => exact ⟨0, placeLoad_counter hL opt _ _ l n, rfl⟩
  | voltageSource f t vr vi => exact vs (nodeAt nodes f) (nodeAt nodes t) [vr, vi] n []
  | shunt b g s => exact ⟨0, rfl, rfl⟩
  | regulator f c t tr g b =>
    set x := placeTransformer L opt (nodeAt nodes f) Node.ground (nodeAt nodes c) Node.ground tr 0 g b n with hx
    set s := placeTwoTerminal L.vs opt (nodeAt nodes c) (nodeAt nodes t) [0, 0] x.2 with hs
    obtain ⟨m, h1, h2⟩ := xfmr_fresh (L := L) opt (nodeAt nodes f) Node.ground (nodeAt nodes c) Node.ground tr 0 g b n s.1
    obtain ⟨m', h1', h2'⟩ := vs (nodeAt nodes c) (nodeAt nodes t) [0, 0] x.2 x.1
    refine ⟨m + m', ?_, ?_⟩
    · show s.2 = _
      rw [hs, h1', hx, h1]; omega
    · rw [← fresh_append]
      show ((xfmrUnknowns opt 0 ++ twoTerminalUnknowns opt 2 L.vs [.Ir, .Ii]).map (unknownIdx (x.1 ++ s.1))) = _
      rw [List.map_append]
      refine congrArg₂ (· ++ ·) h2 ?_
      have h3 : x.2 = n + m := h1
      rw [h3] at h2'
      have h4 : s = placeTwoTerminal L.vs opt (nodeAt nodes c) (nodeAt nodes t) [0, 0] (n + m) := by rw [hs, h3]
      rw [h4]
      exact h2'
  | fuse f i t =>
    exact vs (nodeAt nodes i) (nodeAt nodes t) [0, 0] n [⟨lineDetails L.line (nodeAt nodes f) (nodeAt nodes i) opt, [10000, 10000, 0]⟩]
  | capacitor f t sw b => cases sw <;> exact ⟨0, rfl, rfl⟩

theorem placeElements_fresh {L : Library} (hL : L.Loaded) (opt : Bool) (nodes : List Node) (es : List Element) (n : ℕ) :
    ∃ m, (placeElements L opt nodes n es).2 = n + m ∧
      ((List.zipWith (fun e ps => (Element.unknowns L opt e).map (unknownIdx ps)) es
        (placeElements L opt nodes n es).1).flatten).Perm (fresh n m) := by
  induction es generalizing n with
  | nil => exact ⟨0, rfl, List.Perm.of_eq rfl⟩
  | cons e es ih =>
    obtain ⟨m, h1, h2⟩ := place_fresh hL opt nodes e n
    obtain ⟨m', h1', h2'⟩ := ih (n + m)
    refine ⟨m + m', ?_, ?_⟩
    · simp only [placeElements, h1, h1']; omega
    · rw [← fresh_append]
      simp only [placeElements, h1, List.zipWith_cons_cons, List.flatten_cons]
      exact (List.Perm.of_eq h2).append h2'

theorem placeInfeasibility_fresh (k : OptKind) (bs : List Node) (n : ℕ) :
    ∃ m, (placeInfeasibility k n bs).2 = n + m ∧
      ((placeInfeasibility k n bs).1.flatMap fun p => k.unknowns.map p.details.varMap).Perm (fresh n m) := by
  induction bs generalizing n with
  | nil => exact ⟨0, rfl, List.Perm.of_eq rfl⟩
  | cons b bs ih =>
    cases k with
    | L1 =>
      obtain ⟨m, h1, h2⟩ := ih (n + 4)
      refine ⟨4 + m, ?_, ?_⟩
      · simp only [placeInfeasibility, placeL1, h1]; omega
      · rw [← fresh_append n 4 m]
        simp only [placeInfeasibility, List.flatMap_cons]
        exact List.Perm.append (List.Perm.of_eq rfl) h2
    | L2 =>
      obtain ⟨m, h1, h2⟩ := ih (n + 2)
      refine ⟨2 + m, ?_, ?_⟩
      · simp only [placeInfeasibility, placeL2, h1]; omega
      · rw [← fresh_append n 2 m]
        simp only [placeInfeasibility, List.flatMap_cons]
        exact List.Perm.append (List.Perm.of_eq rfl) h2

/-- **C07.** For every network (any buses, any list of elements of every kind, with or without an infeasibility
analysis): every unknown of the network gets a column, no two unknowns share one, and the columns are exactly
`0, …, size_Y - 1`. -/
theorem C07_columns_are_a_numbering {L : Library} (hL : L.Loaded) (N : Network) :
    ((N.assign L).unknowns L N).Perm ((List.range (N.assign L).size).map some) := by
  obtain ⟨m1, a1, a2⟩ := assignBuses_fresh N.opt N.buses 0
  obtain ⟨m2, b1, b2⟩ := placeElements_fresh hL N.opt (assignBuses N.opt N.buses 0).1 N.elements (assignBuses N.opt N.buses 0).2
  have hr : ∀ k, (List.range k).map some = fresh 0 k := fun k => by
    unfold fresh; rw [List.range_eq_range']
  have h12 : ((assignBuses N.opt N.buses 0).1.flatMap (Node.unknowns N.opt) ++
      (List.zipWith (fun e ps => (Element.unknowns L N.opt e).map (unknownIdx ps)) N.elements
        (placeElements L N.opt (assignBuses N.opt N.buses 0).1 (assignBuses N.opt N.buses 0).2 N.elements).1).flatten).Perm
      (fresh 0 (m1 + m2)) := by
    rw [← fresh_append, a2]
    refine List.Perm.append_left _ ?_
    have : 0 + m1 = (assignBuses N.opt N.buses 0).2 := a1.symm
    rw [this]; exact b2
  rw [hr]
  cases ho : N.optimization with
  | none =>
    unfold Assignment.unknowns Network.assign
    simp only [ho, List.append_nil]
    have : (placeElements L N.opt (assignBuses N.opt N.buses 0).1 (assignBuses N.opt N.buses 0).2 N.elements).2 = m1 + m2 := by
      rw [b1, a1]; omega
    rw [this]; exact h12
  | some k =>
    obtain ⟨m3, c1, c2⟩ := placeInfeasibility_fresh k (assignBuses N.opt N.buses 0).1
      (placeElements L N.opt (assignBuses N.opt N.buses 0).1 (assignBuses N.opt N.buses 0).2 N.elements).2
    unfold Assignment.unknowns Network.assign
    simp only [ho]
    have e2 : (placeElements L N.opt (assignBuses N.opt N.buses 0).1 (assignBuses N.opt N.buses 0).2 N.elements).2 = m1 + m2 := by
      rw [b1, a1]; omega
    have e3 : (placeInfeasibility k (placeElements L N.opt (assignBuses N.opt N.buses 0).1 (assignBuses N.opt N.buses 0).2
        N.elements).2 (assignBuses N.opt N.buses 0).1).2 = (m1 + m2) + m3 := by rw [c1, e2]
    rw [e3, ← fresh_append]
    refine h12.append ?_
    rw [Nat.zero_add]; rw [e2] at c2 ⊢; exact c2

/-- **C07, as an injection.** Consequence in the usual words: different unknowns have different columns, and every
column below `size_Y` belongs to an unknown. -/
theorem C07_distinct_and_dense {L : Library} (hL : L.Loaded) (N : Network) :
    ((N.assign L).unknowns L N).Nodup ∧ ∀ i, i < (N.assign L).size ↔ some i ∈ (N.assign L).unknowns L N := by
  have h := C07_columns_are_a_numbering hL N
  constructor
  · rw [h.nodup_iff]; exact List.Nodup.map (Option.some_injective _) List.nodup_range
  · intro i; rw [h.mem_iff]; simp

/-- **C07 fails for the bound multipliers of the L1 analysis.** They are separate variables of the L1 Lagrangian but
are given the columns of the currents they belong to. -/
theorem C07_L1_multipliers_fails (b : Node) (n : ℕ) :
    let m := (placeL1 b n).1.details.varMap
    Sym.muVrPlus ∈ (placeL1 b n).1.details.seg.vars ∧ Sym.IirPlus ∈ (placeL1 b n).1.details.seg.vars ∧
    m .muVrPlus = m .IirPlus ∧ m .muViPlus = m .IiiPlus ∧ m .muVrMinus = m .IirMinus ∧ m .muViMinus = m .IiiMinus := by
  refine ⟨?_, ?_, rfl, rfl, rfl, rfl⟩ <;> simp [placeL1, l1, Segment.vars]

/-- A network with several kinds of elements, eleven unknowns in plain mode. -/
example {L : Library} (hL : L.Loaded) :
    let N : Network := ⟨2, [.line (some 0) (some 1) 1 (-1) 0, .transformer (some 0) none (some 1) none 2 0 1 0,
      .slack 0 1 0, .switch (some 0) (some 1) .opened, .generator 1 (-1) 1, .load (some 1) none ⟨1, 0, 0, 0, 0⟩], none⟩
    (N.assign L).size = 11 := by
  obtain ⟨k, h1, h2, _⟩ := slack_shape hL
  obtain ⟨k', h1', h2', _⟩ := gen_shape hL
  intro N
  have s1 := fun n => (twoTerminalDetails_spec (nodeAt (assignBuses false 2 0).1 (some 0)) Node.ground n false h1 h2 (by simp)
    (by simp [terminalDict])).2.2.2.2.2.2
  have s2 := fun n => (twoTerminalDetails_spec (nodeAt (assignBuses false 2 0).1 (some 1)) Node.ground n false h1' h2' (by simp)
    (by simp [terminalDict])).2.2.2.2.2.2
  simp only [Network.assign, N, Network.opt, Option.isSome_none, placeElements, Element.place, placeTransformer,
    placeTwoTerminal, s1, s2, placeLoad_counter hL, Bool.false_eq_true, if_false]
  simp [assignBuses, assignBus]

/-- Its columns are 0 to 10, each once. -/
example {L : Library} (hL : L.Loaded) (N : Network) (h : (N.assign L).size = 11) :
    ((N.assign L).unknowns L N).length = 11 ∧ some 10 ∈ (N.assign L).unknowns L N ∧ some 11 ∉ (N.assign L).unknowns L N := by
  refine ⟨?_, ((C07_distinct_and_dense hL N).2 10).1 (by omega), fun hm => ?_⟩
  · rw [(C07_columns_are_a_numbering hL N).length_eq]; simp [h]
  · have := ((C07_distinct_and_dense hL N).2 11).2 hm
    omega

end Verif
