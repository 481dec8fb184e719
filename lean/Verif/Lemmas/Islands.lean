import Verif.Spec.Islands
import Mathlib.Tactic.Linarith

/-!
# Lemmas on the graph of the network
-/

namespace Verif

theorem GEdge.joins_iff (e : GEdge) (a b : Txt) : e.joins a b = true ↔ e.u = a ∧ e.v = b ∨ e.u = b ∧ e.v = a := by
  simp [GEdge.joins]

/-- Unordered pairs. -/
def SamePair (a b c d : Txt) : Prop := a = c ∧ b = d ∨ a = d ∧ b = c

/-- Element `i` is listed on an edge between the nodes. -/
def Graph.Holds (G : Graph) (a b : Txt) (i : ℕ) : Prop := ∃ e ∈ G.edges, SamePair e.u e.v a b ∧ i ∈ e.elements

theorem joins_samePair (e : GEdge) (a b : Txt) : e.joins a b = true ↔ SamePair e.u e.v a b := by
  rw [GEdge.joins_iff]; rfl

theorem SamePair.symm {a b c d : Txt} (h : SamePair a b c d) : SamePair c d a b := by
  rcases h with ⟨rfl, rfl⟩ | ⟨rfl, rfl⟩
  · exact .inl ⟨rfl, rfl⟩
  · exact .inr ⟨rfl, rfl⟩

theorem SamePair.trans {a b c d e f : Txt} (h : SamePair a b c d) (h' : SamePair c d e f) : SamePair a b e f := by
  rcases h with ⟨rfl, rfl⟩ | ⟨rfl, rfl⟩
  · exact h'
  · rcases h' with ⟨rfl, rfl⟩ | ⟨rfl, rfl⟩
    · exact .inr ⟨rfl, rfl⟩
    · exact .inl ⟨rfl, rfl⟩

/-- What is always true of the graph being built; `k` bounds the element numbers used so far. -/
structure Graph.Good (G : Graph) (k : ℕ) : Prop where
  ends : ∀ e ∈ G.edges, e.u ∈ G.nodes ∧ e.v ∈ G.nodes
  proper : ∀ e ∈ G.edges, e.u ≠ e.v
  listed : ∀ e ∈ G.edges, e.elements ≠ []
  sorted : ∀ e ∈ G.edges, e.elements.Pairwise (· < ·)
  bounded : ∀ e ∈ G.edges, ∀ i ∈ e.elements, i ≤ k
  unique : ∀ e ∈ G.edges, ∀ e' ∈ G.edges, SamePair e.u e.v e'.u e'.v → e = e'

theorem insertNodes (ns : List Txt) (a b n : Txt) :
    n ∈ [a, b].foldl (fun ns n => if n ∈ ns then ns else ns ++ [n]) ns ↔ n ∈ ns ∨ n = a ∨ n = b := by
  have key : ∀ (ms : List Txt) (x : Txt), n ∈ (if x ∈ ms then ms else ms ++ [x]) ↔ n ∈ ms ∨ n = x := by
    intro ms x
    split
    · constructor
      · exact .inl
      · rintro (h | rfl) <;> assumption
    · simp
  rw [List.foldl_cons, List.foldl_cons, List.foldl_nil, key, key, or_assoc]

theorem link_good {G : Graph} {k : ℕ} (hG : G.Good k) (a b : Txt) (hab : a ≠ b) (i : ℕ) (hi : k ≤ i) :
    (G.link a b i).Good i ∧ (∀ c d j, (G.link a b i).Holds c d j ↔ G.Holds c d j ∨ SamePair a b c d ∧ j = i) ∧
      ∀ n, n ∈ (G.link a b i).nodes ↔ n ∈ G.nodes ∨ n = a ∨ n = b := by
  unfold Graph.link
  by_cases hx : (G.edges.any fun e => e.joins a b) = true
  · rw [if_pos hx]
    obtain ⟨e0, h0, hj⟩ := List.any_eq_true.1 hx
    rw [joins_samePair] at hj
    have hu : ∀ e : GEdge, (if e.joins a b = true ∧ i ∉ e.elements then { e with elements := e.elements ++ [i] } else e).u = e.u := by
      intro e; split <;> rfl
    have hv : ∀ e : GEdge, (if e.joins a b = true ∧ i ∉ e.elements then { e with elements := e.elements ++ [i] } else e).v = e.v := by
      intro e; split <;> rfl
    have hm : ∀ (e : GEdge) j, j ∈ (if e.joins a b = true ∧ i ∉ e.elements then { e with elements := e.elements ++ [i] } else e).elements ↔
        j ∈ e.elements ∨ SamePair e.u e.v a b ∧ j = i := by
      intro e j
      rw [← joins_samePair]
      split
      · rename_i h
        simp [h.1]
      · rename_i h
        constructor
        · exact .inl
        · rintro (h1 | ⟨h1, rfl⟩)
          · exact h1
          · by_contra h2; exact h ⟨h1, h2⟩
    refine ⟨⟨?_, ?_, ?_, ?_, ?_, ?_⟩, ?_, ?_⟩
    · intro e he
      obtain ⟨e1, h1, rfl⟩ := List.mem_map.1 he
      rw [hu, hv]
      exact hG.ends e1 h1
    · intro e he
      obtain ⟨e1, h1, rfl⟩ := List.mem_map.1 he
      rw [hu, hv]
      exact hG.proper e1 h1
    · intro e he
      obtain ⟨e1, h1, rfl⟩ := List.mem_map.1 he
      split
      · simp
      · exact hG.listed e1 h1
    · intro e he
      obtain ⟨e1, h1, rfl⟩ := List.mem_map.1 he
      split
      · rename_i hc
        rw [List.pairwise_append]
        refine ⟨hG.sorted e1 h1, List.pairwise_singleton _ _, ?_⟩
        intro x hx y hy
        rw [List.mem_singleton] at hy
        subst hy
        have := hG.bounded e1 h1 x hx
        have : x ≠ y := fun h => hc.2 (h ▸ hx)
        omega
      · exact hG.sorted e1 h1
    · intro e he j hj'
      obtain ⟨e1, h1, rfl⟩ := List.mem_map.1 he
      rcases (hm e1 j).1 hj' with h | ⟨-, rfl⟩
      · exact (hG.bounded e1 h1 j h).trans hi
      · exact le_rfl
    · intro e he e' he' h
      obtain ⟨e1, h1, rfl⟩ := List.mem_map.1 he
      obtain ⟨e2, h2, rfl⟩ := List.mem_map.1 he'
      rw [hu, hv, hu, hv] at h
      rw [hG.unique e1 h1 e2 h2 h]
    · intro c d j
      constructor
      · rintro ⟨e, he, hp, hj'⟩
        obtain ⟨e1, h1, rfl⟩ := List.mem_map.1 he
        rw [hu, hv] at hp
        rcases (hm e1 j).1 hj' with h | ⟨h, rfl⟩
        · exact .inl ⟨e1, h1, hp, h⟩
        · exact .inr ⟨h.symm.trans hp, rfl⟩
      · rintro (⟨e, he, hp, hj'⟩ | ⟨hp, rfl⟩)
        · exact ⟨_, List.mem_map.2 ⟨e, he, rfl⟩, by rw [hu, hv]; exact hp, (hm e j).2 (.inl hj')⟩
        · exact ⟨_, List.mem_map.2 ⟨e0, h0, rfl⟩, by rw [hu, hv]; exact hj.trans hp, (hm e0 _).2 (.inr ⟨hj, rfl⟩)⟩
    · intro n
      have := hG.ends e0 h0
      constructor
      · exact .inl
      · rintro (h | rfl | rfl)
        · exact h
        · rcases hj with ⟨h1, h2⟩ | ⟨h1, h2⟩
          · exact h1 ▸ this.1
          · exact h2 ▸ this.2
        · rcases hj with ⟨h1, h2⟩ | ⟨h1, h2⟩
          · exact h2 ▸ this.2
          · exact h1 ▸ this.1
  · rw [if_neg hx]
    have hno : ∀ e ∈ G.edges, ¬ SamePair e.u e.v a b := by
      intro e he h
      exact hx (List.any_eq_true.2 ⟨e, he, (joins_samePair e a b).2 h⟩)
    refine ⟨⟨?_, ?_, ?_, ?_, ?_, ?_⟩, ?_, fun n => insertNodes G.nodes a b n⟩
    · intro e he
      rcases List.mem_append.1 he with h | h
      · exact ⟨(insertNodes _ _ _ _).2 (.inl (hG.ends e h).1), (insertNodes _ _ _ _).2 (.inl (hG.ends e h).2)⟩
      · rw [List.mem_singleton] at h
        subst h
        exact ⟨(insertNodes _ _ _ _).2 (.inr (.inl rfl)), (insertNodes _ _ _ _).2 (.inr (.inr rfl))⟩
    · intro e he
      rcases List.mem_append.1 he with h | h
      · exact hG.proper e h
      · rw [List.mem_singleton] at h
        subst h
        exact hab
    · intro e he
      rcases List.mem_append.1 he with h | h
      · exact hG.listed e h
      · rw [List.mem_singleton] at h
        subst h
        simp
    · intro e he
      rcases List.mem_append.1 he with h | h
      · exact hG.sorted e h
      · rw [List.mem_singleton] at h
        subst h
        simp
    · intro e he j hj
      rcases List.mem_append.1 he with h | h
      · exact (hG.bounded e h j hj).trans hi
      · rw [List.mem_singleton] at h
        subst h
        simp at hj
        exact hj.le
    · intro e he e' he' hp
      rcases List.mem_append.1 he with h | h <;> rcases List.mem_append.1 he' with h' | h'
      · exact hG.unique e h e' h' hp
      · rw [List.mem_singleton] at h'
        subst h'
        exact absurd hp (hno e h)
      · rw [List.mem_singleton] at h
        subst h
        exact absurd hp.symm (hno e' h')
      · rw [List.mem_singleton] at h h'
        rw [h, h']
    · intro c d j
      constructor
      · rintro ⟨e, he, hp, hj⟩
        rcases List.mem_append.1 he with h | h
        · exact .inl ⟨e, h, hp, hj⟩
        · rw [List.mem_singleton] at h
          subst h
          simp at hj
          exact .inr ⟨hp, hj⟩
      · rintro (⟨e, he, hp, hj⟩ | ⟨hp, rfl⟩)
        · exact ⟨e, List.mem_append_left _ he, hp, hj⟩
        · exact ⟨_, List.mem_append_right _ (List.mem_singleton_self _), hp, by simp⟩

/-- One step of the construction: element, its number, a connection. -/
def graphStep (buses : List GBus) (G : Graph) (x : Element × ℕ × Ref × Ref) : Graph := Graph.connect buses x.1 x.2.1 G x.2.2

/-- The step joins two nodes with different names. -/
def StepLinks (buses : List GBus) (x : Element × ℕ × Ref × Ref) (a b : Txt) : Prop :=
  x.1.isLoadType = false ∧ a ≠ b ∧ ∃ f t, x.2.2 = (some f, some t) ∧ SamePair (nameOf buses f) (nameOf buses t) a b

/-- All steps in order. -/
def graphSteps (elements : List Element) (k : ℕ) : List (Element × ℕ × Ref × Ref) :=
  (elements.zipIdx k).flatMap fun x => x.1.connections.map fun c => (x.1, x.2, c)

theorem build_steps (buses : List GBus) (elements : List Element) :
    Graph.build buses elements = (graphSteps elements 0).foldl (graphStep buses) ⟨graphNodes buses, []⟩ := by
  unfold Graph.build graphSteps
  generalize (⟨graphNodes buses, []⟩ : Graph) = G0
  generalize elements.zipIdx 0 = xs
  induction xs generalizing G0 with
  | nil => rfl
  | cons x xs ih =>
    rw [List.foldl_cons, List.flatMap_cons, List.foldl_append, ih]
    congr 1
    rw [List.foldl_map]
    rfl

theorem graphSteps_number (elements : List Element) (k : ℕ) (x : Element × ℕ × Ref × Ref) (hx : x ∈ graphSteps elements k) :
    k ≤ x.2.1 ∧ elements[x.2.1 - k]? = some x.1 ∧ x.2.2 ∈ x.1.connections := by
  unfold graphSteps at hx
  obtain ⟨y, hy, hx⟩ := List.mem_flatMap.1 hx
  obtain ⟨c, hc, rfl⟩ := List.mem_map.1 hx
  obtain ⟨e, i⟩ := y
  have := List.mem_zipIdx hy
  refine ⟨this.1, ?_, hc⟩
  have h2 := this.2.2
  rw [h2, List.getElem?_eq_getElem]

theorem graphSteps_mem (elements : List Element) (i : ℕ) (e : Element) (h : elements[i]? = some e) (c : Ref × Ref) (hc : c ∈ e.connections) :
    (e, i, c) ∈ graphSteps elements 0 := by
  unfold graphSteps
  refine List.mem_flatMap.2 ⟨(e, i), ?_, List.mem_map.2 ⟨c, hc, rfl⟩⟩
  rw [List.mem_zipIdx_iff_getElem?]
  exact h

theorem graphSteps_sorted (elements : List Element) (k : ℕ) : (graphSteps elements k).Pairwise fun x y => x.2.1 ≤ y.2.1 := by
  induction elements generalizing k with
  | nil => exact List.Pairwise.nil
  | cons e es ih =>
    have : graphSteps (e :: es) k = e.connections.map (fun c => (e, k, c)) ++ graphSteps es (k + 1) := by
      simp [graphSteps, List.zipIdx_cons]
    rw [this, List.pairwise_append]
    refine ⟨?_, ih (k + 1), ?_⟩
    · rw [List.pairwise_map]
      exact List.pairwise_of_forall (fun _ _ => le_rfl)
    · intro x hx y hy
      obtain ⟨c, -, rfl⟩ := List.mem_map.1 hx
      exact (Nat.le_succ k).trans (graphSteps_number es (k + 1) y hy).1

/-- A step leaves the graph alone or adds the link. -/
theorem graphStep_cases (buses : List GBus) (G : Graph) (x : Element × ℕ × Ref × Ref) :
    (graphStep buses G x = G ∧ ((∃ a b, StepLinks buses x a b ∧ a ∉ G.nodes ∧ b ∉ G.nodes) ∨ ∀ a b, ¬ StepLinks buses x a b)) ∨
      ∃ a b, a ≠ b ∧ StepLinks buses x a b ∧ (∀ c d, StepLinks buses x c d ↔ SamePair a b c d) ∧ (a ∈ G.nodes ∨ b ∈ G.nodes) ∧
        graphStep buses G x = G.link a b x.2.1 := by
  obtain ⟨e, i, f, t⟩ := x
  unfold graphStep Graph.connect
  by_cases hl : e.isLoadType = true
  · left
    refine ⟨by simp [hl], .inr fun a b h => ?_⟩
    have := h.1
    simp [hl] at this
  · simp only [hl, Bool.false_eq_true, if_false]
    cases f with
    | none =>
      left
      refine ⟨rfl, .inr fun a b h => ?_⟩
      obtain ⟨f, t, h1, -⟩ := h.2.2
      cases h1
    | some f =>
      cases t with
      | none =>
        left
        refine ⟨rfl, .inr fun a b h => ?_⟩
        obtain ⟨f, t, h1, -⟩ := h.2.2
        cases h1
      | some t =>
        simp only
        by_cases hn : nameOf buses f = nameOf buses t
        · left
          refine ⟨by rw [if_pos hn], .inr fun a b h => ?_⟩
          obtain ⟨f', t', h1, h2⟩ := h.2.2
          cases h1
          rcases h2 with ⟨rfl, rfl⟩ | ⟨rfl, rfl⟩
          · exact h.2.1 hn
          · exact h.2.1 hn.symm
        · have hS : StepLinks buses (e, i, some f, some t) (nameOf buses f) (nameOf buses t) :=
            ⟨by simpa using hl, hn, f, t, rfl, .inl ⟨rfl, rfl⟩⟩
          rw [if_neg hn]
          by_cases hm : nameOf buses f ∉ G.nodes ∧ nameOf buses t ∉ G.nodes
          · left
            rw [if_pos hm]
            exact ⟨rfl, .inl ⟨_, _, hS, hm⟩⟩
          · right
            rw [if_neg hm]
            refine ⟨_, _, hn, hS, ?_, by tauto, rfl⟩
            intro c d
            constructor
            · rintro ⟨-, -, f', t', h1, h2⟩
              cases h1
              exact h2
            · intro h
              refine ⟨by simpa using hl, ?_, f, t, rfl, h⟩
              rcases h with ⟨rfl, rfl⟩ | ⟨rfl, rfl⟩
              · exact hn
              · exact fun h => hn h.symm

theorem steps_good (buses : List GBus) (xs : List (Element × ℕ × Ref × Ref)) (hs : xs.Pairwise fun x y => x.2.1 ≤ y.2.1) (G : Graph) (k : ℕ)
    (hk : ∀ x ∈ xs, k ≤ x.2.1) (hG : G.Good k) :
    (∃ k', (xs.foldl (graphStep buses) G).Good k') ∧ (∀ n ∈ G.nodes, n ∈ (xs.foldl (graphStep buses) G).nodes) ∧
      (∀ c d j, (xs.foldl (graphStep buses) G).Holds c d j → G.Holds c d j ∨ ∃ x ∈ xs, StepLinks buses x c d ∧ j = x.2.1) ∧
      ((∀ x ∈ xs, ∀ a b, StepLinks buses x a b → a ∈ G.nodes ∧ b ∈ G.nodes) →
        (∀ n, n ∈ (xs.foldl (graphStep buses) G).nodes ↔ n ∈ G.nodes) ∧
        ∀ c d j, (xs.foldl (graphStep buses) G).Holds c d j ↔ G.Holds c d j ∨ ∃ x ∈ xs, StepLinks buses x c d ∧ j = x.2.1) := by
  induction xs generalizing G k with
  | nil => exact ⟨⟨k, hG⟩, fun _ h => h, fun _ _ _ h => .inl h, fun _ => ⟨fun _ => Iff.rfl, fun c d j => by simp⟩⟩
  | cons x xs ih =>
    rw [List.pairwise_cons] at hs
    rw [List.foldl_cons]
    rcases graphStep_cases buses G x with ⟨h1, h2⟩ | ⟨a, b, hab, hS, hiff, hin, h1⟩
    · rw [h1]
      obtain ⟨g1, g2, g3, g4⟩ := ih hs.2 G k (fun y hy => hk y (List.mem_cons_of_mem _ hy)) hG
      refine ⟨g1, g2, ?_, ?_⟩
      · intro c d j h
        rcases g3 c d j h with h | ⟨y, hy, h⟩
        · exact .inl h
        · exact .inr ⟨y, List.mem_cons_of_mem _ hy, h⟩
      · intro hp
        obtain ⟨p1, p2⟩ := g4 fun y hy => hp y (List.mem_cons_of_mem _ hy)
        refine ⟨p1, fun c d j => ?_⟩
        rw [p2]
        constructor
        · rintro (h | ⟨y, hy, h⟩)
          · exact .inl h
          · exact .inr ⟨y, List.mem_cons_of_mem _ hy, h⟩
        · rintro (h | ⟨y, hy, h⟩)
          · exact .inl h
          · rcases List.mem_cons.1 hy with rfl | hy
            · rcases h2 with ⟨a, b, h5, h6⟩ | h5
              · exact absurd (hp _ List.mem_cons_self a b h5).1 h6.1
              · exact absurd h.1 (h5 c d)
            · exact .inr ⟨y, hy, h⟩
    · rw [h1]
      obtain ⟨l1, l2, l3⟩ := link_good hG a b hab x.2.1 (hk x List.mem_cons_self)
      obtain ⟨g1, g2, g3, g4⟩ := ih hs.2 (G.link a b x.2.1) x.2.1 (fun y hy => hs.1 y hy) l1
      refine ⟨g1, fun n hn => g2 n ((l3 n).2 (.inl hn)), ?_, ?_⟩
      · intro c d j h
        rcases g3 c d j h with h | ⟨y, hy, h⟩
        · rcases (l2 c d j).1 h with h | ⟨h', rfl⟩
          · exact .inl h
          · exact .inr ⟨x, List.mem_cons_self, (hiff c d).2 h', rfl⟩
        · exact .inr ⟨y, List.mem_cons_of_mem _ hy, h⟩
      · intro hp
        have hnodes : ∀ n, n ∈ (G.link a b x.2.1).nodes ↔ n ∈ G.nodes := by
          intro n
          rw [l3]
          have := hp x List.mem_cons_self a b hS
          constructor
          · rintro (h | rfl | rfl)
            · exact h
            · exact this.1
            · exact this.2
          · exact .inl
        obtain ⟨p1, p2⟩ := g4 fun y hy a b h => by
          rw [hnodes, hnodes]
          exact hp y (List.mem_cons_of_mem _ hy) a b h
        refine ⟨fun n => (p1 n).trans (hnodes n), fun c d j => ?_⟩
        rw [p2, l2]
        constructor
        · rintro ((h | ⟨h, rfl⟩) | ⟨y, hy, h⟩)
          · exact .inl h
          · exact .inr ⟨x, List.mem_cons_self, (hiff c d).2 h, rfl⟩
          · exact .inr ⟨y, List.mem_cons_of_mem _ hy, h⟩
        · rintro (h | ⟨y, hy, h, rfl⟩)
          · exact .inl (.inl h)
          · rcases List.mem_cons.1 hy with rfl | hy
            · exact .inl (.inr ⟨(hiff c d).1 h, rfl⟩)
            · exact .inr ⟨y, hy, h, rfl⟩

theorem connections_joins (e : Element) (hl : e.isLoadType = false) (f t : ℕ) : (some f, some t) ∈ e.connections ↔ Joins e (some f) (some t) := by
  constructor
  · intro h
    cases e with
    | line f' t' => simp [Element.connections] at h; obtain ⟨rfl, rfl⟩ := h; exact .line
    | unbalanced ph =>
      simp [Element.connections] at h
      exact .phase h
    | transformer fp fn tp tn =>
      simp [Element.connections] at h
      rcases h with ⟨rfl, rfl⟩ | ⟨rfl, rfl⟩ | ⟨rfl, rfl⟩
      · exact .primarySecondary
      · exact .primary
      · exact .secondary
    | centerTap =>
      simp [Element.connections] at h
      rcases h with ⟨rfl, rfl⟩ | ⟨rfl, rfl⟩
      · exact .tap1
      · exact .tap2
    | slack => simp [Element.connections] at h
    | switch f' t' s =>
      cases s <;> simp [Element.connections] at h
      obtain ⟨rfl, rfl⟩ := h; exact .switch
    | generator => simp [Element.connections] at h
    | load => simp [Element.isLoadType] at hl
    | voltageSource => simp [Element.connections] at h; obtain ⟨rfl, rfl⟩ := h; exact .source
    | shunt => simp [Element.connections] at h
    | regulator => simp [Element.connections] at h; obtain ⟨rfl, rfl⟩ := h; exact .regulator
    | fuse => simp [Element.connections] at h; obtain ⟨rfl, rfl⟩ := h; exact .fuse
    | capacitor => simp [Element.connections] at h; obtain ⟨rfl, rfl⟩ := h; exact .capacitor
  · intro h
    cases h <;> simp_all [Element.connections]

theorem joins_not_load {e : Element} {f t : Ref} (h : Joins e f t) : e.isLoadType = false := by cases h <;> rfl

theorem stepLinks_iff (buses : List GBus) (elements : List Element) (a b : Txt) (i : ℕ) :
    (∃ x ∈ graphSteps elements 0, StepLinks buses x a b ∧ i = x.2.1) ↔ ∃ e, elements[i]? = some e ∧ LinksNames buses e a b := by
  constructor
  · rintro ⟨x, hx, ⟨hl, hab, f, t, hc, hp⟩, rfl⟩
    obtain ⟨-, h2, h3⟩ := graphSteps_number elements 0 x hx
    rw [hc] at h3
    exact ⟨x.1, h2, hab, f, t, (connections_joins x.1 hl f t).1 h3, hp⟩
  · rintro ⟨e, he, hab, f, t, hj, hp⟩
    have hl := joins_not_load hj
    exact ⟨(e, i, some f, some t), graphSteps_mem elements i e he _ ((connections_joins e hl f t).2 hj), ⟨hl, hab, f, t, rfl, hp⟩, rfl⟩

theorem mem_graphNodes (buses : List GBus) (a : Txt) : a ∈ graphNodes buses ↔ RealName buses a := by
  unfold graphNodes RealName
  simp [and_assoc]

theorem build_good (buses : List GBus) (elements : List Element) : ∃ k, (Graph.build buses elements).Good k := by
  rw [build_steps]
  exact (steps_good buses _ (graphSteps_sorted elements 0) _ 0 (fun _ _ => Nat.zero_le _)
    ⟨by simp, by simp, by simp, by simp, by simp, by simp⟩).1

/-- **The graph, any network.** Named nodes are nodes; what is on an edge joins its ends. -/
theorem build_sound (buses : List GBus) (elements : List Element) :
    (∀ a, RealName buses a → a ∈ (Graph.build buses elements).nodes) ∧
    ∀ a b i, (Graph.build buses elements).Holds a b i → ∃ e, elements[i]? = some e ∧ LinksNames buses e a b := by
  rw [build_steps]
  obtain ⟨-, g2, g3, -⟩ := steps_good buses _ (graphSteps_sorted elements 0) ⟨graphNodes buses, []⟩ 0 (fun _ _ => Nat.zero_le _)
    ⟨by simp, by simp, by simp, by simp, by simp, by simp⟩
  refine ⟨fun a ha => g2 a ((mem_graphNodes buses a).2 ha), fun a b i h => ?_⟩
  rcases g3 a b i h with ⟨e, he, -⟩ | h
  · simp at he
  · exact (stepLinks_iff buses elements a b i).1 h

/-- **The graph of a network whose elements end at named nodes.** -/
theorem build_exact (buses : List GBus) (elements : List Element) (hp : ProperEnds buses elements) :
    (∀ a, a ∈ (Graph.build buses elements).nodes ↔ RealName buses a) ∧
    ∀ a b i, (Graph.build buses elements).Holds a b i ↔ ∃ e, elements[i]? = some e ∧ LinksNames buses e a b := by
  rw [build_steps]
  obtain ⟨-, -, -, g4⟩ := steps_good buses _ (graphSteps_sorted elements 0) ⟨graphNodes buses, []⟩ 0 (fun _ _ => Nat.zero_le _)
    ⟨by simp, by simp, by simp, by simp, by simp, by simp⟩
  obtain ⟨p1, p2⟩ := g4 (by
    intro x hx a b h
    obtain ⟨e, he, -, f, t, hj, hh⟩ := (stepLinks_iff buses elements a b x.2.1).1 ⟨x, hx, h, rfl⟩
    have := hp e (List.mem_of_getElem? he) f t hj
    simp only [mem_graphNodes]
    rcases hh with ⟨rfl, rfl⟩ | ⟨rfl, rfl⟩
    · exact this
    · exact this.symm)
  refine ⟨fun a => (p1 a).trans (mem_graphNodes buses a), fun a b i => ?_⟩
  rw [p2, ← stepLinks_iff]
  simp [Graph.Holds]

theorem adj_iff (G : Graph) (k : ℕ) (hG : G.Good k) (a b : Txt) : G.Adj a b ↔ ∃ i, G.Holds a b i := by
  constructor
  · rintro ⟨e, he, h⟩
    obtain ⟨i, hi⟩ := List.exists_mem_of_ne_nil _ (hG.listed e he)
    exact ⟨i, e, he, h, hi⟩
  · rintro ⟨i, e, he, h, -⟩
    exact ⟨e, he, h⟩

theorem adj_symm (G : Graph) {a b : Txt} (h : G.Adj a b) : G.Adj b a := by
  obtain ⟨e, he, h⟩ := h
  exact ⟨e, he, h.symm⟩

theorem adj_linked (buses : List GBus) (elements : List Element) (a b : Txt) (h : (Graph.build buses elements).Adj a b) :
    Linked buses elements a b := by
  obtain ⟨k, hk⟩ := build_good buses elements
  obtain ⟨i, hi⟩ := (adj_iff _ k hk a b).1 h
  obtain ⟨e, he, hl⟩ := (build_sound buses elements).2 a b i hi
  exact ⟨e, List.mem_of_getElem? he, hl⟩

theorem linked_adj (buses : List GBus) (elements : List Element) (hp : ProperEnds buses elements) (a b : Txt) :
    (Graph.build buses elements).Adj a b ↔ Linked buses elements a b := by
  refine ⟨adj_linked buses elements a b, ?_⟩
  rintro ⟨e, he, hl⟩
  obtain ⟨i, hi⟩ := List.getElem?_of_mem he
  obtain ⟨k, hk⟩ := build_good buses elements
  exact (adj_iff _ k hk a b).2 ⟨i, ((build_exact buses elements hp).2 a b i).2 ⟨e, hi, hl⟩⟩

theorem changesVoltage_iff (e : Element) : e.changesVoltage = true ↔ Transforms e := by
  constructor
  · intro h
    cases e <;> first | cases h; fail | exact .transformer | exact .centerTap | exact .regulator | (simp [Element.changesVoltage] at h)
  · intro h
    cases h <;> rfl

theorem linksNames_symm {buses : List GBus} {e : Element} {a b : Txt} (h : LinksNames buses e a b) : LinksNames buses e b a := by
  obtain ⟨hab, f, t, hj, h⟩ := h
  exact ⟨hab.symm, f, t, hj, h.symm⟩

theorem plainEdges_adj (buses : List GBus) (elements : List Element) (hp : ProperEnds buses elements) (a b : Txt) :
    Graph.Adj ⟨[], (Graph.build buses elements).plainEdges elements⟩ a b ↔ PlainLinked buses elements a b := by
  obtain ⟨k, hk⟩ := build_good buses elements
  have hx := (build_exact buses elements hp).2
  constructor
  · rintro ⟨e, he, hab⟩
    obtain ⟨he, hc⟩ := List.mem_filter.1 he
    have hne := hk.listed e he
    have hso := hk.sorted e he
    obtain ⟨i, is, hi⟩ := List.exists_cons_of_ne_nil hne
    rw [hi] at hso
    rw [List.pairwise_cons] at hso
    obtain ⟨x, hx1, hx2⟩ := (hx a b i).1 ⟨e, he, hab, by rw [hi]; exact List.mem_cons_self⟩
    refine ⟨i, x, hx1, hx2, ?_, ?_⟩
    · simp only [hi, List.head?_cons, Option.bind_some, hx1] at hc
      rw [← changesVoltage_iff]
      simpa using hc
    · intro j hj e' he' hl
      obtain ⟨e2, h2, h3, h4⟩ := (hx a b j).2 ⟨e', he', hl⟩
      have : e = e2 := hk.unique e he e2 h2 (SamePair.trans hab h3.symm)
      subst this
      rw [hi] at h4
      rcases List.mem_cons.1 h4 with rfl | h4
      · omega
      · have := hso.1 j h4
        omega
  · rintro ⟨i, x, h1, h2, h3, h4⟩
    obtain ⟨e, he, hab, hi⟩ := (hx a b i).2 ⟨x, h1, h2⟩
    refine ⟨e, List.mem_filter.2 ⟨he, ?_⟩, hab⟩
    obtain ⟨j, js, hj⟩ := List.exists_cons_of_ne_nil (hk.listed e he)
    have hji : j = i := by
      obtain ⟨y, hy1, hy2⟩ := (hx a b j).1 ⟨e, he, hab, by rw [hj]; exact List.mem_cons_self⟩
      by_contra hne
      have hso := hk.sorted e he
      rw [hj, List.pairwise_cons] at hso
      rw [hj] at hi
      rcases List.mem_cons.1 hi with rfl | hi
      · exact hne rfl
      · exact h4 j (hso.1 i hi) y hy1 hy2
    rw [hj]
    simp only [List.head?_cons, Option.bind_some, hji, h1]
    rw [← changesVoltage_iff] at h3
    simpa using h3

theorem path_symm {adj : Txt → Txt → Prop} (hs : ∀ a b, adj a b → adj b a) {a b : Txt} (h : Relation.ReflTransGen adj a b) :
    Relation.ReflTransGen adj b a := by
  induction h with
  | refl => exact .refl
  | tail _ h2 ih => exact .head (hs _ _ h2) ih

/-! ### Components exist -/

/-- Merging the classes that contain one of two names. -/
def mergeClasses (cs : List (List Txt)) (a b : Txt) : List (List Txt) :=
  (cs.filter fun c => a ∈ c ∨ b ∈ c).flatten :: cs.filter fun c => ¬ (a ∈ c ∨ b ∈ c)

/-- Components of a graph given by nodes and pairs. -/
def classesOf (nodes : List Txt) (pairs : List (Txt × Txt)) : List (List Txt) :=
  pairs.foldl (fun cs p => mergeClasses cs p.1 p.2) (nodes.dedup.map fun a => [a])

/-- The adjacency of a list of pairs. -/
def PairAdj (pairs : List (Txt × Txt)) (a b : Txt) : Prop := (a, b) ∈ pairs ∨ (b, a) ∈ pairs

theorem pairAdj_symm (pairs : List (Txt × Txt)) (a b : Txt) (h : PairAdj pairs a b) : PairAdj pairs b a := Or.symm h

theorem merge_components {node : Txt → Prop} {adj : Txt → Txt → Prop} (hs : ∀ a b, adj a b → adj b a) {cs : List (List Txt)}
    (h : IsComponents node adj cs) (a b : Txt) (ha : node a) (hb : node b) :
    IsComponents node (fun c d => adj c d ∨ c = a ∧ d = b ∨ c = b ∧ d = a) (mergeClasses cs a b) := by
  set adj' := fun c d => adj c d ∨ c = a ∧ d = b ∨ c = b ∧ d = a with hadj'
  have hs' : ∀ c d, adj' c d → adj' d c := by
    rintro c d (h | ⟨rfl, rfl⟩ | ⟨rfl, rfl⟩)
    · exact .inl (hs _ _ h)
    · exact .inr (.inr ⟨rfl, rfl⟩)
    · exact .inr (.inl ⟨rfl, rfl⟩)
  have mono : ∀ c d, Relation.ReflTransGen adj c d → Relation.ReflTransGen adj' c d := fun c d h => by
    induction h with
    | refl => exact .refl
    | tail _ h2 ih => exact ih.tail (.inl h2)
  have hab : Relation.ReflTransGen adj' a b := Relation.ReflTransGen.single (.inr (.inl ⟨rfl, rfl⟩))
  obtain ⟨ca, hca, haa⟩ := h.cover a ha
  obtain ⟨cb, hcb, hbb⟩ := h.cover b hb
  have hclass : ∀ c ∈ cs, ∀ x ∈ c, (a ∈ c ∨ b ∈ c) → Relation.ReflTransGen adj' a x := by
    rintro c hc x hx (h1 | h1)
    · exact mono _ _ ((h.component c hc a h1 x (h.nodes c hc x hx)).1 hx)
    · exact hab.trans (mono _ _ ((h.component c hc b h1 x (h.nodes c hc x hx)).1 hx))
  -- being in a class with neither a nor b is preserved along adj'
  have hout : ∀ c ∈ cs, ¬ (a ∈ c ∨ b ∈ c) → ∀ x ∈ c, ∀ y, Relation.ReflTransGen adj' x y → Relation.ReflTransGen adj x y := by
    intro c hc hn x hx y hxy
    induction hxy with
    | refl => exact .refl
    | tail _ h2 ih =>
      rename_i u w _
      rcases h2 with h2 | ⟨rfl, rfl⟩ | ⟨rfl, rfl⟩
      · exact ih.tail h2
      · exact absurd (.inl ((h.component c hc x hx _ ha).2 ih)) hn
      · exact absurd (.inr ((h.component c hc x hx _ hb).2 ih)) hn
  refine ⟨?_, ?_, ?_, ?_, ?_⟩
  · intro x hx
    obtain ⟨c, hc, hxc⟩ := h.cover x hx
    by_cases hn : a ∈ c ∨ b ∈ c
    · exact ⟨_, List.mem_cons_self, List.mem_flatten.2 ⟨c, List.mem_filter.2 ⟨hc, by simpa using hn⟩, hxc⟩⟩
    · exact ⟨c, List.mem_cons_of_mem _ (List.mem_filter.2 ⟨hc, by simpa using hn⟩), hxc⟩
  · intro c hc x hx
    rcases List.mem_cons.1 hc with rfl | hc
    · obtain ⟨d, hd, hxd⟩ := List.mem_flatten.1 hx
      exact h.nodes d (List.mem_filter.1 hd).1 x hxd
    · exact h.nodes c (List.mem_filter.1 hc).1 x hx
  · intro c hc
    rcases List.mem_cons.1 hc with rfl | hc
    · exact List.ne_nil_of_mem (List.mem_flatten.2 ⟨ca, List.mem_filter.2 ⟨hca, by simp [haa]⟩, haa⟩)
    · exact h.nonempty c (List.mem_filter.1 hc).1
  · intro c hc x hx y hy
    rcases List.mem_cons.1 hc with rfl | hc
    · obtain ⟨d, hd, hxd⟩ := List.mem_flatten.1 hx
      obtain ⟨hd, hd'⟩ := List.mem_filter.1 hd
      have hax := hclass d hd x hxd (by simpa using hd')
      constructor
      · intro hyc
        obtain ⟨d2, hd2, hyd⟩ := List.mem_flatten.1 hyc
        obtain ⟨hd2, hd2'⟩ := List.mem_filter.1 hd2
        exact (path_symm hs' hax).trans (hclass d2 hd2 y hyd (by simpa using hd2'))
      · intro hxy
        obtain ⟨d2, hd2, hyd⟩ := h.cover y hy
        refine List.mem_flatten.2 ⟨d2, List.mem_filter.2 ⟨hd2, ?_⟩, hyd⟩
        by_contra hn
        have h1 := hout d2 hd2 (by simpa using hn) y hyd a (path_symm hs' (hax.trans hxy))
        exact hn (by simp [(h.component d2 hd2 y hyd a ha).2 h1])
    · obtain ⟨hc, hn⟩ := List.mem_filter.1 hc
      rw [h.component c hc x hx y hy]
      exact ⟨mono x y, hout c hc (by simpa using hn) x hx y⟩
  · unfold mergeClasses
    rw [List.pairwise_cons]
    refine ⟨?_, h.disjoint.filter _⟩
    intro c hc x hx hxc
    obtain ⟨hc, hn⟩ := List.mem_filter.1 hc
    obtain ⟨d, hd, hxd⟩ := List.mem_flatten.1 hx
    obtain ⟨hd, hd'⟩ := List.mem_filter.1 hd
    have hxa : Relation.ReflTransGen adj x x := .refl
    have hnd : ∀ y, y ∈ d ↔ y ∈ c := fun y => by
      constructor
      · intro hy
        exact (h.component c hc x hxc y (h.nodes d hd y hy)).2 ((h.component d hd x hxd y (h.nodes d hd y hy)).1 hy)
      · intro hy
        exact (h.component d hd x hxd y (h.nodes c hc y hy)).2 ((h.component c hc x hxc y (h.nodes c hc y hy)).1 hy)
    have h1 : a ∈ d ∨ b ∈ d := by simpa using hd'
    have h2 : ¬ (a ∈ c ∨ b ∈ c) := by simpa using hn
    rw [hnd, hnd] at h1
    exact h2 h1

theorem IsComponents.congr {node node' : Txt → Prop} {adj adj' : Txt → Txt → Prop} {cs : List (List Txt)} (h : IsComponents node adj cs)
    (h1 : ∀ a, node a ↔ node' a) (h2 : ∀ a b, adj a b ↔ adj' a b) : IsComponents node' adj' cs := by
  have e1 : node = node' := funext fun a => propext (h1 a)
  have e2 : adj = adj' := funext fun a => funext fun b => propext (h2 a b)
  rw [← e1, ← e2]
  exact h

theorem classesOf_components (nodes : List Txt) (pairs : List (Txt × Txt)) (hp : ∀ p ∈ pairs, p.1 ∈ nodes ∧ p.2 ∈ nodes) :
    IsComponents (· ∈ nodes) (PairAdj pairs) (classesOf nodes pairs) := by
  have key : ∀ (ps : List (Txt × Txt)) (done : List (Txt × Txt)) (cs : List (List Txt)), (∀ p ∈ ps, p.1 ∈ nodes ∧ p.2 ∈ nodes) →
      IsComponents (· ∈ nodes) (PairAdj done) cs →
      IsComponents (· ∈ nodes) (PairAdj (done ++ ps)) (ps.foldl (fun cs p => mergeClasses cs p.1 p.2) cs) := by
    intro ps
    induction ps with
    | nil => intro done cs _ h; simpa using h
    | cons p ps ih =>
      intro done cs hp h
      have h1 := merge_components (pairAdj_symm done) h p.1 p.2 (hp p List.mem_cons_self).1 (hp p List.mem_cons_self).2
      have h2 := ih (done ++ [p]) _ (fun q hq => hp q (List.mem_cons_of_mem _ hq)) (h1.congr (fun _ => Iff.rfl) (adj' := PairAdj (done ++ [p])) (by
        intro a b
        obtain ⟨p1, p2⟩ := p
        simp only [PairAdj, List.mem_append, List.mem_singleton, Prod.mk.injEq]
        tauto))
      simpa using h2
  refine key pairs [] _ hp ⟨?_, ?_, ?_, ?_, ?_⟩
  · intro a ha
    exact ⟨[a], List.mem_map.2 ⟨a, List.mem_dedup.2 ha, rfl⟩, List.mem_singleton_self a⟩
  · intro c hc a ha
    obtain ⟨b, hb, rfl⟩ := List.mem_map.1 hc
    rw [List.mem_singleton] at ha
    subst ha
    exact List.mem_dedup.1 hb
  · intro c hc
    obtain ⟨b, hb, rfl⟩ := List.mem_map.1 hc
    simp
  · intro c hc a ha b _
    obtain ⟨d, hd, rfl⟩ := List.mem_map.1 hc
    rw [List.mem_singleton] at ha ⊢
    subst ha
    constructor
    · rintro rfl; exact .refl
    · intro h
      induction h with
      | refl => rfl
      | tail _ h2 _ => simp [PairAdj] at h2
  · rw [List.pairwise_map]
    refine (List.nodup_dedup nodes).imp ?_
    intro a b hab x hx
    rw [List.mem_singleton] at hx ⊢
    subst hx
    exact hab

/-- The number of components does not depend on who counts them; here: one component. -/
theorem components_one {node : Txt → Prop} {adj : Txt → Txt → Prop} {cs : List (List Txt)} (h : IsComponents node adj cs) :
    cs.length = 1 ↔ (∃ a, node a) ∧ ∀ a b, node a → node b → Relation.ReflTransGen adj a b := by
  constructor
  · intro h1
    obtain ⟨c, rfl⟩ := List.length_eq_one_iff.1 h1
    constructor
    · obtain ⟨a, ha⟩ := List.exists_mem_of_ne_nil _ (h.nonempty c (List.mem_singleton_self c))
      exact ⟨a, h.nodes c (List.mem_singleton_self c) a ha⟩
    · intro a b ha hb
      obtain ⟨d, hd, had⟩ := h.cover a ha
      obtain ⟨d', hd', hbd⟩ := h.cover b hb
      rw [List.mem_singleton] at hd hd'
      subst hd hd'
      exact (h.component _ (List.mem_singleton_self _) a had b hb).1 hbd
  · rintro ⟨⟨a, ha⟩, hall⟩
    match cs, h with
    | [], h =>
      obtain ⟨c, hc, -⟩ := h.cover a ha
      cases hc
    | [c], h => rfl
    | c :: d :: cs, h =>
      exfalso
      obtain ⟨x, hx⟩ := List.exists_mem_of_ne_nil _ (h.nonempty c (by simp))
      obtain ⟨y, hy⟩ := List.exists_mem_of_ne_nil _ (h.nonempty d (by simp))
      have hnx := h.nodes c (by simp) x hx
      have hny := h.nodes d (by simp) y hy
      have := (h.component c (by simp) x hx y hny).2 (hall x y hnx hny)
      exact (List.pairwise_cons.1 h.disjoint).1 d (by simp) y this hy

end Verif
