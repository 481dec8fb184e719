import Verif.Lemmas.Islands
import Verif.Lemmas.KirchhoffNetwork

/-!
# C44, C45, C46, C73, C74: islands
-/

namespace Verif

/-! ### C45 -/

/-- **C45.** If the checks of `execute` pass, any two named nodes are joined by a path of elements. No assumption on the network. -/
theorem C45_one_island (buses : List GBus) (elements : List Element) (cs vs : List (List Txt)) (hc : IsIslands (Graph.build buses elements) cs)
    (h : executeChecks buses cs vs = .ok ()) (a b : Txt) (ha : RealName buses a) (hb : RealName buses b) : PathBetween buses elements a b := by
  have h1 : cs.length = 1 := by
    unfold executeChecks at h
    split at h
    · cases h
    · rename_i hn; exact not_not.1 hn
  have hs := build_sound buses elements
  have := ((components_one hc).1 h1).2 a b (hs.1 a ha) (hs.1 b hb)
  clear hb
  induction this with
  | refl => exact .refl
  | tail _ h2 ih => exact Relation.ReflTransGen.tail (ih) (adj_linked buses elements _ _ h2)

theorem validateIsland_error (buses : List GBus) (vn : Option ℤ) (c : List Txt) (e : String) (h : validateIsland buses vn c = .error e) :
    e = "KeyError" ∨ e = "nominal voltage is not consistent" := by
  induction c generalizing vn with
  | nil => cases h
  | cons a as ih =>
    unfold validateIsland at h
    cases hf : firstBus buses a with
    | none => rw [hf] at h; cases h; exact .inl rfl
    | some b =>
      rw [hf] at h
      cases vn with
      | none => exact ih _ h
      | some v =>
        simp only at h
        split at h
        · cases h; exact .inr rfl
        · exact ih _ h

theorem validateIslands_error (buses : List GBus) (cs : List (List Txt)) (e : String) (h : validateIslands buses cs = .error e) :
    e = "KeyError" ∨ e = "nominal voltage is not consistent" := by
  induction cs with
  | nil => cases h
  | cons c cs ih =>
    unfold validateIslands at h
    cases hf : validateIsland buses none c with
    | error e' =>
      rw [hf] at h
      cases h
      exact validateIsland_error buses none c e hf
    | ok _ => rw [hf] at h; exact ih h

/-- **C45, exactly.** When elements end at named nodes, the run is refused for its islands exactly when there is no node or some two
nodes are not joined. -/
theorem C45_refused_iff (buses : List GBus) (elements : List Element) (hp : ProperEnds buses elements) (cs vs : List (List Txt))
    (hc : IsIslands (Graph.build buses elements) cs) :
    executeChecks buses cs vs = .error "Detected multiple network islands." ↔
      ¬ ((∃ a, RealName buses a) ∧ ∀ a b, RealName buses a → RealName buses b → PathBetween buses elements a b) := by
  have hx := build_exact buses elements hp
  have e1 : (· ∈ (Graph.build buses elements).nodes) = RealName buses := funext fun a => propext (hx.1 a)
  have e2 : (Graph.build buses elements).Adj = Linked buses elements :=
    funext fun a => funext fun b => propext (linked_adj buses elements hp a b)
  have hone := components_one hc
  simp only [hx.1, e2] at hone
  rw [show (PathBetween buses elements) = Relation.ReflTransGen (Linked buses elements) from rfl, ← hone]
  unfold executeChecks
  split
  · simpa using ‹_›
  · rename_i hn
    simp only [hn, iff_false]
    intro h
    rcases validateIslands_error buses vs _ h with h | h <;> exact absurd h (by decide)

/-- A correct list of islands exists for every network, so the theorems are not empty. -/
theorem islands_exist (buses : List GBus) (elements : List Element) : ∃ cs, IsIslands (Graph.build buses elements) cs := by
  obtain ⟨k, hk⟩ := build_good buses elements
  refine ⟨classesOf (Graph.build buses elements).nodes ((Graph.build buses elements).edges.map fun e => (e.u, e.v)),
    (classesOf_components _ _ ?_).congr (fun _ => Iff.rfl) ?_⟩
  · intro p hp
    obtain ⟨e, he, rfl⟩ := List.mem_map.1 hp
    exact hk.ends e he
  · intro a b
    simp only [PairAdj, List.mem_map, Prod.mk.injEq, Graph.Adj]
    constructor
    · rintro (⟨e, he, h⟩ | ⟨e, he, h⟩)
      · exact ⟨e, he, .inl h⟩
      · exact ⟨e, he, .inr h⟩
    · rintro ⟨e, he, h | h⟩
      · exact .inl ⟨e, he, h⟩
      · exact .inr ⟨e, he, h⟩

/-- Likewise for the voltage islands. -/
theorem edgeIslands_exist (es : List GEdge) : ∃ cs, IsEdgeIslands es cs := by
  refine ⟨classesOf (es.flatMap fun e => [e.u, e.v]) (es.map fun e => (e.u, e.v)), (classesOf_components _ _ ?_).congr ?_ ?_⟩
  · intro p hp
    obtain ⟨e, he, rfl⟩ := List.mem_map.1 hp
    exact ⟨List.mem_flatMap.2 ⟨e, he, by simp⟩, List.mem_flatMap.2 ⟨e, he, by simp⟩⟩
  · intro a
    simp [List.mem_flatMap, eq_comm]
  · intro a b
    simp only [PairAdj, List.mem_map, Prod.mk.injEq, Graph.Adj]
    constructor
    · rintro (⟨e, he, h⟩ | ⟨e, he, h⟩)
      · exact ⟨e, he, .inl h⟩
      · exact ⟨e, he, .inr h⟩
    · rintro ⟨e, he, h | h⟩
      · exact .inl ⟨e, he, h⟩
      · exact .inr ⟨e, he, h⟩

/-- One class that holds all nodes is a correct answer when all are joined. -/
theorem components_single {node : Txt → Prop} {adj : Txt → Txt → Prop} (c : List Txt) (hn : ∀ a, node a ↔ a ∈ c) (hne : c ≠ [])
    (hall : ∀ a ∈ c, ∀ b ∈ c, Relation.ReflTransGen adj a b) : IsComponents node adj [c] := by
  refine ⟨?_, ?_, ?_, ?_, List.pairwise_singleton _ _⟩
  · intro a ha
    exact ⟨c, List.mem_singleton_self c, (hn a).1 ha⟩
  · intro d hd a ha
    rw [List.mem_singleton] at hd
    subst hd
    exact (hn a).2 ha
  · intro d hd
    rw [List.mem_singleton] at hd
    subst hd
    exact hne
  · intro d hd a ha b hb
    rw [List.mem_singleton] at hd
    subst hd
    exact ⟨fun h => hall a ha b h, fun _ => (hn b).1 hb⟩

/-! ### C46 -/

theorem firstBus_iff (buses : List GBus) (a : Txt) (x : GBus) : firstBus buses a = some x ↔ FirstNamed buses a x := by
  unfold firstBus FirstNamed
  rw [List.find?_eq_some_iff_getElem]
  constructor
  · rintro ⟨h1, i, hi, h2, h3⟩
    simp at h1
    refine ⟨i, by rw [List.getElem?_eq_getElem hi, h2], h1.1, h1.2, ?_⟩
    intro j hj y hy
    have := h3 j hj
    obtain ⟨hj', rfl⟩ := List.getElem?_eq_some_iff.1 hy
    simp at this
    exact this
  · rintro ⟨i, h1, h2, h3, h4⟩
    obtain ⟨hi, rfl⟩ := List.getElem?_eq_some_iff.1 h1
    refine ⟨by simp [h2, h3], i, hi, rfl, ?_⟩
    intro j hj
    have := h4 j hj _ (List.getElem?_eq_getElem (hj.trans hi))
    rcases this with h | h
    · simp [h]
    · simp [h]

theorem firstBus_real (buses : List GBus) (a : Txt) (h : RealName buses a) : ∃ x, firstBus buses a = some x := by
  obtain ⟨b, hb, h1, h2⟩ := h
  cases hf : firstBus buses a with
  | some x => exact ⟨x, rfl⟩
  | none =>
    unfold firstBus at hf
    have := List.find?_eq_none.1 hf b hb
    simp [h1, h2] at this

theorem pyRound_close (x : ℝ) : |x - pyRound x| ≤ 1 / 2 := by
  unfold pyRound
  split
  · rename_i h
    have hx : x = ⌊x⌋ + 1 / 2 := by
      have := Int.floor_add_fract x
      linarith
    split
    · rw [show x - (⌊x⌋ : ℝ) = 1 / 2 by linarith, abs_of_nonneg (by norm_num)]
    · push_cast
      rw [show x - ((⌊x⌋ : ℝ) + 1) = -(1 / 2) by linarith, abs_neg, abs_of_nonneg (by norm_num)]
  · exact abs_sub_round x

theorem validateIsland_some (buses : List GBus) (v : ℤ) (c : List Txt) :
    validateIsland buses (some v) c = .ok () ↔ ∀ a ∈ c, ∃ x, firstBus buses a = some x ∧ |x.vnom - v| ≤ 10 := by
  induction c with
  | nil => simp [validateIsland]
  | cons a as ih =>
    rw [List.forall_mem_cons, ← ih, validateIsland]
    cases hf : firstBus buses a with
    | none => simp
    | some x =>
      simp only
      split
      · rename_i h
        simp [not_le.2 h]
      · rename_i h
        simp [not_lt.1 h]

theorem validateIsland_none (buses : List GBus) (a : Txt) (as : List Txt) :
    validateIsland buses none (a :: as) = .ok () ↔ ∃ x, firstBus buses a = some x ∧ ∀ b ∈ as, ∃ y, firstBus buses b = some y ∧ |y.vnom - pyRound x.vnom| ≤ 10 := by
  rw [validateIsland]
  cases hf : firstBus buses a with
  | none => simp
  | some x =>
    simp only [validateIsland_some]
    simp

theorem validateIslands_ok (buses : List GBus) (cs : List (List Txt)) :
    validateIslands buses cs = .ok () ↔ ∀ c ∈ cs, validateIsland buses none c = .ok () := by
  induction cs with
  | nil => simp [validateIslands]
  | cons c cs ih =>
    rw [List.forall_mem_cons, ← ih, validateIslands]
    cases validateIsland buses none c with
    | error e =>
      constructor
      · intro h; cases h
      · intro h; cases h.1
    | ok u =>
      constructor
      · intro h; exact ⟨rfl, h⟩
      · intro h; exact h.2

/-- **C46.** If the checks pass, the nominal voltages of two nodes joined by a path of links, the first element of each being neither
transformer nor regulator, differ by at most 20; whatever order the nodes were visited in. -/
theorem C46_spread (buses : List GBus) (elements : List Element) (hp : ProperEnds buses elements) (cs vs : List (List Txt))
    (hv : IsEdgeIslands ((Graph.build buses elements).plainEdges elements) vs) (h : executeChecks buses cs vs = .ok ()) (a b : Txt)
    (hab : Relation.ReflTransGen (PlainLinked buses elements) a b) (x y : GBus) (hx : FirstNamed buses a x) (hy : FirstNamed buses b y) :
    |x.vnom - y.vnom| ≤ 20 := by
  have hok : validateIslands buses vs = .ok () := by
    unfold executeChecks at h
    split at h
    · cases h
    · exact h
  rw [← firstBus_iff] at hx hy
  rcases Relation.ReflTransGen.cases_head hab with rfl | ⟨z, hz, hrest⟩
  · rw [hx] at hy
    cases hy
    simp
  · have hadj := (plainEdges_adj buses elements hp)
    have e2 : Graph.Adj ⟨[], (Graph.build buses elements).plainEdges elements⟩ = PlainLinked buses elements :=
      funext fun a => funext fun b => propext (hadj a b)
    have hna : ∃ e ∈ (Graph.build buses elements).plainEdges elements, e.u = a ∨ e.v = a := by
      obtain ⟨e, he, h⟩ := (hadj a z).2 hz
      exact ⟨e, he, h.elim (fun h => .inl h.1) (fun h => .inr h.2)⟩
    have hnb : ∃ e ∈ (Graph.build buses elements).plainEdges elements, e.u = b ∨ e.v = b := by
      rcases Relation.ReflTransGen.cases_tail (Relation.ReflTransGen.head hz hrest) with rfl | ⟨w, -, hw⟩
      · exact hna
      · obtain ⟨e, he, h⟩ := (hadj w b).2 hw
        exact ⟨e, he, h.elim (fun h => .inr h.2) (fun h => .inl h.1)⟩
    obtain ⟨c, hc, hac⟩ := hv.cover a hna
    have hbc : b ∈ c := (hv.component c hc a hac b hnb).2 (by rw [e2]; exact hab)
    have hvc := (validateIslands_ok buses vs).1 hok c hc
    obtain ⟨d, ds, rfl⟩ := List.exists_cons_of_ne_nil (hv.nonempty c hc)
    obtain ⟨w, hw, hds⟩ := (validateIsland_none buses d ds).1 hvc
    have key : ∀ n ∈ d :: ds, ∀ u, firstBus buses n = some u → |u.vnom - pyRound w.vnom| ≤ 10 := by
      intro n hn u hu
      rcases List.mem_cons.1 hn with rfl | hn
      · rw [hw] at hu
        cases hu
        exact (pyRound_close _).trans (by norm_num)
      · obtain ⟨u', h1, h2⟩ := hds n hn
        rw [hu] at h1
        cases h1
        exact h2
    have k1 := abs_le.1 (key a hac x hx)
    have k2 := abs_le.1 (key b hbc y hy)
    rw [abs_le]
    constructor <;> linarith [k1.1, k1.2, k2.1, k2.2]

/-- **C46, what is accepted.** A network of one island whose joined nodes differ by at most 9.5 passes, in every order. -/
theorem C46_accepts (buses : List GBus) (elements : List Element) (hp : ProperEnds buses elements) (cs vs : List (List Txt))
    (hc : cs.length = 1) (hv : IsEdgeIslands ((Graph.build buses elements).plainEdges elements) vs)
    (h : ∀ a b, Relation.ReflTransGen (PlainLinked buses elements) a b → ∀ x y, FirstNamed buses a x → FirstNamed buses b y → |x.vnom - y.vnom| ≤ 19 / 2) :
    executeChecks buses cs vs = .ok () := by
  unfold executeChecks
  rw [if_neg (by simpa using hc), validateIslands_ok]
  intro c hcv
  obtain ⟨d, ds, rfl⟩ := List.exists_cons_of_ne_nil (hv.nonempty c hcv)
  have hadj := (plainEdges_adj buses elements hp)
  have e2 : Graph.Adj ⟨[], (Graph.build buses elements).plainEdges elements⟩ = PlainLinked buses elements :=
    funext fun a => funext fun b => propext (hadj a b)
  have hreal : ∀ a, (∃ e ∈ (Graph.build buses elements).plainEdges elements, e.u = a ∨ e.v = a) → RealName buses a := by
    rintro a ⟨e, he, h⟩
    obtain ⟨k, hk⟩ := build_good buses elements
    have hm := hk.ends e (List.mem_filter.1 he).1
    have hx := (build_exact buses elements hp).1
    rcases h with rfl | rfl
    · exact (hx _).1 hm.1
    · exact (hx _).1 hm.2
  obtain ⟨x, hx⟩ := firstBus_real buses d (hreal d (hv.nodes _ hcv d List.mem_cons_self))
  rw [validateIsland_none]
  refine ⟨x, hx, ?_⟩
  intro b hb
  have hnb := hv.nodes _ hcv b (List.mem_cons_of_mem _ hb)
  obtain ⟨y, hy⟩ := firstBus_real buses b (hreal b hnb)
  refine ⟨y, hy, ?_⟩
  have hpath := (hv.component _ hcv d List.mem_cons_self b hnb).1 (List.mem_cons_of_mem _ hb)
  rw [e2] at hpath
  have k1 := abs_le.1 (h d b hpath x y ((firstBus_iff _ _ _).1 hx) ((firstBus_iff _ _ _).1 hy))
  have k2 := abs_le.1 (pyRound_close x.vnom)
  rw [abs_le]
  constructor <;> linarith [k1.1, k1.2, k2.1, k2.2]

/-- Three nodes of 100, 110 and 90 volts and two lines from the first. -/
noncomputable def threeNodes : List GBus := [⟨['a'], false, 100⟩, ⟨['b'], false, 110⟩, ⟨['c'], false, 90⟩]

/-- The two lines. -/
noncomputable def twoLines : List Element := [.line (some 0) (some 1) 1 0 0, .line (some 0) (some 2) 1 0 0]

theorem threeNodes_graph : Graph.build threeNodes twoLines = ⟨[['a'], ['b'], ['c']], [⟨['a'], ['b'], [0]⟩, ⟨['a'], ['c'], [1]⟩]⟩ := by
  rfl

theorem threeNodes_plain : (Graph.build threeNodes twoLines).plainEdges twoLines = [⟨['a'], ['b'], [0]⟩, ⟨['a'], ['c'], [1]⟩] := by
  rw [threeNodes_graph]; rfl

theorem threeNodes_path (G : Graph) (h : G.edges = [⟨['a'], ['b'], [0]⟩, ⟨['a'], ['c'], [1]⟩]) (x y : Txt)
    (hx : x = ['a'] ∨ x = ['b'] ∨ x = ['c']) (hy : y = ['a'] ∨ y = ['b'] ∨ y = ['c']) : Relation.ReflTransGen G.Adj x y := by
  have hab : G.Adj ['a'] ['b'] := ⟨_, by rw [h]; exact List.mem_cons_self, .inl ⟨rfl, rfl⟩⟩
  have hac : G.Adj ['a'] ['c'] := ⟨⟨['a'], ['c'], [1]⟩, by rw [h]; simp, .inl ⟨rfl, rfl⟩⟩
  have key : ∀ z, (z = ['a'] ∨ z = ['b'] ∨ z = ['c']) → Relation.ReflTransGen G.Adj ['a'] z := by
    rintro z (rfl | rfl | rfl)
    · exact .refl
    · exact .single hab
    · exact .single hac
  exact (path_symm (fun _ _ h => adj_symm G h) (key x hx)).trans (key y hy)

theorem threeNodes_islands (c : List Txt) (hc : ∀ x, x ∈ c ↔ x = ['a'] ∨ x = ['b'] ∨ x = ['c']) :
    IsIslands (Graph.build threeNodes twoLines) [c] ∧ IsEdgeIslands ((Graph.build threeNodes twoLines).plainEdges twoLines) [c] := by
  have hne : c ≠ [] := List.ne_nil_of_mem ((hc ['a']).2 (.inl rfl))
  constructor
  · refine components_single c ?_ hne ?_
    · intro x; rw [hc, threeNodes_graph]; simp
    · intro x hx y hy
      exact threeNodes_path _ (by rw [threeNodes_graph]) x y ((hc x).1 hx) ((hc y).1 hy)
  · refine components_single c ?_ hne ?_
    · intro x; rw [hc, threeNodes_plain]; simp [eq_comm]; tauto
    · intro x hx y hy
      exact threeNodes_path _ threeNodes_plain x y ((hc x).1 hx) ((hc y).1 hy)

theorem pyRound_int (n : ℤ) : pyRound (n : ℝ) = n := by
  unfold pyRound
  rw [if_neg (by rw [Int.fract_intCast]; norm_num)]
  exact round_intCast n

theorem threeNodes_accepted : executeChecks threeNodes [[['a'], ['b'], ['c']]] [[['a'], ['b'], ['c']]] = .ok () := by
  unfold executeChecks
  rw [if_neg (by simp), validateIslands_ok]
  intro c hc
  rw [List.mem_singleton] at hc
  subst hc
  rw [validateIsland_none]
  refine ⟨⟨['a'], false, 100⟩, rfl, ?_⟩
  have hr : pyRound (100 : ℝ) = 100 := by exact_mod_cast pyRound_int 100
  intro b hb
  simp only [List.mem_cons, List.not_mem_nil, or_false] at hb
  rcases hb with rfl | rfl
  · exact ⟨⟨['b'], false, 110⟩, rfl, by simp only [hr]; norm_num⟩
  · exact ⟨⟨['c'], false, 90⟩, rfl, by simp only [hr]; norm_num⟩

theorem threeNodes_refused : executeChecks threeNodes [[['b'], ['a'], ['c']]] [[['b'], ['a'], ['c']]] ≠ .ok () := by
  unfold executeChecks
  rw [if_neg (by simp), ne_eq, validateIslands_ok]
  intro h
  have := h [['b'], ['a'], ['c']] (List.mem_singleton_self _)
  rw [validateIsland_none] at this
  obtain ⟨x, hx, h⟩ := this
  have hx' : firstBus threeNodes ['b'] = some ⟨['b'], false, 110⟩ := rfl
  rw [hx'] at hx
  cases hx
  obtain ⟨y, hy, h⟩ := h ['c'] (by simp)
  have hy' : firstBus threeNodes ['c'] = some ⟨['c'], false, 90⟩ := rfl
  rw [hy'] at hy
  cases hy
  have hr : pyRound (110 : ℝ) = 110 := by exact_mod_cast pyRound_int 110
  simp only [hr] at h
  norm_num [abs_le] at h

/-- **C46, the bound is attained**, and this is also a network meeting the hypotheses of `C46_spread` and `C45_one_island`. -/
theorem C46_bound_sharp : ∃ buses elements cs vs, IsIslands (Graph.build buses elements) cs ∧
    IsEdgeIslands ((Graph.build buses elements).plainEdges elements) vs ∧ executeChecks buses cs vs = .ok () ∧
    ∃ a b x y, Relation.ReflTransGen (PlainLinked buses elements) a b ∧ FirstNamed buses a x ∧ FirstNamed buses b y ∧ |x.vnom - y.vnom| = 20 := by
  obtain ⟨h1, h2⟩ := threeNodes_islands [['a'], ['b'], ['c']] (by simp)
  have hp : ProperEnds threeNodes twoLines := by
    intro e he f t hj
    have : ∀ k < 3, RealName threeNodes (nameOf threeNodes k) := by
      intro k hk
      match k, hk with
      | 0, _ => exact ⟨⟨['a'], false, 100⟩, by simp [threeNodes], rfl, rfl⟩
      | 1, _ => exact ⟨⟨['b'], false, 110⟩, by simp [threeNodes], rfl, rfl⟩
      | 2, _ => exact ⟨⟨['c'], false, 90⟩, by simp [threeNodes], rfl, rfl⟩
    simp only [twoLines, List.mem_cons, List.not_mem_nil, or_false] at he
    rcases he with rfl | rfl <;> cases hj <;> exact ⟨this _ (by omega), this _ (by omega)⟩
  have e2 : Graph.Adj ⟨[], (Graph.build threeNodes twoLines).plainEdges twoLines⟩ = PlainLinked threeNodes twoLines :=
    funext fun a => funext fun b => propext (plainEdges_adj threeNodes twoLines hp a b)
  refine ⟨threeNodes, twoLines, _, _, h1, h2, threeNodes_accepted, ['b'], ['c'], ⟨['b'], false, 110⟩, ⟨['c'], false, 90⟩, ?_,
    (firstBus_iff _ _ _).1 rfl, (firstBus_iff _ _ _).1 rfl, by norm_num⟩
  rw [← e2]
  exact threeNodes_path _ threeNodes_plain _ _ (by simp) (by simp)

/-- **C74 fails.** Two correct lists of the same islands, which differ only in the order in which the nodes of a set are visited: with
one the network is accepted, with the other refused. -/
theorem C74_order_fails : ∃ (buses : List GBus) (elements : List Element) (c c' : List Txt), c.Perm c' ∧
    (IsIslands (Graph.build buses elements) [c] ∧ IsIslands (Graph.build buses elements) [c']) ∧
    (IsEdgeIslands ((Graph.build buses elements).plainEdges elements) [c] ∧ IsEdgeIslands ((Graph.build buses elements).plainEdges elements) [c']) ∧
    executeChecks buses [c] [c] = .ok () ∧ executeChecks buses [c'] [c'] ≠ .ok () := by
  obtain ⟨h1, h2⟩ := threeNodes_islands [['a'], ['b'], ['c']] (by simp)
  obtain ⟨h3, h4⟩ := threeNodes_islands [['b'], ['a'], ['c']] (by intro x; simp; tauto)
  exact ⟨threeNodes, twoLines, _, _, List.Perm.swap _ _ _, ⟨h1, h3⟩, ⟨h2, h4⟩, threeNodes_accepted, threeNodes_refused⟩

/-- **C46, parallel elements.** A switch across a transformer is not looked at: nodes of 100 and 7200 volts joined by a closed switch
are accepted. -/
theorem C46_parallel_unchecked : ∃ (buses : List GBus) (elements : List Element) (cs vs : List (List Txt)),
    IsIslands (Graph.build buses elements) cs ∧ IsEdgeIslands ((Graph.build buses elements).plainEdges elements) vs ∧
    executeChecks buses cs vs = .ok () ∧ .switch (some 0) (some 1) .closed ∈ elements ∧
    ∃ x y, buses[0]? = some x ∧ buses[1]? = some y ∧ |x.vnom - y.vnom| = 7100 := by
  refine ⟨[⟨['a'], false, 7200⟩, ⟨['b'], false, 100⟩],
    [.transformer (some 0) none (some 1) none 72 0 1 0, .switch (some 0) (some 1) .closed], [[['a'], ['b']]], [], ?_, ?_, ?_, by simp,
    _, _, rfl, rfl, by norm_num⟩
  · have hg : Graph.build [⟨['a'], false, 7200⟩, ⟨['b'], false, 100⟩]
        [.transformer (some 0) none (some 1) none 72 0 1 0, .switch (some 0) (some 1) .closed] = ⟨[['a'], ['b']], [⟨['a'], ['b'], [0, 1]⟩]⟩ := rfl
    rw [hg]
    refine components_single _ (fun _ => Iff.rfl) (by simp) ?_
    have hab : Graph.Adj ⟨[['a'], ['b']], [⟨['a'], ['b'], [0, 1]⟩]⟩ ['a'] ['b'] := ⟨_, List.mem_cons_self, .inl ⟨rfl, rfl⟩⟩
    intro x hx y hy
    simp only [List.mem_cons, List.not_mem_nil, or_false] at hx hy
    rcases hx with rfl | rfl <;> rcases hy with rfl | rfl
    · exact .refl
    · exact .single hab
    · exact .single (adj_symm _ hab)
    · exact .refl
  · have hg : Graph.plainEdges (Graph.build [⟨['a'], false, 7200⟩, ⟨['b'], false, 100⟩]
        [.transformer (some 0) none (some 1) none 72 0 1 0, .switch (some 0) (some 1) .closed])
        [.transformer (some 0) none (some 1) none 72 0 1 0, .switch (some 0) (some 1) .closed] = [] := rfl
    rw [hg]
    exact ⟨(by rintro a ⟨e, he, -⟩; cases he), (by simp), (by simp), (by simp), List.Pairwise.nil⟩
  · rfl

/-! ### C73 -/

/-- **C73, why it matters.** The two equations of a bus at which no element draws current hold for every vector and every homotopy
factor, so they determine nothing. -/
theorem C73_floating_rows {L : Library} (hL : L.Loaded) (N : Network) (ho : N.optimization = none) (k : ℕ) (hk : k < N.buses)
    (hu : ∀ e ∈ N.elements, Untouched e k) (t : ℝ) (v : ℕ → ℝ) :
    networkEq (N.assign L).all t v (2 * k) = 0 ∧ networkEq (N.assign L).all t v (2 * k + 1) = 0 := by
  have h1 := network_total hL N ho t v (2 * k)
  have h2 := network_total hL N ho t v (2 * k + 1)
  set D := ((N.assign L).owned L N v).flatMap fun x => x.1.draws t ((N.assign L).voltages v) x.2 with hD
  have hz : busSum k D = 0 := by
    unfold busSum
    rw [List.filter_eq_nil_iff.2]
    · rfl
    · intro d hd
      rw [hD] at hd
      obtain ⟨x, hx, hd⟩ := List.mem_flatMap.1 hd
      have hmem : x.1 ∈ N.elements := by
        unfold Assignment.owned at hx
        rw [List.zipWith_eq_zipWith_take_min] at hx
        obtain ⟨i, hi, rfl⟩ := List.getElem_of_mem hx
        rw [List.getElem_zipWith]
        exact List.mem_of_mem_take (List.getElem_mem _)
      simpa using hu x.1 hmem t _ _ d hd
  obtain ⟨b1, b2⟩ := drawRow_bus N.buses k hk D
  constructor
  · have e : lawRow (2 * N.buses) (((N.assign L).owned L N v).flatMap fun x => x.1.laws t ((N.assign L).voltages v) x.2) (2 * k) = 0 := by
      unfold lawRow
      rw [if_neg (by omega)]
    calc _ = drawRow ((List.range' 0 N.buses).map plainNode) D (2 * k) + _ := h1
      _ = 0 := by rw [e, b1, hz]; simp
  · have e : lawRow (2 * N.buses) (((N.assign L).owned L N v).flatMap fun x => x.1.laws t ((N.assign L).voltages v) x.2) (2 * k + 1) = 0 := by
      unfold lawRow
      rw [if_neg (by omega)]
    calc _ = drawRow ((List.range' 0 N.buses).map plainNode) D (2 * k + 1) + _ := h2
      _ = 0 := by rw [e, b2, hz]; simp

/-- Two nodes with phases A and B; a source on both phases of the first, a line on phase A only. -/
noncomputable def halfFeeder : List GBus := [⟨['m'], false, 100⟩, ⟨['m'], false, 100⟩, ⟨['n'], false, 100⟩, ⟨['n'], false, 100⟩]

/-- Its elements. -/
noncomputable def halfElements : List Element := [.line (some 0) (some 2) 1 0 0, .slack 0 100 0, .slack 1 100 0]

/-- **C73 fails.** A network with a bus (phase B of the second node) to which nothing is connected passes the checks. -/
theorem C73_floating_bus_fails {L : Library} (hL : L.Loaded) : ∃ cs vs, IsIslands (Graph.build halfFeeder halfElements) cs ∧
    IsEdgeIslands ((Graph.build halfFeeder halfElements).plainEdges halfElements) vs ∧ executeChecks halfFeeder cs vs = .ok () ∧
    (∀ e ∈ halfElements, Untouched e 3) ∧
    ∀ t v, networkEq (Network.assign L ⟨4, halfElements, none⟩).all t v 6 = 0 ∧ networkEq (Network.assign L ⟨4, halfElements, none⟩).all t v 7 = 0 := by
  have hu : ∀ e ∈ halfElements, Untouched e 3 := by
    intro e he t V w d hd
    simp only [halfElements, List.mem_cons, List.not_mem_nil, or_false] at he
    rcases he with rfl | rfl | rfl
    · simp only [Element.draws, branch, List.cons_append, List.nil_append, List.mem_cons, List.not_mem_nil, or_false] at hd
      rcases hd with rfl | rfl | rfl | rfl <;> simp
    · simp only [Element.draws, List.mem_singleton] at hd
      subst hd; simp
    · simp only [Element.draws, List.mem_singleton] at hd
      subst hd; simp
  have hg : Graph.build halfFeeder halfElements = ⟨[['m'], ['n']], [⟨['m'], ['n'], [0]⟩]⟩ := rfl
  have hmn : ∀ ns, Graph.Adj ⟨ns, [⟨['m'], ['n'], [0]⟩]⟩ ['m'] ['n'] := fun ns => ⟨_, List.mem_cons_self, .inl ⟨rfl, rfl⟩⟩
  have hall : ∀ ns, ∀ x ∈ [['m'], ['n']], ∀ y ∈ [['m'], ['n']], Relation.ReflTransGen (Graph.Adj ⟨ns, [⟨['m'], ['n'], [0]⟩]⟩) x y := by
    intro ns x hx y hy
    simp only [List.mem_cons, List.not_mem_nil, or_false] at hx hy
    rcases hx with rfl | rfl <;> rcases hy with rfl | rfl
    · exact .refl
    · exact .single (hmn ns)
    · exact .single (adj_symm _ (hmn ns))
    · exact .refl
  refine ⟨[[['m'], ['n']]], [[['m'], ['n']]], ?_, ?_, ?_, hu, fun t v => C73_floating_rows hL ⟨4, halfElements, none⟩ rfl 3 (by show 3 < 4; omega) hu t v⟩
  · rw [hg]
    exact components_single _ (fun _ => Iff.rfl) (by simp) (hall _)
  · rw [hg, show (Graph.plainEdges ⟨[['m'], ['n']], [⟨['m'], ['n'], [0]⟩]⟩ halfElements) = [⟨['m'], ['n'], [0]⟩] from rfl]
    exact components_single _ (fun a => by simp [eq_comm]) (by simp) (hall _)
  · unfold executeChecks
    rw [if_neg (by simp), validateIslands_ok]
    intro c hc
    rw [List.mem_singleton] at hc
    subst hc
    rw [validateIsland_none]
    have hr : pyRound (100 : ℝ) = 100 := by exact_mod_cast pyRound_int 100
    refine ⟨⟨['m'], false, 100⟩, rfl, ?_⟩
    intro b hb
    rw [List.mem_singleton] at hb
    subst hb
    exact ⟨⟨['n'], false, 100⟩, rfl, by simp only [hr]; norm_num⟩

/-! ### C44 -/

/-- The networks `select_island` is meant for: elements end at named nodes, internal buses are marked, `cs` are the islands. -/
structure Selecting (buses : List GBus) (elements : List Element) (cs : List (List Txt)) (swing : Txt) : Prop where
  proper : ProperEnds buses elements
  inside : InsideVirtual buses elements
  islands : IsIslands (Graph.build buses elements) cs

theorem selectIsland_ok {buses : List GBus} {elements : List Element} {cs : List (List Txt)} {swing : Txt} {S : Selected}
    (h : selectIsland buses elements cs swing = .ok S) : swing ∈ (Graph.build buses elements).nodes := by
  unfold selectIsland at h
  by_contra hn
  simp [hn] at h

/-- The other islands hold exactly the nodes that are not joined to the swing bus. -/
theorem others_iff {buses : List GBus} {elements : List Element} {cs : List (List Txt)} {swing : Txt} (hS : Selecting buses elements cs swing)
    (hsw : swing ∈ (Graph.build buses elements).nodes) (a : Txt) (ha : RealName buses a) :
    (∃ c ∈ cs.filter fun c => swing ∉ c, a ∈ c) ↔ ¬ PathBetween buses elements swing a := by
  have hx := build_exact buses elements hS.proper
  have e2 : (Graph.build buses elements).Adj = Linked buses elements :=
    funext fun a => funext fun b => propext (linked_adj buses elements hS.proper a b)
  have hc := hS.islands
  unfold IsIslands at hc
  rw [e2] at hc
  have hsymm : ∀ a b, Linked buses elements a b → Linked buses elements b a := by
    rintro a b ⟨e, he, h⟩
    exact ⟨e, he, linksNames_symm h⟩
  constructor
  · rintro ⟨c, hcc, hac⟩ hpath
    obtain ⟨hcm, hns⟩ := List.mem_filter.1 hcc
    have := (hc.component c hcm a hac swing hsw).2 (path_symm hsymm hpath)
    simp [this] at hns
  · intro hn
    obtain ⟨c, hcm, hac⟩ := hc.cover a ((hx.1 a).2 ha)
    refine ⟨c, List.mem_filter.2 ⟨hcm, ?_⟩, hac⟩
    by_contra hs
    have hs : swing ∈ c := by simpa using hs
    exact hn ((hc.component c hcm swing hs a ((hx.1 a).2 ha)).1 hac)

theorem mem_edgeElements (G : Graph) (others : List (List Txt)) (i : ℕ) :
    i ∈ edgeElements G others ↔ ∃ a b, G.Holds a b i ∧ ∃ c ∈ others, a ∈ c := by
  unfold edgeElements
  simp only [List.mem_flatMap, List.mem_filter, Bool.or_eq_true, decide_eq_true_eq]
  constructor
  · rintro ⟨c, hc, a, ha, e, ⟨he, h⟩, hi⟩
    rcases h with rfl | rfl
    · exact ⟨e.u, e.v, ⟨e, he, .inl ⟨rfl, rfl⟩, hi⟩, c, hc, ha⟩
    · exact ⟨e.v, e.u, ⟨e, he, .inr ⟨rfl, rfl⟩, hi⟩, c, hc, ha⟩
  · rintro ⟨a, b, ⟨e, he, h, hi⟩, c, hc, ha⟩
    refine ⟨c, hc, a, ha, e, ⟨he, ?_⟩, hi⟩
    rcases h with ⟨rfl, rfl⟩ | ⟨rfl, rfl⟩
    · exact .inl rfl
    · exact .inr rfl

theorem carries_iff (e : Element) : e.removedByEdge = true ↔ Carries e := by
  constructor
  · intro h
    cases e <;> first | exact .line | exact .unbalanced | exact .transformer | exact .centerTap | exact .switch | (simp [Element.removedByEdge] at h)
  · intro h
    cases h <;> rfl

theorem internalBuses_inside (e : Element) (k : ℕ) : k ∈ e.internalBuses ++ e.interiorBus → some k ∈ e.inside := by
  intro h
  cases e with
  | centerTap => simpa [Element.internalBuses, Element.interiorBus, Element.inside] using h
  | regulator f c t => cases c <;> simp_all [Element.internalBuses, Element.interiorBus, Element.inside]
  | fuse f c t => cases c <;> simp_all [Element.internalBuses, Element.interiorBus, Element.inside]
  | _ => simp [Element.internalBuses, Element.interiorBus] at h

theorem mem_zipIdx_iff (elements : List Element) (e : Element) (i : ℕ) : (e, i) ∈ elements.zipIdx ↔ elements[i]? = some e :=
  List.mem_zipIdx_iff_getElem?

/-- What `select_island` does, in terms of paths. -/
theorem selectIsland_spec {buses : List GBus} {elements : List Element} {cs : List (List Txt)} {swing : Txt} (hS : Selecting buses elements cs swing)
    {S : Selected} (h : selectIsland buses elements cs swing = .ok S) :
    ∃ left : List ℕ,
      (∀ (k : ℕ) (b : GBus), buses[k]? = some b → b.virtual = false → (k ∈ left ↔ PathBetween buses elements swing b.name)) ∧
      (∀ (k : ℕ) (b : GBus), buses[k]? = some b → b.virtual = false → (k ∈ S.buses ↔ k ∈ left)) ∧
      (∀ k ∈ left, k < buses.length) ∧
      ∀ (i : ℕ) (e : Element), elements[i]? = some e → (i ∈ S.elements ↔
        ¬ (Carries e ∧ ∃ a b, LinksNames buses e a b ∧ ¬ PathBetween buses elements swing a) ∧ e.busesHeld left = true) := by
  have hsw := selectIsland_ok h
  have hx := build_exact buses elements hS.proper
  unfold selectIsland at h
  simp only [hsw, not_true_eq_false, if_false, Except.ok.injEq] at h
  subst h
  have honE : ∀ (i : ℕ) (e : Element), elements[i]? = some e →
      (i ∈ edgeElements (Graph.build buses elements) (cs.filter fun c => swing ∉ c) ↔
        ∃ a b, LinksNames buses e a b ∧ ¬ PathBetween buses elements swing a) := by
    intro i e he
    rw [mem_edgeElements]
    constructor
    · rintro ⟨a, b, hh, hc⟩
      obtain ⟨e', he', hl⟩ := (hx.2 a b i).1 hh
      rw [he] at he'
      cases he'
      refine ⟨a, b, hl, ?_⟩
      rw [← others_iff hS hsw a]
      · exact hc
      · obtain ⟨-, f, t, hj, hn⟩ := hl
        have := hS.proper e (List.mem_of_getElem? he) f t hj
        rcases hn with ⟨rfl, rfl⟩ | ⟨rfl, rfl⟩
        · exact this.1
        · exact this.2
    · rintro ⟨a, b, hl, hn⟩
      refine ⟨a, b, (hx.2 a b i).2 ⟨e, he, hl⟩, ?_⟩
      rw [others_iff hS hsw a]
      · exact hn
      · obtain ⟨-, f, t, hj, hn⟩ := hl
        have := hS.proper e (List.mem_of_getElem? he) f t hj
        rcases hn with ⟨rfl, rfl⟩ | ⟨rfl, rfl⟩
        · exact this.1
        · exact this.2
  have hvirt : ∀ (x : Element × ℕ) (k : ℕ) (b : GBus), x ∈ elements.zipIdx → k ∈ x.1.internalBuses ++ x.1.interiorBus → buses[k]? = some b → b.virtual = true := by
    intro x k b hxm hk hb
    obtain ⟨e, i⟩ := x
    have he := (mem_zipIdx_iff elements e i).1 hxm
    exact hS.inside e (List.mem_of_getElem? he) k (internalBuses_inside e k hk) b hb
  refine ⟨leftBuses buses elements (cs.filter fun c => swing ∉ c), ?_, ?_, ?_, ?_⟩
  rotate_left
  · intro k b hb hv
    simp only [List.mem_filter, decide_eq_true_eq]
    constructor
    · exact fun h => h.1
    · intro h
      refine ⟨h, fun hk => ?_⟩
      obtain ⟨x, hx1, hx2⟩ := List.mem_flatMap.1 hk
      have := hvirt x k b (List.mem_filter.1 hx1).1 (List.mem_append_right _ hx2) hb
      rw [hv] at this
      cases this
  · intro k hk
    exact List.mem_range.1 (List.mem_filter.1 hk).1
  · intro i e he
    simp only [List.mem_map, List.mem_filter, goneByEdge, Bool.and_eq_true, Bool.not_eq_true', Bool.and_eq_false_iff, decide_eq_false_iff_not]
    constructor
    · rintro ⟨⟨e', i'⟩, ⟨hm, h1, h2⟩, rfl⟩
      have := (mem_zipIdx_iff elements e' i').1 hm
      simp only at he
      rw [this] at he
      cases he
      refine ⟨?_, h2⟩
      rintro ⟨hc, hl⟩
      rcases h1 with h1 | h1
      · rw [(carries_iff e).2 hc] at h1
        cases h1
      · exact h1 ((honE i' e this).2 hl)
    · rintro ⟨h1, h2⟩
      refine ⟨(e, i), ⟨(mem_zipIdx_iff elements e i).2 he, ?_, h2⟩, rfl⟩
      by_cases hc : e.removedByEdge = true
      · right
        intro hm
        exact h1 ⟨(carries_iff e).1 hc, (honE i e he).1 hm⟩
      · left
        simpa using hc
  · intro k b hb hv
    have hlt := (List.getElem?_eq_some_iff.1 hb).1
    simp only [leftBuses, List.mem_filter, List.mem_range, hlt, true_and, hb, hv, Bool.false_or, Bool.and_eq_true, decide_eq_true_eq,
      Bool.not_eq_true']
    have hr : RealName buses b.name := ⟨b, List.mem_of_getElem? hb, hv, rfl⟩
    have ho := others_iff hS hsw b.name hr
    constructor
    · rintro ⟨h1, -⟩
      by_contra hn
      obtain ⟨c, hc, hbc⟩ := ho.2 hn
      rw [List.any_eq_false] at h1
      exact h1 c hc (by simpa using hbc)
    · intro hp
      constructor
      · rw [List.any_eq_false]
        intro c hc hbc
        exact ho.1 ⟨c, hc, by simpa using hbc⟩ hp
      · intro hk
        obtain ⟨x, hx1, hx2⟩ := List.mem_flatMap.1 hk
        have := hvirt x k b (List.mem_filter.1 hx1).1 (List.mem_append_left _ hx2) hb
        rw [hv] at this
        cases this

/-- **C44, buses.** The named buses that stay are those joined to the swing bus. -/
theorem C44_buses {buses : List GBus} {elements : List Element} {cs : List (List Txt)} {swing : Txt} (hS : Selecting buses elements cs swing)
    {S : Selected} (h : selectIsland buses elements cs swing = .ok S) (k : ℕ) (b : GBus) (hb : buses[k]? = some b) (hv : b.virtual = false) :
    k ∈ S.buses ↔ PathBetween buses elements swing b.name := by
  obtain ⟨left, h1, h2, -⟩ := selectIsland_spec hS h
  rw [h2 k b hb hv, h1 k b hb hv]

/-- **C44, lines, transformers, switches.** Such an element goes exactly when it joins two nodes that are not joined to the swing
bus. -/
theorem C44_carriers {buses : List GBus} {elements : List Element} {cs : List (List Txt)} {swing : Txt} (hS : Selecting buses elements cs swing)
    {S : Selected} (h : selectIsland buses elements cs swing = .ok S) (i : ℕ) (e : Element) (he : elements[i]? = some e) (hc : Carries e) :
    i ∈ S.elements ↔ ∀ a b, LinksNames buses e a b → PathBetween buses elements swing a := by
  obtain ⟨left, -, -, -, h3⟩ := selectIsland_spec hS h
  rw [h3 i e he]
  have : e.busesHeld left = true := by cases hc <;> rfl
  rw [this]
  constructor
  · rintro ⟨h1, -⟩ a b hl
    by_contra hn
    exact h1 ⟨hc, a, b, hl, hn⟩
  · intro hall
    refine ⟨?_, rfl⟩
    rintro ⟨-, a, b, hl, hn⟩
    exact hn (hall a b hl)

/-- **C44, what holds for the rest.** Slacks, generators, fuses, regulators, loads and capacitors at named buses stay exactly when every
terminal is a bus joined to the swing bus; ground is not one. Missing: elements with a grounded terminal, see below. -/
theorem C44_hanging_partial {buses : List GBus} {elements : List Element} {cs : List (List Txt)} {swing : Txt} (hS : Selecting buses elements cs swing)
    {S : Selected} (h : selectIsland buses elements cs swing = .ok S) (i : ℕ) (e : Element) (he : elements[i]? = some e) (rs : List Ref)
    (hr : e.hangsOn = some rs) (hv : ∀ k, some k ∈ rs → ∃ b, buses[k]? = some b ∧ b.virtual = false) :
    i ∈ S.elements ↔ ∀ r ∈ rs, ∃ k b, r = some k ∧ buses[k]? = some b ∧ PathBetween buses elements swing b.name := by
  obtain ⟨left, h1, -, -, h3⟩ := selectIsland_spec hS h
  have hnc : ¬ Carries e := by intro hc; cases hc <;> cases hr
  rw [h3 i e he]
  simp only [hnc, false_and, not_false_eq_true, true_and]
  have hheld : e.busesHeld left = true ↔ ∀ r ∈ rs, holds left r = true := by
    cases e <;> cases hr <;> simp [Element.busesHeld]
  rw [hheld]
  refine forall_congr' fun r => forall_congr' fun hrm => ?_
  cases r with
  | none => simp [holds]
  | some k =>
    obtain ⟨b, hb, hbv⟩ := hv k hrm
    simp only [holds, decide_eq_true_eq, Option.some.injEq]
    rw [h1 k b hb hbv]
    constructor
    · intro hp; exact ⟨k, b, rfl, hb, hp⟩
    · rintro ⟨k', b', rfl, hb', hp⟩
      rw [hb] at hb'
      cases hb'
      exact hp

/-- **C44 fails.** In every network every load and capacitor to ground is dropped, those of the selected island too; a one-node
network with its load is such a case. -/
theorem C44_grounded_fails {buses : List GBus} {elements : List Element} {cs : List (List Txt)} {swing : Txt} (hS : Selecting buses elements cs swing)
    {S : Selected} (h : selectIsland buses elements cs swing = .ok S) :
    (∀ (i : ℕ) f l, elements[i]? = some (.load f none l) → i ∉ S.elements) ∧
    (∀ (i : ℕ) f sw b, elements[i]? = some (.capacitor f none sw b) → i ∉ S.elements) := by
  obtain ⟨left, -, -, -, h3⟩ := selectIsland_spec hS h
  refine ⟨fun i f l he hm => ?_, fun i f sw b he hm => ?_⟩
  · have := ((h3 i _ he).1 hm).2
    simp [Element.busesHeld, holds] at this
  · have := ((h3 i _ he).1 hm).2
    simp [Element.busesHeld, holds] at this

/-- The case: one bus with a slack, a load to ground and a load between two phases. -/
noncomputable def loadedNode : List GBus := [⟨['a'], false, 100⟩, ⟨['a'], false, 100⟩]

/-- Its elements. -/
noncomputable def loadedElements : List Element := [.slack 0 100 0, .slack 1 100 0, .load (some 0) none ⟨5, 0, 0, 0, 0⟩, .load (some 0) (some 1) ⟨5, 0, 0, 0, 0⟩]

theorem loadedNode_selecting : Selecting loadedNode loadedElements [[['a']]] ['a'] := by
  refine ⟨?_, ?_, ?_⟩
  · intro e he f t hj
    simp only [loadedElements, List.mem_cons, List.not_mem_nil, or_false] at he
    rcases he with rfl | rfl | rfl | rfl <;> cases hj
  · intro e he k hk
    simp only [loadedElements, List.mem_cons, List.not_mem_nil, or_false] at he
    rcases he with rfl | rfl | rfl | rfl <;> simp [Element.inside] at hk
  · rw [show Graph.build loadedNode loadedElements = ⟨[['a']], []⟩ from rfl]
    refine components_single _ (fun _ => Iff.rfl) (by simp) ?_
    intro x hx y hy
    rw [List.mem_singleton] at hx hy
    rw [hx, hy]

/-- Selecting the only island of that network drops the load to ground and keeps the rest. -/
example : selectIsland loadedNode loadedElements [[['a']]] ['a'] = .ok ⟨[0, 1], [0, 1, 3]⟩ := rfl

/-! ### Examples -/

/-- Four nodes in two islands. -/
noncomputable def twoParts : List GBus := [⟨['a'], false, 100⟩, ⟨['b'], false, 100⟩, ⟨['c'], false, 100⟩, ⟨['d'], false, 100⟩]

/-- A source and a switch in one island, a line in the other, and a load in each. -/
noncomputable def twoPartsElements : List Element :=
  [.slack 0 100 0, .switch (some 0) (some 1) .closed, .line (some 2) (some 3) 1 0 0, .load (some 0) (some 1) ⟨5, 0, 0, 0, 0⟩,
   .load (some 2) (some 3) ⟨5, 0, 0, 0, 0⟩]

theorem twoParts_graph : Graph.build twoParts twoPartsElements =
    ⟨[['a'], ['b'], ['c'], ['d']], [⟨['a'], ['b'], [1]⟩, ⟨['c'], ['d'], [2]⟩]⟩ := rfl

theorem twoParts_proper : ProperEnds twoParts twoPartsElements := by
  intro e he f t hj
  have : ∀ k < 4, RealName twoParts (nameOf twoParts k) := by
    intro k hk
    match k, hk with
    | 0, _ => exact ⟨⟨['a'], false, 100⟩, by simp [twoParts], rfl, rfl⟩
    | 1, _ => exact ⟨⟨['b'], false, 100⟩, by simp [twoParts], rfl, rfl⟩
    | 2, _ => exact ⟨⟨['c'], false, 100⟩, by simp [twoParts], rfl, rfl⟩
    | 3, _ => exact ⟨⟨['d'], false, 100⟩, by simp [twoParts], rfl, rfl⟩
  simp only [twoPartsElements, List.mem_cons, List.not_mem_nil, or_false] at he
  rcases he with rfl | rfl | rfl | rfl | rfl <;> cases hj <;> exact ⟨this _ (by omega), this _ (by omega)⟩

theorem twoParts_adj (a b : Txt) : (Graph.build twoParts twoPartsElements).Adj a b →
    (a ∈ [['a'], ['b']] ↔ b ∈ [['a'], ['b']]) := by
  rw [twoParts_graph]
  rintro ⟨e, he, h⟩
  simp only [List.mem_cons, List.not_mem_nil, or_false] at he
  rcases he with rfl | rfl <;> rcases h with ⟨rfl, rfl⟩ | ⟨rfl, rfl⟩ <;> simp

theorem twoParts_path (a b : Txt) (h : Relation.ReflTransGen (Graph.build twoParts twoPartsElements).Adj a b) :
    (a ∈ [['a'], ['b']] ↔ b ∈ [['a'], ['b']]) := by
  induction h with
  | refl => rfl
  | tail _ h ih => exact ih.trans (twoParts_adj _ _ h)

theorem twoParts_islands : IsIslands (Graph.build twoParts twoPartsElements) [[['a'], ['b']], [['c'], ['d']]] := by
  have hab : (Graph.build twoParts twoPartsElements).Adj ['a'] ['b'] := by
    rw [twoParts_graph]; exact ⟨_, List.mem_cons_self, .inl ⟨rfl, rfl⟩⟩
  have hcd : (Graph.build twoParts twoPartsElements).Adj ['c'] ['d'] := by
    rw [twoParts_graph]; exact ⟨⟨['c'], ['d'], [2]⟩, by simp, .inl ⟨rfl, rfl⟩⟩
  have hn : ∀ a, a ∈ (Graph.build twoParts twoPartsElements).nodes ↔ a ∈ [['a'], ['b'], ['c'], ['d']] := fun a => Iff.rfl
  refine ⟨?_, ?_, by simp, ?_, by simp⟩
  · intro a ha
    rw [hn] at ha
    simp only [List.mem_cons, List.not_mem_nil, or_false] at ha
    rcases ha with rfl | rfl | rfl | rfl <;> simp
  · intro c hc a ha
    rw [hn]
    simp only [List.mem_cons, List.not_mem_nil, or_false] at hc
    rcases hc with rfl | rfl <;> simp only [List.mem_cons, List.not_mem_nil, or_false] at ha ⊢ <;> tauto
  · intro c hc a ha b hb
    rw [hn] at hb
    constructor
    · intro hbc
      simp only [List.mem_cons, List.not_mem_nil, or_false] at hc
      rcases hc with rfl | rfl <;> simp only [List.mem_cons, List.not_mem_nil, or_false] at ha hbc <;>
        rcases ha with rfl | rfl <;> rcases hbc with rfl | rfl
      exacts [.refl, .single hab, .single (adj_symm _ hab), .refl, .refl, .single hcd, .single (adj_symm _ hcd), .refl]
    · intro hp
      have := twoParts_path a b hp
      simp only [List.mem_cons, List.not_mem_nil, or_false] at hc
      rcases hc with rfl | rfl
      · exact this.1 ha
      · simp only [List.mem_cons, List.not_mem_nil, or_false] at ha hb this ⊢
        rcases ha with rfl | rfl <;> simp at this <;> tauto

theorem twoParts_selecting : Selecting twoParts twoPartsElements [[['a'], ['b']], [['c'], ['d']]] ['a'] := by
  refine ⟨twoParts_proper, ?_, twoParts_islands⟩
  intro e he k hk
  simp only [twoPartsElements, List.mem_cons, List.not_mem_nil, or_false] at he
  rcases he with rfl | rfl | rfl | rfl | rfl <;> simp [Element.inside] at hk

theorem twoParts_selected : selectIsland twoParts twoPartsElements [[['a'], ['b']], [['c'], ['d']]] ['a'] = .ok ⟨[0, 1], [0, 1, 3]⟩ := rfl

/-- The node `b` stays, so it is joined to the swing bus; `c` goes, so it is not. -/
example : PathBetween twoParts twoPartsElements ['a'] ['b'] ∧ ¬ PathBetween twoParts twoPartsElements ['a'] ['c'] :=
  ⟨(C44_buses twoParts_selecting twoParts_selected 1 ⟨['b'], false, 100⟩ rfl rfl).1 (by simp), fun h =>
    absurd ((C44_buses twoParts_selecting twoParts_selected 2 ⟨['c'], false, 100⟩ rfl rfl).2 h) (by simp)⟩

/-- The line of the other island goes, although nothing else about it was asked. -/
example : ¬ ∀ a b, LinksNames twoParts (.line (some 2) (some 3) 1 0 0) a b → PathBetween twoParts twoPartsElements ['a'] a := fun h =>
  absurd ((C44_carriers twoParts_selecting twoParts_selected 2 _ rfl .line).2 h) (by simp)

/-- The load between the two nodes of the selected island stays. -/
example : ∀ r ∈ [some 0, some 1], ∃ k b, r = some k ∧ twoParts[k]? = some b ∧ PathBetween twoParts twoPartsElements ['a'] b.name :=
  (C44_hanging_partial twoParts_selecting twoParts_selected 3 _ rfl _ rfl (by
    intro k hk
    simp only [List.mem_cons, List.not_mem_nil, or_false, Option.some.injEq] at hk
    rcases hk with rfl | rfl
    · exact ⟨_, rfl, rfl⟩
    · exact ⟨_, rfl, rfl⟩)).1 (by simp)

/-- A run on the whole of it is refused, and `C45_refused_iff` tells why. -/
example (vs : List (List Txt)) : ¬ ((∃ a, RealName twoParts a) ∧
    ∀ a b, RealName twoParts a → RealName twoParts b → PathBetween twoParts twoPartsElements a b) :=
  (C45_refused_iff twoParts twoPartsElements twoParts_proper _ vs twoParts_islands).1 rfl

/-- The three nodes are accepted, so two of them are joined. -/
example : PathBetween threeNodes twoLines ['b'] ['c'] := by
  obtain ⟨h1, h2⟩ := threeNodes_islands [['a'], ['b'], ['c']] (by simp)
  exact C45_one_island threeNodes twoLines _ _ h1 threeNodes_accepted _ _ ⟨⟨['b'], false, 110⟩, by simp [threeNodes], rfl, rfl⟩
    ⟨⟨['c'], false, 90⟩, by simp [threeNodes], rfl, rfl⟩

theorem twoLines_proper : ProperEnds threeNodes twoLines := by
  intro e he f t hj
  have : ∀ k < 3, RealName threeNodes (nameOf threeNodes k) := by
    intro k hk
    match k, hk with
    | 0, _ => exact ⟨⟨['a'], false, 100⟩, by simp [threeNodes], rfl, rfl⟩
    | 1, _ => exact ⟨⟨['b'], false, 110⟩, by simp [threeNodes], rfl, rfl⟩
    | 2, _ => exact ⟨⟨['c'], false, 90⟩, by simp [threeNodes], rfl, rfl⟩
  simp only [twoLines, List.mem_cons, List.not_mem_nil, or_false] at he
  rcases he with rfl | rfl <;> cases hj <;> exact ⟨this _ (by omega), this _ (by omega)⟩

/-- The two ends `b` and `c` of the three nodes, joined through `a`, are at most 20 volts apart by `C46_spread` (they are exactly 20
apart, which `C46_bound_sharp` records). -/
example : |(110 : ℝ) - 90| ≤ 20 := by
  obtain ⟨h1, h2⟩ := threeNodes_islands [['a'], ['b'], ['c']] (by simp)
  refine C46_spread threeNodes twoLines twoLines_proper _ _ h2 threeNodes_accepted ['b'] ['c'] ?_ ⟨['b'], false, 110⟩ ⟨['c'], false, 90⟩
    ((firstBus_iff _ _ _).1 rfl) ((firstBus_iff _ _ _).1 rfl)
  have e2 : Graph.Adj ⟨[], (Graph.build threeNodes twoLines).plainEdges twoLines⟩ = PlainLinked threeNodes twoLines :=
    funext fun a => funext fun b => propext (plainEdges_adj threeNodes twoLines twoLines_proper a b)
  rw [← e2]
  exact threeNodes_path _ threeNodes_plain _ _ (by simp) (by simp)

/-- Two nodes of 100 and 105 volts and a line between them are accepted in both orders. -/
example : executeChecks [⟨['a'], false, 100⟩, ⟨['b'], false, 105⟩] [[['b'], ['a']]] [[['b'], ['a']]] = .ok () := by
  have hp : ProperEnds [⟨['a'], false, 100⟩, ⟨['b'], false, 105⟩] [.line (some 0) (some 1) 1 0 0] := by
    intro e he f t hj
    rw [List.mem_singleton] at he
    subst he
    cases hj
    exact ⟨⟨_, by simp, rfl, rfl⟩, ⟨⟨['b'], false, 105⟩, by simp, rfl, rfl⟩⟩
  refine C46_accepts _ [.line (some 0) (some 1) 1 0 0] hp _ _ rfl ?_ ?_
  · rw [show (Graph.build [⟨['a'], false, 100⟩, ⟨['b'], false, 105⟩] [.line (some 0) (some 1) 1 0 0]).plainEdges
      [.line (some 0) (some 1) 1 0 0] = [⟨['a'], ['b'], [0]⟩] from rfl]
    have hab : Graph.Adj ⟨[], [⟨['a'], ['b'], [0]⟩]⟩ ['a'] ['b'] := ⟨_, List.mem_cons_self, .inl ⟨rfl, rfl⟩⟩
    refine components_single _ (fun a => by simp [eq_comm]; tauto) (by simp) ?_
    intro x hx y hy
    simp only [List.mem_cons, List.not_mem_nil, or_false] at hx hy
    rcases hx with rfl | rfl <;> rcases hy with rfl | rfl
    exacts [.refl, .single (adj_symm _ hab), .single hab, .refl]
  · rintro a b - x y ⟨i, hi, -⟩ ⟨j, hj, -⟩
    have h1 := List.mem_of_getElem? hi
    have h2 := List.mem_of_getElem? hj
    simp only [List.mem_cons, List.not_mem_nil, or_false] at h1 h2
    rcases h1 with rfl | rfl <;> rcases h2 with rfl | rfl <;> norm_num [abs_le]

/-- The floating phase of the half feeder: its first row is 0 whatever the state. -/
example {L : Library} (hL : L.Loaded) (t : ℝ) (v : ℕ → ℝ) : networkEq (Network.assign L ⟨2, [.slack 0 100 0], none⟩).all t v 2 = 0 :=
  (C73_floating_rows hL ⟨2, [.slack 0 100 0], none⟩ rfl 1 (by show 1 < 2; omega) (by
    intro e he t V w d hd
    rw [List.mem_singleton] at he
    subst he
    simp only [Element.draws, List.mem_singleton] at hd
    subst hd; simp) t v).1

end Verif
