import Verif.Lemmas.Twin

/-! Equations and Lagrangian of optimization mode in terms of the plain network's equations. -/

namespace Verif

open Ex Devices

variable {L : Library}

theorem twin_eval {S : ℕ → ℕ × ℕ} {p q : Placed} (h : Twin S p q) (hl : LinearIn p.details.seg.duals p.details.seg.lagrange)
    (t : ℝ) (v : ℕ → ℝ) {d : Sym} (hd : d ∈ p.details.seg.duals) :
    eval (q.env t v) (q.details.seg.derivative d) = eval (p.env t fun r => v (S r).1) (p.details.seg.derivative d) := by
  rw [h.seg]
  apply eval_congr
  intro s hs
  have hnd : s ∉ p.details.seg.duals := by
    intro hm
    have := hl.diff_free hd s hm
    rw [show (diff d p.details.seg.lagrange).has s = true from hs] at this
    exact absurd this (by simp)
  unfold Placed.env Part.env Placed.part Placed.point
  simp only [h.seg, h.consts]
  by_cases hc : s ∈ p.details.seg.constants
  · simp only [hc, if_true]
  · simp only [hc, if_false]
    by_cases hv : s ∈ p.details.seg.vars
    · simp only [hv, if_true]
      rw [h.primals s ((List.mem_append.1 hv).resolve_right hnd)]
      cases p.details.varMap s <;> rfl
    · simp only [hv, if_false]

theorem twin_constraints {S : ℕ → ℕ × ℕ} {p q : Placed} (h : Twin S p q) (hl : LinearIn p.details.seg.duals p.details.seg.lagrange)
    (t : ℝ) (v : ℕ → ℝ) : q.constraints t v = ((p.equations t fun r => v (S r).1).map fun e => v (S e.1).2 * e.2).sum := by
  unfold Placed.constraints Placed.equations Details.firstOrder
  rw [h.plain, h.seg]
  simp only [Bool.false_eq_true, if_false]
  suffices hm : ∀ ds : List Sym, (∀ d ∈ ds, d ∈ p.details.seg.duals) →
      (ds.map fun d => readIdx v (q.details.eqnMap d) * eval (q.env t v) (p.details.seg.derivative d)).sum =
        ((ds.filterMap fun x => (p.details.row x).map fun r =>
          (r, eval (p.env t fun r => v (S r).1) (p.details.seg.derivative x))).map fun e => v (S e.1).2 * e.2).sum from
    hm _ fun _ h => h
  intro ds hmem
  induction ds with
  | nil => rfl
  | cons d ds ih =>
    rw [List.map_cons, List.sum_cons, ih fun d' h' => hmem d' (by simp [h'])]
    have e1 := twin_eval h hl t v (hmem d (by simp))
    rw [h.seg] at e1
    rw [e1, h.duals d (hmem d (by simp)), List.filterMap_cons]
    cases p.details.row d with
    | none => simp [readIdx]
    | some r => simp [readIdx]

/-- The row of the multiplier of a plain equation is that equation. -/
theorem twin_row {S : ℕ → ℕ × ℕ} (hS : ∀ r s, ((S r).2 = (S s).2 → r = s) ∧ (S r).1 ≠ (S s).2) {p q : Placed} (h : Twin S p q)
    (hl : LinearIn p.details.seg.duals p.details.seg.lagrange) (t : ℝ) (v : ℕ → ℝ) (r : ℕ) :
    rowTotal (q.equations t v) (S r).2 = rowTotal (p.equations t fun r => v (S r).1) r := by
  unfold Placed.equations
  rw [rowTotal_filterMap, rowTotal_filterMap]
  unfold Details.firstOrder
  rw [h.opt, h.plain, h.seg]
  simp only [Bool.false_eq_true, if_false, if_true]
  have hr : ∀ x, q.details.row x = q.details.eqnMap x := by intro x; unfold Details.row; rw [h.opt]; rfl
  simp only [hr]
  rw [show p.details.seg.vars = p.details.seg.primals ++ p.details.seg.duals from rfl, List.map_append, List.sum_append]
  have hz : (p.details.seg.primals.map fun x => if q.details.eqnMap x = some (S r).2 then
      eval (q.env t v) (p.details.seg.derivative x) else 0).sum = 0 := by
    apply List.sum_eq_zero
    intro z hz
    obtain ⟨x, hx, rfl⟩ := List.mem_map.1 hz
    rw [h.rows x hx]
    cases p.details.eqnMap x with
    | none => simp
    | some k => simp [(hS k r).2]
  rw [hz, zero_add]
  congr 1
  apply List.map_congr_left
  intro d hd
  have e1 := twin_eval h hl t v hd
  rw [h.seg] at e1
  rw [e1, h.duals d hd]
  cases p.details.row d with
  | none => simp
  | some k =>
    simp only [Option.map_some, Option.some.injEq]
    by_cases hk : k = r
    · simp [hk]
    · rw [if_neg hk, if_neg fun h' => hk ((hS k r).1 h')]

/-- With vanishing multipliers the rows of the unknowns vanish. -/
theorem twin_primal_row {S : ℕ → ℕ × ℕ} {p q : Placed} (h : Twin S p q) (hq : q.Regular t v)
    (hl : LinearIn p.details.seg.duals p.details.seg.lagrange)
    (hz : ∀ d ∈ p.details.seg.duals, readIdx v (q.details.varMap d) = 0) (i : ℕ) (hi : ∀ r, (S r).2 ≠ i) :
    rowTotal (q.equations t v) i = 0 := by
  rw [equations_rowDir h.opt]
  unfold Placed.rowDir
  rw [show q.details.seg.vars = q.details.seg.primals ++ q.details.seg.duals from rfl, h.seg, List.map_append, List.sum_append]
  have h1 : (p.details.seg.duals.map fun x => readIdx (unit i) (q.details.eqnMap x) * eval (q.env t v) (p.details.seg.derivative x)).sum = 0 := by
    apply List.sum_eq_zero
    intro z hz'
    obtain ⟨d, hd, rfl⟩ := List.mem_map.1 hz'
    rw [readIdx_unit, h.duals d hd]
    cases p.details.row d with
    | none => simp
    | some k => simp [hi k]
  have h2 : (p.details.seg.primals.map fun x => readIdx (unit i) (q.details.eqnMap x) * eval (q.env t v) (p.details.seg.derivative x)).sum = 0 := by
    apply List.sum_eq_zero
    intro z hz'
    obtain ⟨x, hx, rfl⟩ := List.mem_map.1 hz'
    have hn : p.details.seg.vars.Nodup := by rw [← h.seg]; exact hq.nodup
    have hxd : x ∉ p.details.seg.duals := fun hd => (List.nodup_append.1 hn).2.2 x hx x hd rfl
    have : eval (q.env t v) (p.details.seg.derivative x) = 0 := by
      rw [show eval (q.env t v) (p.details.seg.derivative x) = _ from (hl.diff hxd).eval (List.nodup_append.1 hn).2.1 (q.env t v)]
      apply List.sum_eq_zero
      intro z hz'
      obtain ⟨d, hd, rfl⟩ := List.mem_map.1 hz'
      have hdv : d ∈ q.details.seg.vars := by rw [h.seg]; exact List.mem_append_right _ hd
      rw [Placed.env_var hq.disj hdv, hz d hd, zero_mul]
    rw [this, mul_zero]
  rw [h1, h2, add_zero]

/-- Weighted sum of network equations. -/
theorem sum_rows (l : List (ℕ × ℝ)) (u : ℕ → ℝ) (B : ℕ) (hB : ∀ e ∈ l, e.1 < B) :
    ((List.range B).map fun r => u r * rowTotal l r).sum = (l.map fun e => u e.1 * e.2).sum := by
  induction l with
  | nil => simp [rowTotal]
  | cons e l ih =>
    rw [List.map_cons, List.sum_cons, ← ih fun e' h => hB e' (by simp [h])]
    simp only [rowTotal_cons, mul_add]
    rw [List.sum_map_add]
    congr 1
    have : (List.range B).map (fun r => u r * if e.1 = r then e.2 else 0) = (List.range B).map fun r => if r = e.1 then u e.1 * e.2 else 0 := by
      apply List.map_congr_left; intro r _
      by_cases hr : r = e.1
      · subst hr; simp
      · simp [hr, Ne.symm hr]
    rw [this, List.sum_map_ite_eq]
    simp [List.count_eq_one_of_mem List.nodup_range (List.mem_range.2 (hB e (by simp)))]

theorem exists_bound (l : List (ℕ × ℝ)) : ∃ B, ∀ e ∈ l, e.1 < B := by
  induction l with
  | nil => exact ⟨0, by simp⟩
  | cons e l ih =>
    obtain ⟨B, hB⟩ := ih
    refine ⟨max B (e.1 + 1), ?_⟩
    intro e' he
    rcases List.mem_cons.1 he with rfl | he
    · exact lt_of_lt_of_le (Nat.lt_succ_self _) (le_max_right _ _)
    · exact lt_of_lt_of_le (hB e' he) (le_max_left _ _)

theorem sum_range_cut {f : ℕ → ℝ} {U B : ℕ} (hU : U ≤ B) (hf : ∀ r, U ≤ r → f r = 0) :
    ((List.range B).map f).sum = ((List.range U).map f).sum := by
  obtain ⟨k, rfl⟩ := Nat.exists_eq_add_of_le hU
  rw [List.range_add, List.map_append, List.sum_append, List.map_map]
  rw [show ((List.range k).map (f ∘ fun x => U + x)).sum = 0 from ?_, add_zero]
  apply List.sum_eq_zero
  intro z hz
  obtain ⟨x, _, rfl⟩ := List.mem_map.1 hz
  exact hf (U + x) (Nat.le_add_right _ _)

theorem forall₂_flatten {α β : Type*} {R : α → β → Prop} {a : List (List α)} {b : List (List β)} (h : List.Forall₂ (List.Forall₂ R) a b) :
    List.Forall₂ R a.flatten b.flatten := by
  induction h with
  | nil => exact .nil
  | cons h _ ih => exact List.rel_append h ih

theorem forall₂_mem_right {α β : Type*} {R : α → β → Prop} {a : List α} {b : List β} (h : List.Forall₂ R a b) {y : β} (hy : y ∈ b) :
    ∃ x ∈ a, R x y := by
  induction h with
  | nil => simp at hy
  | cons h _ ih =>
    rcases List.mem_cons.1 hy with rfl | hy
    · exact ⟨_, by simp, h⟩
    · obtain ⟨x, hx, hr⟩ := ih hy; exact ⟨x, by simp [hx], hr⟩

theorem placeElements_multLinear (hL : L.Loaded) {opt : Bool} {nodes : List Node} (es : List Element) (n : ℕ) :
    ∀ p ∈ (placeElements L opt nodes n es).1.flatten, LinearIn p.details.seg.duals p.details.seg.lagrange := by
  induction es generalizing n with
  | nil => intro p hp; simp [placeElements] at hp
  | cons e es ih =>
    intro p hp
    simp only [placeElements, List.flatten_cons, List.mem_append] at hp
    rcases hp with hp | hp
    · exact place_multLinear hL e n p hp
    · exact ih _ p hp

theorem parts_linear (hL : L.Loaded) (N : Network) : ∀ p ∈ (N.assign L).parts.flatten, LinearIn p.details.seg.duals p.details.seg.lagrange :=
  placeElements_multLinear hL _ _

/-- Multipliers times equations, part by part, is multipliers times the plain network's equations. -/
theorem parts_constraints (hL : L.Loaded) (N : Network) (o : OptKind) (ho : N.optimization = some o) (t : ℝ) (v : ℕ → ℝ) :
    ((N.assign L).parts.flatten.map fun q => q.constraints t v).sum =
      ((List.range N.unknowns).map fun r => N.multiplier v r * networkEq (N.plain.assign L).all t (N.primal v) r).sum := by
  obtain ⟨_, h2, h3, h4, _, _⟩ := network_twin hL N o ho
  have hf := forall₂_flatten h2
  have hall : (N.plain.assign L).all = (N.plain.assign L).parts.flatten := by unfold Assignment.all; rw [h3, List.append_nil]
  have hlin := parts_linear hL N.plain
  have e1 : ∀ {ps qs : List Placed}, List.Forall₂ (Twin N.twin) ps qs → (∀ p ∈ ps, LinearIn p.details.seg.duals p.details.seg.lagrange) →
      (qs.map fun q => q.constraints t v).sum =
        ((ps.flatMap fun p => p.equations t (N.primal v)).map fun e => N.multiplier v e.1 * e.2).sum := by
    intro ps qs h hl
    induction h with
    | nil => rfl
    | cons h _ ih =>
      rw [List.map_cons, List.sum_cons, List.flatMap_cons, List.map_append, List.sum_append, ih fun p hp => hl p (by simp [hp]),
        twin_constraints h (hl _ (by simp))]
      rfl
  rw [e1 hf hlin]
  set l := (N.plain.assign L).parts.flatten.flatMap fun p => p.equations t (N.primal v) with hldef
  have hne : ∀ r, networkEq (N.plain.assign L).all t (N.primal v) r = rowTotal l r := by
    intro r; unfold networkEq; rw [hall]
  simp only [hne]
  obtain ⟨B, hB⟩ := exists_bound l
  have hB' : ∀ e ∈ l, e.1 < max B N.unknowns := fun e he => lt_of_lt_of_le (hB e he) (le_max_left _ _)
  rw [← sum_rows l (N.multiplier v) (max B N.unknowns) hB']
  refine sum_range_cut (le_max_right _ _) fun r hr => ?_
  rw [← hne r, network_rows_high hL N.plain rfl t (N.primal v) r (by rw [h4]; exact hr), mul_zero]

/-- The row of a multiplier: the plain equation. -/
theorem parts_row (hL : L.Loaded) (N : Network) (o : OptKind) (ho : N.optimization = some o) (t : ℝ) (v : ℕ → ℝ) (r : ℕ) :
    networkEq (N.assign L).parts.flatten t v (N.twin r).2 = networkEq (N.plain.assign L).all t (N.primal v) r := by
  obtain ⟨_, h2, h3, h4, _, _⟩ := network_twin hL N o ho
  have hf := forall₂_flatten h2
  have hall : (N.plain.assign L).all = (N.plain.assign L).parts.flatten := by unfold Assignment.all; rw [h3, List.append_nil]
  have hlin := parts_linear hL N.plain
  rw [hall]
  unfold networkEq
  have hinj : ∀ r s, ((N.twin r).2 = (N.twin s).2 → r = s) ∧ (N.twin r).1 ≠ (N.twin s).2 :=
    fun r s => ⟨(twinOf_inj 0 N.blocks r s).2.1, (twinOf_inj 0 N.blocks r s).2.2⟩
  have : ∀ {ps qs : List Placed}, List.Forall₂ (Twin N.twin) ps qs → (∀ p ∈ ps, LinearIn p.details.seg.duals p.details.seg.lagrange) →
      rowTotal (qs.flatMap fun q => q.equations t v) (N.twin r).2 = rowTotal (ps.flatMap fun p => p.equations t (N.primal v)) r := by
    intro ps qs h hl
    induction h with
    | nil => rfl
    | cons h _ ih =>
      rw [List.flatMap_cons, List.flatMap_cons, rowTotal_append, rowTotal_append, ih fun p hp => hl p (by simp [hp]),
        twin_row hinj h (hl _ (by simp))]
      rfl
  exact this hf hlin

/-! ### Infeasibility currents -/

theorem l2_eval (b : Node) (n : ℕ) (t : ℝ) (v : ℕ → ℝ) :
    eval ((placeL2 b n).1.env t v) (placeL2 b n).1.details.seg.lagrange =
      v n ^ 2 + v (n + 1) ^ 2 + v n * readIdx v b.lr + v (n + 1) * readIdx v b.li := by
  have e : ∀ s i, s ∈ l2.vars → (placeL2 b n).1.details.varMap s = i → (placeL2 b n).1.env t v s = readIdx v i := by
    intro s i hs hi
    rw [Placed.env_var (show ∀ x ∈ l2.vars, x ∉ l2.constants by decide) hs, hi]
  have e1 := e .Iir (some n) (by decide) rfl
  have e2 := e .Iii (some (n + 1)) (by decide) rfl
  have e3 := e .LVr b.lr (by decide) rfl
  have e4 := e .LVi b.li (by decide) rfl
  show eval _ (Ex.pow (Ex.sym .Iir) 2 + Ex.pow (Ex.sym .Iii) 2 + Ex.sym .Iir * Ex.sym .LVr + Ex.sym .Iii * Ex.sym .LVi) = _
  simp only [eval_hadd, eval_hmul, eval_pow, eval_sym, e1, e2, e3, e4, zpow_ofNat, readIdx]

theorem l1_eval (b : Node) (n : ℕ) (t : ℝ) (v : ℕ → ℝ) :
    eval ((placeL1 b n).1.env t v) (placeL1 b n).1.details.seg.lagrange =
      v n + v (n + 1) + v (n + 2) + v (n + 3) + (v n ^ 2 + v (n + 1) ^ 2 + v (n + 2) ^ 2 + v (n + 3) ^ 2) +
        (v (n + 2) - v n) * readIdx v b.lr + (v (n + 3) - v (n + 1)) * readIdx v b.li := by
  have e : ∀ s i, s ∈ l1.vars → (placeL1 b n).1.details.varMap s = i → (placeL1 b n).1.env t v s = readIdx v i := by
    intro s i hs hi
    rw [Placed.env_var (show ∀ x ∈ l1.vars, x ∉ l1.constants by decide) hs, hi]
  have e1 := e .IirPlus (some n) (by decide) rfl
  have e2 := e .IiiPlus (some (n + 1)) (by decide) rfl
  have e3 := e .IirMinus (some (n + 2)) (by decide) rfl
  have e4 := e .IiiMinus (some (n + 3)) (by decide) rfl
  have f1 := e .muVrPlus (some n) (by decide) rfl
  have f2 := e .muViPlus (some (n + 1)) (by decide) rfl
  have f3 := e .muVrMinus (some (n + 2)) (by decide) rfl
  have f4 := e .muViMinus (some (n + 3)) (by decide) rfl
  have g3 := e .LVr b.lr (by decide) rfl
  have g4 := e .LVi b.li (by decide) rfl
  show eval _ l1.lagrange = _
  unfold l1
  simp only [eval_hadd, eval_hsub, eval_hmul, eval_sym, e1, e2, e3, e4, f1, f2, f3, f4, g3, g4]
  simp only [readIdx]
  ring

/-- Number of unknowns per infeasibility current. -/
def OptKind.width : OptKind → ℕ
  | .L1 => 4
  | .L2 => 2

theorem infeasibility_sum (o : OptKind) (t : ℝ) (v lam : ℕ → ℝ) (base : ℕ) (nodes : List Node) (k0 : ℕ)
    (h : ∀ k b, nodes[k]? = some b → readIdx v b.lr = lam (2 * (k0 + k)) ∧ readIdx v b.li = lam (2 * (k0 + k) + 1)) :
    ((placeInfeasibility o (base + o.width * k0) nodes).1.map fun p => eval (p.env t v) p.details.seg.lagrange).sum =
      ((List.range' k0 nodes.length).map fun k => infTerm o base k lam v).sum := by
  induction nodes generalizing k0 with
  | nil => rfl
  | cons b nodes ih =>
    have hb := h 0 b rfl
    have hrec := ih (k0 + 1) fun k b' hb' => by
      have := h (k + 1) b' hb'
      rwa [show k0 + (k + 1) = k0 + 1 + k by ring] at this
    rw [List.length_cons, List.range'_succ, List.map_cons, List.sum_cons, ← hrec]
    cases o with
    | L1 =>
      have e1 : placeInfeasibility .L1 (base + OptKind.width .L1 * k0) (b :: nodes) =
        ((placeL1 b (base + 4 * k0)).1 :: (placeInfeasibility .L1 (base + OptKind.width .L1 * (k0 + 1)) nodes).1,
          (placeInfeasibility .L1 (base + OptKind.width .L1 * (k0 + 1)) nodes).2) := rfl
      rw [e1, List.map_cons, List.sum_cons, l1_eval, hb.1, hb.2]
      rfl
    | L2 =>
      have e1 : placeInfeasibility .L2 (base + OptKind.width .L2 * k0) (b :: nodes) =
        ((placeL2 b (base + 2 * k0)).1 :: (placeInfeasibility .L2 (base + OptKind.width .L2 * (k0 + 1)) nodes).1,
          (placeInfeasibility .L2 (base + OptKind.width .L2 * (k0 + 1)) nodes).2) := rfl
      rw [e1, List.map_cons, List.sum_cons, l2_eval, hb.1, hb.2]
      rfl

/-- The four indices of bus `k` in optimization mode. -/
def optNode (k : ℕ) : Node := ⟨some (4 * k), some (4 * k + 1), some (4 * k + 2), some (4 * k + 3)⟩

theorem assignBuses_opt (K s : ℕ) : assignBuses true K (4 * s) = ((List.range' s K).map optNode, 4 * (s + K)) := by
  induction K generalizing s with
  | zero => rfl
  | succ K ih =>
    have hb : assignBus true (4 * s) = (optNode s, 4 * (s + 1)) := rfl
    simp only [assignBuses, hb, ih]
    rw [List.range'_succ, List.map_cons]
    congr 1
    omega

theorem twinOf_replicate (K n : ℕ) (ms : List ℕ) (k j : ℕ) (hk : k < K) (hj : j < 2) :
    twinOf n (List.replicate K 2 ++ ms) (2 * k + j) = (n + 4 * k + j, n + 4 * k + 2 + j) := by
  induction K generalizing n k with
  | zero => omega
  | succ K ih =>
    rw [List.replicate_succ, List.cons_append, twinOf]
    cases k with
    | zero => rw [if_pos (by omega)]; simp
    | succ k =>
      rw [if_neg (by omega), show 2 * (k + 1) + j - 2 = 2 * k + j by omega, ih _ k (by omega)]
      ext <;> simp only <;> ring

theorem twin_bus (N : Network) {k : ℕ} (hk : k < N.buses) :
    N.twin (2 * k) = (4 * k, 4 * k + 2) ∧ N.twin (2 * k + 1) = (4 * k + 1, 4 * k + 3) := by
  have h0 := twinOf_replicate N.buses 0 (N.elements.flatMap Element.blocks) k 0 hk (by omega)
  have h1 := twinOf_replicate N.buses 0 (N.elements.flatMap Element.blocks) k 1 hk (by omega)
  refine ⟨?_, ?_⟩
  · unfold Network.twin Network.blocks; rw [show 2 * k = 2 * k + 0 from rfl, h0]; simp
  · unfold Network.twin Network.blocks; rw [h1]; ext <;> simp <;> ring

/-- The Lagrangian, part by part. -/
theorem lagrangian_parts (hL : L.Loaded) (N : Network) (o : OptKind) (ho : N.optimization = some o) (t : ℝ) (v : ℕ → ℝ) :
    N.lagrangian L o t v = ((N.assign L).parts.flatten.map fun q => q.constraints t v).sum +
      ((N.assign L).infeasibility.map fun p => eval (p.env t v) p.details.seg.lagrange).sum := by
  obtain ⟨_, _, _, _, h5, _⟩ := network_twin hL N o ho
  unfold Network.lagrangian
  rw [parts_constraints hL N o ho t v, h5]
  congr 1
  have hb : (assignBuses true N.buses 0).1 = (List.range' 0 N.buses).map optNode := by
    have := assignBuses_opt N.buses 0; rw [show (0 : ℕ) = 4 * 0 from rfl, this]
  have := infeasibility_sum o t v (N.multiplier v) (2 * N.unknowns) (assignBuses true N.buses 0).1 0 (by
    intro k b hkb
    rw [hb, List.getElem?_map] at hkb
    obtain ⟨k', hk', rfl⟩ := Option.map_eq_some_iff.1 hkb
    have hlt : k < N.buses := by
      by_contra hc
      rw [List.getElem?_eq_none (by simpa using hc)] at hk'; cases hk'
    rw [List.getElem?_range' hlt] at hk'
    have hkk : k' = k := by injection hk' with hk'; omega
    subst hkk
    rw [Nat.zero_add]
    obtain ⟨t1, t2⟩ := twin_bus N hlt
    unfold Network.multiplier
    rw [t1, t2]; exact ⟨rfl, rfl⟩)
  rw [Nat.mul_zero, Nat.add_zero] at this
  rw [this, hb, List.length_map, List.length_range', List.range_eq_range']

end Verif
