import Verif.Lemmas.TwinEquations
import Verif.Lemmas.Linear

/-! Gradient and symmetry of the assembled system in optimization mode, rows of the infeasibility currents. -/

namespace Verif

open Ex Devices

variable {L : Library}

theorem update_eq_along (v : ℕ → ℝ) (i : ℕ) (s : ℝ) : Function.update v i s = along v (unit i) (s - v i) := by
  funext k
  by_cases hk : k = i
  · subst hk; simp [along, unit]
  · simp [along, unit, hk]

/-- Derivative with respect to one unknown. -/
theorem hasDerivAt_update {F : (ℕ → ℝ) → ℝ} {v : ℕ → ℝ} {i : ℕ} {d : ℝ} (h : HasDerivAt (fun s => F (along v (unit i) s)) d 0) :
    HasDerivAt (fun s => F (Function.update v i s)) d (v i) := by
  have h' : HasDerivAt (fun s => F (along v (unit i) s)) d (v i - v i) := by rw [sub_self]; exact h
  have := HasDerivAt.comp_sub_const (v i) (v i) h'
  refine this.congr_of_eventuallyEq (Filter.Eventually.of_forall fun s => ?_)
  simp only [update_eq_along]

theorem infeasibility_self (o : OptKind) (nodes : List Node) (n : ℕ) :
    ∀ p ∈ (placeInfeasibility o n nodes).1, p.details.eqnMap = p.details.varMap := by
  induction nodes generalizing n with
  | nil => intro p hp; simp [placeInfeasibility] at hp
  | cons b nodes ih =>
    intro p hp
    simp only [placeInfeasibility, List.mem_cons] at hp
    rcases hp with rfl | hp
    · cases o <;> rfl
    · exact ih _ p hp

theorem placeElements_balanced (hL : L.Loaded) {opt : Bool} {nodes : List Node} (es : List Element) (hrec : ∀ e ∈ es, e.Reciprocal) (n : ℕ)
    (t : ℝ) (v : ℕ → ℝ) : Balanced (placeElements L opt nodes n es).1.flatten t v := by
  induction es generalizing n with
  | nil => exact Balanced.nil t v
  | cons e es ih =>
    simp only [placeElements, List.flatten_cons]
    refine Balanced.append ?_ (ih (fun e' h => hrec e' (by simp [h])) _)
    by_cases he : ∃ ph y sh, e = .unbalanced ph y sh
    · obtain ⟨ph, y, sh, rfl⟩ := he
      have := hrec _ (by simp : Element.unbalanced ph y sh ∈ Element.unbalanced ph y sh :: es)
      exact unbalanced_balanced hL opt _ ph y sh (fun i j hi hj => (this i j hi hj).1) (fun i j hi hj => (this i j hi hj).2) t v
    · exact balanced_of_self (place_self e (fun ph y sh h => he ⟨ph, y, sh, h⟩) n) t v

theorem parts_balanced (hL : L.Loaded) (N : Network) (hrec : ∀ e ∈ N.elements, e.Reciprocal) (t : ℝ) (v : ℕ → ℝ) :
    Balanced (N.assign L).parts.flatten t v := placeElements_balanced hL _ hrec _ t v

theorem network_balanced (hL : L.Loaded) (N : Network) (o : OptKind) (ho : N.optimization = some o)
    (hrec : ∀ e ∈ N.elements, e.Reciprocal) (t : ℝ) (v : ℕ → ℝ) : Balanced (N.assign L).all t v := by
  obtain ⟨_, _, _, _, h5, _⟩ := network_twin hL N o ho
  refine (parts_balanced hL N hrec t v).append ?_
  rw [h5]
  exact balanced_of_self (infeasibility_self o _ _) t v

theorem opt_of_some {N : Network} {o : OptKind} (ho : N.optimization = some o) : N.opt = true := by simp [Network.opt, ho]

theorem networkEq_append (ps qs : List Placed) (t : ℝ) (v : ℕ → ℝ) (i : ℕ) :
    networkEq (ps ++ qs) t v i = networkEq ps t v i + networkEq qs t v i := by
  unfold networkEq; rw [List.flatMap_append, rowTotal_append]

theorem networkEq_rowDir {ps : List Placed} (ho : ∀ p ∈ ps, p.details.opt = true) (t : ℝ) (v : ℕ → ℝ) (i : ℕ) :
    networkEq ps t v i = (ps.map fun p => p.rowDir t v (unit i)).sum := by
  unfold networkEq
  induction ps with
  | nil => rfl
  | cons p ps ih =>
    rw [List.flatMap_cons, rowTotal_append, List.map_cons, List.sum_cons, ih fun q hq => ho q (by simp [hq]), equations_rowDir (ho p (by simp))]

/-- Derivative of the Lagrangian along a direction. -/
theorem lagrangian_along (hL : L.Loaded) (N : Network) (hv : N.Valid) (o : OptKind) (ho : N.optimization = some o)
    (hrec : ∀ e ∈ N.elements, e.Reciprocal) (t : ℝ) (v : ℕ → ℝ) (hr : ∀ e ∈ N.elements, e.RegularAt t ((N.assign L).voltages v)) (w : ℕ → ℝ) :
    HasDerivAt (fun s => N.lagrangian L o t (along v w s)) ((N.assign L).all.map fun p => p.rowDir t v w).sum 0 := by
  have hreg := network_regular hL N hv t v hr
  obtain ⟨_, _, _, _, h5, _⟩ := network_twin hL N o ho
  have e : (fun s => N.lagrangian L o t (along v w s)) = fun s =>
      ((N.assign L).parts.flatten.map fun q => q.constraints t (along v w s)).sum +
      ((N.assign L).infeasibility.map fun p => eval (p.env t (along v w s)) p.details.seg.lagrange).sum := by
    funext s; exact lagrangian_parts hL N o ho t _
  rw [e]
  unfold Assignment.all at hreg ⊢
  rw [List.map_append, List.sum_append]
  refine HasDerivAt.add ?_ ?_
  · refine constraints_gradient (fun p hp => ⟨hreg p (List.mem_append_left _ hp), parts_linear hL N p hp⟩) (parts_balanced hL N hrec t v) w
  · refine hasDerivAt_list_sum _ (fun (p : Placed) s => eval (p.env t (along v w s)) p.details.seg.lagrange) _ 0 fun p hp => ?_
    refine self_gradient (hreg p (List.mem_append_right _ hp)) ?_ w
    rw [h5] at hp
    exact infeasibility_self o _ _ p hp

/-! ### Rows of the infeasibility currents -/

theorem sum_map_single {α : Type*} [DecidableEq α] {l : List α} (hn : l.Nodup) {a : α} (ha : a ∈ l) (f : α → ℝ)
    (h : ∀ b ∈ l, b ≠ a → f b = 0) : (l.map f).sum = f a := by
  rw [List.sum_map_eq_nsmul_single a f fun b hb hm => h b hm hb, List.count_eq_one_of_mem hn ha, one_smul]

/-- What one `L2` current adds to the rows. -/
noncomputable def l2Rows (base k : ℕ) (v : ℕ → ℝ) : List (ℕ × ℝ) :=
  [(base + 2 * k, 2 * v (base + 2 * k) + v (4 * k + 2)), (base + 2 * k + 1, 2 * v (base + 2 * k + 1) + v (4 * k + 3)),
   (4 * k + 2, v (base + 2 * k)), (4 * k + 3, v (base + 2 * k + 1))]

theorem l2_equations (base k : ℕ) (t : ℝ) (v : ℕ → ℝ) :
    (placeL2 (optNode k) (base + 2 * k)).1.equations t v = l2Rows base k v := by
  set p := (placeL2 (optNode k) (base + 2 * k)).1 with hp
  have e : ∀ s i, s ∈ l2.vars → p.details.varMap s = i → p.env t v s = readIdx v i := by
    intro s i hs hi
    rw [Placed.env_var (show ∀ x ∈ l2.vars, x ∉ l2.constants by decide) hs, hi]
  have e1 := e .Iir (some (base + 2 * k)) (by decide) rfl
  have e2 := e .Iii (some (base + 2 * k + 1)) (by decide) rfl
  have e3 := e .LVr (some (4 * k + 2)) (by decide) rfl
  have e4 := e .LVi (some (4 * k + 3)) (by decide) rfl
  have hd : ∀ x, eval (p.env t v) (p.details.seg.derivative x) =
      (if x = .Iir then 2 * v (base + 2 * k) + v (4 * k + 2) else 0) + (if x = .Iii then 2 * v (base + 2 * k + 1) + v (4 * k + 3) else 0) +
      (if x = .LVr then v (base + 2 * k) else 0) + (if x = .LVi then v (base + 2 * k + 1) else 0) := by
    intro x
    show eval _ (diff x l2.lagrange) = _
    unfold l2
    cases x <;> simp [Ex.diff, exAdd, exMul, e1, e2, e3, e4, eval_sadd, eval_smul, readIdx]
  have hf : p.details.firstOrder = [.Iir, .Iii, .LVr, .LVi] := rfl
  have r1 : p.details.row .Iir = some (base + 2 * k) := rfl
  have r2 : p.details.row .Iii = some (base + 2 * k + 1) := rfl
  have r3 : p.details.row .LVr = some (4 * k + 2) := rfl
  have r4 : p.details.row .LVi = some (4 * k + 3) := rfl
  unfold Placed.equations l2Rows
  simp [hf, hd, r1, r2, r3, r4]

/-- What one `L1` current adds to the rows. -/
noncomputable def l1Rows (base k : ℕ) (v : ℕ → ℝ) : List (ℕ × ℝ) :=
  [(base + 4 * k, 1 + 2 * v (base + 4 * k) - v (4 * k + 2)), (base + 4 * k + 1, 1 + 2 * v (base + 4 * k + 1) - v (4 * k + 3)),
   (base + 4 * k + 2, 1 + 2 * v (base + 4 * k + 2) + v (4 * k + 2)), (base + 4 * k + 3, 1 + 2 * v (base + 4 * k + 3) + v (4 * k + 3)),
   (4 * k + 2, v (base + 4 * k + 2) - v (base + 4 * k)), (4 * k + 3, v (base + 4 * k + 3) - v (base + 4 * k + 1))]

theorem rowTotal_cons' (e : ℕ × ℝ) (l : List (ℕ × ℝ)) (i : ℕ) :
    rowTotal (e :: l) i = e.2 * (if e.1 = i then 1 else 0) + rowTotal l i := by
  rw [rowTotal_cons]; by_cases h : e.1 = i <;> simp [h]

theorem l1_equations (base k : ℕ) (t : ℝ) (v : ℕ → ℝ) (i : ℕ) :
    rowTotal ((placeL1 (optNode k) (base + 4 * k)).1.equations t v) i = rowTotal (l1Rows base k v) i := by
  set p := (placeL1 (optNode k) (base + 4 * k)).1 with hp
  have e : ∀ s i, s ∈ l1.vars → p.details.varMap s = i → p.env t v s = readIdx v i := by
    intro s i hs hi
    rw [Placed.env_var (show ∀ x ∈ l1.vars, x ∉ l1.constants by decide) hs, hi]
  have e1 := e .IirPlus (some (base + 4 * k)) (by decide) rfl
  have e2 := e .IiiPlus (some (base + 4 * k + 1)) (by decide) rfl
  have e3 := e .IirMinus (some (base + 4 * k + 2)) (by decide) rfl
  have e4 := e .IiiMinus (some (base + 4 * k + 3)) (by decide) rfl
  have f1 := e .muVrPlus (some (base + 4 * k)) (by decide) rfl
  have f2 := e .muViPlus (some (base + 4 * k + 1)) (by decide) rfl
  have f3 := e .muVrMinus (some (base + 4 * k + 2)) (by decide) rfl
  have f4 := e .muViMinus (some (base + 4 * k + 3)) (by decide) rfl
  have g3 := e .LVr (some (4 * k + 2)) (by decide) rfl
  have g4 := e .LVi (some (4 * k + 3)) (by decide) rfl
  have hd : ∀ x ∈ l1.vars, eval (p.env t v) (p.details.seg.derivative x) = (match x with
      | .IirPlus => 1 - v (4 * k + 2) + v (base + 4 * k)
      | .IiiPlus => 1 - v (4 * k + 3) + v (base + 4 * k + 1)
      | .IirMinus => 1 + v (4 * k + 2) + v (base + 4 * k + 2)
      | .IiiMinus => 1 + v (4 * k + 3) + v (base + 4 * k + 3)
      | .muVrPlus => v (base + 4 * k)
      | .muViPlus => v (base + 4 * k + 1)
      | .muVrMinus => v (base + 4 * k + 2)
      | .muViMinus => v (base + 4 * k + 3)
      | .LVr => v (base + 4 * k + 2) - v (base + 4 * k)
      | .LVi => v (base + 4 * k + 3) - v (base + 4 * k + 1)
      | _ => 0) := by
    intro x hx
    show eval _ (diff x l1.lagrange) = _
    unfold l1 at hx ⊢
    simp only [Segment.vars, List.cons_append, List.nil_append, List.mem_cons, List.not_mem_nil, or_false] at hx
    rcases hx with rfl | rfl | rfl | rfl | rfl | rfl | rfl | rfl | rfl | rfl | rfl | rfl <;>
      simp [Ex.diff, exAdd, exMul, exSub, e1, e2, e3, e4, f1, f2, f3, f4, g3, g4, eval_sadd, eval_smul, readIdx] <;> ring
  have hf : p.details.firstOrder = [.VrBus, .ViBus, .IirPlus, .IiiPlus, .IirMinus, .IiiMinus, .LVr, .LVi, .muVrPlus, .muViPlus, .muVrMinus, .muViMinus] := rfl
  have hrow : ∀ x, p.details.row x = p.details.varMap x := fun _ => rfl
  have v1 : p.details.varMap .VrBus = some (4 * k) := rfl
  have v2 : p.details.varMap .ViBus = some (4 * k + 1) := rfl
  have v3 : p.details.varMap .IirPlus = some (base + 4 * k) := rfl
  have v4 : p.details.varMap .IiiPlus = some (base + 4 * k + 1) := rfl
  have v5 : p.details.varMap .IirMinus = some (base + 4 * k + 2) := rfl
  have v6 : p.details.varMap .IiiMinus = some (base + 4 * k + 3) := rfl
  have v7 : p.details.varMap .LVr = some (4 * k + 2) := rfl
  have v8 : p.details.varMap .LVi = some (4 * k + 3) := rfl
  have v9 : p.details.varMap .muVrPlus = some (base + 4 * k) := rfl
  have v10 : p.details.varMap .muViPlus = some (base + 4 * k + 1) := rfl
  have v11 : p.details.varMap .muVrMinus = some (base + 4 * k + 2) := rfl
  have v12 : p.details.varMap .muViMinus = some (base + 4 * k + 3) := rfl
  have h : ∀ x (hx : x ∈ l1.vars), _ := hd
  have d1 := hd .VrBus (by decide)
  have d2 := hd .ViBus (by decide)
  have d3 := hd .IirPlus (by decide)
  have d4 := hd .IiiPlus (by decide)
  have d5 := hd .IirMinus (by decide)
  have d6 := hd .IiiMinus (by decide)
  have d7 := hd .LVr (by decide)
  have d8 := hd .LVi (by decide)
  have d9 := hd .muVrPlus (by decide)
  have d10 := hd .muViPlus (by decide)
  have d11 := hd .muVrMinus (by decide)
  have d12 := hd .muViMinus (by decide)
  simp only at d1 d2 d3 d4 d5 d6 d7 d8 d9 d10 d11 d12
  unfold Placed.equations l1Rows
  rw [hf]
  simp only [List.filterMap_cons, List.filterMap_nil, hrow, v1, v2, v3, v4, v5, v6, v7, v8, v9, v10, v11, v12, Option.map_some,
    d1, d2, d3, d4, d5, d6, d7, d8, d9, d10, d11, d12, rowTotal_cons']
  ring

/-- What one infeasibility current adds to the rows. -/
noncomputable def infRows (o : OptKind) (base k : ℕ) (v : ℕ → ℝ) : List (ℕ × ℝ) :=
  match o with
  | .L1 => l1Rows base k v
  | .L2 => l2Rows base k v

theorem infeasibility_rows (o : OptKind) (t : ℝ) (v : ℕ → ℝ) (base i : ℕ) (K k0 : ℕ) :
    networkEq (placeInfeasibility o (base + o.width * k0) ((List.range' k0 K).map optNode)).1 t v i =
      ((List.range' k0 K).map fun k => rowTotal (infRows o base k v) i).sum := by
  induction K generalizing k0 with
  | zero => rfl
  | succ K ih =>
    rw [List.range'_succ, List.map_cons, List.map_cons, List.sum_cons, ← ih (k0 + 1)]
    unfold networkEq
    cases o with
    | L1 =>
      have e1 : (placeInfeasibility .L1 (base + OptKind.width .L1 * k0) (optNode k0 :: (List.range' (k0 + 1) K).map optNode)).1 =
        (placeL1 (optNode k0) (base + 4 * k0)).1 :: (placeInfeasibility .L1 (base + OptKind.width .L1 * (k0 + 1)) ((List.range' (k0 + 1) K).map optNode)).1 := rfl
      rw [e1, List.flatMap_cons, rowTotal_append, l1_equations]; rfl
    | L2 =>
      have e1 : (placeInfeasibility .L2 (base + OptKind.width .L2 * k0) (optNode k0 :: (List.range' (k0 + 1) K).map optNode)).1 =
        (placeL2 (optNode k0) (base + 2 * k0)).1 :: (placeInfeasibility .L2 (base + OptKind.width .L2 * (k0 + 1)) ((List.range' (k0 + 1) K).map optNode)).1 := rfl
      rw [e1, List.flatMap_cons, rowTotal_append, l2_equations]; rfl

/-- The rows of all infeasibility currents of a network. -/
theorem network_infeasibility_rows (hL : L.Loaded) (N : Network) (o : OptKind) (ho : N.optimization = some o) (t : ℝ) (v : ℕ → ℝ) (i : ℕ) :
    networkEq (N.assign L).infeasibility t v i =
      ((List.range N.buses).map fun k => rowTotal (infRows o (2 * N.unknowns) k v) i).sum := by
  obtain ⟨_, _, _, _, h5, _⟩ := network_twin hL N o ho
  have hb : (assignBuses true N.buses 0).1 = (List.range' 0 N.buses).map optNode := by
    have := assignBuses_opt N.buses 0; rw [show (0 : ℕ) = 4 * 0 from rfl, this]
  have := infeasibility_rows o t v (2 * N.unknowns) i N.buses 0
  rw [Nat.mul_zero, Nat.add_zero] at this
  rw [h5, hb, this, List.range_eq_range']

theorem buses_le (N : Network) : 4 * N.buses ≤ 2 * N.unknowns := by
  unfold Network.unknowns Network.blocks
  rw [List.sum_append, sum_replicate_two]; omega

theorem rowTotal_zero {l : List (ℕ × ℝ)} {i : ℕ} (h : ∀ e ∈ l, e.1 ≠ i) : rowTotal l i = 0 := by
  induction l with
  | nil => rfl
  | cons e l ih => rw [rowTotal_cons, if_neg (h e (by simp)), zero_add, ih fun e' he => h e' (by simp [he])]

theorem infRows_rows {o : OptKind} {base k : ℕ} {v : ℕ → ℝ} {e : ℕ × ℝ} (he : e ∈ infRows o base k v) :
    e.1 = 4 * k + 2 ∨ e.1 = 4 * k + 3 ∨ (base + o.width * k ≤ e.1 ∧ e.1 < base + o.width * (k + 1)) := by
  cases o <;> simp [infRows, l1Rows, l2Rows] at he <;> simp only [OptKind.width]
  · rcases he with rfl | rfl | rfl | rfl | rfl | rfl <;> first
      | exact Or.inl rfl
      | exact Or.inr (Or.inl rfl)
      | exact Or.inr (Or.inr ⟨by simp only; omega, by simp only; omega⟩)
  · rcases he with rfl | rfl | rfl | rfl <;> first
      | exact Or.inl rfl
      | exact Or.inr (Or.inl rfl)
      | exact Or.inr (Or.inr ⟨by simp only; omega, by simp only; omega⟩)

/-- Rows that no infeasibility current touches. -/
theorem inf_row_none {o : OptKind} {base K : ℕ} {v : ℕ → ℝ} {i : ℕ} (hi : i < base) (h : ∀ k < K, i ≠ 4 * k + 2 ∧ i ≠ 4 * k + 3) :
    ((List.range K).map fun k => rowTotal (infRows o base k v) i).sum = 0 := by
  apply List.sum_eq_zero
  intro z hz
  obtain ⟨k, hk, rfl⟩ := List.mem_map.1 hz
  have := h k (List.mem_range.1 hk)
  refine rowTotal_zero fun e he => ?_
  rcases infRows_rows he with h' | h' | h'
  · omega
  · omega
  · have := h'.1; have := Nat.le_add_right base (o.width * k); omega

theorem inf_row_bus {o : OptKind} {base K : ℕ} {v : ℕ → ℝ} {i k : ℕ} (hb : 4 * K ≤ base) (hk : k < K) (hi : i = 4 * k + 2 ∨ i = 4 * k + 3) :
    ((List.range K).map fun k => rowTotal (infRows o base k v) i).sum = rowTotal (infRows o base k v) i := by
  refine sum_map_single List.nodup_range (List.mem_range.2 hk) _ fun b hb' hne => ?_
  have hb' := List.mem_range.1 hb'
  refine rowTotal_zero fun e he => ?_
  rcases infRows_rows he with h' | h' | h'
  · omega
  · omega
  · have := h'.1; have := Nat.le_add_right base (o.width * b); omega

theorem inf_row_own {o : OptKind} {base K : ℕ} {v : ℕ → ℝ} {i k : ℕ} (hb : 4 * K ≤ base) (hk : k < K)
    (hi : base + o.width * k ≤ i ∧ i < base + o.width * (k + 1)) :
    ((List.range K).map fun k => rowTotal (infRows o base k v) i).sum = rowTotal (infRows o base k v) i := by
  refine sum_map_single List.nodup_range (List.mem_range.2 hk) _ fun b hb' hne => ?_
  have hb' := List.mem_range.1 hb'
  have := Nat.le_add_right base (o.width * k)
  refine rowTotal_zero fun e he => ?_
  rcases infRows_rows he with h' | h' | h'
  · omega
  · omega
  · cases o <;> simp only [OptKind.width] at * <;> omega

theorem place_rows_below (hL : L.Loaded) {opt : Bool} {nodes : List Node} {n : ℕ} (hn : ∀ b ∈ nodes, b.Below n) (e : Element) :
    ∀ p ∈ (e.place L opt nodes n).1, ∀ x ∈ p.details.seg.vars, ∀ c, p.details.eqnMap x = some c → c < (e.place L opt nodes n).2 := by
  intro p hp x hx c hc
  by_cases he : ∃ ph y sh, e = .unbalanced ph y sh
  · obtain ⟨ph, y, sh, rfl⟩ := he
    have hb := nodeAt_below hn
    have hg := ground_below n
    simp only [Element.place, placeUnbalanced, List.mem_flatMap, placePair, List.mem_cons, List.not_mem_nil, or_false] at hp
    obtain ⟨i, _, j, _, rfl | rfl | rfl⟩ := hp
    · exact terminalDict_below (hb _) (hb _) x c hc
    · exact terminalDict_below (hb _) hg x c hc
    · exact terminalDict_below (hb _) hg x c hc
  · rw [place_self e (fun ph y sh h => he ⟨ph, y, sh, h⟩) n p hp] at hc
    exact (place_below hL hn e).2 p hp x hx c hc

theorem placeElements_rows_below (hL : L.Loaded) {opt : Bool} {nodes : List Node} (es : List Element) {n : ℕ} (hn : ∀ b ∈ nodes, b.Below n) :
    ∀ p ∈ (placeElements L opt nodes n es).1.flatten, ∀ x ∈ p.details.seg.vars, ∀ c, p.details.eqnMap x = some c →
      c < (placeElements L opt nodes n es).2 := by
  induction es generalizing n with
  | nil => intro p hp; simp [placeElements] at hp
  | cons e es ih =>
    intro p hp x hx c hc
    have h1 := (place_below hL (opt := opt) hn e).1
    have hn' : ∀ b ∈ nodes, b.Below (e.place L opt nodes n).2 := fun b hb => (hn b hb).mono h1
    simp only [placeElements, List.flatten_cons, List.mem_append] at hp ⊢
    rcases hp with hp | hp
    · exact lt_of_lt_of_le (place_rows_below hL hn e p hp x hx c hc) (placeElements_below hL es hn').1
    · exact ih hn' p hp x hx c hc

theorem placeElements_end (hL : L.Loaded) (N : Network) :
    (placeElements L true (assignBuses true N.buses 0).1 (assignBuses true N.buses 0).2 N.elements).2 = 2 * N.unknowns := by
  have hS' : BlocksAgree N.twin 0 0 (List.replicate N.buses 2 ++ N.elements.flatMap Element.blocks) := twinOf_agree 0 N.blocks
  rw [BlocksAgree.append, sum_replicate_two] at hS'
  obtain ⟨a1, a2, a3⟩ := assignBuses_twin N.buses 0 0 hS'.1
  obtain ⟨b1, b2, b3⟩ := placeElements_twin hL (nodeAt_twin a1) N.elements _ _ hS'.2
  have hsum : N.unknowns = 2 * N.buses + (N.elements.flatMap Element.blocks).sum := by
    unfold Network.unknowns Network.blocks; rw [List.sum_append, sum_replicate_two]
  have eb : (assignBuses true N.buses 0).2 = 0 + 2 * (2 * N.buses) := by rw [a3]; ring
  rw [eb, b3, hsum]; ring

/-- Rows of the parts stay below the indices of the infeasibility currents. -/
theorem parts_high (hL : L.Loaded) (N : Network) (o : OptKind) (ho : N.optimization = some o) (t : ℝ) (v : ℕ → ℝ) (i : ℕ)
    (hi : 2 * N.unknowns ≤ i) : networkEq (N.assign L).parts.flatten t v i = 0 := by
  have hopt := opt_of_some ho
  have hb := placeElements_rows_below hL (opt := true) N.elements (assignBuses_below true N.buses 0).2
  rw [placeElements_end hL N] at hb
  have hparts : (N.assign L).parts = (placeElements L true (assignBuses true N.buses 0).1 (assignBuses true N.buses 0).2 N.elements).1 := by
    unfold Network.assign; rw [hopt]
  obtain ⟨_, h2, _⟩ := network_twin hL N o ho
  have hf := forall₂_flatten h2
  unfold networkEq
  refine rowTotal_zero fun e he => ?_
  obtain ⟨p, hp, he⟩ := List.mem_flatMap.1 he
  obtain ⟨_, _, htw⟩ := forall₂_mem_right hf hp
  unfold Placed.equations Details.firstOrder Details.row at he
  rw [htw.opt] at he
  simp only [if_true] at he
  obtain ⟨x, hx, he⟩ := List.mem_filterMap.1 he
  obtain ⟨c, hc, rfl⟩ := Option.map_eq_some_iff.1 he
  rw [hparts] at hp
  have := hb p hp x hx c hc
  simp only; omega

theorem size_L2 (hL : L.Loaded) (N : Network) (ho : N.optimization = some .L2) : (N.assign L).size = 2 * N.unknowns + 2 * N.buses := by
  unfold Network.assign
  rw [opt_of_some ho, ho]
  simp only
  rw [placeElements_end hL N]
  have : ∀ (nodes : List Node) n, (placeInfeasibility .L2 n nodes).2 = n + 2 * nodes.length := by
    intro nodes
    induction nodes with
    | nil => intro n; rfl
    | cons b nodes ih => intro n; simp only [placeInfeasibility, ih]; simp [placeL2]; ring
  have hb : (assignBuses true N.buses 0).1 = (List.range' 0 N.buses).map optNode := by
    have := assignBuses_opt N.buses 0; rw [show (0 : ℕ) = 4 * 0 from rfl, this]
  rw [this, hb]; simp

/-- Which rows there are: of unknowns, of multipliers, of infeasibility currents. -/
theorem twin_cases (N : Network) (i : ℕ) (hi : i < 2 * N.unknowns) : ∃ r < N.unknowns, i = (N.twin r).1 ∨ i = (N.twin r).2 := by
  have h : ∀ (ms : List ℕ) n i, n ≤ i → i < n + 2 * ms.sum → ∃ r < ms.sum, i = (twinOf n ms r).1 ∨ i = (twinOf n ms r).2 := by
    intro ms
    induction ms with
    | nil => intro n i h1 h2; simp at h2; omega
    | cons m ms ih =>
      intro n i h1 h2
      rw [List.sum_cons] at h2 ⊢
      by_cases hm : i < n + 2 * m
      · by_cases hm' : i < n + m
        · refine ⟨i - n, by omega, Or.inl ?_⟩
          rw [twinOf, if_pos (by omega)]; simp only; omega
        · refine ⟨i - n - m, by omega, Or.inr ?_⟩
          rw [twinOf, if_pos (by omega)]; simp only; omega
      · obtain ⟨r, hr, he⟩ := ih (n + 2 * m) i (by omega) (by omega)
        refine ⟨r + m, by omega, ?_⟩
        rw [twinOf, if_neg (by omega), Nat.add_sub_cancel]
        exact he
  exact h N.blocks 0 i (Nat.zero_le _) (by rw [Nat.zero_add]; exact hi)

end Verif
