import Verif.Lemmas.KirchhoffNetwork
import Verif.Lemmas.Jacobian

/-! Optimization mode: the stamped rows as the gradient of one function. -/

namespace Verif

open Ex Devices

variable {L : Library}

/-! ### Symbolic second derivatives -/

theorem eval_diff_sadd (env : Env) (y : Sym) (a b : Ex) : eval env (diff y (sadd a b)) = eval env (diff y a) + eval env (diff y b) := by
  unfold sadd; split_ifs with h1 h2
  · subst h1; simp [diff]
  · subst h2; simp [diff]
  · simp [diff]

theorem eval_diff_smul (env : Env) (y : Sym) (a b : Ex) :
    eval env (diff y (smul a b)) = eval env (diff y a) * eval env b + eval env a * eval env (diff y b) := by
  unfold smul; split_ifs with h1 h2 h3 h4
  · subst h1; simp [diff]
  · subst h2; simp [diff]
  · subst h3; simp [diff]
  · subst h4; simp [diff]
  · simp [diff]

/-- Mixed second derivatives agree. -/
theorem eval_diff_comm (env : Env) (x y : Sym) (e : Ex) : eval env (diff y (diff x e)) = eval env (diff x (diff y e)) := by
  induction e with
  | num q => simp [diff]
  | sym s =>
    have : ∀ a b : Sym, eval env (diff b (diff a (sym s))) = 0 := by
      intro a b; rw [show diff a (sym s) = if a = s then num 1 else num 0 from rfl]; split_ifs <;> simp [diff]
    rw [this, this]
  | add a b iha ihb => simp only [diff, eval_diff_sadd, iha, ihb]
  | mul a b iha ihb => simp only [diff, eval_diff_sadd, eval_diff_smul, iha, ihb]; ring
  | pow a n iha =>
    simp only [diff, eval_diff_smul, eval_smul, eval_num, eval_pow, iha, Rat.cast_zero, zero_mul, zero_add]; ring
  | sin a iha => simp only [diff, eval_diff_smul, eval_smul, eval_num, eval_sin, eval_cos, iha]; ring
  | cos a iha =>
    simp only [diff, eval_diff_smul, eval_smul, eval_num, eval_sin, eval_cos, iha, Rat.cast_zero, zero_mul, zero_add]; ring

/-! ### Lagrangians linear in the multipliers -/

/-- None of the symbols occurs. -/
def FreeOf (ds : List Sym) (e : Ex) : Prop := ∀ d ∈ ds, e.has d = false

/-- Linear and homogeneous in the symbols `ds`. -/
def LinearIn (ds : List Sym) : Ex → Prop
  | num q => q = 0
  | sym s => s ∈ ds
  | add a b => LinearIn ds a ∧ LinearIn ds b
  | mul a b => (LinearIn ds a ∧ FreeOf ds b) ∨ (FreeOf ds a ∧ LinearIn ds b)
  | pow _ _ => False
  | sin _ => False
  | cos _ => False

theorem FreeOf.sadd {ds : List Sym} {a b : Ex} (ha : FreeOf ds a) (hb : FreeOf ds b) : FreeOf ds (sadd a b) := by
  unfold Ex.sadd; split_ifs
  · exact hb
  · exact ha
  · intro d hd; simp [has, ha d hd, hb d hd]

theorem FreeOf.smul {ds : List Sym} {a b : Ex} (ha : FreeOf ds a) (hb : FreeOf ds b) : FreeOf ds (smul a b) := by
  unfold Ex.smul; split_ifs
  · intro d _; rfl
  · intro d _; rfl
  · exact hb
  · exact ha
  · intro d hd; simp [has, ha d hd, hb d hd]

theorem FreeOf.num {ds : List Sym} (q : ℚ) : FreeOf ds (num q) := fun _ _ => rfl

theorem FreeOf.diff {ds : List Sym} {e : Ex} (y : Sym) (h : FreeOf ds e) : FreeOf ds (diff y e) := by
  induction e with
  | num q => exact FreeOf.num 0
  | sym s => unfold Ex.diff; split_ifs <;> exact FreeOf.num _
  | add a b iha ihb =>
    exact (iha fun d hd => by have := h d hd; simp [has] at this; exact this.1).sadd
      (ihb fun d hd => by have := h d hd; simp [has] at this; exact this.2)
  | mul a b iha ihb =>
    have ha : FreeOf ds a := fun d hd => by have := h d hd; simp [has] at this; exact this.1
    have hb : FreeOf ds b := fun d hd => by have := h d hd; simp [has] at this; exact this.2
    exact ((iha ha).smul hb).sadd (ha.smul (ihb hb))
  | pow a n iha =>
    have h' : FreeOf ds (pow a (n - 1)) := fun d hd => h d hd
    exact ((FreeOf.num _).smul h').smul (iha h)
  | sin a iha => exact FreeOf.smul (fun d hd => h d hd) (iha h)
  | cos a iha =>
    have h' : FreeOf ds (sin a) := fun d hd => h d hd
    exact ((FreeOf.num _).smul h').smul (iha h)

theorem LinearIn.sadd {ds : List Sym} {a b : Ex} (ha : LinearIn ds a) (hb : LinearIn ds b) : LinearIn ds (sadd a b) := by
  unfold Ex.sadd; split_ifs
  · exact hb
  · exact ha
  · exact ⟨ha, hb⟩

theorem LinearIn.smul_left {ds : List Sym} {a b : Ex} (ha : LinearIn ds a) (hb : FreeOf ds b) : LinearIn ds (smul a b) := by
  unfold Ex.smul; split_ifs with h1 h2 h3 h4
  · rfl
  · rfl
  · subst h3; exact absurd ha (by simp [LinearIn])
  · exact ha
  · exact Or.inl ⟨ha, hb⟩

theorem LinearIn.smul_right {ds : List Sym} {a b : Ex} (ha : FreeOf ds a) (hb : LinearIn ds b) : LinearIn ds (smul a b) := by
  unfold Ex.smul; split_ifs with h1 h2 h3 h4
  · rfl
  · rfl
  · exact hb
  · subst h4; exact absurd hb (by simp [LinearIn])
  · exact Or.inr ⟨ha, hb⟩

theorem LinearIn.diff {ds : List Sym} {e : Ex} {y : Sym} (hy : y ∉ ds) (h : LinearIn ds e) : LinearIn ds (diff y e) := by
  induction e with
  | num q => rfl
  | sym s =>
    have : y ≠ s := fun h' => hy (h' ▸ h)
    simp [Ex.diff, this, LinearIn]
  | add a b iha ihb => exact (iha h.1).sadd (ihb h.2)
  | mul a b iha ihb =>
    rcases h with ⟨h1, h2⟩ | ⟨h1, h2⟩
    · exact ((iha h1).smul_left h2).sadd (h1.smul_left (h2.diff y))
    · exact (LinearIn.smul_right (h1.diff y) h2).sadd (LinearIn.smul_right h1 (ihb h2))
  | pow a n => exact h.elim
  | sin a => exact h.elim
  | cos a => exact h.elim

theorem LinearIn.diff_free {ds : List Sym} {e : Ex} {y : Sym} (hy : y ∈ ds) (h : LinearIn ds e) : FreeOf ds (Ex.diff y e) := by
  induction e with
  | num q => exact FreeOf.num _
  | sym s => unfold Ex.diff; split_ifs <;> exact FreeOf.num _
  | add a b iha ihb => exact (iha h.1).sadd (ihb h.2)
  | mul a b iha ihb =>
    unfold Ex.diff
    rcases h with ⟨h1, h2⟩ | ⟨h1, h2⟩
    · rw [diff_eq_zero (h2 y hy)]
      have : smul a (num 0) = num 0 := by unfold Ex.smul; simp
      rw [this]
      exact ((iha h1).smul h2).sadd (FreeOf.num 0)
    · rw [diff_eq_zero (h1 y hy)]
      have : smul (num 0) b = num 0 := by unfold Ex.smul; simp
      rw [this]
      exact (FreeOf.num 0).sadd (h1.smul (ihb h2))
  | pow a n => exact h.elim
  | sin a => exact h.elim
  | cos a => exact h.elim

/-- Euler's identity. -/
theorem LinearIn.eval {ds : List Sym} (hn : ds.Nodup) {e : Ex} (h : LinearIn ds e) (env : Env) :
    Ex.eval env e = (ds.map fun d => env d * Ex.eval env (Ex.diff d e)).sum := by
  induction e with
  | num q => obtain rfl : q = 0 := h; simp [Ex.diff]
  | sym s =>
    rw [show (ds.map fun d => env d * Ex.eval env (Ex.diff d (sym s))) = ds.map fun d => if d = s then env d else 0 by
      apply List.map_congr_left; intro d _; by_cases hd : d = s
      · simp [Ex.diff, hd]
      · simp [Ex.diff, hd]]
    simp only [eq_comm (b := s)]
    exact (sum_map_ite_eq ds hn s h env).symm
  | add a b iha ihb =>
    simp only [Ex.diff, eval_add, eval_sadd, mul_add, List.sum_map_add, ← iha h.1, ← ihb h.2]
  | mul a b iha ihb =>
    rcases h with ⟨h1, h2⟩ | ⟨h1, h2⟩
    · have : (ds.map fun d => env d * Ex.eval env (Ex.diff d (mul a b))) = ds.map fun d => (env d * Ex.eval env (Ex.diff d a)) * Ex.eval env b := by
        apply List.map_congr_left; intro d hd; simp [Ex.diff, diff_eq_zero (h2 d hd)]; ring
      rw [this, List.sum_map_mul_right, ← iha h1]; rfl
    · have : (ds.map fun d => env d * Ex.eval env (Ex.diff d (mul a b))) = ds.map fun d => Ex.eval env a * (env d * Ex.eval env (Ex.diff d b)) := by
        apply List.map_congr_left; intro d hd; simp [Ex.diff, diff_eq_zero (h1 d hd)]; ring
      rw [this, List.sum_map_mul_left, ← ihb h2]; rfl
  | pow a n => exact h.elim
  | sin a => exact h.elim
  | cos a => exact h.elim

/-! ### Sums over the symbols of parts -/

/-- Second derivative of a part's Lagrangian. -/
noncomputable def Placed.hess (p : Placed) (t : ℝ) (v : ℕ → ℝ) (x y : Sym) : ℝ := eval (p.env t v) (diff y (p.details.seg.derivative x))

theorem Placed.hess_comm (p : Placed) (t : ℝ) (v : ℕ → ℝ) (x y : Sym) : p.hess t v x y = p.hess t v y x := eval_diff_comm _ _ _ _

/-- The second derivatives between rows and columns, weighted. -/
noncomputable def Placed.form (p : Placed) (t : ℝ) (v : ℕ → ℝ) (f g : Segment → Sym → Idx → ℝ) : ℝ :=
  (p.details.seg.vars.map fun x => (p.details.seg.vars.map fun y =>
    f p.details.seg x (p.details.eqnMap x) * g p.details.seg y (p.details.varMap y) * p.hess t v x y).sum).sum

/-- Rows and columns may be exchanged in the parts taken together. -/
def Balanced (ps : List Placed) (t : ℝ) (v : ℕ → ℝ) : Prop :=
  ∀ f g, (ps.map fun p => p.form t v f g).sum = (ps.map fun p => p.form t v g f).sum

theorem Balanced.append {ps qs : List Placed} {t : ℝ} {v : ℕ → ℝ} (h1 : Balanced ps t v) (h2 : Balanced qs t v) :
    Balanced (ps ++ qs) t v := by
  intro f g; simp only [List.map_append, List.sum_append, h1 f g, h2 f g]

theorem Balanced.nil (t : ℝ) (v : ℕ → ℝ) : Balanced [] t v := fun _ _ => rfl

theorem Balanced.cons {p : Placed} {ps : List Placed} {t : ℝ} {v : ℕ → ℝ} (h1 : Balanced [p] t v) (h2 : Balanced ps t v) :
    Balanced (p :: ps) t v := h1.append h2

theorem Balanced.flatten {ls : List (List Placed)} {t : ℝ} {v : ℕ → ℝ} (h : ∀ l ∈ ls, Balanced l t v) : Balanced ls.flatten t v := by
  induction ls with
  | nil => exact Balanced.nil t v
  | cons l ls ih => exact (h l (by simp)).append (ih fun l' hl => h l' (by simp [hl]))

/-- A part whose rows and columns are the same. -/
theorem Balanced.self {p : Placed} (h : p.details.eqnMap = p.details.varMap) (t : ℝ) (v : ℕ → ℝ) : Balanced [p] t v := by
  intro f g
  simp only [List.map_cons, List.map_nil, List.sum_cons, List.sum_nil, add_zero]
  unfold Placed.form
  rw [sum_comm_lists]
  congr 1; apply List.map_congr_left; intro x _
  congr 1; apply List.map_congr_left; intro y _
  rw [p.hess_comm t v y x, h]; ring

/-- A direction: one unknown. -/
def unit (i : ℕ) : ℕ → ℝ := fun k => if k = i then 1 else 0

theorem readIdx_unit (i : ℕ) (k : Idx) : readIdx (unit i) k = if k = some i then 1 else 0 := by
  cases k with
  | none => simp [readIdx]
  | some k => simp [readIdx, unit]

/-- The rows of a part in a direction. -/
noncomputable def Placed.rowDir (p : Placed) (t : ℝ) (v w : ℕ → ℝ) : ℝ :=
  (p.details.seg.vars.map fun x => readIdx w (p.details.eqnMap x) * eval (p.env t v) (p.details.seg.derivative x)).sum

theorem equations_rowDir {p : Placed} (ho : p.details.opt = true) (t : ℝ) (v : ℕ → ℝ) (i : ℕ) :
    rowTotal (p.equations t v) i = p.rowDir t v (unit i) := by
  unfold Placed.equations
  rw [rowTotal_filterMap]
  unfold Placed.rowDir Details.firstOrder Details.row
  simp only [ho, if_true]
  congr 1; apply List.map_congr_left; intro x _
  rw [readIdx_unit]; split_ifs <;> simp

/-- The multipliers of a part times its equations. -/
noncomputable def Placed.constraints (p : Placed) (t : ℝ) (v : ℕ → ℝ) : ℝ :=
  (p.details.seg.duals.map fun d => readIdx v (p.details.eqnMap d) * eval (p.env t v) (p.details.seg.derivative d)).sum

theorem sum_duals {seg : Segment} (hn : seg.vars.Nodup) (f : Sym → ℝ) :
    (seg.vars.map fun x => (if x ∈ seg.duals then f x else 0)).sum = (seg.duals.map f).sum := by
  unfold Segment.vars at *
  rw [List.map_append, List.sum_append]
  have h1 : (seg.primals.map fun x => if x ∈ seg.duals then f x else 0).sum = 0 := by
    apply List.sum_eq_zero
    intro z hz
    obtain ⟨x, hx, rfl⟩ := List.mem_map.1 hz
    rw [if_neg fun hd => (List.nodup_append.1 hn).2.2 x hx x hd rfl]
  rw [h1, zero_add]
  congr 1; apply List.map_congr_left; intro x hx; rw [if_pos hx]

theorem hasDerivAt_list_sum {α : Type*} (l : List α) (f : α → ℝ → ℝ) (f' : α → ℝ) (s : ℝ) (h : ∀ a ∈ l, HasDerivAt (f a) (f' a) s) :
    HasDerivAt (fun s => (l.map fun a => f a s).sum) (l.map f').sum s := by
  induction l with
  | nil => exact hasDerivAt_const _ _
  | cons a l ih =>
    simp only [List.map_cons, List.sum_cons]
    exact (h a (by simp)).fun_add (ih fun b hb => h b (by simp [hb]))

theorem readIdx_along (v w : ℕ → ℝ) (k : Idx) : HasDerivAt (fun s => readIdx (along v w s) k) (readIdx w k) 0 := by
  cases k with
  | none => exact hasDerivAt_const _ _
  | some c =>
    show HasDerivAt (fun s => v c + s * w c) (w c) 0
    simpa using ((hasDerivAt_id' (0 : ℝ)).mul_const (w c)).const_add (v c)

/-- What is needed of a part that is not an infeasibility current. -/
structure Placed.Lagrangian (p : Placed) (t : ℝ) (v : ℕ → ℝ) : Prop where
  regular : p.Regular t v
  linear : LinearIn p.details.seg.duals p.details.seg.lagrange

theorem derivative_along {p : Placed} {t : ℝ} {v : ℕ → ℝ} (h : p.Regular t v) (w : ℕ → ℝ) (x : Sym) :
    HasDerivAt (fun s => eval (p.env t (along v w s)) (p.details.seg.derivative x))
      (p.details.seg.vars.map fun y => p.hess t v x y * readIdx w (p.details.varMap y)).sum 0 := by
  have h1 := hasDerivAt_curve (env := fun s => p.env t (along v w s)) (d := p.rate w) (s0 := 0) h.nodup
    (fun y => env_rate h.disj y) (fun y hy => by unfold Placed.rate; rw [if_neg hy])
    (e := p.details.seg.derivative x) (by rw [along_zero]; exact defined_diff x h.defined)
  rw [along_zero] at h1
  refine h1.congr_deriv ?_
  congr 1; apply List.map_congr_left; intro y hy
  unfold Placed.rate Placed.hess; rw [if_pos hy]

theorem constraints_along {p : Placed} {t : ℝ} {v : ℕ → ℝ} (h : p.Lagrangian t v) (w : ℕ → ℝ) :
    HasDerivAt (fun s => p.constraints t (along v w s))
      ((p.details.seg.duals.map fun d => readIdx w (p.details.eqnMap d) * eval (p.env t v) (p.details.seg.derivative d)).sum +
        p.form t v (fun seg x k => if x ∈ seg.duals then readIdx v k else 0) (fun _ _ k => readIdx w k)) 0 := by
  unfold Placed.constraints
  have h1 := hasDerivAt_list_sum p.details.seg.duals
    (fun d s => readIdx (along v w s) (p.details.eqnMap d) * eval (p.env t (along v w s)) (p.details.seg.derivative d)) _ 0
    (fun d _ => (readIdx_along v w (p.details.eqnMap d)).fun_mul (derivative_along h.regular w d))
  refine h1.congr_deriv ?_
  simp only [along_zero]
  rw [List.sum_map_add]
  congr 1
  unfold Placed.form
  rw [← sum_duals h.regular.nodup]
  congr 1; apply List.map_congr_left; intro x _
  split_ifs with hx
  · rw [← List.sum_map_mul_left]; congr 1; apply List.map_congr_left; intro y _; simp only [hx, if_true]; ring
  · symm; apply List.sum_eq_zero; intro z hz
    obtain ⟨y, _, rfl⟩ := List.mem_map.1 hz; simp only [hx, if_false]; ring

/-- The rows of a part: its equations, and its multipliers through the second derivatives. -/
theorem rowDir_form {p : Placed} {t : ℝ} {v : ℕ → ℝ} (h : p.Lagrangian t v) (w : ℕ → ℝ) :
    p.rowDir t v w = (p.details.seg.duals.map fun d => readIdx w (p.details.eqnMap d) * eval (p.env t v) (p.details.seg.derivative d)).sum +
      p.form t v (fun _ _ k => readIdx w k) (fun seg x k => if x ∈ seg.duals then readIdx v k else 0) := by
  have hn := h.regular.nodup
  have hdn : p.details.seg.duals.Nodup := (List.nodup_append.1 hn).2.1
  have hx : ∀ x ∈ p.details.seg.vars, (p.details.seg.vars.map fun y => readIdx w (p.details.eqnMap x) *
      (if y ∈ p.details.seg.duals then readIdx v (p.details.varMap y) else 0) * p.hess t v x y).sum =
      if x ∈ p.details.seg.duals then 0 else readIdx w (p.details.eqnMap x) * eval (p.env t v) (p.details.seg.derivative x) := by
    intro x hx
    have e1 : (p.details.seg.vars.map fun y => readIdx w (p.details.eqnMap x) *
        (if y ∈ p.details.seg.duals then readIdx v (p.details.varMap y) else 0) * p.hess t v x y).sum =
        readIdx w (p.details.eqnMap x) * (p.details.seg.duals.map fun d => p.env t v d * p.hess t v x d).sum := by
      rw [← List.sum_map_mul_left, ← sum_duals hn]
      congr 1; apply List.map_congr_left; intro y hy
      split_ifs with hd
      · rw [Placed.env_var h.regular.disj hy]; ring
      · ring
    rw [e1]
    split_ifs with hd
    · have : (p.details.seg.duals.map fun d => p.env t v d * p.hess t v x d).sum = 0 := by
        apply List.sum_eq_zero; intro z hz
        obtain ⟨d, hd', rfl⟩ := List.mem_map.1 hz
        unfold Placed.hess Segment.derivative
        rw [diff_eq_zero (h.linear.diff_free hd d hd')]; simp
      rw [this, mul_zero]
    · rw [show eval (p.env t v) (p.details.seg.derivative x) = _ from (h.linear.diff hd).eval hdn (p.env t v)]; rfl
  unfold Placed.form Placed.rowDir
  rw [show (p.details.seg.vars.map fun x => (p.details.seg.vars.map fun y => readIdx w (p.details.eqnMap x) *
      (if y ∈ p.details.seg.duals then readIdx v (p.details.varMap y) else 0) * p.hess t v x y).sum) =
      p.details.seg.vars.map fun x => if x ∈ p.details.seg.duals then 0 else readIdx w (p.details.eqnMap x) * eval (p.env t v) (p.details.seg.derivative x)
    from List.map_congr_left hx, ← sum_duals hn, ← List.sum_map_add]
  congr 1; apply List.map_congr_left; intro x _
  split_ifs <;> ring

/-- Balanced parts: the rows are the gradient of multipliers times equations. -/
theorem constraints_gradient {ps : List Placed} {t : ℝ} {v : ℕ → ℝ} (h : ∀ p ∈ ps, p.Lagrangian t v) (hb : Balanced ps t v) (w : ℕ → ℝ) :
    HasDerivAt (fun s => (ps.map fun p => p.constraints t (along v w s)).sum) (ps.map fun p => p.rowDir t v w).sum 0 := by
  refine (hasDerivAt_list_sum ps (fun p s => p.constraints t (along v w s)) _ 0 fun p hp => constraints_along (h p hp) w).congr_deriv ?_
  rw [List.map_congr_left fun p hp => rowDir_form (h p hp) w, List.sum_map_add, List.sum_map_add, hb]

/-- One part with equal rows and columns: the rows are the gradient of its Lagrangian. -/
theorem self_gradient {p : Placed} {t : ℝ} {v : ℕ → ℝ} (h : p.Regular t v) (hs : p.details.eqnMap = p.details.varMap) (w : ℕ → ℝ) :
    HasDerivAt (fun s => eval (p.env t (along v w s)) p.details.seg.lagrange) (p.rowDir t v w) 0 := by
  have h1 := hasDerivAt_curve (env := fun s => p.env t (along v w s)) (d := p.rate w) (s0 := 0) h.nodup
    (fun y => env_rate h.disj y) (fun y hy => by unfold Placed.rate; rw [if_neg hy])
    (e := p.details.seg.lagrange) (by rw [along_zero]; exact h.defined)
  rw [along_zero] at h1
  refine h1.congr_deriv ?_
  unfold Placed.rowDir
  congr 1; apply List.map_congr_left; intro y hy
  unfold Placed.rate; rw [if_pos hy, hs, mul_comm]; rfl

/-! ### The matrix -/

theorem dirRow_form {p : Placed} {t : ℝ} {v : ℕ → ℝ} (ho : p.details.opt = true) (h : p.Regular t v) (w : ℕ → ℝ) (i : ℕ) :
    dirRow w (p.stamps.map fun s => (s.row, s.col, eval (p.env t v) s.expr.entry.expr)) i =
      p.form t v (fun _ _ k => readIdx (unit i) k) (fun _ _ k => readIdx w k) := by
  refine (part_jacobian h w i).unique ?_
  have e : (fun s => rowTotal (p.equations t (along v w s)) i) = fun s => p.rowDir t (along v w s) (unit i) := by
    funext s; exact equations_rowDir ho t _ i
  rw [e]
  unfold Placed.rowDir
  have h1 := hasDerivAt_list_sum p.details.seg.vars
    (fun x s => readIdx (unit i) (p.details.eqnMap x) * eval (p.env t (along v w s)) (p.details.seg.derivative x)) _ 0
    (fun x _ => (derivative_along h w x).const_mul (readIdx (unit i) (p.details.eqnMap x)))
  refine h1.congr_deriv ?_
  unfold Placed.form
  congr 1; apply List.map_congr_left; intro x _
  rw [← List.sum_map_mul_left]; congr 1; apply List.map_congr_left; intro y _; ring

theorem dirRow_network {ps : List Placed} {t : ℝ} {v : ℕ → ℝ} (ho : ∀ p ∈ ps, p.details.opt = true) (h : ∀ p ∈ ps, p.Regular t v)
    (w : ℕ → ℝ) (i : ℕ) :
    dirRow w ((ps.flatMap fun p => p.emitted t v true) ++ (ps.flatMap fun p => p.emitted t v false)) i =
      (ps.map fun p => p.form t v (fun _ _ k => readIdx (unit i) k) (fun _ _ k => readIdx w k)).sum := by
  induction ps with
  | nil => simp [dirRow]
  | cons p ps ih =>
    have ih' := ih (fun q hq => ho q (by simp [hq])) fun q hq => h q (by simp [hq])
    simp only [List.flatMap_cons, dirRow_append, List.map_cons, List.sum_cons] at ih' ⊢
    rw [← ih', ← dirRow_form (ho p (by simp)) (h p (by simp)) w i, ← dirRow_perm w (emitted_both p t v) i, dirRow_append]
    abel

end Verif
