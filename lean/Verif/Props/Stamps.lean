import Verif.Lemmas.Expr
import Verif.Model.Devices

/-!
# C01, C61: the stamps are the Newton linearisation; what is stamped once is constant
-/

namespace Verif

open Ex

/-- Specification of a Newton row. `ys x` is the total matrix coefficient in the column of `x`, `j` the total
right-hand side; they linearise the real function `F` at `v`. -/
structure IsNewtonRow (vars : List Sym) (F : Env → ℝ) (v : Env) (ys : Sym → ℝ) (j : ℝ) : Prop where
  /-- `Σ Y_x v_x - J = F(v)` -/
  value : (vars.map fun x => ys x * v x).sum - j = F v
  /-- `Y_x = ∂F/∂x (v)` -/
  slope : ∀ x ∈ vars, HasDerivAt (fun t => F (Function.update v x t)) (ys x) (v x)

/-- **C01.** For every expression `e` without a variable inside `sin`/`cos`, every duplicate free variable list
and every point `v` where `e` has no division by zero, the entries produced for `e` are a Newton row of `e`. -/
theorem C01_stamps_are_newton_row (vars : List Sym) (hn : vars.Nodup) (e : Ex) (v : Env)
    (hd : Defined v e) (ht : TrigFree vars e) :
    IsNewtonRow vars (fun w => eval w e) v
      (fun x => entrySum v (evals vars (splitExpr vars e)) (some x))
      (entrySum v (evals vars (splitExpr vars e)) none) := by
  have hk := splitTerms_keys vars (addends e)
  have hy : ∀ x, entrySum v (evals vars (splitExpr vars e)) (some x) =
      eval v ((splitTerms vars (addends e)).coeff x) := fun x => entrySum_some v vars _ hk.1 x
  have hj : entrySum v (evals vars (splitExpr vars e)) none = eval v (splitTerms vars (addends e)).constant :=
    entrySum_none v vars _
  constructor
  · simp only [hy, hj]
    rw [splitTerms_newton v hn _ (addends_addend ht), addends_sum hd]
  · intro x hx
    simp only [hy]
    rw [splitTerms_coeff v hn _ hx]
    have hsum : HasDerivAt (fun t => ((addends e).map fun a => eval (upd v x t) a).sum)
        ((addends e).map fun a => eval v (diff x a)).sum (v x) := by
      have hdef := addends_defined hd
      generalize addends e = ts at hdef
      induction ts with
      | nil => simpa using hasDerivAt_const (v x) (0 : ℝ)
      | cons a as ih =>
        simp only [List.map_cons, List.sum_cons]
        exact (hasDerivAt_eval x (hdef a (by simp))).fun_add (ih fun b hb => hdef b (List.mem_cons_of_mem _ hb))
    refine hsum.congr_of_eventuallyEq ?_
    filter_upwards [eventually_defined x hd] with t ht'
    exact (addends_sum ht').symm

/-- The columns of the entries are variables of the segment, one entry per column at most. -/
theorem C01_entry_columns (vars : List Sym) (e : Ex) :
    (∀ t ∈ evals vars (splitExpr vars e), ∀ x, t.col = some x → x ∈ vars) ∧
    ((splitExpr vars e).vars.map Prod.fst).Nodup := by
  have hk := splitTerms_keys vars (addends e)
  refine ⟨fun t ht x hx => hk.2 x ?_, hk.1⟩
  exact List.mem_map.2 ⟨_, (mem_evals_col ht hx).1, rfl⟩

/-- The hypothesis of C01 on `sin`/`cos` cannot be dropped: `sin x` is classified linear
(`is_linear` only looks for powers), so its entries do not satisfy the Newton identity at `x = π`. -/
theorem C01_sin_of_variable_misclassified :
    ¬ IsNewtonRow [Sym.Q] (fun w => eval w (Ex.sin (Ex.sym .Q))) (fun _ => Real.pi)
      (fun x => entrySum (fun _ => Real.pi) (evals [Sym.Q] (splitExpr [Sym.Q] (Ex.sin (Ex.sym .Q)))) (some x))
      (entrySum (fun _ => Real.pi) (evals [Sym.Q] (splitExpr [Sym.Q] (Ex.sin (Ex.sym .Q)))) none) := by
  intro h
  have h1 := h.value
  simp [entrySum, evals, splitExpr, splitTerms, addends, expand, splitStep, Mono.toEx, factorEx, isConstant,
    isLinear, getLinearTerm, has, hasPow, diff, sadd, smul, addEntry] at h1

/-- **C61.** An entry flagged as linear (stamped once per run) has the same value at any two points that agree
on the constants. -/
theorem C61_linear_entries_do_not_depend_on_variables (vars : List Sym) (e : Ex) (t : Entry)
    (ht : t ∈ evals vars (splitExpr vars e)) (hl : t.isLinear = true) (v w : Env)
    (hvw : ∀ s, s ∉ vars → v s = w s) : eval v t.expr = eval w t.expr := by
  have hc : isConstant vars t.expr = true := by
    unfold evals at ht
    rcases List.mem_append.1 ht with ht | ht
    · split_ifs at ht
      · simp at ht
      · simp at ht; subst ht; exact hl
    · obtain ⟨kv, _, rfl⟩ := List.mem_map.1 ht
      exact hl
  apply eval_congr
  intro s hs
  apply hvw
  intro hsv
  rw [isConstant_iff.1 hc s hsv] at hs
  exact absurd hs (by simp)

/-! ### Examples -/

/-- The constant power equation meets the hypotheses of C01 at a non-zero voltage. -/
example : Devices.terminals.Nodup ∧ TrigFree Devices.terminals Devices.pqKclR ∧
    Defined (fun s => if s = .VrTo ∨ s = .ViTo then 0 else 3) Devices.pqKclR := by
  refine ⟨by decide, ?_, ?_⟩
  · exact ⟨⟨⟨trivial, trivial, trivial, trivial⟩, trivial, trivial, trivial, trivial⟩,
      ⟨trivial, trivial, trivial⟩, trivial, trivial, trivial⟩
  · refine ⟨⟨⟨trivial, trivial, trivial, trivial⟩, trivial, trivial, trivial, trivial⟩,
      ⟨⟨⟨trivial, trivial, trivial⟩, Or.inl (by norm_num)⟩, ⟨trivial, trivial, trivial⟩, Or.inl (by norm_num)⟩,
      Or.inr ?_⟩
    show eval _ (Ex.pow Devices.Vr 2 + Ex.pow Devices.Vi 2) ≠ 0
    simp [Devices.Vr, Devices.Vi]

/-- A linear entry: the coefficient of `Vr_from` in `G * Vr_from` is flagged linear. -/
example : ∃ t ∈ evals [Sym.VrFrom] (splitExpr [Sym.VrFrom] (Ex.mul (.sym .G) (.sym .VrFrom))),
    t.isLinear = true ∧ t.col = some .VrFrom := by
  simp [evals, splitExpr, splitTerms, addends, expand, splitStep, Mono.toEx, factorEx, isConstant, mulMonos,
    Mono.mul, insertFactor, isLinear, getLinearTerm, has, hasPow, diff, sadd, smul, addEntry, entryLinear]

/-- `C01_stamps_are_newton_row` for `x²` at 3, with the one variable `x`: the entries are its Newton row, and their columns are that
variable. -/
example : IsNewtonRow [Sym.Q] (fun w => eval w (Ex.pow (.sym .Q) 2)) (fun _ => 3)
      (fun x => entrySum (fun _ => 3) (evals [Sym.Q] (splitExpr [Sym.Q] (Ex.pow (.sym .Q) 2))) (some x))
      (entrySum (fun _ => 3) (evals [Sym.Q] (splitExpr [Sym.Q] (Ex.pow (.sym .Q) 2))) none) ∧
    ∀ t ∈ evals [Sym.Q] (splitExpr [Sym.Q] (Ex.pow (.sym .Q) 2)), ∀ x, t.col = some x → x ∈ [Sym.Q] :=
  ⟨C01_stamps_are_newton_row [Sym.Q] (by decide) _ _ ⟨trivial, Or.inl (by norm_num)⟩ trivial, (C01_entry_columns _ _).1⟩

/-- The linear entry above has one value at any two points with the same `G`. -/
example (v w : Env) (h : ∀ s, s ∉ [Sym.VrFrom] → v s = w s) :
    ∃ t ∈ evals [Sym.VrFrom] (splitExpr [Sym.VrFrom] (Ex.mul (.sym .G) (.sym .VrFrom))), t.col = some .VrFrom ∧ eval v t.expr = eval w t.expr := by
  have : ∃ t ∈ evals [Sym.VrFrom] (splitExpr [Sym.VrFrom] (Ex.mul (.sym .G) (.sym .VrFrom))), t.isLinear = true ∧ t.col = some .VrFrom := by
    simp [evals, splitExpr, splitTerms, addends, expand, splitStep, Mono.toEx, factorEx, isConstant, mulMonos,
      Mono.mul, insertFactor, isLinear, getLinearTerm, has, hasPow, diff, sadd, smul, addEntry, entryLinear]
  obtain ⟨t, h1, h2, h3⟩ := this
  exact ⟨t, h1, h3, C61_linear_entries_do_not_depend_on_variables _ _ t h1 h2 v w h⟩

end Verif
