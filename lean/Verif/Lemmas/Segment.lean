import Verif.Model.Devices
import Verif.Lemmas.Expr

/-! Helper lemmas about Lagrangian segments. -/

namespace Verif

open Ex

theorem twoTerminal_ok {n : ℕ} {a : TwoTerminalArgs} {s : Segment} (h : twoTerminal n a = .ok s) :
    ∃ kr ki, a.kclRFrom = some kr ∧ a.kclIFrom = some ki ∧
      (∀ e ∈ a.objective.toList ++ [kr, kr, (a.toSide kr ki).1, (a.toSide kr ki).2] ++ a.equalities,
        checkMissing (a.constants ++ a.vars) e = none) ∧
      a.vars.length ≥ 4 + a.equalities.length ∧
      s = { lagrange := twoTerminalLagrange a.objective kr ki (a.toSide kr ki).1 (a.toSide kr ki).2 n a.equalities
            constants := a.constants
            primals := a.vars
            duals := [.LrFrom, .LiFrom, .LrTo, .LiTo] ++ equalityDuals n a.equalities } := by
  unfold twoTerminal at h
  split at h
  · rename_i kr ki hkr hki
    refine ⟨kr, ki, hkr, hki, ?_⟩
    simp only at h
    split_ifs at h with h1 h2
    refine ⟨?_, ?_, ?_⟩
    · intro e he
      by_contra hne
      apply h1
      rw [List.any_eq_true]
      exact ⟨e, he, by cases hc : checkMissing (a.constants ++ a.vars) e <;> simp_all⟩
    · simp [equalityDuals] at h2; omega
    · injection h with h; exact h.symm
  · exact absurd h (by simp)

theorem mem_syms {e : Ex} {s : Sym} : s ∈ e.syms ↔ e.has s = true := by
  induction e with
  | num q => simp [Ex.syms, has]
  | sym t => simp [Ex.syms, has]
  | add a b iha ihb => simp [Ex.syms, has, iha, ihb]
  | mul a b iha ihb => simp [Ex.syms, has, iha, ihb]
  | pow a n iha => simp [Ex.syms, has, iha]
  | sin a iha => simp [Ex.syms, has, iha]
  | cos a iha => simp [Ex.syms, has, iha]

theorem checkMissing_none {declared : List Sym} {e : Ex} :
    checkMissing declared e = none ↔ ∀ s, e.has s = true → s ∈ declared := by
  simp only [checkMissing, List.find?_eq_none, mem_syms]
  constructor
  · intro h s hs; simpa using h s hs
  · intro h s hs; simpa using h s hs

theorem has_hadd (s : Sym) (a b : Ex) : (a + b).has s = (a.has s || b.has s) := rfl
theorem has_hmul (s : Sym) (a b : Ex) : (a * b).has s = (a.has s || b.has s) := rfl
theorem has_neg (s : Sym) (a : Ex) : (-a).has s = a.has s := by
  show (Ex.mul (.num (-1)) a).has s = _; simp [has]
theorem has_hsub (s : Sym) (a b : Ex) : (a - b).has s = (a.has s || b.has s) := by
  show (Ex.add a (Ex.mul (.num (-1)) b)).has s = _; simp [has]
theorem has_hdiv (s : Sym) (a b : Ex) : (a / b).has s = (a.has s || b.has s) := rfl

theorem eval_diff_hadd (env : Env) (x : Sym) (a b : Ex) :
    eval env (diff x (a + b)) = eval env (diff x a) + eval env (diff x b) := by
  show eval env (sadd (diff x a) (diff x b)) = _; simp

theorem eval_diff_hmul (env : Env) (x : Sym) (a b : Ex) :
    eval env (diff x (a * b)) = eval env (diff x a) * eval env b + eval env a * eval env (diff x b) := by
  show eval env (sadd (smul (diff x a) b) (smul a (diff x b))) = _; simp

theorem eval_diff_neg (env : Env) (x : Sym) (a : Ex) : eval env (diff x (-a)) = -eval env (diff x a) := by
  show eval env (sadd (smul (num 0) a) (smul (num (-1)) (diff x a))) = _; simp

theorem eval_diff_hsub (env : Env) (x : Sym) (a b : Ex) :
    eval env (diff x (a - b)) = eval env (diff x a) - eval env (diff x b) := by
  show eval env (sadd (diff x a) (sadd (smul (num 0) b) (smul (num (-1)) (diff x b)))) = _; simp; ring

theorem eval_diff_sym (env : Env) (x s : Sym) : eval env (diff x (Ex.sym s)) = if x = s then 1 else 0 := by
  unfold diff; split_ifs <;> simp

/-- Derivative of `λ * e` by a multiplier not occurring in `e`. -/
theorem eval_diff_dual (env : Env) (x d : Sym) (e : Ex) (h : e.has x = false) :
    eval env (diff x (Ex.sym d * e)) = if x = d then eval env e else 0 := by
  rw [eval_diff_hmul, eval_diff_sym, diff_eq_zero h]; split_ifs <;> simp

theorem eval_diff_addEqualities (env : Env) (x : Sym) (n : ℕ) (acc : Ex) (es : List Ex)
    (h : ∀ e ∈ es, e.has x = false) :
    eval env (diff x (addEqualities n acc es)) =
      eval env (diff x acc) + ((List.range es.length).map fun k =>
        if x = .lam (n + k) then eval env (es.getD k (num 0)) else 0).sum := by
  induction es generalizing n acc with
  | nil => simp [addEqualities]
  | cons e es ih =>
    rw [addEqualities, ih _ _ (fun e he => h e (List.mem_cons_of_mem _ he)), eval_diff_hadd,
      eval_diff_dual env x (.lam n) e (h e (by simp)), List.length_cons, List.range_succ_eq_map]
    simp only [List.map_cons, List.sum_cons, List.map_map, Function.comp_def, List.getD_cons_zero, add_zero,
      List.getD_cons_succ]
    have : ∀ k, n + 1 + k = n + (k + 1) := fun k => by omega
    simp only [this]
    ring

/-- Rows of the Lagrangian of a two-terminal device: the derivative by any multiplier that occurs in none of the
equations. -/
theorem eval_diff_twoTerminal (env : Env) (x : Sym) (obj : Option Ex) (kr ki krTo kiTo : Ex) (n : ℕ) (eqs : List Ex)
    (ho : ∀ o ∈ obj, o.has x = false) (h1 : kr.has x = false) (h2 : ki.has x = false)
    (h3 : krTo.has x = false) (h4 : kiTo.has x = false) (h5 : ∀ e ∈ eqs, e.has x = false) :
    eval env (diff x (twoTerminalLagrange obj kr ki krTo kiTo n eqs)) =
      (if x = .LrFrom then eval env kr else 0) + (if x = .LiFrom then eval env ki else 0)
      + (if x = .LrTo then -eval env krTo else 0) + (if x = .LiTo then -eval env kiTo else 0)
      + ((List.range eqs.length).map fun k => if x = .lam (n + k) then eval env (eqs.getD k (num 0)) else 0).sum := by
  unfold twoTerminalLagrange
  rw [eval_diff_addEqualities env x n _ eqs h5]
  congr 1
  have h3' : (-krTo).has x = false := by rw [has_neg]; exact h3
  have h4' : (-kiTo).has x = false := by rw [has_neg]; exact h4
  simp only [eval_diff_hadd, eval_diff_dual env x _ _ h1, eval_diff_dual env x _ _ h2,
    eval_diff_dual env x _ _ h3', eval_diff_dual env x _ _ h4', eval_neg]
  cases obj with
  | none => simp [diff]
  | some o =>
    simp only [eval_diff_hadd, diff_eq_zero (ho o rfl)]
    simp [diff]

end Verif
