import Verif.Model.Expr
import Mathlib.Analysis.SpecialFunctions.Trigonometric.Deriv
import Mathlib.Analysis.Calculus.Deriv.ZPow
import Mathlib.Algebra.BigOperators.Group.List.Basic
import Mathlib.Algebra.BigOperators.Ring.List
import Mathlib.Tactic.Ring
import Mathlib.Tactic.Linarith
import Mathlib.Tactic.FieldSimp

/-! Helper lemmas about `Verif.Ex`. -/

namespace Verif.Ex

@[simp] theorem eval_num (env : Env) (q : ℚ) : eval env (num q) = (q : ℝ) := rfl
@[simp] theorem eval_sym (env : Env) (s : Sym) : eval env (sym s) = env s := rfl
@[simp] theorem eval_add (env : Env) (a b : Ex) : eval env (add a b) = eval env a + eval env b := rfl
@[simp] theorem eval_mul (env : Env) (a b : Ex) : eval env (mul a b) = eval env a * eval env b := rfl
@[simp] theorem eval_pow (env : Env) (a : Ex) (n : ℤ) : eval env (pow a n) = eval env a ^ n := rfl
@[simp] theorem eval_sin (env : Env) (a : Ex) : eval env (sin a) = Real.sin (eval env a) := rfl
@[simp] theorem eval_cos (env : Env) (a : Ex) : eval env (cos a) = Real.cos (eval env a) := rfl
@[simp] theorem eval_hadd (env : Env) (a b : Ex) : eval env (a + b) = eval env a + eval env b := rfl
@[simp] theorem eval_hmul (env : Env) (a b : Ex) : eval env (a * b) = eval env a * eval env b := rfl
@[simp] theorem eval_neg (env : Env) (a : Ex) : eval env (-a) = -eval env a := by
  show eval env (mul (num (-1)) a) = _; simp
@[simp] theorem eval_hsub (env : Env) (a b : Ex) : eval env (a - b) = eval env a - eval env b := by
  show eval env (add a (mul (num (-1)) b)) = _; simp; ring
@[simp] theorem eval_hdiv (env : Env) (a b : Ex) : eval env (a / b) = eval env a / eval env b := by
  show eval env (mul a (pow b (-1))) = _; simp [div_eq_mul_inv]
@[simp] theorem eval_ofNat (env : Env) (n : ℕ) : eval env (OfNat.ofNat n : Ex) = (n : ℝ) := by
  show eval env (num (n : ℚ)) = _; simp

@[simp] theorem eval_sadd (env : Env) (a b : Ex) : eval env (sadd a b) = eval env a + eval env b := by
  unfold sadd; split_ifs with h1 h2 <;> simp_all

@[simp] theorem eval_smul (env : Env) (a b : Ex) : eval env (smul a b) = eval env a * eval env b := by
  unfold smul; split_ifs <;> simp_all

theorem defined_sadd {env : Env} {a b : Ex} (ha : Defined env a) (hb : Defined env b) :
    Defined env (sadd a b) := by
  unfold sadd; split_ifs <;> simp_all [Defined]

theorem defined_smul {env : Env} {a b : Ex} (ha : Defined env a) (hb : Defined env b) :
    Defined env (smul a b) := by
  unfold smul; split_ifs <;> simp_all [Defined]

/-- A symbol that does not occur has derivative literally zero. -/
theorem diff_eq_zero {x : Sym} {e : Ex} (h : e.has x = false) : diff x e = num 0 := by
  induction e with
  | num q => rfl
  | sym s => simp [has] at h; simp [diff, h]
  | add a b iha ihb =>
    simp [has] at h; simp [diff, iha h.1, ihb h.2, sadd]
  | mul a b iha ihb =>
    simp [has] at h; simp [diff, iha h.1, ihb h.2, sadd, smul]
  | pow a n iha => simp [has] at h; simp [diff, iha h, smul]
  | sin a iha => simp [has] at h; simp [diff, iha h, smul]
  | cos a iha => simp [has] at h; simp [diff, iha h, smul]

/-- The value only depends on the symbols that occur. -/
theorem eval_congr {e : Ex} {env env' : Env} (h : ∀ s, e.has s = true → env s = env' s) :
    eval env e = eval env' e := by
  induction e with
  | num q => rfl
  | sym s => exact h s (by simp [has])
  | add a b iha ihb =>
    simp only [has, Bool.or_eq_true] at h
    simp [iha fun s hs => h s (Or.inl hs), ihb fun s hs => h s (Or.inr hs)]
  | mul a b iha ihb =>
    simp only [has, Bool.or_eq_true] at h
    simp [iha fun s hs => h s (Or.inl hs), ihb fun s hs => h s (Or.inr hs)]
  | pow a n iha => simp only [has] at h; simp [iha h]
  | sin a iha => simp only [has] at h; simp [iha h]
  | cos a iha => simp only [has] at h; simp [iha h]

theorem defined_congr {e : Ex} {env env' : Env} (h : ∀ s, e.has s = true → env s = env' s) :
    Defined env e → Defined env' e := by
  induction e with
  | num q => exact id
  | sym s => exact id
  | add a b iha ihb =>
    simp only [has, Bool.or_eq_true] at h
    exact fun ⟨h1, h2⟩ => ⟨iha (fun s hs => h s (Or.inl hs)) h1, ihb (fun s hs => h s (Or.inr hs)) h2⟩
  | mul a b iha ihb =>
    simp only [has, Bool.or_eq_true] at h
    exact fun ⟨h1, h2⟩ => ⟨iha (fun s hs => h s (Or.inl hs)) h1, ihb (fun s hs => h s (Or.inr hs)) h2⟩
  | pow a n iha =>
    simp only [has] at h
    exact fun ⟨h1, h2⟩ => ⟨iha h h1, by rw [← eval_congr h]; exact h2⟩
  | sin a iha => exact iha h
  | cos a iha => exact iha h

/-- The environment with one symbol changed. -/
noncomputable def upd (env : Env) (x : Sym) (t : ℝ) : Env := Function.update env x t

@[simp] theorem upd_self (env : Env) (x : Sym) : upd env x (env x) = env := by
  simp [upd]

/-- Symbolic differentiation is correct. -/
theorem hasDerivAt_eval (x : Sym) {env : Env} {e : Ex} (h : Defined env e) :
    HasDerivAt (fun t => eval (upd env x t) e) (eval env (diff x e)) (env x) := by
  induction e with
  | num q => simpa [diff] using hasDerivAt_const (env x) (q : ℝ)
  | sym s =>
    by_cases hs : x = s
    · subst hs; simpa [diff, upd] using hasDerivAt_id' (env x)
    · have : ∀ t, upd env x t s = env s := fun t => by simp [upd, Function.update_of_ne (Ne.symm hs)]
      simpa [diff, hs, this] using hasDerivAt_const (env x) (env s)
  | add a b iha ihb => simpa [diff] using (iha h.1).fun_add (ihb h.2)
  | mul a b iha ihb => simpa [diff] using (iha h.1).fun_mul (ihb h.2)
  | pow a n iha =>
    have h2 : eval (upd env x (env x)) a ≠ 0 ∨ 0 ≤ n := by
      rw [upd_self]; exact h.2.symm
    have := (hasDerivAt_zpow n _ h2).comp (env x) (iha h.1)
    simpa [diff, Function.comp_def] using this
  | sin a iha => simpa [diff] using (iha h).sin
  | cos a iha =>
    have := (iha h).cos
    simpa [diff] using this

theorem continuousAt_eval (x : Sym) {env : Env} {e : Ex} (h : Defined env e) :
    ContinuousAt (fun t => eval (upd env x t) e) (env x) := (hasDerivAt_eval x h).continuousAt

/-- Being defined is stable under small changes of one symbol. -/
theorem eventually_defined (x : Sym) {env : Env} {e : Ex} (h : Defined env e) :
    ∀ᶠ t in nhds (env x), Defined (upd env x t) e := by
  induction e with
  | num q => exact Filter.Eventually.of_forall fun _ => trivial
  | sym s => exact Filter.Eventually.of_forall fun _ => trivial
  | add a b iha ihb => exact (iha h.1).and (ihb h.2)
  | mul a b iha ihb => exact (iha h.1).and (ihb h.2)
  | pow a n iha =>
    refine (iha h.1).and ?_
    rcases h.2 with hn | hne
    · exact Filter.Eventually.of_forall fun _ => Or.inl hn
    · have hc := continuousAt_eval x h.1
      have : (fun t => eval (upd env x t) a) (env x) ≠ 0 := by simpa using hne
      exact (hc.eventually_ne this).mono fun t ht => Or.inr ht
  | sin a iha => exact iha h
  | cos a iha => exact iha h

/-! ### Occurring exactly once -/

/-- `x` is a factor of the product `e`, exactly once and nowhere else. -/
def OccursOnce (x : Sym) : Ex → Prop
  | sym s => x = s
  | mul a b => (OccursOnce x a ∧ b.has x = false) ∨ (a.has x = false ∧ OccursOnce x b)
  | _ => False

theorem eval_of_occursOnce {x : Sym} {e : Ex} (env : Env) (h : OccursOnce x e) :
    eval env e = eval env (diff x e) * env x := by
  induction e with
  | num q => exact h.elim
  | sym s => obtain rfl : x = s := h; simp [diff]
  | add a b => exact h.elim
  | mul a b iha ihb =>
    rcases h with ⟨h1, h2⟩ | ⟨h1, h2⟩
    · simp [diff, diff_eq_zero h2, iha h1]; ring
    · simp [diff, diff_eq_zero h1, ihb h2]; ring
  | pow a n => exact h.elim
  | sin a => exact h.elim
  | cos a => exact h.elim

/-- A term of an expanded sum, as `split_expr` expects it: when it is classified linear its variable is a
plain factor occurring once. -/
def Addend (vars : List Sym) (e : Ex) : Prop :=
  isLinear vars e = true → ∀ x ∈ vars, e.has x = true → OccursOnce x e

/-! ### The splitting loop -/

theorem isConstant_iff {vars : List Sym} {e : Ex} :
    isConstant vars e = true ↔ ∀ x ∈ vars, e.has x = false := by
  simp [isConstant]

/-- Value of the dictionary entry of `x`. -/
noncomputable def dictVal (env : Env) (x : Sym) (d : List (Sym × Ex)) : ℝ :=
  match d.find? (fun kv => kv.1 = x) with
  | some kv => eval env kv.2
  | none => 0

theorem dictVal_coeff (env : Env) (x : Sym) (s : Split) : dictVal env x s.vars = eval env (s.coeff x) := by
  unfold dictVal Split.coeff
  cases s.vars.find? (fun kv => kv.1 = x) <;> simp

theorem dictVal_addEntry (env : Env) (x k : Sym) (v : Ex) (d : List (Sym × Ex)) :
    dictVal env x (addEntry k v d) = dictVal env x d + (if x = k then eval env v else 0) := by
  induction d with
  | nil =>
    by_cases h : k = x
    · simp [addEntry, dictVal, h]
    · simp [addEntry, dictVal, h, Ne.symm h]
  | cons kv rest ih =>
    obtain ⟨k', v'⟩ := kv
    by_cases h1 : k' = k
    · subst h1
      by_cases h2 : k' = x
      · simp [addEntry, dictVal, h2]
      · simp [addEntry, dictVal, h2, Ne.symm h2]
    · by_cases h2 : k' = x
      · have h3 : ¬ x = k := by rintro rfl; exact h1 h2
        simp [addEntry, dictVal, h2, h3]
      · simpa [addEntry, dictVal, h1, h2] using ih

theorem dictVal_foldl (env : Env) (x : Sym) (kvs : List (Sym × Ex)) (d : List (Sym × Ex)) :
    dictVal env x (kvs.foldl (fun d kv => addEntry kv.1 kv.2 d) d) =
      dictVal env x d + (kvs.map fun kv => if x = kv.1 then eval env kv.2 else 0).sum := by
  induction kvs generalizing d with
  | nil => simp
  | cons kv rest ih => simp [ih, dictVal_addEntry, add_assoc]

theorem sum_map_ite_eq {β : Type*} [AddCommMonoid β] (vars : List Sym) (hn : vars.Nodup) (x : Sym) (hx : x ∈ vars) (f : Sym → β) :
    (vars.map fun y => if x = y then f y else 0).sum = f x := by
  induction vars with
  | nil => simp at hx
  | cons y ys ih =>
    simp only [List.nodup_cons] at hn
    simp only [List.map_cons, List.sum_cons]
    by_cases h : x = y
    · subst h
      have : (ys.map fun z => if x = z then f z else 0).sum = 0 := by
        apply List.sum_eq_zero
        intro z hz
        obtain ⟨w, hw, rfl⟩ := List.mem_map.1 hz
        have : ¬ x = w := by rintro rfl; exact hn.1 hw
        simp [this]
      simp [this]
    · have hx' : x ∈ ys := by simpa [h] using hx
      simp [h, ih hn.2 hx']

theorem getLinearTerm_some {vars : List Sym} {e : Ex} {x : Sym} (h : getLinearTerm vars e = some x) :
    isLinear vars e = true ∧ x ∈ vars ∧ e.has x = true ∧ ∀ y ∈ vars, e.has y = true → y = x := by
  unfold getLinearTerm at h
  split_ifs at h with hl
  refine ⟨hl, ?_⟩
  simp only [isLinear, Bool.and_eq_true, beq_iff_eq] at hl
  obtain ⟨z, hz⟩ := List.length_eq_one_iff.1 hl.1.2
  have hzx : z = x := by rw [hz] at h; simpa using h
  subst hzx
  have hm : ∀ y, y ∈ vars.filter (fun x => e.has x) ↔ y = z := by intro y; rw [hz]; simp
  have h0 := (hm z).2 rfl
  rw [List.mem_filter] at h0
  exact ⟨h0.1, h0.2, fun y hy hy' => (hm y).1 (List.mem_filter.2 ⟨hy, hy'⟩)⟩

theorem splitStep_dict (env : Env) {vars : List Sym} (hn : vars.Nodup) (acc : Split) (e : Ex) {x : Sym}
    (hx : x ∈ vars) :
    dictVal env x (splitStep vars acc e).vars = dictVal env x acc.vars + eval env (diff x e) := by
  unfold splitStep
  split_ifs with hc
  · have := isConstant_iff.1 hc x hx
    simp [diff_eq_zero this]
  · split
    · rename_i y hy
      obtain ⟨_, _, _, h4⟩ := getLinearTerm_some hy
      simp only [dictVal_addEntry]
      by_cases hxy : x = y
      · subst hxy; simp
      · have : e.has x = false := by
          by_contra hh
          exact hxy (h4 x hx (by simpa using hh))
        simp [hxy, diff_eq_zero this]
    · simp only [dictVal_foldl, yComponents, List.map_map, Function.comp_def]
      rw [sum_map_ite_eq vars hn x hx (fun y => eval env (diff y e))]

theorem eval_kthSum (env : Env) (vars : List Sym) (e : Ex) :
    eval env (kthSum vars e) = -eval env e + (vars.map fun x => eval env (diff x e) * env x).sum := by
  unfold kthSum
  have : ∀ (acc : Ex), eval env (vars.foldl (fun acc x => sadd acc (smul (diff x e) (sym x))) acc) =
      eval env acc + (vars.map fun x => eval env (diff x e) * env x).sum := by
    induction vars with
    | nil => simp
    | cons y ys ih => intro acc; simp [ih, add_assoc]
  rw [this]; simp

/-- A single addend's contribution to the constant expression. -/
theorem splitStep_constant (env : Env) {vars : List Sym} (hn : vars.Nodup) (acc : Split) (e : Ex)
    (ha : Addend vars e) :
    eval env (splitStep vars acc e).constant =
      eval env acc.constant + (-eval env e + (vars.map fun x => eval env (diff x e) * env x).sum) := by
  unfold splitStep
  split_ifs with hc
  · have h0 : (vars.map fun x => eval env (diff x e) * env x).sum = 0 := by
      apply List.sum_eq_zero
      intro z hz
      obtain ⟨w, hw, rfl⟩ := List.mem_map.1 hz
      simp [diff_eq_zero (isConstant_iff.1 hc w hw)]
    simp [h0]
  · split
    · rename_i y hy
      obtain ⟨h1, h2, h3, h4⟩ := getLinearTerm_some hy
      have h5 := eval_of_occursOnce env (ha h1 y h2 h3)
      have h6 : (vars.map fun x => eval env (diff x e) * env x).sum = eval env (diff y e) * env y := by
        have : (vars.map fun x => eval env (diff x e) * env x) =
            (vars.map fun x => if y = x then eval env (diff x e) * env x else 0) := by
          apply List.map_congr_left
          intro w hw
          by_cases hwy : y = w
          · simp [hwy]
          · have : e.has w = false := by
              by_contra hh
              exact hwy (h4 w hw (by simpa using hh)).symm
            simp [hwy, diff_eq_zero this]
        rw [this, sum_map_ite_eq vars hn y h2 (fun x => eval env (diff x e) * env x)]
      simp [h6, ← h5]
    · simp [eval_kthSum]

theorem splitTerms_coeff (env : Env) {vars : List Sym} (hn : vars.Nodup) (terms : List Ex) {x : Sym}
    (hx : x ∈ vars) :
    eval env ((splitTerms vars terms).coeff x) = (terms.map fun e => eval env (diff x e)).sum := by
  rw [← dictVal_coeff]
  unfold splitTerms
  have : ∀ acc : Split, dictVal env x (terms.foldl (splitStep vars) acc).vars =
      dictVal env x acc.vars + (terms.map fun e => eval env (diff x e)).sum := by
    induction terms with
    | nil => simp
    | cons t ts ih => intro acc; simp [ih, splitStep_dict env hn acc t hx, add_assoc]
  rw [this]; simp [dictVal]

theorem splitTerms_constant (env : Env) {vars : List Sym} (hn : vars.Nodup) (terms : List Ex)
    (ha : ∀ e ∈ terms, Addend vars e) :
    eval env (splitTerms vars terms).constant =
      (terms.map fun e => -eval env e + (vars.map fun x => eval env (diff x e) * env x).sum).sum := by
  unfold splitTerms
  have : ∀ acc : Split, eval env (terms.foldl (splitStep vars) acc).constant =
      eval env acc.constant +
        (terms.map fun e => -eval env e + (vars.map fun x => eval env (diff x e) * env x).sum).sum := by
    induction terms with
    | nil => simp
    | cons t ts ih =>
      intro acc
      simp only [List.foldl_cons, List.map_cons, List.sum_cons]
      rw [ih (fun e he => ha e (List.mem_cons_of_mem _ he)), splitStep_constant env hn acc t (ha t (by simp))]
      ring
  rw [this]; simp

theorem sum_comm_lists {α β : Type*} (l : List α) (m : List β) (f : α → β → ℝ) :
    (l.map fun a => (m.map fun b => f a b).sum).sum = (m.map fun b => (l.map fun a => f a b).sum).sum := by
  induction l with
  | nil => simp
  | cons a as ih =>
    simp only [List.map_cons, List.sum_cons, ih]
    rw [← List.sum_map_add]

/-- Newton identity for the split of any list of addends. -/
theorem splitTerms_newton (env : Env) {vars : List Sym} (hn : vars.Nodup) (terms : List Ex)
    (ha : ∀ e ∈ terms, Addend vars e) :
    (vars.map fun x => eval env ((splitTerms vars terms).coeff x) * env x).sum
      - eval env (splitTerms vars terms).constant = (terms.map (eval env)).sum := by
  rw [splitTerms_constant env hn terms ha]
  have h1 : (vars.map fun x => eval env ((splitTerms vars terms).coeff x) * env x) =
      vars.map fun x => (terms.map fun e => eval env (diff x e) * env x).sum := by
    apply List.map_congr_left
    intro x hx
    rw [splitTerms_coeff env hn terms hx, List.sum_map_mul_right]
  rw [h1, sum_comm_lists vars terms]
  have h2 : (terms.map fun e => -eval env e + (vars.map fun x => eval env (diff x e) * env x).sum).sum =
      -(terms.map (eval env)).sum + (terms.map fun e => (vars.map fun x => eval env (diff x e) * env x).sum).sum := by
    rw [List.sum_map_add]
    congr 1
    clear ha h1
    induction terms with
    | nil => simp
    | cons t ts ih => simp only [List.map_cons, List.sum_cons, ih]; ring
  rw [h2]; ring

/-! ### Expansion -/

/-- Value of a factor list. -/
noncomputable def evalFactors (env : Env) (fs : List (Ex × ℤ)) : ℝ := (fs.map fun bk => eval env bk.1 ^ bk.2).prod

/-- All factors are defined. -/
def DefFactors (env : Env) (fs : List (Ex × ℤ)) : Prop :=
  ∀ bk ∈ fs, Defined env bk.1 ∧ (0 ≤ bk.2 ∨ eval env bk.1 ≠ 0)

noncomputable def evalMono (env : Env) (m : Mono) : ℝ := (m.coeff : ℝ) * evalFactors env m.factors

theorem eval_toEx (env : Env) (m : Mono) : eval env m.toEx = evalMono env m := by
  obtain ⟨c, fs⟩ := m
  simp only [Mono.toEx, evalMono, evalFactors]
  induction fs with
  | nil => simp
  | cons bk fs ih =>
    simp only [List.foldr_cons, eval_mul, List.map_cons, List.prod_cons, ih]
    have : eval env (factorEx bk) = eval env bk.1 ^ bk.2 := by
      unfold factorEx; split_ifs with h <;> simp [h]
    rw [this]; ring

theorem defined_toEx {env : Env} {m : Mono} (h : DefFactors env m.factors) : Defined env m.toEx := by
  obtain ⟨c, fs⟩ := m
  simp only [Mono.toEx]
  simp only at h
  induction fs with
  | nil => trivial
  | cons bk fs ih =>
    simp only [List.foldr_cons]
    refine ⟨?_, ih fun b hb => h b (List.mem_cons_of_mem _ hb)⟩
    obtain ⟨h1, h2⟩ := h bk (by simp)
    unfold factorEx; split_ifs
    · exact h1
    · exact ⟨h1, h2⟩

theorem zpow_add_of {a : ℝ} {k l : ℤ} (h : (0 ≤ k ∨ a ≠ 0) ∧ (0 ≤ l ∨ a ≠ 0)) :
    a ^ (k + l) = a ^ k * a ^ l := by
  by_cases ha : a = 0
  · have hk : 0 ≤ k := by tauto
    have hl : 0 ≤ l := by tauto
    lift k to ℕ using hk
    lift l to ℕ using hl
    rw [← Nat.cast_add, zpow_natCast, zpow_natCast, zpow_natCast, pow_add]
  · exact zpow_add₀ ha k l

theorem insertFactor_spec {env : Env} {b : Ex} {k : ℤ} {fs : List (Ex × ℤ)}
    (hb : Defined env b ∧ (0 ≤ k ∨ eval env b ≠ 0)) (hf : DefFactors env fs) :
    evalFactors env (insertFactor b k fs) = evalFactors env fs * eval env b ^ k ∧
      DefFactors env (insertFactor b k fs) := by
  induction fs with
  | nil =>
    refine ⟨by simp [insertFactor, evalFactors], ?_⟩
    intro c hc; simp [insertFactor] at hc; subst hc; exact hb
  | cons bk fs ih =>
    obtain ⟨b', k'⟩ := bk
    have h0 := hf (b', k') (by simp)
    have ht : DefFactors env fs := fun c hc => hf c (List.mem_cons_of_mem _ hc)
    obtain ⟨ih1, ih2⟩ := ih ht
    unfold insertFactor
    split_ifs with h1 h2
    · subst h1
      refine ⟨?_, ht⟩
      have := zpow_add_of (a := eval env b') (k := k') (l := k) ⟨h0.2, hb.2⟩
      rw [h2, zpow_zero] at this
      simp only [evalFactors, List.map_cons, List.prod_cons]
      calc (fs.map fun bk => eval env bk.1 ^ bk.2).prod
          = (fs.map fun bk => eval env bk.1 ^ bk.2).prod * (eval env b' ^ k' * eval env b' ^ k) := by
            rw [← this, mul_one]
        _ = _ := by ring
    · subst h1
      constructor
      · simp only [evalFactors, List.map_cons, List.prod_cons]
        rw [zpow_add_of ⟨h0.2, hb.2⟩]; ring
      · intro c hc
        rcases List.mem_cons.1 hc with rfl | hc
        · refine ⟨h0.1, ?_⟩
          simp only at *
          rcases h0.2 with h | h
          · rcases hb.2 with h' | h'
            · left; omega
            · exact Or.inr h'
          · exact Or.inr h
        · exact ht c hc
    · constructor
      · simp only [evalFactors, List.map_cons, List.prod_cons] at ih1 ⊢
        rw [ih1]; ring
      · intro c hc
        rcases List.mem_cons.1 hc with rfl | hc
        · exact h0
        · exact ih2 c hc

theorem monoMul_spec {env : Env} {m n : Mono} (hm : DefFactors env m.factors) (hn : DefFactors env n.factors) :
    evalMono env (m.mul n) = evalMono env m * evalMono env n ∧ DefFactors env (m.mul n).factors := by
  obtain ⟨c, fs⟩ := m
  obtain ⟨d, gs⟩ := n
  simp only [Mono.mul, evalMono] at *
  have : ∀ fs, DefFactors env fs →
      evalFactors env (gs.foldl (fun fs bk => insertFactor bk.1 bk.2 fs) fs) = evalFactors env fs * evalFactors env gs ∧
      DefFactors env (gs.foldl (fun fs bk => insertFactor bk.1 bk.2 fs) fs) := by
    induction gs with
    | nil => intro fs h; simpa [evalFactors] using h
    | cons g gs ih =>
      intro fs h
      have hi := insertFactor_spec (hn g (by simp)) h
      have := ih (fun b hb => hn b (List.mem_cons_of_mem _ hb)) _ hi.2
      refine ⟨?_, this.2⟩
      simp only [List.foldl_cons]
      rw [this.1, hi.1]
      simp only [evalFactors, List.map_cons, List.prod_cons]; ring
  refine ⟨?_, (this fs hm).2⟩
  rw [(this fs hm).1]; push_cast; ring

noncomputable def evalMonos (env : Env) (ms : List Mono) : ℝ := (ms.map (evalMono env)).sum

def DefMonos (env : Env) (ms : List Mono) : Prop := ∀ m ∈ ms, DefFactors env m.factors

theorem mulMonos_spec {env : Env} {ms ns : List Mono} (hm : DefMonos env ms) (hn : DefMonos env ns) :
    evalMonos env (mulMonos ms ns) = evalMonos env ms * evalMonos env ns ∧ DefMonos env (mulMonos ms ns) := by
  constructor
  · induction ms with
    | nil => simp [mulMonos, evalMonos]
    | cons m ms ih =>
      have ih' := ih fun b hb => hm b (List.mem_cons_of_mem _ hb)
      have hm0 := hm m (by simp)
      simp only [mulMonos, evalMonos, List.flatMap_cons, List.map_append, List.sum_append, List.map_cons, List.sum_cons] at ih' ⊢
      rw [ih', List.map_map]
      have : (ns.map (evalMono env ∘ fun n => m.mul n)) = ns.map fun n => evalMono env m * evalMono env n :=
        List.map_congr_left fun n hn' => (monoMul_spec hm0 (hn n hn')).1
      rw [this, List.sum_map_mul_left]; ring
  · intro p hp
    simp only [mulMonos, List.mem_flatMap, List.mem_map] at hp
    obtain ⟨m, hm', n, hn', rfl⟩ := hp
    exact (monoMul_spec (hm m hm') (hn n hn')).2

theorem powMonos_spec {env : Env} {ms : List Mono} (hm : DefMonos env ms) (n : ℕ) :
    evalMonos env (powMonos ms n) = evalMonos env ms ^ n ∧ DefMonos env (powMonos ms n) := by
  induction n with
  | zero =>
    refine ⟨by simp [powMonos, evalMonos, evalMono, evalFactors], ?_⟩
    intro m hm'; simp [powMonos] at hm'; subst hm'; intro b hb; simp at hb
  | succ n ih =>
    have := mulMonos_spec hm ih.2
    exact ⟨by simp only [powMonos]; rw [this.1, ih.1, pow_succ]; ring, this.2⟩

/-- Expansion keeps the value and stays defined. -/
theorem expand_spec {env : Env} {e : Ex} (h : Defined env e) :
    evalMonos env (expand e) = eval env e ∧ DefMonos env (expand e) := by
  induction e with
  | num q =>
    refine ⟨by simp [expand, evalMonos, evalMono, evalFactors], ?_⟩
    intro m hm; simp [expand] at hm; subst hm; intro b hb; simp at hb
  | sym s =>
    refine ⟨by simp [expand, evalMonos, evalMono, evalFactors], ?_⟩
    intro m hm; simp [expand] at hm; subst hm; intro b hb; simp at hb; subst hb
    exact ⟨trivial, Or.inl (by norm_num)⟩
  | add a b iha ihb =>
    obtain ⟨a1, a2⟩ := iha h.1
    obtain ⟨b1, b2⟩ := ihb h.2
    constructor
    · simp only [expand, evalMonos, List.map_append, List.sum_append, eval_add] at *; rw [a1, b1]
    · intro m hm
      rcases List.mem_append.1 hm with hm | hm
      · exact a2 m hm
      · exact b2 m hm
  | mul a b iha ihb =>
    obtain ⟨a1, a2⟩ := iha h.1
    obtain ⟨b1, b2⟩ := ihb h.2
    have := mulMonos_spec a2 b2
    exact ⟨by simp only [expand, eval_mul]; rw [this.1, a1, b1], this.2⟩
  | pow a n iha =>
    obtain ⟨a1, a2⟩ := iha h.1
    cases n with
    | ofNat n =>
      have := powMonos_spec a2 n
      exact ⟨by simp only [expand, eval_pow]; rw [this.1, a1]; simp, this.2⟩
    | negSucc n =>
      have hne : eval env a ≠ 0 := by
        rcases h.2 with h | h
        · exact absurd h (by simp)
        · exact h
      have hop : evalMonos env [{ coeff := 1, factors := [(a, Int.negSucc n)] }] = eval env (pow a (Int.negSucc n)) ∧
          DefMonos env [{ coeff := 1, factors := [(a, Int.negSucc n)] }] := by
        refine ⟨by simp [evalMonos, evalMono, evalFactors], ?_⟩
        intro m hm; simp at hm; subst hm; intro b hb; simp at hb; subst hb
        exact ⟨h.1, Or.inr hne⟩
      simp only [expand]
      unfold negPow
      split
      · rename_i m hm
        split_ifs with hcond
        · rw [hm] at a1 a2
          have am : evalMono env m = eval env a := by simpa [evalMonos] using a1
          have dm := a2 m (by simp)
          have hz : ∀ bk ∈ m.factors, bk.2 ≠ 0 → eval env bk.1 ≠ 0 := by
            intro bk hbk hk h0
            apply hne
            rw [← am, evalMono, evalFactors]
            have : (m.factors.map fun bk => eval env bk.1 ^ bk.2).prod = 0 := by
              apply List.prod_eq_zero
              exact List.mem_map.2 ⟨bk, hbk, by rw [h0, zero_zpow _ hk]⟩
            rw [this, mul_zero]
          refine ⟨?_, ?_⟩
          · simp only [evalMonos, List.map_cons, List.map_nil, List.sum_cons, List.sum_nil, add_zero, eval_pow]
            rw [← am]
            simp only [evalMono, evalFactors, List.map_map, Function.comp_def]
            rw [mul_zpow]
            push_cast
            congr 1
            generalize m.factors = fs
            induction fs with
            | nil => simp
            | cons f fs ih => rw [List.map_cons, List.prod_cons, ih, List.map_cons, List.prod_cons, mul_zpow, zpow_mul]
          · intro m' hm'
            simp at hm'; subst hm'
            intro b hb
            simp only [List.mem_map] at hb
            obtain ⟨c, hc, rfl⟩ := hb
            refine ⟨(dm c hc).1, ?_⟩
            by_cases hk : c.2 = 0
            · left; simp [hk]
            · exact Or.inr (hz c hc hk)
        · exact hop
      · exact hop
  | sin a iha =>
    refine ⟨by simp [expand, evalMonos, evalMono, evalFactors], ?_⟩
    intro m hm; simp [expand] at hm; subst hm; intro b hb; simp at hb; subst hb
    exact ⟨h, Or.inl (by norm_num)⟩
  | cos a iha =>
    refine ⟨by simp [expand, evalMonos, evalMono, evalFactors], ?_⟩
    intro m hm; simp [expand] at hm; subst hm; intro b hb; simp at hb; subst hb
    exact ⟨h, Or.inl (by norm_num)⟩

theorem addends_sum {env : Env} {e : Ex} (h : Defined env e) :
    ((addends e).map (eval env)).sum = eval env e := by
  rw [← (expand_spec h).1]
  simp only [addends, evalMonos, List.map_map]
  generalize expand e = ms
  induction ms with
  | nil => simp
  | cons m ms ih =>
    by_cases hc : m.coeff = 0
    · have : evalMono env m = 0 := by simp [evalMono, hc]
      simp [hc, this] at ih ⊢; exact ih
    · simp [hc, eval_toEx] at ih ⊢; exact ih

theorem addends_defined {env : Env} {e : Ex} (h : Defined env e) : ∀ t ∈ addends e, Defined env t := by
  intro t ht
  simp only [addends, List.mem_map, List.mem_filter] at ht
  obtain ⟨m, ⟨hm, _⟩, rfl⟩ := ht
  exact defined_toEx ((expand_spec h).2 m hm)

/-! ### Addends of an expanded expression have their variables as plain factors -/

/-- No variable occurs inside a `sin`/`cos`. -/
def TrigFree (vars : List Sym) : Ex → Prop
  | num _ => True
  | sym _ => True
  | add a b => TrigFree vars a ∧ TrigFree vars b
  | mul a b => TrigFree vars a ∧ TrigFree vars b
  | pow a _ => TrigFree vars a
  | sin a => ∀ x ∈ vars, a.has x = false
  | cos a => ∀ x ∈ vars, a.has x = false

/-- A factor that is either a symbol, a function of no variable, or a reciprocal. -/
def GoodFactor (vars : List Sym) (bk : Ex × ℤ) : Prop :=
  (isAtomic bk.1 = true → (∃ s, bk.1 = sym s) ∨ ∀ x ∈ vars, bk.1.has x = false) ∧
  (isAtomic bk.1 = false → bk.2 < 0)

def GoodFactors (vars : List Sym) (fs : List (Ex × ℤ)) : Prop :=
  (fs.map Prod.fst).Nodup ∧ ∀ bk ∈ fs, GoodFactor vars bk

theorem mem_insertFactor {b : Ex} {k : ℤ} {fs : List (Ex × ℤ)} {c : Ex}
    (h : c ∈ (insertFactor b k fs).map Prod.fst) : c = b ∨ c ∈ fs.map Prod.fst := by
  induction fs with
  | nil => left; simpa [insertFactor] using h
  | cons f fs ih =>
    obtain ⟨b', k'⟩ := f
    unfold insertFactor at h
    split_ifs at h
    · right; exact List.mem_cons_of_mem _ h
    · right; simpa using h
    · rcases List.mem_cons.1 h with h | h
      · right; simp at h; simp [h]
      · rcases ih h with h | h
        · exact Or.inl h
        · right; exact List.mem_cons_of_mem _ h

theorem goodFactors_insert {vars : List Sym} {b : Ex} {k : ℤ} {fs : List (Ex × ℤ)}
    (hb : GoodFactor vars (b, k)) (hf : GoodFactors vars fs) : GoodFactors vars (insertFactor b k fs) := by
  induction fs with
  | nil =>
    refine ⟨by simp [insertFactor], ?_⟩
    intro c hc; simp [insertFactor] at hc; subst hc; exact hb
  | cons f fs ih =>
    obtain ⟨b', k'⟩ := f
    obtain ⟨hn, hg⟩ := hf
    simp only [List.map_cons, List.nodup_cons] at hn
    have hg' : ∀ bk ∈ fs, GoodFactor vars bk := fun c hc => hg c (List.mem_cons_of_mem _ hc)
    unfold insertFactor
    split_ifs with h1 h2
    · exact ⟨hn.2, hg'⟩
    · subst h1
      refine ⟨by simpa using hn, ?_⟩
      intro c hc
      rcases List.mem_cons.1 hc with rfl | hc
      · have h0 := hg (b', k') (by simp)
        refine ⟨h0.1, fun hna => ?_⟩
        have := h0.2 hna
        have := hb.2 hna
        simp only at *; omega
      · exact hg' c hc
    · have ih' := ih ⟨hn.2, hg'⟩
      refine ⟨?_, ?_⟩
      · simp only [List.map_cons, List.nodup_cons]
        refine ⟨?_, ih'.1⟩
        intro hm
        rcases mem_insertFactor hm with h | h
        · exact h1 h
        · exact hn.1 h
      · intro c hc
        rcases List.mem_cons.1 hc with rfl | hc
        · exact hg _ (by simp)
        · exact ih'.2 c hc

theorem goodFactors_mul {vars : List Sym} {m n : Mono} (hm : GoodFactors vars m.factors)
    (hn : GoodFactors vars n.factors) : GoodFactors vars (m.mul n).factors := by
  obtain ⟨c, fs⟩ := m
  obtain ⟨d, gs⟩ := n
  simp only [Mono.mul] at *
  replace hn := hn.2
  induction gs generalizing fs with
  | nil => exact hm
  | cons g gs ih =>
    exact ih _ (goodFactors_insert (hn g (by simp)) hm) fun c hc => hn c (List.mem_cons_of_mem _ hc)

def GoodMonos (vars : List Sym) (ms : List Mono) : Prop := ∀ m ∈ ms, GoodFactors vars m.factors

theorem goodMonos_mul {vars : List Sym} {ms ns : List Mono} (hm : GoodMonos vars ms) (hn : GoodMonos vars ns) :
    GoodMonos vars (mulMonos ms ns) := by
  intro p hp
  simp only [mulMonos, List.mem_flatMap, List.mem_map] at hp
  obtain ⟨m, hm', n, hn', rfl⟩ := hp
  exact goodFactors_mul (hm m hm') (hn n hn')

theorem goodMonos_pow {vars : List Sym} {ms : List Mono} (hm : GoodMonos vars ms) (n : ℕ) :
    GoodMonos vars (powMonos ms n) := by
  induction n with
  | zero => intro m hm'; simp [powMonos] at hm'; subst hm'; exact ⟨by simp, by simp⟩
  | succ n ih => exact goodMonos_mul hm ih

theorem goodMonos_single {vars : List Sym} {c : ℚ} {b : Ex} {k : ℤ} (h : GoodFactor vars (b, k)) :
    GoodMonos vars [{ coeff := c, factors := [(b, k)] }] := by
  intro m hm; simp at hm; subst hm
  exact ⟨by simp, by simpa using h⟩

theorem atomic_of_trigFree {vars : List Sym} {a : Ex} (h : TrigFree vars a) :
    isAtomic a = true → (∃ s, a = sym s) ∨ ∀ x ∈ vars, a.has x = false := by
  cases a with
  | sym s => exact fun _ => Or.inl ⟨s, rfl⟩
  | sin a => exact fun _ => Or.inr h
  | cos a => exact fun _ => Or.inr h
  | _ => intro h; simp [isAtomic] at h

theorem goodMonos_expand {vars : List Sym} {e : Ex} (h : TrigFree vars e) : GoodMonos vars (expand e) := by
  induction e with
  | num q => intro m hm; simp [expand] at hm; subst hm; exact ⟨by simp, by simp⟩
  | sym s => exact goodMonos_single ⟨fun _ => Or.inl ⟨s, rfl⟩, fun h => by simp [isAtomic] at h⟩
  | add a b iha ihb =>
    intro m hm
    rcases List.mem_append.1 hm with hm | hm
    · exact iha h.1 m hm
    · exact ihb h.2 m hm
  | mul a b iha ihb => exact goodMonos_mul (iha h.1) (ihb h.2)
  | pow a n iha =>
    cases n with
    | ofNat n => exact goodMonos_pow (iha h) n
    | negSucc n =>
      simp only [expand]
      have hop : GoodMonos vars [{ coeff := 1, factors := [(a, Int.negSucc n)] }] :=
        goodMonos_single ⟨atomic_of_trigFree h, fun _ => Int.negSucc_lt_zero n⟩
      unfold negPow
      split
      · rename_i m hm
        split_ifs with hc
        · have hg := iha h m (by rw [hm]; simp)
          intro m' hm'
          simp at hm'; subst hm'
          refine ⟨by simpa [Function.comp_def] using hg.1, ?_⟩
          intro bk hbk
          simp only [List.mem_map] at hbk
          obtain ⟨c, hc', rfl⟩ := hbk
          have hat : isAtomic c.1 = true := by
            have := List.all_eq_true.1 hc.2 c hc'; simpa using this
          refine ⟨(hg.2 c hc').1, fun hna => ?_⟩
          simp only at hna
          rw [hat] at hna; simp at hna
        · exact hop
      · exact hop
  | sin a iha => exact goodMonos_single ⟨fun _ => Or.inr h, fun h => by simp [isAtomic] at h⟩
  | cos a iha => exact goodMonos_single ⟨fun _ => Or.inr h, fun h => by simp [isAtomic] at h⟩

theorem toEx_hasPow_false {fs : List (Ex × ℤ)} {c : ℚ} (h : (Mono.toEx ⟨c, fs⟩).hasPow = false) :
    ∀ bk ∈ fs, bk.2 = 1 := by
  induction fs with
  | nil => simp
  | cons f fs ih =>
    simp only [Mono.toEx, List.foldr_cons, hasPow, Bool.or_eq_false_iff] at h ih
    intro bk hbk
    rcases List.mem_cons.1 hbk with rfl | hbk
    · by_contra hne
      simp [factorEx, hne, hasPow] at h
    · exact ih h.2 bk hbk

theorem toEx_has_false {fs : List (Ex × ℤ)} {c : ℚ} {x : Sym} (hk : ∀ bk ∈ fs, bk.2 = 1)
    (h : ∀ bk ∈ fs, bk.1.has x = false) : (Mono.toEx ⟨c, fs⟩).has x = false := by
  induction fs with
  | nil => rfl
  | cons f fs ih =>
    have := ih (fun b hb => hk b (List.mem_cons_of_mem _ hb)) (fun b hb => h b (List.mem_cons_of_mem _ hb))
    simp only [Mono.toEx, List.foldr_cons, has, Bool.or_eq_false_iff] at this ⊢
    refine ⟨?_, this⟩
    simp [factorEx, hk f (by simp), h f (by simp)]

theorem toEx_occursOnce {vars : List Sym} {fs : List (Ex × ℤ)} {c : ℚ} {x : Sym} (hx : x ∈ vars)
    (hg : GoodFactors vars fs) (hk : ∀ bk ∈ fs, bk.2 = 1) (h : (Mono.toEx ⟨c, fs⟩).has x = true) :
    OccursOnce x (Mono.toEx ⟨c, fs⟩) := by
  induction fs with
  | nil => simp [Mono.toEx, has] at h
  | cons f fs ih =>
    obtain ⟨b, k⟩ := f
    have hk1 : k = 1 := hk (b, k) (by simp)
    subst hk1
    obtain ⟨hn, hgf⟩ := hg
    simp only [List.map_cons, List.nodup_cons] at hn
    have hkt : ∀ bk ∈ fs, bk.2 = 1 := fun b hb => hk b (List.mem_cons_of_mem _ hb)
    have hgt : ∀ bk ∈ fs, GoodFactor vars bk := fun b hb => hgf b (List.mem_cons_of_mem _ hb)
    have hcases : ∀ bk : Ex × ℤ, bk.2 = 1 → GoodFactor vars bk → bk.1.has x = true → bk.1 = sym x := by
      intro bk hb1 hb2 hb3
      cases hat : isAtomic bk.1 with
      | false => have := hb2.2 hat; omega
      | true =>
        rcases hb2.1 hat with ⟨s, hs⟩ | hno
        · rw [hs] at hb3 ⊢; simp [has] at hb3; rw [hb3]
        · rw [hno x hx] at hb3; simp at hb3
    have hb0 := hcases (b, 1) rfl (hgf _ (by simp))
    simp only [Mono.toEx, List.foldr_cons, has, Bool.or_eq_true] at h ⊢ ih
    by_cases hbx : b.has x = true
    · left
      have hbe : b = sym x := hb0 hbx
      refine ⟨by simp [factorEx, hbe, OccursOnce], ?_⟩
      apply toEx_has_false hkt
      intro bk hbk
      by_contra hh
      have := hcases bk (hkt bk hbk) (hgt bk hbk) (by simpa using hh)
      apply hn.1
      rw [hbe, ← this]
      exact List.mem_map.2 ⟨bk, hbk, rfl⟩
    · right
      have hbx' : b.has x = false := by simpa using hbx
      refine ⟨by simpa [factorEx] using hbx', ?_⟩
      apply ih ⟨hn.2, hgt⟩ hkt
      rcases h with h | h
      · simp [factorEx] at h; exact absurd h hbx
      · exact h

theorem addends_addend {vars : List Sym} {e : Ex} (h : TrigFree vars e) : ∀ t ∈ addends e, Addend vars t := by
  intro t ht hl x hx hhas
  simp only [addends, List.mem_map, List.mem_filter] at ht
  obtain ⟨m, ⟨hm, _⟩, rfl⟩ := ht
  have hp : m.toEx.hasPow = false := by simp [isLinear] at hl; exact hl.2
  exact toEx_occursOnce hx (goodMonos_expand h m hm) (toEx_hasPow_false hp) hhas

end Verif.Ex

namespace Verif.Ex

/-! ### Stamped entries -/

/-- Sum of the values of all entries with the given column. -/
noncomputable def entrySum (env : Env) (es : List Entry) (c : Option Sym) : ℝ :=
  ((es.filter fun e => e.col = c).map fun e => eval env e.expr).sum

theorem mem_addEntry_keys {k : Sym} {v : Ex} {d : List (Sym × Ex)} {y : Sym}
    (h : y ∈ (addEntry k v d).map Prod.fst) : y = k ∨ y ∈ d.map Prod.fst := by
  induction d with
  | nil => left; simpa [addEntry] using h
  | cons kv rest ih =>
    obtain ⟨k', v'⟩ := kv
    unfold addEntry at h
    split_ifs at h
    · right; simpa using h
    · rcases List.mem_cons.1 h with h | h
      · right; simp at h; simp [h]
      · rcases ih h with h | h
        · exact Or.inl h
        · right; exact List.mem_cons_of_mem _ h

theorem addEntry_nodup {k : Sym} {v : Ex} {d : List (Sym × Ex)} (h : (d.map Prod.fst).Nodup) :
    ((addEntry k v d).map Prod.fst).Nodup := by
  induction d with
  | nil => simp [addEntry]
  | cons kv rest ih =>
    obtain ⟨k', v'⟩ := kv
    simp only [List.map_cons, List.nodup_cons] at h
    unfold addEntry
    split_ifs with h1
    · simpa using h
    · simp only [List.map_cons, List.nodup_cons]
      refine ⟨fun hm => ?_, ih h.2⟩
      rcases mem_addEntry_keys hm with h' | h'
      · exact h1 h'
      · exact h.1 h'

theorem foldl_addEntry_nodup (kvs : List (Sym × Ex)) {d : List (Sym × Ex)} (h : (d.map Prod.fst).Nodup) :
    ((kvs.foldl (fun d kv => addEntry kv.1 kv.2 d) d).map Prod.fst).Nodup := by
  induction kvs generalizing d with
  | nil => exact h
  | cons kv kvs ih => exact ih (addEntry_nodup h)

theorem foldl_addEntry_keys (kvs : List (Sym × Ex)) {d : List (Sym × Ex)} {y : Sym}
    (h : y ∈ (kvs.foldl (fun d kv => addEntry kv.1 kv.2 d) d).map Prod.fst) :
    y ∈ kvs.map Prod.fst ∨ y ∈ d.map Prod.fst := by
  induction kvs generalizing d with
  | nil => exact Or.inr h
  | cons kv kvs ih =>
    rcases ih h with h | h
    · left; exact List.mem_cons_of_mem _ h
    · rcases mem_addEntry_keys h with h | h
      · left; simp [h]
      · exact Or.inr h

theorem splitTerms_keys (vars : List Sym) (terms : List Ex) :
    ((splitTerms vars terms).vars.map Prod.fst).Nodup ∧
      ∀ y ∈ (splitTerms vars terms).vars.map Prod.fst, y ∈ vars := by
  unfold splitTerms
  have : ∀ acc : Split, (acc.vars.map Prod.fst).Nodup → (∀ y ∈ acc.vars.map Prod.fst, y ∈ vars) →
      ((terms.foldl (splitStep vars) acc).vars.map Prod.fst).Nodup ∧
      ∀ y ∈ (terms.foldl (splitStep vars) acc).vars.map Prod.fst, y ∈ vars := by
    induction terms with
    | nil => exact fun acc h1 h2 => ⟨h1, h2⟩
    | cons t ts ih =>
      intro acc h1 h2
      simp only [List.foldl_cons]
      apply ih
      · unfold splitStep; split_ifs
        · exact h1
        · split
          · exact addEntry_nodup h1
          · exact foldl_addEntry_nodup _ h1
      · intro y hy
        unfold splitStep at hy; split_ifs at hy
        · exact h2 y hy
        · split at hy
          · rename_i z hz
            rcases mem_addEntry_keys hy with h | h
            · rw [h]; exact (getLinearTerm_some hz).2.1
            · exact h2 y h
          · rcases foldl_addEntry_keys _ hy with h | h
            · simpa [yComponents] using h
            · exact h2 y h
  exact this _ (by simp) (by simp)

theorem entrySum_none (env : Env) (vars : List Sym) (s : Split) :
    entrySum env (evals vars s) none = eval env s.constant := by
  unfold entrySum evals
  have h2 : ((s.vars.filter (fun kv => kv.2 ≠ num 0)).map
      fun kv => (⟨some kv.1, kv.2, entryLinear vars kv.2⟩ : Entry)).filter (fun e => e.col = none) = [] := by
    apply List.filter_eq_nil_iff.2
    intro e he
    obtain ⟨kv, _, rfl⟩ := List.mem_map.1 he
    simp
  rw [List.filter_append, h2]
  split_ifs with h <;> simp [h]

theorem entrySum_some (env : Env) (vars : List Sym) (s : Split) (hn : (s.vars.map Prod.fst).Nodup) (x : Sym) :
    entrySum env (evals vars s) (some x) = eval env (s.coeff x) := by
  unfold entrySum evals
  have h1 : (if s.constant = num 0 then [] else
      [(⟨none, s.constant, entryLinear vars s.constant⟩ : Entry)]).filter (fun e => e.col = some x) = [] := by
    split_ifs <;> simp
  rw [List.filter_append, h1, List.nil_append, ← dictVal_coeff]
  clear h1
  generalize s.vars = d at *
  induction d with
  | nil => simp [dictVal]
  | cons kv d ih =>
    obtain ⟨k, v⟩ := kv
    simp only [List.map_cons, List.nodup_cons] at hn
    have ih' := ih hn.2
    by_cases hk : k = x
    · subst hk
      have hz : dictVal env k d = 0 := by
        unfold dictVal
        have : d.find? (fun kv => kv.1 = k) = none := by
          apply List.find?_eq_none.2
          intro kv hkv
          have : kv.1 ≠ k := fun he => hn.1 (he ▸ List.mem_map.2 ⟨kv, hkv, rfl⟩)
          simpa using this
        rw [this]
      rw [hz] at ih'
      by_cases hv : v = num 0
      · simp [hv, dictVal] at ih' ⊢; exact ih'
      · simp [hv, dictVal] at ih' ⊢; exact ih'
    · by_cases hv : v = num 0
      · simp [hv, hk, dictVal] at ih' ⊢; exact ih'
      · simp [hv, hk, dictVal] at ih' ⊢; exact ih'

theorem mem_evals_col {vars : List Sym} {s : Split} {e : Entry} {x : Sym} (he : e ∈ evals vars s)
    (hc : e.col = some x) : (x, e.expr) ∈ s.vars ∧ e.expr ≠ num 0 := by
  unfold evals at he
  rcases List.mem_append.1 he with he | he
  · split_ifs at he
    · simp at he
    · simp at he; subst he; simp at hc
  · obtain ⟨kv, hkv, rfl⟩ := List.mem_map.1 he
    simp at hc hkv; subst hc
    exact ⟨hkv.1, hkv.2⟩

end Verif.Ex
