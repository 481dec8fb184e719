import Verif.Lemmas.Segment

/-! Differentiation keeps expressions defined and keeps variables out of `sin`/`cos`. -/

namespace Verif

open Ex

theorem defined_hadd {env : Env} {a b : Ex} : Defined env (a + b) ↔ Defined env a ∧ Defined env b := Iff.rfl
theorem defined_hmul {env : Env} {a b : Ex} : Defined env (a * b) ↔ Defined env a ∧ Defined env b := Iff.rfl
theorem defined_hsub {env : Env} {a b : Ex} : Defined env (a - b) ↔ Defined env a ∧ Defined env b :=
  ⟨fun h => ⟨h.1, h.2.2⟩, fun h => ⟨h.1, trivial, h.2⟩⟩

theorem defined_diff (x : Sym) {env : Env} {e : Ex} (h : Defined env e) : Defined env (diff x e) := by
  induction e with
  | num q => exact trivial
  | sym s => unfold diff; split_ifs <;> exact trivial
  | add a b iha ihb => exact defined_sadd (iha h.1) (ihb h.2)
  | mul a b iha ihb => exact defined_sadd (defined_smul (iha h.1) h.2) (defined_smul h.1 (ihb h.2))
  | pow a n iha =>
    unfold diff
    by_cases hn : n = 0
    · subst hn; simp [smul]; exact trivial
    · refine defined_smul (defined_smul trivial ⟨h.1, ?_⟩) (iha h.1)
      rcases h.2 with h2 | h2
      · left; omega
      · right; exact h2
  | sin a iha => exact defined_smul h (iha h)
  | cos a iha => exact defined_smul (defined_smul trivial h) (iha h)

theorem trigFree_sadd {vars : List Sym} {a b : Ex} (ha : TrigFree vars a) (hb : TrigFree vars b) :
    TrigFree vars (sadd a b) := by
  unfold sadd; split_ifs
  · exact hb
  · exact ha
  · exact ⟨ha, hb⟩

theorem trigFree_smul {vars : List Sym} {a b : Ex} (ha : TrigFree vars a) (hb : TrigFree vars b) :
    TrigFree vars (smul a b) := by
  unfold smul; split_ifs
  · trivial
  · trivial
  · exact hb
  · exact ha
  · exact ⟨ha, hb⟩

theorem trigFree_of_const {vars : List Sym} {e : Ex} (h : ∀ x ∈ vars, e.has x = false) : TrigFree vars e := by
  induction e with
  | num q => trivial
  | sym s => trivial
  | add a b iha ihb =>
    simp only [has, Bool.or_eq_false_iff] at h
    exact ⟨iha fun x hx => (h x hx).1, ihb fun x hx => (h x hx).2⟩
  | mul a b iha ihb =>
    simp only [has, Bool.or_eq_false_iff] at h
    exact ⟨iha fun x hx => (h x hx).1, ihb fun x hx => (h x hx).2⟩
  | pow a n iha => exact iha h
  | sin a iha => exact h
  | cos a iha => exact h

theorem trigFree_diff (x : Sym) {vars : List Sym} {e : Ex} (h : TrigFree vars e) : TrigFree vars (diff x e) := by
  induction e with
  | num q => exact trivial
  | sym s => unfold diff; split_ifs <;> exact trivial
  | add a b iha ihb => exact trigFree_sadd (iha h.1) (ihb h.2)
  | mul a b iha ihb => exact trigFree_sadd (trigFree_smul (iha h.1) h.2) (trigFree_smul h.1 (ihb h.2))
  | pow a n iha => exact trigFree_smul (trigFree_smul trivial h) (iha h)
  | sin a iha => exact trigFree_smul h (iha (trigFree_of_const h))
  | cos a iha => exact trigFree_smul (trigFree_smul trivial h) (iha (trigFree_of_const h))

/-- The expression contains a `sin` or `cos`. -/
def Ex.hasTrig : Ex → Bool
  | .num _ => false
  | .sym _ => false
  | .add a b => a.hasTrig || b.hasTrig
  | .mul a b => a.hasTrig || b.hasTrig
  | .pow a _ => a.hasTrig
  | .sin _ => true
  | .cos _ => true

theorem trigFree_of_hasTrig {vars : List Sym} {e : Ex} (h : e.hasTrig = false) : TrigFree vars e := by
  induction e with
  | num q => trivial
  | sym s => trivial
  | add a b iha ihb =>
    simp only [Ex.hasTrig, Bool.or_eq_false_iff] at h; exact ⟨iha h.1, ihb h.2⟩
  | mul a b iha ihb =>
    simp only [Ex.hasTrig, Bool.or_eq_false_iff] at h; exact ⟨iha h.1, ihb h.2⟩
  | pow a n iha => exact iha h
  | sin a iha => simp [Ex.hasTrig] at h
  | cos a iha => simp [Ex.hasTrig] at h

theorem trigFree_add {vars : List Sym} {a b : Ex} : TrigFree vars (a + b) ↔ TrigFree vars a ∧ TrigFree vars b := Iff.rfl
theorem trigFree_mul {vars : List Sym} {a b : Ex} : TrigFree vars (a * b) ↔ TrigFree vars a ∧ TrigFree vars b := Iff.rfl
theorem trigFree_sub {vars : List Sym} {a b : Ex} : TrigFree vars (a - b) ↔ TrigFree vars a ∧ TrigFree vars b :=
  ⟨fun h => ⟨h.1, h.2.2⟩, fun h => ⟨h.1, trivial, h.2⟩⟩
theorem trigFree_neg_iff {vars : List Sym} {a : Ex} : TrigFree vars (-a) ↔ TrigFree vars a :=
  ⟨fun h => h.2, fun h => ⟨trivial, h⟩⟩
theorem trigFree_sym {vars : List Sym} {s : Sym} : TrigFree vars (Ex.sym s) ↔ True := Iff.rfl
theorem trigFree_num {vars : List Sym} {q : ℚ} : TrigFree vars (Ex.num q) ↔ True := Iff.rfl
theorem trigFree_cos {vars : List Sym} {a : Ex} : TrigFree vars (Ex.cos a) ↔ ∀ x ∈ vars, a.has x = false := Iff.rfl
theorem trigFree_sin {vars : List Sym} {a : Ex} : TrigFree vars (Ex.sin a) ↔ ∀ x ∈ vars, a.has x = false := Iff.rfl

theorem trigFree_neg {vars : List Sym} {a : Ex} (h : TrigFree vars a) : TrigFree vars (-a) := ⟨trivial, h⟩

theorem trigFree_addEqualities {vars : List Sym} {n : ℕ} {acc : Ex} {es : List Ex} (ha : TrigFree vars acc)
    (h : ∀ e ∈ es, TrigFree vars e) : TrigFree vars (addEqualities n acc es) := by
  induction es generalizing n acc with
  | nil => exact ha
  | cons e es ih =>
    exact ih (acc := acc + Ex.sym (.lam n) * e) ⟨ha, trivial, h e (by simp)⟩ fun e he => h e (by simp [he])

theorem trigFree_twoTerminal {vars : List Sym} {n : ℕ} {a : TwoTerminalArgs} {s : Segment} {kr ki : Ex}
    (h : twoTerminal n a = .ok s) (hr : a.kclRFrom = some kr) (hi : a.kclIFrom = some ki) (hrt : a.kclRTo = none)
    (ho : a.objective = none) (h1 : TrigFree vars kr) (h2 : TrigFree vars ki)
    (h3 : ∀ e ∈ a.equalities, TrigFree vars e) : TrigFree vars s.lagrange := by
  obtain ⟨kr', ki', hr', hi', _, _, rfl⟩ := twoTerminal_ok h
  rw [hr] at hr'; rw [hi] at hi'; cases hr'; cases hi'
  have hts : a.toSide kr ki = (kr, ki) := by unfold TwoTerminalArgs.toSide; simp [hrt]
  simp only [hts, ho]
  unfold twoTerminalLagrange
  refine trigFree_addEqualities ?_ h3
  exact ⟨⟨⟨⟨trivial, trivial, h1⟩, trivial, h2⟩, trivial, trigFree_neg h1⟩, trivial, trigFree_neg h2⟩

theorem definedAt_addEqualities {env : Env} {n : ℕ} {acc : Ex} {es : List Ex} (ha : Defined env acc)
    (h : ∀ e ∈ es, Defined env e) : Defined env (addEqualities n acc es) := by
  induction es generalizing n acc with
  | nil => exact ha
  | cons e es ih =>
    exact ih (acc := acc + Ex.sym (.lam n) * e) ⟨ha, trivial, h e (by simp)⟩ fun e he => h e (by simp [he])

theorem defined_twoTerminal {env : Env} {n : ℕ} {a : TwoTerminalArgs} {s : Segment} {kr ki : Ex}
    (h : twoTerminal n a = .ok s) (hr : a.kclRFrom = some kr) (hi : a.kclIFrom = some ki) (hrt : a.kclRTo = none)
    (ho : a.objective = none) (h1 : Defined env kr) (h2 : Defined env ki)
    (h3 : ∀ e ∈ a.equalities, Defined env e) : Defined env s.lagrange := by
  obtain ⟨kr', ki', hr', hi', _, _, rfl⟩ := twoTerminal_ok h
  rw [hr] at hr'; rw [hi] at hi'; cases hr'; cases hi'
  have hts : a.toSide kr ki = (kr, ki) := by unfold TwoTerminalArgs.toSide; simp [hrt]
  simp only [hts, ho]
  unfold twoTerminalLagrange
  refine definedAt_addEqualities ?_ h3
  exact ⟨⟨⟨⟨trivial, trivial, h1⟩, trivial, h2⟩, trivial, trivial, h1⟩, trivial, trivial, h2⟩

end Verif
