import Verif.Lemmas.Segment

/-!
# C65: symbols of a two-terminal model

An expression is closed over a list of symbols when its value is settled by the values of these symbols. This is what
evaluation needs: the generated functions receive the declared constants, the variables and the multipliers and nothing else
(`lagrangesegment.py` 146, 100-106).
-/

namespace Verif

open Ex

/-- The value of `e` is settled by the values of the symbols in `l`. -/
def Closed (l : List Sym) (e : Ex) : Prop := ∀ env env' : Env, (∀ s ∈ l, env s = env' s) → eval env e = eval env' e

/-- An expression mentions a symbol somewhere. Stated apart from the code's `free_symbols`. -/
inductive Mentions (s : Sym) : Ex → Prop
  | here : Mentions s (.sym s)
  | addL {a b} : Mentions s a → Mentions s (.add a b)
  | addR {a b} : Mentions s b → Mentions s (.add a b)
  | mulL {a b} : Mentions s a → Mentions s (.mul a b)
  | mulR {a b} : Mentions s b → Mentions s (.mul a b)
  | pow {a n} : Mentions s a → Mentions s (.pow a n)
  | sin {a} : Mentions s a → Mentions s (.sin a)
  | cos {a} : Mentions s a → Mentions s (.cos a)

theorem mentions_iff {s : Sym} {e : Ex} : Mentions s e ↔ e.has s = true := by
  constructor
  · intro h
    induction h <;> simp_all [has]
  · induction e with
    | num q => simp [has]
    | sym t => intro h; simp only [has, decide_eq_true_eq] at h; subst h; exact .here
    | add a b iha ihb =>
      intro h; simp only [has, Bool.or_eq_true] at h
      exact h.elim (fun h => .addL (iha h)) fun h => .addR (ihb h)
    | mul a b iha ihb =>
      intro h; simp only [has, Bool.or_eq_true] at h
      exact h.elim (fun h => .mulL (iha h)) fun h => .mulR (ihb h)
    | pow a n ih => exact fun h => .pow (ih h)
    | sin a ih => exact fun h => .sin (ih h)
    | cos a ih => exact fun h => .cos (ih h)

theorem closed_of_mentions {l : List Sym} {e : Ex} (h : ∀ s, Mentions s e → s ∈ l) : Closed l e := by
  intro env env' he
  induction e with
  | num q => rfl
  | sym s => exact he s (h s .here)
  | add a b iha ihb => simp only [eval]; rw [iha fun s hs => h s (.addL hs), ihb fun s hs => h s (.addR hs)]
  | mul a b iha ihb => simp only [eval]; rw [iha fun s hs => h s (.mulL hs), ihb fun s hs => h s (.mulR hs)]
  | pow a n ih => simp only [eval]; rw [ih fun s hs => h s (.pow hs)]
  | sin a ih => simp only [eval]; rw [ih fun s hs => h s (.sin hs)]
  | cos a ih => simp only [eval]; rw [ih fun s hs => h s (.cos hs)]

theorem has_addEqualities (s : Sym) (es : List Ex) : ∀ (n : ℕ) (acc : Ex),
    (addEqualities n acc es).has s = true →
      acc.has s = true ∨ s ∈ equalityDuals n es ∨ ∃ e ∈ es, e.has s = true := by
  induction es with
  | nil => intro n acc h; exact .inl h
  | cons e es ih =>
    intro n acc h
    rcases ih (n + 1) _ h with h | h | ⟨e', he, h⟩
    · rw [has_hadd, has_hmul, Bool.or_eq_true, Bool.or_eq_true] at h
      rcases h with h | h | h
      · exact .inl h
      · simp only [has, decide_eq_true_eq] at h
        subst h
        exact .inr (.inl (List.mem_map.2 ⟨0, by simp, rfl⟩))
      · exact .inr (.inr ⟨e, by simp, h⟩)
    · obtain ⟨k, hk, rfl⟩ := List.mem_map.1 h
      refine .inr (.inl (List.mem_map.2 ⟨k + 1, ?_, by ring_nf⟩))
      simp only [List.mem_range, List.length_cons] at hk ⊢
      omega
    · exact .inr (.inr ⟨e', List.mem_cons_of_mem _ he, h⟩)

/-- **C65, rejection.** A constructor call is refused when the objective, the real from-side equation, a to-side equation that
is used or an equality mentions a symbol that is neither a variable nor a constant. The imaginary from-side equation is
covered whenever it also serves the to side, that is, unless both to-side equations are given.

Missing for the full claim: the imaginary from-side equation of a call with both to-side equations
(`C65_imaginary_fails`). -/
theorem C65_rejects_partial (n : ℕ) (a : TwoTerminalArgs) {e : Ex} {s : Sym} (hs : Mentions s e) (hv : s ∉ a.vars)
    (hc : s ∉ a.constants)
    (he : a.objective = some e ∨ a.kclRFrom = some e ∨ e ∈ a.equalities ∨
      (a.kclIFrom = some e ∧ (a.kclRTo = none ∨ a.kclITo = none)) ∨
      (a.kclRTo.isSome ∧ a.kclITo.isSome ∧ (a.kclRTo = some e ∨ a.kclITo = some e))) :
    ∃ m, twoTerminal n a = .error m := by
  cases h : twoTerminal n a with
  | error m => exact ⟨m, rfl⟩
  | ok seg =>
    obtain ⟨kr, ki, hr, hi, hm, -, -⟩ := twoTerminal_ok h
    have : s ∈ a.constants ++ a.vars := by
      refine checkMissing_none.1 (hm e ?_) s (mentions_iff.1 hs)
      simp only [List.mem_append, List.mem_cons, List.not_mem_nil, or_false]
      rcases he with he | he | he | ⟨he, ht⟩ | ⟨h1, h2, he⟩
      · exact .inl (.inl (by rw [he]; simp))
      · rw [hr] at he; injection he with he; exact .inl (.inr (.inl he.symm))
      · exact .inr he
      · rw [hi] at he; injection he with he; subst he
        refine .inl (.inr (.inr (.inr (.inr ?_))))
        unfold TwoTerminalArgs.toSide
        rcases ht with ht | ht
        · simp [ht]
        · rw [ht]; cases a.kclRTo <;> rfl
      · obtain ⟨r, h1⟩ := Option.isSome_iff_exists.1 h1
        obtain ⟨i, h2⟩ := Option.isSome_iff_exists.1 h2
        unfold TwoTerminalArgs.toSide
        rw [h1, h2] at he ⊢
        rcases he with he | he <;> (injection he with he; subst he)
        · exact .inl (.inr (.inr (.inr (.inl rfl))))
        · exact .inl (.inr (.inr (.inr (.inr rfl))))
    rcases List.mem_append.1 this with h | h
    · exact absurd h hc
    · exact absurd h hv

/-- **C65, acceptance.** The Lagrangian of an accepted model is settled by its constants, variables and multipliers, if the
to-side equations were left out. -/
theorem C65_accepted_closed_partial {n : ℕ} {a : TwoTerminalArgs} {seg : Segment} (h : twoTerminal n a = .ok seg)
    (ht : a.kclRTo = none ∨ a.kclITo = none) : Closed seg.parameters seg.lagrange := by
  obtain ⟨kr, ki, hr, hi, hm, -, rfl⟩ := twoTerminal_ok h
  have hto : a.toSide kr ki = (kr, ki) := by
    unfold TwoTerminalArgs.toSide
    rcases ht with ht | ht
    · simp [ht]
    · rw [ht]; cases a.kclRTo <;> rfl
  rw [hto] at hm ⊢
  have own : ∀ e ∈ a.objective.toList ++ [kr, kr, kr, ki] ++ a.equalities, ∀ s, e.has s = true →
      s ∈ a.constants ++ (a.vars ++ ([.LrFrom, .LiFrom, .LrTo, .LiTo] ++ equalityDuals n a.equalities)) := by
    intro e he s hs
    have := checkMissing_none.1 (hm e he) s hs
    simp only [List.mem_append] at this ⊢
    tauto
  refine closed_of_mentions fun s hs => ?_
  show s ∈ a.constants ++ (a.vars ++ ([.LrFrom, .LiFrom, .LrTo, .LiTo] ++ equalityDuals n a.equalities))
  have := mentions_iff.1 hs
  unfold twoTerminalLagrange at this
  rcases has_addEqualities s _ n _ this with h | h | ⟨e, he, h⟩
  · simp only [has_hadd, has_hmul, has_neg, Bool.or_eq_true] at h
    rcases h with (((h | h | h) | h | h) | h | h) | h | h
    · cases ho : a.objective with
      | none => rw [ho] at h; simp [has] at h
      | some o =>
        rw [ho] at h
        simp only [has_hadd, Bool.or_eq_true] at h
        rcases h with h | h
        · simp [has] at h
        · exact own o (by simp [ho]) s h
    · simp only [has, decide_eq_true_eq] at h; subst h; simp
    · exact own kr (by simp) s h
    · simp only [has, decide_eq_true_eq] at h; subst h; simp
    · exact own ki (by simp) s h
    · simp only [has, decide_eq_true_eq] at h; subst h; simp
    · exact own kr (by simp) s h
    · simp only [has, decide_eq_true_eq] at h; subst h; simp
    · exact own ki (by simp) s h
  · simp only [List.mem_append]; tauto
  · exact own e (by simp [he]) s h

/-- **C65 fails for the imaginary from-side equation.** With both to-side equations given, a constructor call whose imaginary
from-side equation is an undeclared symbol is accepted, and the Lagrangian it yields is not settled by its parameters: the
second check of the from side looks at the real equation again. -/
theorem C65_imaginary_fails : ∃ a : TwoTerminalArgs, ∃ seg, twoTerminal 0 a = .ok seg ∧ a.kclIFrom = some (.sym .IQ) ∧
    Sym.IQ ∉ a.vars ∧ Sym.IQ ∉ a.constants ∧ ¬ Closed seg.parameters seg.lagrange := by
  refine ⟨{ vars := [.VrFrom, .ViFrom, .VrTo, .ViTo], constants := [.IP], kclRFrom := some (.sym .IP),
            kclIFrom := some (.sym .IQ), kclRTo := some (.sym .IP), kclITo := some (.sym .IP) }, _, rfl, rfl,
    by decide, by decide, fun h => ?_⟩
  have := h (fun s => if s = .LiFrom then 1 else 0) (fun s => if s = .LiFrom ∨ s = .IQ then 1 else 0) fun s hs => by
    have : s ≠ .IQ := by rintro rfl; revert hs; decide
    simp [this]
  simp only [twoTerminalLagrange, addEqualities, TwoTerminalArgs.toSide, eval_hadd, eval_hmul, eval_neg, eval] at this
  simp only [reduceCtorEq, if_false, if_true, or_false, false_or, or_true] at this
  norm_num at this

/-- The load model is accepted; leaving `Q` out of its constants is refused. -/
example : (∃ seg, twoTerminal 0 Devices.pqArgs = .ok seg ∧ Closed seg.parameters seg.lagrange) ∧
    ∃ m, twoTerminal 0 { Devices.pqArgs with constants := [.P] } = .error m :=
  ⟨⟨_, rfl, C65_accepted_closed_partial (n := 0) (a := Devices.pqArgs) rfl (.inl rfl)⟩,
    C65_rejects_partial 0 _ (e := Devices.pqKclR) (s := .Q) (mentions_iff.2 (by decide)) (by decide) (by decide)
      (.inr (.inl rfl))⟩

end Verif
