import Verif.Model.GlmObjects
import Verif.Lemmas.Glm
import Mathlib.Data.Nat.Digits.Defs
import Mathlib.Tactic.FieldSimp
import Mathlib.Tactic.Ring

/-!
# Lemmas on phases, wires and units
-/

namespace Verif.Glm

theorem stripBy_around (p : Char → Bool) (l t r : Txt) (hl : ∀ c ∈ l, p c = true) (ht : ∀ c ∈ t, p c = false) (hr : ∀ c ∈ r, p c = true) :
    stripBy p (l ++ t ++ r) = t := by
  rw [stripBy, List.append_assoc, dropWhile_append_all p l _ hl]
  rcases List.eq_nil_or_concat t with rfl | ⟨a, c, rfl⟩
  · rw [List.nil_append, dropWhile_blank p r hr]
    rfl
  · have hd : ((a ++ [c]) ++ r).dropWhile p = (a ++ [c]) ++ r := by
      cases a with
      | nil => exact dropWhile_head p c r (ht c (by simp))
      | cons x xs => exact dropWhile_head p x _ (ht x (by simp))
    rw [List.concat_eq_append] at *
    rw [hd, List.reverse_append, dropWhile_append_all p r.reverse _ (fun c hc => hr c (List.mem_reverse.1 hc)), List.reverse_append]
    rw [show [c].reverse ++ a.reverse = c :: a.reverse from rfl, dropWhile_head p c _ (ht c (by simp))]
    simp

theorem stripBy_none (p : Char → Bool) (t : Txt) (ht : ∀ c ∈ t, p c = false) : stripBy p t = t := by
  have h := stripBy_around p [] t [] (by simp) ht (by simp)
  simpa using h

theorem phaseStep_foldl (t : Txt) (s : Phases) : t.foldl phaseStep s =
    ⟨s.phases ++ t.filter (· ∉ ['N', 'S', 'D', 'G']), s.isDelta, s.isTriplex || decide ('S' ∈ t), s.hasNeutral || decide ('N' ∈ t)⟩ := by
  induction t generalizing s with
  | nil => simp
  | cons c t ih =>
    rw [List.foldl_cons, ih, phaseStep]
    by_cases h1 : c = 'N'
    · subst h1; simp
    by_cases h2 : c = 'S'
    · subst h2; simp
    have h1' : ¬ 'N' = c := fun h => h1 h.symm
    have h2' : ¬ 'S' = c := fun h => h2 h.symm
    by_cases h3 : c = 'D'
    · subst h3; simp
    by_cases h4 : c = 'G'
    · subst h4; simp
    simp [h1, h2, h3, h4, h1', h2']

theorem get_store_self (k v : Txt) (d : List (Txt × Txt)) (cls : Txt) : Obj.get ⟨cls, store k v d⟩ k = .ok v := by
  rw [Obj.get]
  have : lookup k (store k v d) = some v := by
    induction d with
    | nil => simp [store, lookup]
    | cons a d ih =>
      obtain ⟨k', v'⟩ := a
      rw [store]
      split
      · simp [lookup]
      · rename_i h; simp only [lookup]; rw [if_neg h, ih]
  rw [this]

theorem lookup_store_ne {β : Type} {k k' : Txt} (v : β) (h : k' ≠ k) (d : List (Txt × β)) : lookup k' (store k v d) = lookup k' d := by
  induction d with
  | nil => simp [store, lookup, h.symm]
  | cons a d ih =>
    obtain ⟨k'', v'⟩ := a
    rw [store]
    split
    · rename_i h2
      subst h2
      simp [lookup, h.symm]
    · simp only [lookup]; rw [ih]

theorem get_store_ne {k k' : Txt} (v : Txt) (h : k' ≠ k) (d : List (Txt × Txt)) (cls : Txt) : Obj.get ⟨cls, store k v d⟩ k' = Obj.get ⟨cls, d⟩ k' := by
  rw [Obj.get, Obj.get]
  simp only [lookup_store_ne v h]

/-- Only digits and points. -/
def Plain (n : Txt) : Prop := ∀ c ∈ n, (c.isDigit || c = '.') = true

theorem removeNonnum_unit {n u : Txt} (hn : Plain n) (hu : ∀ c ∈ u, (c.isDigit || c = '.') = false) : removeNonnum (n ++ u) = n := by
  rw [removeNonnum, List.filter_append]
  have h1 : n.filter (fun c => c.isDigit || c = '.') = n := List.filter_eq_self.2 fun c hc => hn c hc
  have h2 : u.filter (fun c => c.isDigit || c = '.') = [] := List.filter_eq_nil_iff.2 fun c hc => by rw [hu c hc]; simp
  rw [h1, h2, List.append_nil]

theorem Plain.notMem {n : Txt} (hn : Plain n) {c : Char} (hc : (c.isDigit || c = '.') = false) : c ∉ n := fun h => by
  rw [hn c h] at hc; cases hc

theorem find_plain_unit {n ps : Txt} {p : Char} (hn : Plain n) (hp : (p.isDigit || p = '.') = false) : (find (p :: ps) (n ++ p :: ps)).isSome = true := by
  rw [find_append_of_notMem p ps n _ (hn.notMem hp)]
  simp [find]

theorem find_plain {n ps : Txt} {p : Char} (hn : Plain n) (hp : (p.isDigit || p = '.') = false) : (find (p :: ps) n).isSome = false := by
  have h := find_append_of_notMem p ps n [] (hn.notMem hp)
  rw [List.append_nil] at h
  rw [h]
  rfl

/-! ### Numerals -/

theorem natOf_append_foldl (b : Txt) (n : ℕ) : b.foldl (fun n c => 10 * n + (c.toNat - '0'.toNat)) n = n * 10 ^ b.length + decimal b := by
  induction b generalizing n with
  | nil => simp [decimal]
  | cons c b ih =>
    rw [List.foldl_cons, ih, decimal, decimal, List.map_cons, List.reverse_cons, Nat.ofDigits_append, List.length_cons]
    simp only [List.length_reverse, List.length_map, Nat.ofDigits_singleton]
    ring

theorem natOf_decimal (s : Txt) : natOf s = decimal s := by rw [natOf, natOf_append_foldl]; simp

theorem natOf_append (a b : Txt) : natOf (a ++ b) = decimal a * 10 ^ b.length + decimal b := by
  rw [natOf, List.foldl_append, natOf_append_foldl]
  congr 2
  exact natOf_decimal a

theorem Numeral.plain {n : Txt} {x : ℚ} (h : Numeral n x) : Plain n := by
  cases h with
  | whole _ _ hd => intro c hc; simp [hd c hc]
  | point a b hne ha hb =>
    intro c hc
    rcases List.mem_append.1 hc with h | h
    · simp [ha c h]
    · rcases List.mem_cons.1 h with rfl | h
      · simp
      · simp [hb c h]

theorem isSpace_plain {c : Char} (h : (c.isDigit || c = '.') = true) : isSpace c = false := by
  cases hs : isSpace c with
  | false => rfl
  | true =>
    exfalso
    rw [isSpace] at hs
    simp only [Bool.or_eq_true, decide_eq_true_eq] at hs
    rcases hs with ((((rfl | rfl) | rfl) | rfl) | rfl) | rfl <;> revert h <;> decide

theorem signOf_plain {n : Txt} (h : Plain n) : signOf n = (1, n) := by
  unfold signOf
  split
  · exact absurd (h '-' (by simp)) (by decide)
  · exact absurd (h '+' (by simp)) (by decide)
  · rfl

theorem takeWhile_digits {a r : Txt} (ha : ∀ c ∈ a, c.isDigit = true) (hr : ∀ c ∈ r.head?, c.isDigit = false) :
    (a ++ r).takeWhile Char.isDigit = a ∧ (a ++ r).dropWhile Char.isDigit = r := by
  induction a with
  | nil => cases r with
    | nil => simp
    | cons c r => have := hr c (by simp); simp [this]
  | cons c a ih =>
    have := ih fun c hc => ha c (List.mem_cons_of_mem _ hc)
    simp [ha c (by simp), this]

theorem unsignedPrefix_numeral {n : Txt} {x : ℚ} (h : Numeral n x) : unsignedPrefix n = some (x, []) := by
  cases h with
  | whole _ hne hd =>
    obtain ⟨h1, h2⟩ := takeWhile_digits (r := []) hd (by simp)
    rw [List.append_nil] at h1 h2
    rw [unsignedPrefix]
    simp only [h1, h2, List.append_nil]
    rw [if_neg (by simpa using hne)]
    simp [exponentOf, natOf_decimal]
  | point a b hne ha hb =>
    obtain ⟨h1, h2⟩ := takeWhile_digits (r := '.' :: b) ha (by simp)
    obtain ⟨h3, h4⟩ := takeWhile_digits (r := []) hb (by simp)
    rw [List.append_nil] at h3 h4
    rw [unsignedPrefix]
    simp only [h1, h2, h3, h4]
    rw [if_neg (by simpa using hne)]
    simp only [exponentOf, natOf_append, Option.some.injEq, Prod.mk.injEq, and_true]
    rw [zero_sub, zpow_neg, zpow_natCast]
    push_cast
    field_simp

theorem pyFloat_numeral {n : Txt} {x : ℚ} (h : Numeral n x) : pyFloat n = some x := by
  have hs : strip n = n := stripBy_none _ _ fun c hc => isSpace_plain (h.plain c hc)
  have hn : numPrefix n = some (x, []) := by
    rw [numPrefix, signOf_plain h.plain, unsignedPrefix_numeral h]
    simp
  rw [pyFloat, hs, hn]

theorem floatOf_numeral {n : Txt} {x : ℚ} (h : Numeral n x) : floatOf n = .ok x := by
  rw [floatOf, pyFloat_numeral h]

end Verif.Glm
