import Verif.Model.Cache
import Mathlib.Data.Fintype.Card
import Mathlib.Data.Set.Finite.List

/-!
# Lemmas about the cache of derivatives: keys determine segments
-/

namespace Verif

open Ex

/-- The symbols without a number in their name. -/
def fixedSyms : List Sym := [.txFactor, .VrFrom, .ViFrom, .VrTo, .ViTo, .LrFrom, .LiFrom, .LrTo, .LiTo, .G, .B, .P, .Q, .Vset, .IP, .IQ,
  .Vrset, .Viset, .ISr, .ISi, .Ir, .Ii, .VrSet, .ViSet, .tr, .ang, .VrPriPos, .ViPriPos, .VrPriNeg, .ViPriNeg, .IrPrim, .IiPrim,
  .VrSecPos, .ViSecPos, .VrSecNeg, .ViSecNeg, .LrPriPos, .LiPriPos, .LrPriNeg, .LiPriNeg, .LirPrim, .LiiPrim,
  .LrSecPos, .LiSecPos, .LrSecNeg, .LiSecNeg, .VrPri, .ViPri, .IrL1, .IiL1, .VrL1, .ViL1, .IrL2, .IiL2, .VrL2, .ViL2,
  .LrPri, .LiPri, .LirL1, .LiiL1, .LrL1, .LiL1, .LirL2, .LiiL2, .LrL2, .LiL2, .Iir, .Iii, .LVr, .LVi,
  .IirPlus, .IiiPlus, .IirMinus, .IiiMinus, .VrBus, .ViBus, .muVrPlus, .muViPlus, .muVrMinus, .muViMinus]

theorem Sym.fixed_or (s : Sym) : s ∈ fixedSyms ∨ (∃ n, s = .lam n) ∨ ∃ n, s = .other n := by
  cases s <;> first | exact .inl (by decide) | exact .inr (.inl ⟨_, rfl⟩) | exact .inr (.inr ⟨_, rfl⟩)

theorem fixedSyms_names : (fixedSyms.map Sym.name).Nodup := by decide +kernel

/-- A character that may occur in a name. -/
def nameChar (c : Char) : Bool := c ≠ ' ' && c ≠ '(' && c ≠ ')'

theorem nameChar_digit {c : Char} (h : c.isDigit) : nameChar c = true := by
  unfold nameChar
  have : ∀ d : Char, d.isDigit = false → c ≠ d := by rintro d hd rfl; rw [h] at hd; cases hd
  simp [this ' ' (by decide), this '(' (by decide), this ')' (by decide)]

theorem toDigits_ne_nil (n : ℕ) : Nat.toDigits 10 n ≠ [] := by
  have := Nat.length_toDigits_pos (b := 10) (n := n)
  intro h; rw [h] at this; simp at this

theorem toDigits_injective {m n : ℕ} (h : Nat.toDigits 10 m = Nat.toDigits 10 n) : m = n := by
  have := congrArg (fun l => Nat.ofDigitChars 10 l 0) h
  simpa using this

theorem Sym.name_lam (n : ℕ) : (Sym.lam n).name = ['l', 'a', 'm', 'b', 'd', 'a', '_'] ++ Nat.toDigits 10 n := rfl

theorem Sym.name_other (n : ℕ) : (Sym.other n).name = ['o', 't', 'h', 'e', 'r', '_'] ++ Nat.toDigits 10 n := rfl

theorem Sym.name_chars (s : Sym) : s.name ≠ [] ∧ ∀ c ∈ s.name, nameChar c = true := by
  rcases s.fixed_or with h | ⟨n, rfl⟩ | ⟨n, rfl⟩
  · have : ∀ t ∈ fixedSyms, t.name ≠ [] ∧ ∀ c ∈ t.name, nameChar c = true := by decide +kernel
    exact this s h
  · rw [Sym.name_lam]
    refine ⟨by simp, fun c hc => ?_⟩
    rcases List.mem_append.1 hc with h | h
    · exact (by decide : ∀ c ∈ ['l', 'a', 'm', 'b', 'd', 'a', '_'], nameChar c = true) c h
    · exact nameChar_digit (Nat.isDigit_of_mem_toDigits (by decide) (by decide) h)
  · rw [Sym.name_other]
    refine ⟨by simp, fun c hc => ?_⟩
    rcases List.mem_append.1 hc with h | h
    · exact (by decide : ∀ c ∈ ['o', 't', 'h', 'e', 'r', '_'], nameChar c = true) c h
    · exact nameChar_digit (Nat.isDigit_of_mem_toDigits (by decide) (by decide) h)

theorem digits_head (n : ℕ) : (Nat.toDigits 10 n).head?.any Char.isDigit = true := by
  cases h : Nat.toDigits 10 n with
  | nil => exact absurd h (toDigits_ne_nil n)
  | cons c cs =>
    have : c ∈ Nat.toDigits 10 n := by rw [h]; exact List.mem_cons_self
    simpa using Nat.isDigit_of_mem_toDigits (b := 10) (by decide) (by decide) this

theorem Sym.name_injective {s t : Sym} (h : s.name = t.name) : s = t := by
  have hl : ∀ u ∈ fixedSyms, ∀ n, u.name ≠ (Sym.lam n).name := by
    intro u hu n e
    have h1 : ∀ u ∈ fixedSyms, u.name.take 7 = ['l', 'a', 'm', 'b', 'd', 'a', '_'] → (u.name.drop 7).head?.any Char.isDigit = false := by decide +kernel
    have h2 := h1 u hu (by rw [e, Sym.name_lam]; rfl)
    rw [e] at h2
    have h3 := digits_head n
    have : (Sym.lam n).name.drop 7 = Nat.toDigits 10 n := by rw [Sym.name_lam]; rfl
    rw [this, h3] at h2; cases h2
  have ho : ∀ u ∈ fixedSyms, ∀ n, u.name ≠ (Sym.other n).name := by
    intro u hu n e
    have h1 : ∀ u ∈ fixedSyms, u.name.take 6 ≠ ['o', 't', 'h', 'e', 'r', '_'] := by decide +kernel
    exact h1 u hu (by rw [e, Sym.name_other]; rfl)
  have hx : ∀ m n, (Sym.lam m).name ≠ (Sym.other n).name := by
    intro m n e
    have := congrArg List.head? e
    rw [Sym.name_lam, Sym.name_other] at this
    simp at this
  rcases s.fixed_or with hs | ⟨m, rfl⟩ | ⟨m, rfl⟩ <;> rcases t.fixed_or with ht | ⟨n, rfl⟩ | ⟨n, rfl⟩
  · exact List.inj_on_of_nodup_map fixedSyms_names hs ht h
  · exact absurd h (hl s hs n)
  · exact absurd h (ho s hs n)
  · exact absurd h.symm (hl t ht m)
  · rw [Sym.name_lam, Sym.name_lam] at h
    simp only [List.append_cancel_left_eq] at h
    rw [toDigits_injective h]
  · exact absurd h (hx m n)
  · exact absurd h.symm (ho t ht m)
  · exact absurd h.symm (hx n m)
  · rw [Sym.name_other, Sym.name_other] at h
    simp only [List.append_cancel_left_eq] at h
    rw [toDigits_injective h]

/-- A text is cut at the first occurrence of a character in one way only. -/
theorem cut_first {c : Char} {x y s t : Txt} (hx : c ∉ x) (hy : c ∉ y) (h : x ++ c :: s = y ++ c :: t) : x = y ∧ s = t := by
  induction x generalizing y with
  | nil =>
    cases y with
    | nil => simpa using h
    | cons d ds => simp at h; exact absurd h.1 (by rintro rfl; exact hy List.mem_cons_self)
  | cons d ds ih =>
    cases y with
    | nil => simp at h; exact absurd h.1 (by rintro rfl; exact hx List.mem_cons_self)
    | cons e es =>
      simp only [List.cons_append, List.cons.injEq] at h
      have := ih (fun hc => hx (List.mem_cons_of_mem _ hc)) (fun hc => hy (List.mem_cons_of_mem _ hc)) h.2
      exact ⟨by rw [h.1, this.1], this.2⟩

/-- A text is cut at the last occurrence of a character in one way only. -/
theorem cut_last {c : Char} {x y s t : Txt} (hs : c ∉ s) (ht : c ∉ t) (h : x ++ c :: s = y ++ c :: t) : x = y ∧ s = t := by
  have h' : s.reverse ++ c :: x.reverse = t.reverse ++ c :: y.reverse := by
    have := congrArg List.reverse h
    simpa using this
  have := cut_first (by simpa using hs) (by simpa using ht) h'
  exact ⟨List.reverse_injective this.2, List.reverse_injective this.1⟩

theorem name_no {c : Char} (hc : nameChar c = false) (s : Sym) : c ∉ s.name := by
  intro h
  rw [s.name_chars.2 c h] at hc; cases hc

theorem joinNames_no {c : Char} (hc : nameChar c = false) (hc' : c ≠ ',') (hs : c ≠ ' ') (l : List Sym) : c ∉ joinNames l := by
  induction l with
  | nil => simp [joinNames]
  | cons x r ih =>
    cases r with
    | nil => exact name_no hc x
    | cons y r =>
      simp only [joinNames, List.mem_append, List.mem_cons, not_or]
      exact ⟨name_no hc x, hc', hs, ih⟩

theorem comma_no_space {x y r r' : Txt} (hx : ' ' ∉ x) (hy : ' ' ∉ y) (h : x ++ ',' :: ' ' :: r = y ++ ',' :: ' ' :: r') : x = y ∧ r = r' := by
  have h' : (x ++ [',']) ++ ' ' :: r = (y ++ [',']) ++ ' ' :: r' := by simpa using h
  have := cut_first (c := ' ') (by simpa using hx) (by simpa using hy) h'
  exact ⟨by simpa using this.1, this.2⟩

theorem space_in_join (x y : Sym) (r : List Sym) : ' ' ∈ joinNames (x :: y :: r) := by simp [joinNames]

theorem joinNames_injective {l m : List Sym} (hl : l ≠ []) (hm : m ≠ []) (h : joinNames l = joinNames m) : l = m := by
  have hsp : nameChar ' ' = false := by decide
  induction l generalizing m with
  | nil => exact absurd rfl hl
  | cons x r ih =>
    cases m with
    | nil => exact absurd rfl hm
    | cons x' r' =>
      cases r with
      | nil =>
        cases r' with
        | nil => rw [Sym.name_injective h]
        | cons y' r' =>
          have h' : x.name = joinNames (x' :: y' :: r') := h
          exact absurd (by rw [h']; exact space_in_join x' y' r') (name_no hsp x)
      | cons y r =>
        cases r' with
        | nil =>
          have h' : joinNames (x :: y :: r) = x'.name := h
          exact absurd (by rw [← h']; exact space_in_join x y r) (name_no hsp x')
        | cons y' r' =>
          have := comma_no_space (name_no hsp x) (name_no hsp x') h
          rw [Sym.name_injective this.1, ih (by simp) (by simp) this.2]

/-- The text between the parentheses of a printed tuple. -/
def tupleBody : List Sym → Txt
  | [] => []
  | [x] => x.name ++ [',']
  | l => joinNames l

theorem tupleText_eq (l : List Sym) : tupleText l = '(' :: (tupleBody l ++ [')']) := by
  match l with
  | [] => rfl
  | [x] => simp [tupleText, tupleBody]
  | x :: y :: r => rfl

theorem tupleBody_no {c : Char} (hc : nameChar c = false) (hc' : c ≠ ',') (hs : c ≠ ' ') (l : List Sym) : c ∉ tupleBody l := by
  match l with
  | [] => simp [tupleBody]
  | [x] => simp [tupleBody, name_no hc x, hc']
  | x :: y :: r => exact joinNames_no hc hc' hs _

theorem tupleBody_injective {l m : List Sym} (h : tupleBody l = tupleBody m) : l = m := by
  have hsp : nameChar ' ' = false := by decide
  match l, m with
  | [], [] => rfl
  | [], [y] => simp [tupleBody] at h
  | [], y :: z :: r => simp [tupleBody, joinNames] at h
  | [x], [] => simp [tupleBody] at h
  | x :: y :: r, [] => simp [tupleBody, joinNames] at h
  | [x], [y] =>
    simp only [tupleBody, List.append_cancel_right_eq] at h
    rw [Sym.name_injective h]
  | [x], y :: z :: r =>
    have : ' ' ∈ x.name ++ [','] := by
      have h' : x.name ++ [','] = joinNames (y :: z :: r) := h
      rw [h']; exact space_in_join y z r
    simp [name_no hsp x] at this
  | x :: y :: r, [z] =>
    have : ' ' ∈ z.name ++ [','] := by
      have h' : joinNames (x :: y :: r) = z.name ++ [','] := h
      rw [← h']; exact space_in_join x y r
    simp [name_no hsp z] at this
  | x :: y :: r, x' :: y' :: r' => exact joinNames_injective (by simp) (by simp) h

/-- A printed tuple at the end of a text can be cut off in one way only. -/
theorem tuple_last {x y : Txt} {l m : List Sym} (h : x ++ ',' :: tupleText l = y ++ ',' :: tupleText m) : x = y ∧ l = m := by
  have hp : nameChar '(' = false := by decide
  rw [tupleText_eq, tupleText_eq] at h
  have h' : (x ++ [',']) ++ '(' :: (tupleBody l ++ [')']) = (y ++ [',']) ++ '(' :: (tupleBody m ++ [')']) := by simpa using h
  have := cut_last (c := '(') (by simp [tupleBody_no hp (by decide) (by decide) l]) (by simp [tupleBody_no hp (by decide) (by decide) m]) h'
  exact ⟨by simpa using this.1, tupleBody_injective (by simpa using this.2)⟩

theorem key_eq (pr : Ex → Txt) (v : ℕ) (s : Segment) : lagrangeKey pr v s =
    (((Nat.toDigits 10 v ++ ',' :: pr s.lagrange) ++ ',' :: tupleText s.constants) ++ ',' :: tupleText s.primals) ++ ',' :: tupleText s.duals := by
  simp [lagrangeKey]

theorem key_parts {pr : Ex → Txt} {v v' : ℕ} {s s' : Segment} (h : lagrangeKey pr v s = lagrangeKey pr v' s') :
    v = v' ∧ pr s.lagrange = pr s'.lagrange ∧ s.constants = s'.constants ∧ s.primals = s'.primals ∧ s.duals = s'.duals := by
  rw [key_eq, key_eq] at h
  obtain ⟨h, hd⟩ := tuple_last h
  obtain ⟨h, hp⟩ := tuple_last h
  obtain ⟨h, hc⟩ := tuple_last h
  have hno : ∀ n : ℕ, ',' ∉ Nat.toDigits 10 n := fun n hn => by
    have := Nat.isDigit_of_mem_toDigits (b := 10) (by decide) (by decide) hn
    revert this; decide
  obtain ⟨hv, hl⟩ := cut_first (hno v) (hno v') h
  exact ⟨toDigits_injective hv, hl, hc, hp, hd⟩

end Verif
