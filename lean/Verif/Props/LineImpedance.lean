import Verif.Spec.LineLaw
import Verif.Lemmas.LineImpedance
import Verif.Props.Lines

/-!
# Impedance and charging of lines: C53, C54, C55, C89, C93, C94, C95
-/

namespace Verif.Glm

open Matrix

/-! ### C53 -/

section Kron

variable {K m k : Type} [Field K] [Fintype m] [Fintype k] [DecidableEq k] {Zij : Matrix m m K} {Zin : Matrix m k K} {Znj : Matrix k m K}
  {Znn : Matrix k k K}

/-- **C53, elimination.** If the neutral block is invertible, every set of phase currents has exactly one set of neutral currents for
which the neutrals have no voltage drop. With it, the reduced matrix gives the voltage drops of the full one on the phases. -/
theorem C53_elimination (hd : Znn.det ≠ 0) : ∃ Z, kronReduction Zij Zin Znj Znn = .ok Z ∧ ∀ I : m → K,
    (∃! J : k → K, Znj *ᵥ I + Znn *ᵥ J = 0) ∧ ∀ J : k → K, Znj *ᵥ I + Znn *ᵥ J = 0 → Z *ᵥ I = Zij *ᵥ I + Zin *ᵥ J := by
  refine ⟨_, kron_of_det hd, fun I => ⟨⟨_, (kron_current hd I _).2 rfl, fun J hJ => (kron_current hd I J).1 hJ⟩, fun J hJ => ?_⟩⟩
  rw [(kron_current hd I J).1 hJ]
  exact kron_voltage I

/-- **C53, refusal.** Without an inverse of the neutral block there is no result. -/
theorem C53_singular (hd : Znn.det = 0) : ∀ Z, kronReduction Zij Zin Znj Znn ≠ .ok Z := fun _ h => (kron_ok h).1 hd

/-- **C53, symmetry.** A symmetric matrix stays symmetric. -/
theorem C53_symmetric {Z : Matrix m m K} (h : kronReduction Zij Zin Znj Znn = .ok Z) (hs : (fromBlocks Zij Zin Znj Znn)ᵀ = fromBlocks Zij Zin Znj Znn) :
    Zᵀ = Z := by
  rw [fromBlocks_transpose, fromBlocks_inj] at hs
  obtain ⟨h1, h2, h3, h4⟩ := hs
  obtain ⟨-, rfl⟩ := kron_ok h
  rw [transpose_sub, transpose_mul, transpose_mul, transpose_nonsing_inv, h1, h2, h3, h4, Matrix.mul_assoc]

end Kron

/-- Two phases and one neutral. -/
example : ∃ Z : Matrix (Fin 2) (Fin 2) ℚ, kronReduction !![3, 1; 1, 3] !![1; 1] !![1, 1] !![(2 : ℚ)] = .ok Z ∧
    Zᵀ = Z ∧ Z *ᵥ ![1, 0] = !![3, 1; 1, 3] *ᵥ ![1, 0] + !![1; 1] *ᵥ ![-1 / 2] := by
  obtain ⟨Z, h, h'⟩ := C53_elimination (Zij := !![3, 1; 1, 3]) (Zin := !![1; 1]) (Znj := !![1, 1]) (Znn := !![(2 : ℚ)]) (by simp)
  refine ⟨Z, h, C53_symmetric h ?_, (h' _).2 _ ?_⟩
  · rw [fromBlocks_transpose]
    congr <;> ext i j <;> fin_cases i <;> fin_cases j <;> rfl
  · ext i; fin_cases i; simp [mulVec, dotProduct]

/-! ### C54 -/

/-- The letter of a row of the matrix of conductors. -/
def letterOf (a : Fin 4) : Char := "ABCN".toList.getD a ' '

theorem pair_sublist {x y : Char} (h : [x, y].Sublist "ABCNE".toList) :
    ∃ p ∈ spacingPairs, x = spacingLetters.getD p.1 ' ' ∧ y = spacingLetters.getD p.2 ' ' := by
  rw [← List.mem_sublists] at h
  have e : "ABCNE".toList.sublists = [[], ['A'], ['B'], ['A', 'B'], ['C'], ['A', 'C'], ['B', 'C'], ['A', 'B', 'C'], ['N'], ['A', 'N'], ['B', 'N'],
    ['A', 'B', 'N'], ['C', 'N'], ['A', 'C', 'N'], ['B', 'C', 'N'], ['A', 'B', 'C', 'N'], ['E'], ['A', 'E'], ['B', 'E'], ['A', 'B', 'E'], ['C', 'E'],
    ['A', 'C', 'E'], ['B', 'C', 'E'], ['A', 'B', 'C', 'E'], ['N', 'E'], ['A', 'N', 'E'], ['B', 'N', 'E'], ['A', 'B', 'N', 'E'], ['C', 'N', 'E'],
    ['A', 'C', 'N', 'E'], ['B', 'C', 'N', 'E'], ['A', 'B', 'C', 'N', 'E']] := by decide
  rw [e] at h
  simp only [List.mem_cons, List.cons.injEq, reduceCtorEq, and_false, and_true, false_or, or_false, List.not_mem_nil] at h
  rcases h with ⟨rfl, rfl⟩ | ⟨rfl, rfl⟩ | ⟨rfl, rfl⟩ | ⟨rfl, rfl⟩ | ⟨rfl, rfl⟩ | ⟨rfl, rfl⟩ | ⟨rfl, rfl⟩ | ⟨rfl, rfl⟩ | ⟨rfl, rfl⟩ | ⟨rfl, rfl⟩ <;> decide

theorem sublist_pair {p : ℕ × ℕ} (h : p ∈ spacingPairs) : [spacingLetters.getD p.1 ' ', spacingLetters.getD p.2 ' '].Sublist "ABCNE".toList ∧
    ¬ [spacingLetters.getD p.2 ' ', spacingLetters.getD p.1 ' '].Sublist "ABCNE".toList ∧ p.1 < p.2 ∧ p.2 < 5 := by
  revert p
  decide

theorem removeNonnum_spaced {n u : Txt} {d : ℚ} (hn : Numeral n d) (hu : u = [] ∨ u = "ft".toList) : removeNonnum (n ++ u) = n := by
  rcases hu with rfl | rfl
  · exact removeNonnum_unit hn.plain (by simp)
  · exact removeNonnum_unit hn.plain (by decide)

theorem spaced_get {o : Obj} {p : ℕ × ℕ} (hp : p ∈ spacingPairs) {d : ℚ}
    (h : Spaced o (spacingLetters.getD p.1 ' ') (spacingLetters.getD p.2 ' ') d) :
    ∃ t, o.get (distanceName p.1 p.2) = .ok t ∧ floatOf (removeNonnum t) = .ok d := by
  obtain ⟨n, u, hn, hu, h⟩ := h
  rcases h with ⟨-, h⟩ | ⟨h, -⟩
  · exact ⟨_, h, by rw [removeNonnum_spaced hn hu, floatOf_numeral hn]⟩
  · exact absurd h (sublist_pair hp).2.1

theorem spaced_pairDist {o : Obj} {p : ℕ × ℕ} (hp : p ∈ spacingPairs) {d : ℚ} (hd : d ≠ 0)
    (h : Spaced o (spacingLetters.getD p.1 ' ') (spacingLetters.getD p.2 ' ') d) : pairDist o p = some d := by
  obtain ⟨t, h1, h2⟩ := spaced_get hp h
  rw [pairDist, h1]
  simp only [h2, if_neg hd]

theorem spaced_symm {o : Obj} {x y : Char} {d : ℚ} (h : Spaced o x y d) : Spaced o y x d := by
  obtain ⟨n, u, hn, hu, h⟩ := h
  exact ⟨n, u, hn, hu, h.symm⟩

theorem spacing_total {o : Obj} (h : WellSpaced o) : ∃ T, overheadSpacing o = .ok T := by
  have hstep : ∀ p ∈ spacingPairs, ∀ T, ∃ T', overheadSpacingStep o T p = .ok T' := by
    intro p hp T
    rw [overheadSpacingStep]
    cases hg : o.get (distanceName p.1 p.2) with
    | error e => exact ⟨T, rfl⟩
    | ok t =>
      obtain ⟨d, -, hs⟩ := h _ _ (sublist_pair hp).1 t hg
      obtain ⟨t', h1, h2⟩ := spaced_get hp hs
      rw [hg] at h1
      injection h1 with h1
      subst h1
      simp only [h2, bind, Except.bind]
      split <;> exact ⟨_, rfl⟩
  rw [overheadSpacing]
  generalize (fun _ _ => -1 : Table) = T
  generalize spacingPairs = l at hstep
  induction l generalizing T with
  | nil => exact ⟨T, rfl⟩
  | cons p l ih =>
    obtain ⟨T', hT⟩ := hstep p (by simp) T
    rw [List.foldlM_cons, hT]
    exact ih T' (fun q hq => hstep q (by simp [hq]))

theorem mentioned_iff {o : Obj} (h : WellSpaced o) {T : Table} (hT : overheadSpacing o = .ok T) (i : ℕ) :
    T i i = 0 ↔ ∃ y d, i < 5 ∧ Spaced o (spacingLetters.getD i ' ') y d := by
  constructor
  · intro hz
    rcases (spacing_table hT).2 i with ⟨-, p, hp, hpi, hps⟩ | ⟨hz', -⟩
    · rw [pairDist] at hps
      cases hg : o.get (distanceName p.1 p.2) with
      | error e => rw [hg] at hps; simp at hps
      | ok t =>
        obtain ⟨d, -, hs⟩ := h _ _ (sublist_pair hp).1 t hg
        have hlt := (sublist_pair hp).2.2
        rcases hpi with rfl | rfl
        · exact ⟨_, d, by omega, hs⟩
        · exact ⟨_, d, by omega, spaced_symm hs⟩
    · rw [hz] at hz'; norm_num at hz'
  · rintro ⟨y, d, hi, hs⟩
    have key : ∃ p ∈ spacingPairs, (p.1 = i ∨ p.2 = i) ∧ (pairDist o p).isSome := by
      have inj : ∀ a < 5, ∀ b < 5, spacingLetters.getD a ' ' = spacingLetters.getD b ' ' → a = b := by decide
      obtain ⟨n, u, hn, hu, hs'⟩ := id hs
      rcases hs' with ⟨hsub, hg⟩ | ⟨hsub, hg⟩ <;> obtain ⟨p, hp, e1, e2⟩ := pair_sublist hsub <;> have hlt := (sublist_pair hp).2.2
      · refine ⟨p, hp, Or.inl (inj p.1 (by omega) i hi e1.symm), ?_⟩
        obtain ⟨d', hd', hs'⟩ := h _ _ hsub _ hg
        rw [e1, e2] at hs'
        rw [spaced_pairDist hp hd'.ne' hs']; rfl
      · refine ⟨p, hp, Or.inr (inj p.2 (by omega) i hi e2.symm), ?_⟩
        obtain ⟨d', hd', hs'⟩ := h _ _ hsub _ hg
        rw [e1, e2] at hs'
        rw [spaced_pairDist hp hd'.ne' hs']; rfl
    rcases (spacing_table hT).2 i with ⟨hz, -⟩ | ⟨-, hn⟩
    · exact hz
    · obtain ⟨p, hp, hpi, hps⟩ := key
      rw [hn p hp hpi] at hps
      cases hps

theorem spaced_entry {o : Obj} {T : Table} (hT : overheadSpacing o = .ok T) {a b : ℕ} (ha : a < 5) (hb : b < 5) {d : ℚ} (hd : d ≠ 0)
    (h : Spaced o (spacingLetters.getD a ' ') (spacingLetters.getD b ' ') d) : T a b = d := by
  have inj : ∀ a < 5, ∀ b < 5, spacingLetters.getD a ' ' = spacingLetters.getD b ' ' → a = b := by decide
  have key : ∀ a < 5, ∀ b < 5, [spacingLetters.getD a ' ', spacingLetters.getD b ' '].Sublist "ABCNE".toList →
      Spaced o (spacingLetters.getD a ' ') (spacingLetters.getD b ' ') d → T a b = d ∧ T b a = d := by
    intro a ha b hb hs h
    obtain ⟨p, hp, e1, e2⟩ := pair_sublist hs
    have hlt := (sublist_pair hp).2.2
    obtain rfl := inj a ha p.1 (by omega) e1
    obtain rfl := inj b hb p.2 (by omega) e2
    rw [((spacing_table hT).1 p.1 p.2 hlt.1 hlt.2).1, ((spacing_table hT).1 p.1 p.2 hlt.1 hlt.2).2, spaced_pairDist hp hd h]
    exact ⟨rfl, rfl⟩
  obtain ⟨n, u, hn, hu, hs⟩ := id h
  rcases hs with ⟨hsub, -⟩ | ⟨hsub, -⟩
  · exact (key a ha b hb hsub h).1
  · exact (key b hb a ha hsub (spaced_symm h)).2

theorem kept_wires {o : Obj} (ho : WellSpaced o) {T : Table} (hT : overheadSpacing o = .ok T) {ps : List Char}
    (hs : ps.Sublist "ABCN".toList) (hm : ∀ x ∈ "ABCN".toList, (x ∈ ps ↔ ∃ y d, Spaced o x y d)) :
    ∃ r, (List.range 5).filter (fun j => T j j = 0) = ps.map (fun x => (revLookup x).getD 0) ++ r := by
  refine ⟨[4].filter fun j => T j j = 0, ?_⟩
  rw [show List.range 5 = List.range 4 ++ [4] by decide, List.filter_append]
  congr 1
  have h0 : ∀ i < 4, (T i i = 0 ↔ spacingLetters.getD i ' ' ∈ ps) := by
    intro i hi
    rw [mentioned_iff ho hT, hm _ ((show ∀ i < 4, spacingLetters.getD i ' ' ∈ "ABCN".toList by decide) i hi)]
    exact ⟨fun ⟨y, d, _, h⟩ => ⟨y, d, h⟩, fun ⟨y, d, h⟩ => ⟨y, d, by omega, h⟩⟩
  have hf : (List.range 4).filter (fun j => T j j = 0) = (List.range 4).filter (fun j => spacingLetters.getD j ' ' ∈ ps) :=
    List.filter_congr fun j hj => by rw [decide_eq_decide]; exact h0 j (List.mem_range.1 hj)
  rw [hf]
  have hall : ∀ qs ∈ "ABCN".toList.sublists, (List.range 4).filter (fun j => spacingLetters.getD j ' ' ∈ qs) = qs.map fun x => (revLookup x).getD 0 := by
    decide
  exact hall ps (List.mem_sublists.2 hs)

theorem striped_wires {o : Obj} (ho : WellSpaced o) {T : Table} (hT : overheadSpacing o = .ok T) {wires : List BareWire}
    (hs : (wires.map BareWire.phase).Sublist "ABCN".toList) (hm : ∀ x ∈ "ABCN".toList, (x ∈ wires.map BareWire.phase ↔ ∃ y d, Spaced o x y d))
    {i j : ℕ} (hi : i < wires.length) (hj : j < wires.length) :
    stripedDistance T i j = some (T ((revLookup wires[i].phase).getD 0) ((revLookup wires[j].phase).getD 0)) := by
  obtain ⟨r, hr⟩ := kept_wires ho hT hs hm
  have hget : ∀ i (hi : i < wires.length), ((List.range 5).filter (fun j => T j j = 0))[i]? = some ((revLookup wires[i].phase).getD 0) := by
    intro i hi
    rw [hr, List.getElem?_append_left (by simpa using hi)]
    simp [hi]
  rw [stripedDistance, (kept_eq hT).1, (kept_eq hT).2, hget i hi, hget j hj]

/-- **C54, partial.** If the conductors of a line are exactly those its spacing object has distances for, in the order of the letters,
the mutual impedance of two conductors is that of the distance given for this pair, in ohms per mile. What is missing: lines with
fewer conductors than their spacing has (`C54_spare_conductor_fails`), distances in other units than feet (`C54_unit_fails`). -/
theorem C54_distance_partial {o : Obj} (ho : WellSpaced o) {wires : List BareWire} (hs : (wires.map BareWire.phase).Sublist "ABCN".toList)
    (hm : ∀ x ∈ "ABCN".toList, (x ∈ wires.map BareWire.phase ↔ ∃ y d, Spaced o x y d)) :
    ∃ T, overheadSpacing o = .ok T ∧ ∀ a b : Fin 4, ∀ d, letterOf a ∈ wires.map BareWire.phase → letterOf b ∈ wires.map BareWire.phase → a ≠ b →
      0 < d → Spaced o (letterOf a) (letterOf b) d →
        overheadPrimitive wires T a b = ⟨953 / 10000, 12134 / 100000 * (Real.log (1 / d) + 793402 / 100000)⟩ := by
  obtain ⟨T, hT⟩ := spacing_total ho
  refine ⟨T, hT, fun a b d ha hb hab hd hsp => ?_⟩
  have hlet : ∀ a : Fin 4, letterOf a = spacingLetters.getD a ' ' ∧ revLookup (letterOf a) = some a.val := by decide
  have hinj : ∀ a : Fin 4, ∀ c, revLookup c = some a.val → c = letterOf a := by
    intro a c hc
    rw [revLookup, List.findIdx?_eq_some_iff_getElem] at hc
    obtain ⟨hl, hc, -⟩ := hc
    rw [decide_eq_true_iff] at hc
    rw [← hc, (hlet a).1, List.getD_eq_getElem?_getD, List.getElem?_eq_getElem hl]
    rfl
  have hat : ∀ a : Fin 4, letterOf a ∈ wires.map BareWire.phase → ∃ i, ∃ hi : i < wires.length, wireAt wires a = some i ∧ wires[i].phase = letterOf a := by
    intro a ha
    obtain ⟨w, hw, hwp⟩ := List.mem_map.1 ha
    cases hwa : wireAt wires a with
    | none =>
      rw [wireAt, List.findIdx?_eq_none_iff] at hwa
      have := hwa w hw
      rw [hwp, (hlet a).2] at this
      simp at this
    | some i =>
      obtain ⟨hi, h⟩ := wireAt_some hwa
      exact ⟨i, hi, rfl, hinj a _ h⟩
  obtain ⟨i, hi, ei, pi⟩ := hat a ha
  obtain ⟨j, hj, ej, pj⟩ := hat b hb
  have hij : i ≠ j := by
    rintro rfl
    exact hab (Fin.ext (wireAt_inj ei ej))
  rw [overheadPrimitive, ei, ej]
  dsimp only
  rw [if_neg hij, striped_wires ho hT hs hm hi hj, pi, pj, (hlet a).2, (hlet b).2]
  simp only [Option.getD_some]
  rw [spaced_entry hT (by omega) (by omega) hd.ne' (by rw [← (hlet a).1, ← (hlet b).1]; exact hsp)]
  simp only [mutualImpedance, Bool.false_eq_true, if_false]
  congr 1
  norm_num

/-- A spacing of three conductors. -/
def threeSpaced : Obj := ⟨"line_spacing".toList,
  [("distance_AB".toList, "2".toList), ("distance_AC".toList, "4.5ft".toList), ("distance_BC".toList, "3".toList)]⟩

theorem threeSpaced_get (x y : Char) (t : Txt) (h : [x, y].Sublist "ABCNE".toList) (hg : threeSpaced.get ("distance_".toList ++ [x, y]) = .ok t) :
    (x = 'A' ∧ y = 'B' ∧ t = "2".toList) ∨ (x = 'A' ∧ y = 'C' ∧ t = "4.5ft".toList) ∨ (x = 'B' ∧ y = 'C' ∧ t = "3".toList) := by
  obtain ⟨p, hp, rfl, rfl⟩ := pair_sublist h
  have key : ∀ p ∈ spacingPairs, threeSpaced.get ("distance_".toList ++ [spacingLetters.getD p.1 ' ', spacingLetters.getD p.2 ' ']) =
      if p = (0, 1) then .ok "2".toList else if p = (0, 2) then .ok "4.5ft".toList else if p = (1, 2) then .ok "3".toList else .error .attribute := by
    decide +kernel
  rw [key p hp] at hg
  split_ifs at hg with h1 h2 h3 <;> injection hg with hg <;> subst hg
  · subst h1; exact Or.inl ⟨rfl, rfl, rfl⟩
  · subst h2; exact Or.inr (Or.inl ⟨rfl, rfl, rfl⟩)
  · subst h3; exact Or.inr (Or.inr ⟨rfl, rfl, rfl⟩)

theorem numeral_two : Numeral "2".toList 2 := by
  have h := Numeral.whole "2".toList (by decide) (by decide)
  rwa [show decimal "2".toList = 2 by decide] at h

theorem numeral_three : Numeral "3".toList 3 := by
  have h := Numeral.whole "3".toList (by decide) (by decide)
  rwa [show decimal "3".toList = 3 by decide] at h

theorem numeral_four_half : Numeral "4.5".toList (9 / 2) := by
  have h := Numeral.point "4".toList "5".toList (by decide) (by decide) (by decide)
  rw [show decimal "4".toList = 4 by decide, show decimal "5".toList = 5 by decide, show "5".toList.length = 1 by decide] at h
  have e : ((4 : ℕ) : ℚ) + ((5 : ℕ) : ℚ) / 10 ^ 1 = 9 / 2 := by norm_num
  rw [e] at h
  exact h

theorem threeSpaced_spaced : Spaced threeSpaced 'A' 'B' 2 ∧ Spaced threeSpaced 'A' 'C' (9 / 2) ∧ Spaced threeSpaced 'B' 'C' 3 :=
  ⟨⟨"2".toList, [], numeral_two, Or.inl rfl, Or.inl ⟨by decide, by decide +kernel⟩⟩,
   ⟨"4.5".toList, "ft".toList, numeral_four_half, Or.inr rfl, Or.inl ⟨by decide, by decide +kernel⟩⟩,
   ⟨"3".toList, [], numeral_three, Or.inl rfl, Or.inl ⟨by decide, by decide +kernel⟩⟩⟩

theorem threeSpaced_well : WellSpaced threeSpaced := by
  intro x y h t hg
  rcases threeSpaced_get x y t h hg with ⟨rfl, rfl, -⟩ | ⟨rfl, rfl, -⟩ | ⟨rfl, rfl, -⟩
  · exact ⟨2, by norm_num, threeSpaced_spaced.1⟩
  · exact ⟨9 / 2, by norm_num, threeSpaced_spaced.2.1⟩
  · exact ⟨3, by norm_num, threeSpaced_spaced.2.2⟩

/-- A wire with resistance and radius. -/
def someWire (p : Char) : BareWire := ⟨p, some 1, some (1 / 50), some (1 / 4)⟩

theorem threeSpaced_mentions (x : Char) (hx : x ∈ "ABCN".toList) :
    (x ∈ (['A', 'B', 'C'].map someWire).map BareWire.phase ↔ ∃ y d, Spaced threeSpaced x y d) := by
  have hx : x = 'A' ∨ x = 'B' ∨ x = 'C' ∨ x = 'N' := by simpa using hx
  rcases hx with rfl | rfl | rfl | rfl
  · exact iff_of_true (by decide) ⟨_, _, threeSpaced_spaced.1⟩
  · exact iff_of_true (by decide) ⟨_, _, threeSpaced_spaced.2.2⟩
  · exact iff_of_true (by decide) ⟨_, _, spaced_symm threeSpaced_spaced.2.2⟩
  · refine iff_of_false (by decide) ?_
    rintro ⟨y, d, n, u, -, -, ⟨h, hg⟩ | ⟨h, hg⟩⟩
    · have := threeSpaced_get _ _ _ h hg
      simp at this
    · have := threeSpaced_get _ _ _ h hg
      simp at this

/-- The hypotheses of `C54_distance_partial` are met by three conductors and their three distances. -/
example : ∃ T, overheadSpacing threeSpaced = .ok T ∧ overheadPrimitive (['A', 'B', 'C'].map someWire) T 0 2 =
    ⟨953 / 10000, 12134 / 100000 * (Real.log (1 / (9 / 2 : ℚ)) + 793402 / 100000)⟩ := by
  obtain ⟨T, hT, h⟩ := C54_distance_partial threeSpaced_well (wires := ['A', 'B', 'C'].map someWire) (by decide) threeSpaced_mentions
  exact ⟨T, hT, h 0 2 (9 / 2) (by decide) (by decide) (by decide) (by norm_num) threeSpaced_spaced.2.1⟩

theorem threeSpaced_kept {T : Table} (hT : overheadSpacing threeSpaced = .ok T) : (List.range 5).filter (fun j => T j j = 0) = [0, 1, 2] := by
  obtain ⟨r, hr⟩ := kept_wires threeSpaced_well hT (ps := ['A', 'B', 'C']) (by decide) threeSpaced_mentions
  have h3 : T 3 3 ≠ 0 := by
    rw [Ne, mentioned_iff threeSpaced_well hT]
    rintro ⟨y, d, -, h⟩
    exact absurd ((threeSpaced_mentions 'N' (by decide)).2 ⟨y, d, h⟩) (by decide)
  have h4 : T 4 4 ≠ 0 := by
    rw [Ne, mentioned_iff threeSpaced_well hT]
    rintro ⟨y, d, -, n, u, -, -, ⟨h, hg⟩ | ⟨h, hg⟩⟩
    · have := threeSpaced_get _ _ _ h hg
      simp [spacingLetters] at this
    · have := threeSpaced_get _ _ _ h hg
      simp [spacingLetters] at this
  have h0 : T 0 0 = 0 := (mentioned_iff threeSpaced_well hT 0).2 ⟨_, _, by norm_num, threeSpaced_spaced.1⟩
  have h1 : T 1 1 = 0 := (mentioned_iff threeSpaced_well hT 1).2 ⟨_, _, by norm_num, threeSpaced_spaced.2.2⟩
  have h2 : T 2 2 = 0 := (mentioned_iff threeSpaced_well hT 2).2 ⟨_, _, by norm_num, spaced_symm threeSpaced_spaced.2.2⟩
  rw [show List.range 5 = [0, 1, 2, 3, 4] by decide]
  simp [h0, h1, h2, h3, h4]

theorem pair_readable {T : Table} {d : ℚ} (hd : 0 < d) (h01 : stripedDistance T 0 1 = some d) (h10 : stripedDistance T 1 0 = some d) (p q : Char)
    (hp : ∃ a < 4, revLookup p = some a) (hq : ∃ a < 4, revLookup q = some a) : OverheadReadable [someWire p, someWire q] T := by
  refine ⟨?_, ?_, ?_⟩
  · intro w hw
    rcases List.mem_cons.1 hw with rfl | hw
    · exact hp
    · rw [List.mem_singleton] at hw; subst hw; exact hq
  · intro w hw r g _ hg
    have : w.gmr = some (1 / 50) := by
      rcases List.mem_cons.1 hw with rfl | hw
      · rfl
      · rw [List.mem_singleton] at hw; subst hw; rfl
    rw [this] at hg
    injection hg with hg
    rw [← hg]; norm_num
  · intro i hi j hj hij
    simp only [List.length_cons, List.length_nil] at hi hj
    interval_cases i <;> interval_cases j
    · exact absurd rfl hij
    · exact ⟨d, h01, hd⟩
    · exact ⟨d, h10, hd⟩
    · exact absurd rfl hij

/-- **C54 fails.** A line with the conductors `A` and `C`, in a configuration whose spacing object has distances for three
conductors (2 feet from `A` to `B`, 4.5 from `A` to `C`): the mutual impedance is that of 2 feet. -/
theorem C54_spare_conductor_fails : ∃ T Z, overheadSpacing threeSpaced = .ok T ∧ Spaced threeSpaced 'A' 'C' (9 / 2) ∧
    overheadImpedance [someWire 'A', someWire 'C'] T ['A', 'C'] false = .ok Z ∧
    entryAt Z 0 1 = mutualImpedance false 2 ∧ entryAt Z 0 1 ≠ mutualImpedance false (9 / 2) := by
  obtain ⟨T, hT⟩ := spacing_total threeSpaced_well
  have h01 : T 0 1 = 2 := spaced_entry hT (a := 0) (b := 1) (by norm_num) (by norm_num) (by norm_num) threeSpaced_spaced.1
  have hs : stripedDistance T 0 1 = some 2 := by
    rw [stripedDistance, (kept_eq hT).1, (kept_eq hT).2, threeSpaced_kept hT]
    simp [h01]
  have hr : OverheadReadable [someWire 'A', someWire 'C'] T :=
    pair_readable (d := 2) (by norm_num) hs (by rw [striped_symm hT, hs]) 'A' 'C' ⟨0, by norm_num, by decide⟩ ⟨2, by norm_num, by decide⟩
  have hz : overheadPrimitive [someWire 'A', someWire 'C'] T 0 2 = mutualImpedance false 2 := by
    rw [overheadPrimitive, show wireAt [someWire 'A', someWire 'C'] (0 : Fin 4).val = some 0 by decide,
      show wireAt [someWire 'A', someWire 'C'] (2 : Fin 4).val = some 1 by decide]
    simp [hs]
  have hne : mutualImpedance false 2 ≠ mutualImpedance false (9 / 2) := by
    intro h
    have := congrArg Complex.im h
    simp only [mutualImpedance, Bool.false_eq_true, if_false] at this
    have h2 : Real.log (1 / 2) = Real.log (1 / (9 / 2)) := by linarith
    have := Real.log_injOn_pos (Set.mem_Ioi.2 (by norm_num)) (Set.mem_Ioi.2 (by norm_num)) h2
    norm_num at this
  refine ⟨T, ((overheadPrimitive [someWire 'A', someWire 'C'] T).submatrix (Fin.castAdd 1) (Fin.castAdd 1)).submatrix (keptPhases ['A', 'C']).get (keptPhases ['A', 'C']).get,
    hT, threeSpaced_spaced.2.1, ?_, ?_, ?_⟩
  · rw [overheadImpedance, if_neg (not_not.2 hr)]
    simp only [Bool.false_eq_true, if_false, bind, Except.bind]
  · rw [← hz]; rfl
  · show overheadPrimitive [someWire 'A', someWire 'C'] T 0 2 ≠ _
    rw [hz]; exact hne

/-- A spacing object that gives one distance. -/
def oneSpaced (t : Txt) : Obj := ⟨"line_spacing".toList, [("distance_AB".toList, t)]⟩

/-- **C54 fails.** Two metres are taken as two feet: whatever the unit behind it, only the number counts. -/
theorem C54_unit_fails : overheadSpacing (oneSpaced "2m".toList) = overheadSpacing (oneSpaced "2ft".toList) ∧
    ∀ T, overheadSpacing (oneSpaced "2m".toList) = .ok T → T 0 1 = 2 := by
  have hstep : ∀ p ∈ spacingPairs, ∀ T, overheadSpacingStep (oneSpaced "2m".toList) T p = overheadSpacingStep (oneSpaced "2ft".toList) T p := by
    intro p hp T
    have hg : ∀ p ∈ spacingPairs, p ≠ (0, 1) → (oneSpaced "2m".toList).get (distanceName p.1 p.2) = (oneSpaced "2ft".toList).get (distanceName p.1 p.2) := by
      decide +kernel
    by_cases e : p = (0, 1)
    · subst e
      rw [overheadSpacingStep, overheadSpacingStep, show (oneSpaced "2m".toList).get (distanceName 0 1) = .ok "2m".toList by decide +kernel,
        show (oneSpaced "2ft".toList).get (distanceName 0 1) = .ok "2ft".toList by decide +kernel]
      simp only [show removeNonnum "2m".toList = "2".toList by decide +kernel, show removeNonnum "2ft".toList = "2".toList by decide +kernel]
    · rw [overheadSpacingStep, overheadSpacingStep, hg p hp e]
  constructor
  · rw [overheadSpacing, overheadSpacing]
    generalize (fun _ _ => -1 : Table) = T
    generalize spacingPairs = l at hstep
    induction l generalizing T with
    | nil => rfl
    | cons p l ih =>
      rw [List.foldlM_cons, List.foldlM_cons, hstep p (by simp) T]
      cases overheadSpacingStep (oneSpaced "2ft".toList) T p with
      | error e => rfl
      | ok T' => exact ih T' fun q hq => hstep q (by simp [hq])
  · intro T hT
    rw [((spacing_table hT).1 0 1 (by norm_num) (by norm_num)).1, show pairDist (oneSpaced "2m".toList) (0, 1) = some 2 by decide +kernel]
    rfl

/-! ### C89, C93 -/

theorem overheadImpedance_ok {wires : List BareWire} {T : Table} {phases : List Char} {hn : Bool} {Z : Matrix _ _ ℂ}
    (h : overheadImpedance wires T phases hn = .ok Z) : OverheadReadable wires T ∧
    ∃ R : Matrix (Fin 3) (Fin 3) ℂ, Z = R.submatrix (keptPhases phases).get (keptPhases phases).get ∧
      (if hn then kronReduction ((overheadPrimitive wires T).submatrix (Fin.castAdd 1) (Fin.castAdd 1))
          ((overheadPrimitive wires T).submatrix (Fin.castAdd 1) (Fin.natAdd 3))
          ((overheadPrimitive wires T).submatrix (Fin.natAdd 3) (Fin.castAdd 1))
          ((overheadPrimitive wires T).submatrix (Fin.natAdd 3) (Fin.natAdd (m := 1) 3))
        else .ok ((overheadPrimitive wires T).submatrix (Fin.castAdd 1) (Fin.castAdd 1))) = Except.ok R := by
  rw [overheadImpedance] at h
  split at h
  · cases h
  · rename_i hr
    refine ⟨not_not.1 hr, ?_⟩
    cases hn with
    | false =>
      injection h with h
      exact ⟨_, h.symm, rfl⟩
    | true =>
      simp only [if_true] at h ⊢
      cases hk : kronReduction ((overheadPrimitive wires T).submatrix (Fin.castAdd 1) (Fin.castAdd 1)) ((overheadPrimitive wires T).submatrix (Fin.castAdd 1) (Fin.natAdd 3))
          ((overheadPrimitive wires T).submatrix (Fin.natAdd 3) (Fin.castAdd 1)) ((overheadPrimitive wires T).submatrix (Fin.natAdd 3) (Fin.natAdd (m := 1) 3)) with
      | error e => rw [hk] at h; cases h
      | ok R =>
        rw [hk] at h
        injection h with h
        exact ⟨R, h.symm, rfl⟩

theorem blocks_eq (M : Matrix (Fin 4) (Fin 4) ℂ) :
    fromBlocks (M.submatrix (Fin.castAdd 1) (Fin.castAdd 1)) (M.submatrix (Fin.castAdd 1) (Fin.natAdd 3))
      (M.submatrix (Fin.natAdd 3) (Fin.castAdd 1)) (M.submatrix (Fin.natAdd 3) (Fin.natAdd (m := 1) 3)) =
    M.submatrix (Sum.elim (Fin.castAdd 1) (Fin.natAdd (m := 1) 3)) (Sum.elim (Fin.castAdd 1) (Fin.natAdd (m := 1) 3)) := by
  ext i j
  cases i <;> cases j <;> rfl

theorem overhead_symm {T : Table} (hT : ∀ i j, stripedDistance T i j = stripedDistance T j i) {wires : List BareWire} {phases : List Char} {hn : Bool} {Z : Matrix _ _ ℂ}
    (h : overheadImpedance wires T phases hn = .ok Z) : ∀ i j, Z i j = Z j i := by
  obtain ⟨-, R, rfl, hR⟩ := overheadImpedance_ok h
  have hM := primitive_symm hT wires
  have hs : Rᵀ = R := by
    cases hn with
    | false =>
      rw [if_neg (by simp)] at hR
      injection hR with hR
      rw [← hR, transpose_submatrix, hM]
    | true =>
      rw [if_pos rfl] at hR
      refine C53_symmetric hR ?_
      rw [blocks_eq, transpose_submatrix, hM]
  intro i j
  conv_lhs => rw [submatrix_apply, ← hs, transpose_apply]
  rfl

/-- **C89, reciprocity.** The impedance matrix of an overhead line is symmetric: whatever the spacing object and the wires, with or
without a neutral, a current in one phase has the same effect on a second phase as the other way round. -/
theorem C89_symmetric {o : Obj} {T : Table} (hT : overheadSpacing o = .ok T) (wires : List BareWire) (phases : List Char) (hn : Bool) {Z : Matrix _ _ ℂ}
    (h : overheadImpedance wires T phases hn = .ok Z) : ∀ i j, Z i j = Z j i := overhead_symm (striped_symm hT) h

/-- The power lost in an overhead line is the power lost in its conductors and in the earth, for some current in the neutral. -/
theorem overhead_power {T : Table} (hT : ∀ i j, stripedDistance T i j = stripedDistance T j i) {wires : List BareWire} {phases : List Char} {hn : Bool} {Z : Matrix _ _ ℂ}
    (h : overheadImpedance wires T phases hn = .ok Z) (hw : ∀ w ∈ wires, w.resistance.isSome ∧ w.gmr.isSome) (I : Fin (keptPhases phases).length → ℂ) :
    ∃ y : Fin 4 → ℂ, (∀ k : Fin 3, y k.castSucc = extend (keptPhases phases).get I k) ∧ (star I ⬝ᵥ Z *ᵥ I).re =
      ∑ a : Fin 4, resistanceAt wires a * Complex.normSq (y a) + 9530 / 100000 * Complex.normSq (∑ a : Fin 4, presentAt wires a * y a) := by
  obtain ⟨-, R, rfl, hR⟩ := overheadImpedance_ok h
  rw [submatrix_power]
  generalize extend (keptPhases phases).get I = x
  cases hn with
  | false =>
    rw [if_neg (by simp)] at hR
    injection hR with hR
    refine ⟨extend (Fin.castAdd 1) x, ?_, ?_⟩
    · intro k
      rw [extend, Finset.sum_eq_single k]
      · exact if_pos rfl
      · intro b _ hb
        exact if_neg fun e => hb (Fin.castSucc_injective 3 e)
      · simp
    · rw [← hR, submatrix_power, primitive_power hT hw]
  | true =>
    rw [if_pos rfl] at hR
    obtain ⟨J, hJ⟩ := kron_power _ _ _ _ hR x
    rw [blocks_eq, submatrix_power] at hJ
    refine ⟨extend (Sum.elim (Fin.castAdd 1) (Fin.natAdd (m := 1) 3)) (Sum.elim x J), ?_, ?_⟩
    · intro k
      rw [extend, Finset.sum_eq_single (Sum.inl k)]
      · exact if_pos rfl
      · rintro (b | b) _ hb
        · exact if_neg fun e => hb (congrArg Sum.inl (Fin.castSucc_injective 3 e))
        · refine if_neg fun e => ?_
          have := congrArg Fin.val e
          simp at this
          omega
      · simp
    · rw [hJ, primitive_power hT hw]

theorem resistanceAt_nonneg {wires : List BareWire} (hw : ∀ w ∈ wires, ∃ r g, w.resistance = some r ∧ w.gmr = some g ∧ 0 ≤ r) (a : ℕ) :
    0 ≤ resistanceAt wires a := by
  rw [resistanceAt]
  split
  · rename_i i hi
    obtain ⟨hl, -⟩ := wireAt_some hi
    obtain ⟨r, g, hr, -, h0⟩ := hw wires[i] (List.getElem_mem hl)
    rw [List.getD_eq_getElem?_getD, List.getElem?_eq_getElem hl, Option.getD_some, hr]
    exact_mod_cast h0
  · exact le_refl _

theorem overhead_passive {T : Table} (hT : ∀ i j, stripedDistance T i j = stripedDistance T j i) {wires : List BareWire} {phases : List Char} {hn : Bool} {Z : Matrix _ _ ℂ}
    (h : overheadImpedance wires T phases hn = .ok Z) (hw : ∀ w ∈ wires, ∃ r g, w.resistance = some r ∧ w.gmr = some g ∧ 0 ≤ r)
    (I : Fin (keptPhases phases).length → ℂ) : 0 ≤ (∑ i, (starRingEnd ℂ) (I i) * ∑ j, Z i j * I j).re := by
  obtain ⟨y, -, hy⟩ := overhead_power hT h (fun w hw' => by obtain ⟨r, g, hr, hg, -⟩ := hw w hw'; simp [hr, hg]) I
  show 0 ≤ (star I ⬝ᵥ Z *ᵥ I).re
  rw [hy]
  refine add_nonneg (Finset.sum_nonneg fun a _ => mul_nonneg (resistanceAt_nonneg hw a) (Complex.normSq_nonneg _)) ?_
  exact mul_nonneg (by norm_num) (Complex.normSq_nonneg _)

/-- **C89, passivity.** An overhead line whose conductors have resistances not less than zero takes up no negative power: for every set of
phase currents the real part of the sum of current times conjugate voltage drop is not less than zero. -/
theorem C89_passive {o : Obj} {T : Table} (hT : overheadSpacing o = .ok T) (wires : List BareWire) (phases : List Char) (hn : Bool) {Z : Matrix _ _ ℂ}
    (h : overheadImpedance wires T phases hn = .ok Z) (hw : ∀ w ∈ wires, ∃ r g, w.resistance = some r ∧ w.gmr = some g ∧ 0 ≤ r)
    (I : Fin (keptPhases phases).length → ℂ) : 0 ≤ (∑ i, (starRingEnd ℂ) (I i) * ∑ j, Z i j * I j).re := overhead_passive (striped_symm hT) h hw I

theorem keptPhases_nodup (phases : List Char) : (keptPhases phases).Nodup := List.Nodup.filter _ (by decide)

theorem letter_wireAt {wires : List BareWire} {a : ℕ} (ha : a < 4) (h : spacingLetters.getD a ' ' ∈ wires.map BareWire.phase) :
    ∃ i, wireAt wires a = some i := by
  obtain ⟨w, hw, hwp⟩ := List.mem_map.1 h
  cases hwa : wireAt wires a with
  | none =>
    rw [wireAt, List.findIdx?_eq_none_iff] at hwa
    have := hwa w hw
    rw [hwp, (show ∀ a < 4, revLookup (spacingLetters.getD a ' ') = some a by decide) a ha] at this
    simp at this
  | some i => exact ⟨i, rfl⟩

theorem resistanceAt_pos {wires : List BareWire} (hw : ∀ w ∈ wires, ∃ r g, w.resistance = some r ∧ w.gmr = some g ∧ 0 < r) {a : ℕ} (ha : a < 4)
    (h : spacingLetters.getD a ' ' ∈ wires.map BareWire.phase) : 0 < resistanceAt wires a := by
  obtain ⟨i, hi⟩ := letter_wireAt ha h
  obtain ⟨hl, -⟩ := wireAt_some hi
  obtain ⟨r, g, hr, -, h0⟩ := hw wires[i] (List.getElem_mem hl)
  rw [resistanceAt, hi]
  dsimp only
  rw [List.getD_eq_getElem?_getD, List.getElem?_eq_getElem hl, Option.getD_some, hr]
  exact_mod_cast h0

/-- An overhead line whose conductors have positive resistances, one for every phase, takes up power for any currents. -/
theorem overhead_strict {T : Table} (hT : ∀ i j, stripedDistance T i j = stripedDistance T j i) {wires : List BareWire} {phases : List Char} {hn : Bool} {Z : Matrix _ _ ℂ}
    (h : overheadImpedance wires T phases hn = .ok Z) (hw : ∀ w ∈ wires, ∃ r g, w.resistance = some r ∧ w.gmr = some g ∧ 0 < r)
    (hp : ∀ p ∈ "ABC".toList, p ∈ phases → p ∈ wires.map BareWire.phase) {I : Fin (keptPhases phases).length → ℂ} (hI : I ≠ 0) :
    0 < (star I ⬝ᵥ Z *ᵥ I).re := by
  have hw' : ∀ w ∈ wires, w.resistance.isSome ∧ w.gmr.isSome := fun w h => by obtain ⟨r, g, hr, hg, -⟩ := hw w h; simp [hr, hg]
  have hw0 : ∀ w ∈ wires, ∃ r g, w.resistance = some r ∧ w.gmr = some g ∧ 0 ≤ r := fun w h => by
    obtain ⟨r, g, hr, hg, h0⟩ := hw w h; exact ⟨r, g, hr, hg, h0.le⟩
  obtain ⟨y, hyk, hy⟩ := overhead_power hT h hw' I
  obtain ⟨i, hi⟩ := Function.ne_iff.1 hI
  have hk := (keptPhases phases).get_mem i
  set k := (keptPhases phases).get i with hkdef
  have hyk' : y k.castSucc = I i := by
    rw [hyk, extend, Finset.sum_eq_single i]
    · exact if_pos rfl
    · intro b _ hb
      exact if_neg fun e => hb (List.nodup_iff_injective_get.1 (keptPhases_nodup phases) e)
    · simp
  have hkp : spacingLetters.getD k ' ' ∈ wires.map BareWire.phase := by
    have h2 := (List.mem_filter.1 hk).2
    rw [decide_eq_true_iff] at h2
    exact hp _ ((show ∀ k : Fin 3, spacingLetters.getD k ' ' ∈ "ABC".toList by decide) k) h2
  have hpos : 0 < resistanceAt wires (k.castSucc : Fin 4) * Complex.normSq (y k.castSucc) := by
    refine mul_pos (resistanceAt_pos hw (a := (k.castSucc : Fin 4)) (by omega) hkp) ?_
    rw [hyk']
    exact Complex.normSq_pos.2 hi
  have hsum := Finset.single_le_sum (f := fun a : Fin 4 => resistanceAt wires a * Complex.normSq (y a))
    (fun a _ => mul_nonneg (resistanceAt_nonneg hw0 a) (Complex.normSq_nonneg _)) (Finset.mem_univ k.castSucc)
  have h2 : 0 ≤ (9530 / 100000 : ℝ) * Complex.normSq (∑ a : Fin 4, presentAt wires a * y a) := mul_nonneg (by norm_num) (Complex.normSq_nonneg _)
  rw [hy]
  linarith

/-- **C93.** A line is accepted: if the wires can be read, have positive resistances, and there is one for every phase of the line and
for its neutral if it has one, the impedance matrix is computed, and for every length other than zero and one bus pair per phase
the line is built. -/
theorem C93_accepted {o : Obj} {T : Table} (hT : overheadSpacing o = .ok T) (wires : List BareWire) (phases : List Char) (hn : Bool)
    (hr : OverheadReadable wires T) (hw : ∀ w ∈ wires, ∃ r g, w.resistance = some r ∧ w.gmr = some g ∧ 0 < r)
    (hp : ∀ p ∈ "ABC".toList, p ∈ phases → p ∈ wires.map BareWire.phase) (hN : hn = true → 'N' ∈ wires.map BareWire.phase)
    (hsome : ∃ p ∈ "ABC".toList, p ∈ phases) (S : ℕ → ℕ → Option ℂ) (length : ℝ) (hl : length ≠ 0) (buses : List (ℕ × ℕ))
    (hb : buses.length = (keptPhases phases).length) :
    ∃ Z, overheadImpedance wires T phases hn = .ok Z ∧ ∃ e, makeUnbalanced exactInverse (perMeter Z) S length buses = .ok e := by
  have hw' : ∀ w ∈ wires, w.resistance.isSome ∧ w.gmr.isSome := fun w h => by obtain ⟨r, g, hr, hg, -⟩ := hw w h; simp [hr, hg]
  have hex : ∃ Z, overheadImpedance wires T phases hn = .ok Z := by
    rw [overheadImpedance, if_neg (not_not.2 hr)]
    cases hn with
    | false => exact ⟨_, rfl⟩
    | true =>
      have hd : ((overheadPrimitive wires T).submatrix (Fin.natAdd 3) (Fin.natAdd (m := 1) 3)).det ≠ 0 := by
        rw [det_unique, submatrix_apply]
        intro hz
        have hz : overheadPrimitive wires T 3 3 = 0 := hz
        rw [primitive_eq hw', of_apply, if_pos rfl] at hz
        have h1 := congrArg Complex.re hz
        dsimp only at h1
        obtain ⟨i, hi⟩ := letter_wireAt (wires := wires) (a := 3) (by norm_num) (hN rfl)
        have h2 := resistanceAt_pos hw (a := 3) (by norm_num) (hN rfl)
        have h3 : presentAt wires ((3 : Fin 4) : ℕ) = 1 := by
          rw [presentAt, show ((3 : Fin 4) : ℕ) = 3 from rfl, hi]; rfl
        rw [h3] at h1
        have h2 : 0 < resistanceAt wires ((3 : Fin 4) : ℕ) := h2
        rw [Complex.zero_re] at h1
        linarith
      simp only [if_true, kron_of_det hd, bind, Except.bind]
      exact ⟨_, rfl⟩
  obtain ⟨Z, hZ⟩ := hex
  refine ⟨Z, hZ, ?_⟩
  have hn3 : 1 ≤ (keptPhases phases).length ∧ (keptPhases phases).length ≤ 3 := by
    constructor
    · obtain ⟨p, hp, hpp⟩ := hsome
      have hp : p = 'A' ∨ p = 'B' ∨ p = 'C' := by simpa using hp
      rcases hp with rfl | rfl | rfl
      · exact List.length_pos_of_mem (a := (0 : Fin 3)) (List.mem_filter.2 ⟨by decide, decide_eq_true hpp⟩)
      · exact List.length_pos_of_mem (a := (1 : Fin 3)) (List.mem_filter.2 ⟨by decide, decide_eq_true hpp⟩)
      · exact List.length_pos_of_mem (a := (2 : Fin 3)) (List.mem_filter.2 ⟨by decide, decide_eq_true hpp⟩)
    · exact List.length_filter_le _ _
  refine ((C18_exact (perMeter Z) S length buses hn3 hb).1).2 ?_
  have hc : (length : ℂ) • perMeter Z = ((length : ℂ) / ((1609344 / 1000 : ℝ) : ℂ)) • Z := by
    ext i j
    simp only [Matrix.smul_apply, perMeter, smul_eq_mul]
    ring
  rw [hc, det_smul]
  have hl0 : (length : ℂ) / ((1609344 / 1000 : ℝ) : ℂ) ≠ 0 :=
    div_ne_zero (Complex.ofReal_ne_zero.2 hl) (Complex.ofReal_ne_zero.2 (by norm_num))
  refine mul_ne_zero (pow_ne_zero _ hl0) fun hd => ?_
  obtain ⟨I, hI, hZI⟩ := exists_mulVec_eq_zero_iff.2 hd
  have := overhead_strict (striped_symm hT) hZ hw hp hI
  rw [hZI, dotProduct_zero, Complex.zero_re] at this
  exact lt_irrefl _ this

/-- The wires `A` and `B` on the spacing of three conductors, without and with their distance in use. -/
theorem threeSpaced_ab : ∃ T, overheadSpacing threeSpaced = .ok T ∧ OverheadReadable [someWire 'A', someWire 'B'] T := by
  obtain ⟨T, hT⟩ := spacing_total threeSpaced_well
  have h01 : T 0 1 = 2 := spaced_entry hT (a := 0) (b := 1) (by norm_num) (by norm_num) (by norm_num) threeSpaced_spaced.1
  have hs : stripedDistance T 0 1 = some 2 := by
    rw [stripedDistance, (kept_eq hT).1, (kept_eq hT).2, threeSpaced_kept hT]
    simp [h01]
  exact ⟨T, hT, pair_readable (d := 2) (by norm_num) hs (by rw [striped_symm hT, hs]) 'A' 'B' ⟨0, by norm_num, by decide⟩ ⟨1, by norm_num, by decide⟩⟩

theorem someWires_data (ps : List Char) : ∀ w ∈ ps.map someWire, ∃ r g, w.resistance = some r ∧ w.gmr = some g ∧ 0 < r := by
  intro w hw
  obtain ⟨p, -, rfl⟩ := List.mem_map.1 hw
  exact ⟨1 / 4, 1 / 50, rfl, rfl, by norm_num⟩

/-- A line of two conductors of 100 meters: its matrix is computed and symmetric, it takes up no negative power, and it is built. -/
example : ∃ T Z, overheadSpacing threeSpaced = .ok T ∧ overheadImpedance [someWire 'A', someWire 'B'] T ['A', 'B'] false = .ok Z ∧
    (∀ i j, Z i j = Z j i) ∧ (∀ I : Fin (keptPhases ['A', 'B']).length → ℂ, 0 ≤ (∑ i, (starRingEnd ℂ) (I i) * ∑ j, Z i j * I j).re) ∧
    ∃ e, makeUnbalanced exactInverse (perMeter Z) (fun _ _ => none) 100 [(0, 2), (1, 3)] = .ok e := by
  obtain ⟨T, hT, hr⟩ := threeSpaced_ab
  obtain ⟨Z, hZ, he⟩ := C93_accepted hT [someWire 'A', someWire 'B'] ['A', 'B'] false hr (someWires_data ['A', 'B']) (by decide) (by simp)
    ⟨'A', by decide, by decide⟩ (fun _ _ => none) 100 (by norm_num) [(0, 2), (1, 3)] (by decide)
  refine ⟨T, Z, hT, hZ, C89_symmetric hT _ _ _ hZ, C89_passive hT _ _ _ hZ ?_, he⟩
  intro w hw
  obtain ⟨r, g, hr, hg, h0⟩ := someWires_data ['A', 'B'] w hw
  exact ⟨r, g, hr, hg, h0.le⟩

/-! ### C55 -/

theorem shunt_total {n : ℕ} (B : Matrix (Fin n) (Fin n) ℝ) (length : ℝ) (phases : List (ℕ × ℕ)) (hp : phases.length = n) (V : Ref → ℂ)
    (hV : ∀ p ∈ phases, V (some p.1) = V (some p.2)) (sh : ℕ → ℕ → ℝ) (hsh : ∀ i j : Fin n, sh i j = length * (B i j / (1609344 / 1000))) (i : Fin n) :
    shuntCurrent (phases.map Prod.fst) sh V i + shuntCurrent (phases.map Prod.snd) sh V i =
    ∑ j : Fin n, Complex.I * ((length / (1609344 / 1000) * B i j : ℝ) : ℂ) * V (some (phases.getD j (0, 0)).1) := by
  rw [shuntCurrent, shuntCurrent, List.length_map, List.length_map, hp, list_sum_fin, list_sum_fin, ← Finset.sum_add_distrib]
  refine Finset.sum_congr rfl fun j _ => ?_
  have hj : (j : ℕ) < phases.length := by omega
  have hv : V (some (phases.getD j (0, 0)).1) = V (some (phases.getD j (0, 0)).2) := by
    refine hV _ ?_
    rw [List.getD_eq_getElem?_getD, List.getElem?_eq_getElem hj]
    exact List.getElem_mem hj
  rw [getD_fst, getD_snd, ← hv]
  rw [hsh]
  push_cast
  ring

theorem shunt_entry {n : ℕ} (B : Matrix (Fin n) (Fin n) ℝ) (length : ℝ) (i j : Fin n) :
    (match shuntPerMeter B i j with | some s => ((length : ℂ) * s).im | none => 0) = length * (B i j / (1609344 / 1000)) := by
  rw [show shuntPerMeter B i j = some (Complex.I * ((B i j / (1609344 / 1000) : ℝ) : ℂ)) from dif_pos ⟨i.2, j.2⟩]
  dsimp only
  rw [Complex.im_ofReal_mul, Complex.I_mul_im, Complex.ofReal_re]

/-- **C55, partial: overhead lines.** A line with potential coefficients `P` (feet and miles per microfarad) has the charging
susceptance `2 π 60 · 10⁻⁶ · P⁻¹` per mile. With the same voltages at its two ends, what flows into its shunts at both ends
together is half the charging current of the line. What is missing: it should be the whole (`C55_charging_fails`). -/
theorem C55_overhead_partial {n : ℕ} (P : Matrix (Fin n) (Fin n) ℝ) (Z : Matrix (Fin n) (Fin n) ℂ) (length : ℝ) (phases : List (ℕ × ℕ)) (e : Element)
    (h : makeUnbalanced exactInverse Z (shuntPerMeter (chargingOfPotential P)) length phases = .ok e) :
    ∃ y sh, e = .unbalanced phases y sh ∧ ∀ V : Ref → ℂ, (∀ p ∈ phases, V (some p.1) = V (some p.2)) → ∀ i : Fin n,
      shuntCurrent (phases.map Prod.fst) sh V i + shuntCurrent (phases.map Prod.snd) sh V i =
        1 / 2 * ∑ j : Fin n, Complex.I * ((length / (1609344 / 1000) * (2 * Real.pi * 60 / 1000000 * P⁻¹ i j) : ℝ) : ℂ) * V (some (phases.getD j (0, 0)).1) := by
  obtain ⟨Y, -, hp, -, -, he⟩ := makeUnbalanced_ok h
  refine ⟨_, _, he, fun V hV i => ?_⟩
  rw [shunt_total _ length _ hp V hV _ (shunt_entry _ length), Finset.mul_sum]
  refine Finset.sum_congr rfl fun j _ => ?_
  rw [chargingOfPotential]
  push_cast
  ring

/-- **C55, partial: cables.** The same for cables, given the susceptance per mile of every wire: half the charging current. -/
theorem C55_cables_partial (b : Fin 3 → ℝ) (Z : Matrix (Fin 3) (Fin 3) ℂ) (length : ℝ) (phases : List (ℕ × ℕ)) (e : Element)
    (h : makeUnbalanced exactInverse Z (shuntPerMeter (cableMatrix [some (b 0), some (b 1), some (b 2)])) length phases = .ok e) :
    ∃ y sh, e = .unbalanced phases y sh ∧ ∀ V : Ref → ℂ, (∀ p ∈ phases, V (some p.1) = V (some p.2)) → ∀ i : Fin 3,
      shuntCurrent (phases.map Prod.fst) sh V i + shuntCurrent (phases.map Prod.snd) sh V i =
        1 / 2 * (Complex.I * ((length / (1609344 / 1000) * b i : ℝ) : ℂ) * V (some (phases.getD i (0, 0)).1)) := by
  obtain ⟨Y, -, hp, -, -, he⟩ := makeUnbalanced_ok h
  refine ⟨_, _, he, fun V hV i => ?_⟩
  have hi : (([some (b 0), some (b 1), some (b 2)] : List (Option ℝ)).getD i none).getD 0 = b i := by fin_cases i <;> rfl
  rw [shunt_total _ length _ hp V hV _ (shunt_entry _ length), Finset.sum_eq_single i]
  · rw [cableMatrix, if_pos rfl, hi]
    push_cast
    ring
  · intro j _ hj
    rw [cableMatrix, if_neg (Ne.symm hj)]
    simp
  · simp

/-- A line of one phase. -/
theorem oneLine_ok : ∃ e, makeUnbalanced exactInverse !![(1 : ℂ)] (shuntPerMeter (chargingOfPotential !![(1 : ℝ)])) 1 [(0, 1)] = .ok e := by
  refine ((C18_exact !![(1 : ℂ)] _ 1 [(0, 1)] (by norm_num) rfl).1).2 ?_
  rw [det_unique]
  simp

/-- **C55 fails.** A line of one meter and one phase with potential coefficient 1 and one volt at both ends: its charging current is not what
flows into its shunts. -/
theorem C55_charging_fails : ∃ y sh, makeUnbalanced exactInverse !![(1 : ℂ)] (shuntPerMeter (chargingOfPotential !![(1 : ℝ)])) 1 [(0, 1)] =
      .ok (.unbalanced [(0, 1)] y sh) ∧
    shuntCurrent [0] sh (fun _ => 1) 0 + shuntCurrent [1] sh (fun _ => 1) 0 ≠ Complex.I * ((1 / (1609344 / 1000) * (2 * Real.pi * 60 / 1000000) : ℝ) : ℂ) := by
  obtain ⟨e, he⟩ := oneLine_ok
  obtain ⟨y, sh, rfl, h⟩ := C55_overhead_partial _ _ _ _ _ he
  refine ⟨y, sh, he, ?_⟩
  have h1 := h (fun _ => 1) (by simp) 0
  have hi : (!![(1 : ℝ)] : Matrix (Fin 1) (Fin 1) ℝ)⁻¹ = 1 := by
    rw [show (!![(1 : ℝ)] : Matrix (Fin 1) (Fin 1) ℝ) = 1 by ext i j; fin_cases i; fin_cases j; rfl, inv_one]
  rw [hi] at h1
  intro hc
  have h2 : shuntCurrent [0] sh (fun _ => 1) 0 + shuntCurrent [1] sh (fun _ => 1) 0 = _ := h1
  rw [hc, Fin.sum_univ_one] at h2
  have h3 := congrArg Complex.im h2
  simp only [one_apply_eq, mul_one] at h3
  rw [Complex.I_mul_im, Complex.ofReal_re, show (1 / 2 : ℂ) = ((1 / 2 : ℝ) : ℂ) by push_cast; rfl, Complex.im_ofReal_mul, Complex.I_mul_im, Complex.ofReal_re] at h3
  have := Real.pi_pos
  linarith

/-- A line of two phases meets the hypotheses of `C55_overhead_partial`. -/
example : ∃ e, makeUnbalanced exactInverse !![(2 : ℂ), 1; 1, 2] (shuntPerMeter (chargingOfPotential !![(2 : ℝ), 1; 1, 2])) 5 [(0, 2), (1, 3)] = .ok e := by
  refine ((C18_exact _ _ 5 [(0, 2), (1, 3)] (by norm_num) rfl).1).2 ?_
  rw [det_smul, det_fin_two_of]
  norm_num

/-! ### C94, C95 -/

/-- A table with given distances to the earth and given distances of the conductors. -/
def tableOf (d : ℕ → ℕ → ℚ) (h : ℕ → ℚ) : Table := fun i j => if i = j then 0 else if j = 4 then h i else if i = 4 then h j else d i j

/-- **C94.** The potential coefficient of a conductor with itself is `11.17689 ln (2 h / r)` with height `h` and radius `r` in the same unit.
It is computed for a conductor of twelve times the diameter: inches are put into a formula with feet. -/
theorem C94_radius_fails (p : Char) (hp : p ∈ "ABCN".toList) (diam gmr r h : ℚ) (hd : 0 < diam) (hh : 0 < h) :
    potentialPrimitive [⟨p, some diam, some gmr, some r⟩] (tableOf (fun _ _ => 1) fun _ => h) 0 0 =
        1117689 / 100000 * Real.log (2 * h / ((12 * diam / 12 : ℚ) / 2 : ℝ)) ∧
    potentialPrimitive [⟨p, some diam, some gmr, some r⟩] (tableOf (fun _ _ => 1) fun _ => h) 0 0 ≠
        1117689 / 100000 * Real.log (2 * h / ((diam / 12 : ℚ) / 2 : ℝ)) := by
  have hd' : (0 : ℝ) < diam := by exact_mod_cast hd
  have hh' : (0 : ℝ) < h := by exact_mod_cast hh
  have h1 : potentialPrimitive [⟨p, some diam, some gmr, some r⟩] (tableOf (fun _ _ => 1) fun _ => h) 0 0 =
      1117689 / 100000 * Real.log (2 * h / (diam / 2 : ℝ)) := by
    have hp : p = 'A' ∨ p = 'B' ∨ p = 'C' ∨ p = 'N' := by simpa using hp
    have ha : ∃ a, revLookup p = some a ∧ a ≠ 4 := by
      rcases hp with rfl | rfl | rfl | rfl
      · exact ⟨0, by decide, by decide⟩
      · exact ⟨1, by decide, by decide⟩
      · exact ⟨2, by decide, by decide⟩
      · exact ⟨3, by decide, by decide⟩
    obtain ⟨a, ha, ha4⟩ := ha
    simp only [potentialPrimitive, List.get_eq_getElem, List.getElem_cons_zero, Fin.val_zero, if_true, Option.getD_some, ha, imageDistance, tableOf,
      if_neg ha4]
    rw [show (0 : ℝ) ^ 2 + (2 * (h : ℝ)) ^ 2 = (2 * h) ^ 2 by ring, Real.sqrt_sq (by positivity)]
    simp
  rw [h1]
  constructor
  · congr 3
    push_cast
    ring
  · intro he
    have h2 : Real.log (2 * h / (diam / 2 : ℝ)) = Real.log (2 * h / ((diam / 12 : ℚ) / 2 : ℝ)) := by linarith
    push_cast at h2
    have h3 := Real.log_injOn_pos (Set.mem_Ioi.2 (by positivity)) (Set.mem_Ioi.2 (by positivity)) h2
    rw [div_eq_div_iff (by positivity) (by positivity)] at h3
    have : (h : ℝ) * diam = 0 := by linarith
    exact absurd this (by positivity)

/-- **C94, partial.** Two phase conductors at the same height `h`, at `x a` and `x b` across the line: their potential coefficient is
`11.17689` times the logarithm of the distance from one to the mirror image of the other over the distance from one to the other.
What is missing: the coefficient of a conductor with itself (`C94_radius_fails`). -/
theorem C94_mutual_partial (wires : List BareWire) (T : Table) (x : ℕ → ℚ) (h : ℚ) (i j : Fin wires.length) (a b : ℕ) (hab : a ≠ b) (hij : i ≠ j)
    (ha : revLookup (wires.get i).phase = some a) (hb : revLookup (wires.get j).phase = some b) (ha3 : a ≠ 3) (hb3 : b ≠ 3)
    (hT : T a b = |x a - x b|) (hh : T a 4 = h) :
    potentialPrimitive wires T i j = 1117689 / 100000 *
      Real.log (‖(⟨x a, h⟩ : ℂ) - (starRingEnd ℂ) ⟨x b, h⟩‖ / ‖(⟨x a, h⟩ : ℂ) - ⟨x b, h⟩‖) := by
  simp only [potentialPrimitive, ha, hb, Option.getD_some, if_neg hij, zero_add, imageDistance, if_neg hab, if_pos (And.intro ha3 hb3), hT, hh]
  have h1 : ‖(⟨x a, h⟩ : ℂ) - (starRingEnd ℂ) ⟨x b, h⟩‖ = Real.sqrt (((|x a - x b| : ℚ) : ℝ) ^ 2 + (2 * (h : ℝ)) ^ 2) := by
    rw [Complex.norm_def, Complex.normSq_apply]
    congr 1
    simp only [Complex.sub_re, Complex.conj_re, Complex.sub_im, Complex.conj_im]
    rw [Rat.cast_abs, sq_abs]
    push_cast
    ring
  have h2 : ‖(⟨x a, h⟩ : ℂ) - ⟨x b, h⟩‖ = ((|x a - x b| : ℚ) : ℝ) := by
    rw [Complex.norm_def, Complex.normSq_apply]
    simp only [Complex.sub_re, Complex.sub_im, sub_self, mul_zero, add_zero]
    rw [Real.sqrt_mul_self_eq_abs, Rat.cast_abs, Rat.cast_sub]
  rw [h1, h2]

/-- Three conductors in a row, two of them. -/
example : revLookup (([someWire 'A', someWire 'B', someWire 'C'] : List BareWire).get (0 : Fin 3)).phase = some 0 ∧
    revLookup (([someWire 'A', someWire 'B', someWire 'C'] : List BareWire).get (2 : Fin 3)).phase = some 2 ∧
    tableOf (fun i j => |3 * (i : ℚ) - 3 * j|) (fun _ => 25) 0 2 = |3 * ((0 : ℕ) : ℚ) - 3 * ((2 : ℕ) : ℚ)| ∧
    tableOf (fun i j => |3 * (i : ℚ) - 3 * j|) (fun _ => 25) 0 4 = 25 := ⟨by decide, by decide, rfl, rfl⟩

/-- Potential coefficients of two conductors, 10 and 20 feet above the earth and 12 feet from each other. -/
noncomputable def slantedPotential : Matrix (Fin 2) (Fin 2) ℝ :=
  potentialPrimitive [⟨'A', some 1, some 1, some 1⟩, ⟨'B', some 1, some 1, some 1⟩] (tableOf (fun _ _ => 12) fun i => if i = 0 then 10 else 20)

/-- **C95 fails.** The charging matrix of two conductors of different height is not symmetric. The distance to the image of the other conductor is
computed from the height of the first alone. -/
theorem C95_symmetric_fails : slantedPotential.det ≠ 0 ∧ chargingOfPotential slantedPotential 0 1 ≠ chargingOfPotential slantedPotential 1 0 := by
  set P := slantedPotential with hP
  have s1 : Real.sqrt 400 = 20 := by rw [show (400 : ℝ) = 20 ^ 2 by norm_num]; exact Real.sqrt_sq (by norm_num)
  have s2 : Real.sqrt 1600 = 40 := by rw [show (1600 : ℝ) = 40 ^ 2 by norm_num]; exact Real.sqrt_sq (by norm_num)
  have p00 : P 0 0 = 1117689 / 100000 * Real.log 40 := by
    simp only [hP, slantedPotential, potentialPrimitive, List.get_eq_getElem, Fin.val_zero, List.getElem_cons_zero, show revLookup 'A' = some 0 by decide, Option.getD_some,
      if_true, imageDistance, tableOf]
    norm_num
    rw [s1]; norm_num
  have p11 : P 1 1 = 1117689 / 100000 * Real.log 80 := by
    simp only [hP, slantedPotential, potentialPrimitive, List.get_eq_getElem, Fin.val_one, List.getElem_cons_succ, List.getElem_cons_zero, show revLookup 'B' = some 1 by decide, Option.getD_some,
      if_true, imageDistance, tableOf]
    norm_num
    rw [s2]; norm_num
  have p01 : P 0 1 = 1117689 / 100000 * Real.log (Real.sqrt 544 / 12) := by
    simp only [hP, slantedPotential, potentialPrimitive, List.get_eq_getElem, Fin.val_zero, Fin.val_one, List.getElem_cons_succ, List.getElem_cons_zero, show revLookup 'A' = some 0 by decide,
      show revLookup 'B' = some 1 by decide, Option.getD_some, imageDistance, tableOf]
    norm_num
  have p10 : P 1 0 = 1117689 / 100000 * Real.log (Real.sqrt 1744 / 12) := by
    simp only [hP, slantedPotential, potentialPrimitive, List.get_eq_getElem, Fin.val_zero, Fin.val_one, List.getElem_cons_succ, List.getElem_cons_zero, show revLookup 'A' = some 0 by decide,
      show revLookup 'B' = some 1 by decide, Option.getD_some, imageDistance, tableOf]
    norm_num
  have b1 : Real.sqrt 544 < 24 := by rw [Real.sqrt_lt' (by norm_num)]; norm_num
  have b2 : Real.sqrt 1744 < 48 := by rw [Real.sqrt_lt' (by norm_num)]; norm_num
  have b3 : 12 < Real.sqrt 544 := by rw [Real.lt_sqrt (by norm_num)]; norm_num
  have b4 : Real.sqrt 544 < Real.sqrt 1744 := Real.sqrt_lt_sqrt (by norm_num) (by norm_num)
  have l1 : 0 < Real.log (Real.sqrt 544 / 12) := Real.log_pos (by rw [lt_div_iff₀ (by norm_num)]; linarith)
  have l2 : Real.log (Real.sqrt 544 / 12) < Real.log 40 := Real.log_lt_log (by positivity) (by rw [div_lt_iff₀ (by norm_num)]; linarith)
  have l3 : Real.log (Real.sqrt 1744 / 12) < Real.log 80 := Real.log_lt_log (by positivity) (by rw [div_lt_iff₀ (by norm_num)]; linarith)
  have l4 : Real.log (Real.sqrt 544 / 12) < Real.log (Real.sqrt 1744 / 12) := Real.log_lt_log (by positivity) (by
    rw [div_lt_div_iff_of_pos_right (by norm_num)]; exact b4)
  have hdet : 0 < P.det := by
    have e : P.det = P 0 0 * P 1 1 - P 0 1 * P 1 0 := det_fin_two P
    rw [e, p00, p11, p01, p10]
    have := mul_lt_mul l2 l3.le (l1.trans l4) (l1.trans l2).le
    nlinarith
  refine ⟨hdet.ne', fun he => ?_⟩
  have hinv : ∀ Q : Matrix (Fin 2) (Fin 2) ℝ, Q⁻¹ = Ring.inverse Q.det • !![Q 1 1, -Q 0 1; -Q 1 0, Q 0 0] := fun Q => by
    rw [inv_def, adjugate_fin_two]
  have h01 : P⁻¹ 0 1 = P.det⁻¹ * -P 0 1 := by
    have := congrFun (congrFun (hinv P) 0) 1
    rw [Ring.inverse_eq_inv'] at this
    simpa using this
  have h10 : P⁻¹ 1 0 = P.det⁻¹ * -P 1 0 := by
    have := congrFun (congrFun (hinv P) 1) 0
    rw [Ring.inverse_eq_inv'] at this
    simpa using this
  rw [chargingOfPotential, chargingOfPotential] at he
  have hpi := Real.pi_pos
  have h5 : P⁻¹ 0 1 = P⁻¹ 1 0 := by
    have hc : (0 : ℝ) < 2 * Real.pi * 60 * (1 / 1000000) := by positivity
    have he : 2 * Real.pi * 60 * (1 / 1000000) * P⁻¹ 0 1 = 2 * Real.pi * 60 * (1 / 1000000) * P⁻¹ 1 0 := by linarith
    exact mul_left_cancel₀ hc.ne' he
  rw [h01, h10, p01, p10] at h5
  have h6 := mul_left_cancel₀ (inv_ne_zero hdet.ne') h5
  linarith

/-- **C95, partial.** Conductors of one height, all distances the same in both directions, no neutral: the charging matrix is symmetric. What is
missing: different heights (`C95_symmetric_fails`), and neutrals. -/
theorem C95_level_partial (wires : List BareWire) (T : Table) (h : ℚ) (hT : ∀ i j, T i j = T j i)
    (hh : ∀ w ∈ wires, ∃ a, revLookup w.phase = some a ∧ a ≠ 3 ∧ T a 4 = h) (i j : Fin wires.length) :
    chargingOfPotential (potentialPrimitive wires T) i j = chargingOfPotential (potentialPrimitive wires T) j i := by
  have hP : (potentialPrimitive wires T)ᵀ = potentialPrimitive wires T := by
    ext i j
    rw [transpose_apply]
    by_cases e : i = j
    · rw [e]
    · obtain ⟨a, ha, ha3, hah⟩ := hh (wires.get i) (wires.get_mem i)
      obtain ⟨b, hb, hb3, hbh⟩ := hh (wires.get j) (wires.get_mem j)
      simp only [potentialPrimitive, ha, hb, Option.getD_some, if_neg e, if_neg (Ne.symm e), imageDistance, hT b a, hah, hbh]
      by_cases eab : a = b
      · rw [eab]
      · rw [if_neg eab, if_neg (Ne.symm eab), if_pos ⟨hb3, ha3⟩, if_pos ⟨ha3, hb3⟩]
  rw [chargingOfPotential, chargingOfPotential]
  conv_lhs => rw [← hP, ← transpose_nonsing_inv, transpose_apply]

/-- Three conductors in a row. -/
example : ∀ w ∈ ['A', 'B', 'C'].map someWire, ∃ a, revLookup w.phase = some a ∧ a ≠ 3 ∧ tableOf (fun i j => |(i : ℚ) - j| * 3) (fun _ => 25) a 4 = 25 := by
  intro w hw
  obtain ⟨p, hp, rfl⟩ := List.mem_map.1 hw
  have hp : p = 'A' ∨ p = 'B' ∨ p = 'C' := by simpa using hp
  rcases hp with rfl | rfl | rfl
  · exact ⟨0, by decide, by decide, rfl⟩
  · exact ⟨1, by decide, by decide, rfl⟩
  · exact ⟨2, by decide, by decide, rfl⟩

/-! ### Examples -/

/-- Two neutrals that are the same conductor: nothing is computed. -/
example (Z : Matrix (Fin 1) (Fin 1) ℚ) : kronReduction !![3] !![1, 1] !![1; 1] !![2, 2; 2, 2] ≠ .ok Z :=
  C53_singular (by rw [Matrix.det_fin_two_of]; norm_num) Z

/-- Three cables with susceptances 1, 2 and 3 per mile, 1609.344 metres long, with the impedance matrix one: accepted, and half the
charging current flows at 10 volts. -/
example : ∃ e y sh, makeUnbalanced exactInverse (1 : Matrix (Fin 3) (Fin 3) ℂ) (shuntPerMeter (cableMatrix [some 1, some 2, some 3])) (1609344 / 1000)
      [(0, 3), (1, 4), (2, 5)] = .ok e ∧ e = .unbalanced [(0, 3), (1, 4), (2, 5)] y sh ∧
    shuntCurrent [0, 1, 2] sh (fun _ => 10) 1 + shuntCurrent [3, 4, 5] sh (fun _ => 10) 1 = 1 / 2 * (Complex.I * 2 * 10) := by
  obtain ⟨e, he⟩ := (C18_exact (1 : Matrix (Fin 3) (Fin 3) ℂ) (shuntPerMeter (cableMatrix [some 1, some 2, some 3])) (1609344 / 1000)
    [(0, 3), (1, 4), (2, 5)] (by omega) rfl).1.2 (by rw [Matrix.det_smul]; norm_num)
  obtain ⟨y, sh, h1, h2⟩ := C55_cables_partial ![1, 2, 3] _ _ _ e he
  refine ⟨e, y, sh, he, h1, ?_⟩
  have := h2 (fun _ => 10) (fun _ _ => rfl) 1
  simp only [List.map_cons, List.map_nil] at this
  rw [show ((1 : Fin 3) : ℕ) = 1 from rfl] at this
  rw [this]
  norm_num

/-- One overhead conductor with the potential coefficient 2, a mile long. -/
example : ∃ e y sh, makeUnbalanced exactInverse (1 : Matrix (Fin 1) (Fin 1) ℂ) (shuntPerMeter (chargingOfPotential !![(2 : ℝ)])) (1609344 / 1000)
      [(0, 1)] = .ok e ∧ e = .unbalanced [(0, 1)] y sh ∧
    shuntCurrent [0] sh (fun _ => 1) 0 + shuntCurrent [1] sh (fun _ => 1) 0 = 1 / 2 * (Complex.I * ((2 * Real.pi * 60 / 1000000 * (1 / 2) : ℝ) : ℂ)) := by
  obtain ⟨e, he⟩ := (C18_exact (1 : Matrix (Fin 1) (Fin 1) ℂ) (shuntPerMeter (chargingOfPotential !![(2 : ℝ)])) (1609344 / 1000)
    [(0, 1)] (by omega) rfl).1.2 (by rw [Matrix.det_smul]; norm_num)
  obtain ⟨y, sh, h1, h2⟩ := C55_overhead_partial !![(2 : ℝ)] _ _ _ e he
  refine ⟨e, y, sh, he, h1, ?_⟩
  have := h2 (fun _ => 1) (fun _ _ => rfl) 0
  have hi : (!![(2 : ℝ)] : Matrix (Fin 1) (Fin 1) ℝ)⁻¹ 0 0 = 1 / 2 := by
    rw [Matrix.inv_def]; simp
  simp only [List.map_cons, List.map_nil, Fin.sum_univ_one, hi] at this
  rw [show ((0 : Fin 1) : ℕ) = 0 from rfl] at this
  rw [this]
  norm_num

end Verif.Glm
