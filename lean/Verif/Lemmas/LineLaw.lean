import Verif.Spec.LineLaw
import Verif.Props.LineBuilt

/-!
# Lemmas on the laws of lines
-/

namespace Verif.Glm

open Matrix

/-! ### Elimination of neutrals -/

theorem sum_getD {ps : List Char} {n : ℕ} (hn : ps.length = n) (f : Char → ℂ) : ∑ j : Fin n, f (ps.getD j 'A') = (ps.map f).sum := by
  subst hn
  rw [← Fin.sum_univ_fun_getElem]
  exact Finset.sum_congr rfl fun i _ => by rw [List.getD_eq_getElem?_getD, List.getElem?_eq_getElem i.2]; rfl

theorem forall_getD {ps : List Char} {n : ℕ} (hn : ps.length = n) (P : Char → Prop) : (∀ i : Fin n, P (ps.getD i 'A')) ↔ ∀ p ∈ ps, P p := by
  subst hn
  constructor
  · intro h p hp
    obtain ⟨i, hi, rfl⟩ := List.getElem_of_mem hp
    have := h ⟨i, hi⟩
    rwa [List.getD_eq_getElem?_getD, List.getElem?_eq_getElem hi] at this
  · intro h i
    rw [List.getD_eq_getElem?_getD, List.getElem?_eq_getElem i.2]
    exact h _ (List.getElem_mem i.2)

/-- The elimination of the neutrals: the reduced matrix gives the law of the line. -/
theorem kron_law {n m : ℕ} {Zij : Matrix (Fin n) (Fin n) ℂ} {Zin : Matrix (Fin n) (Fin m) ℂ} {Znj : Matrix (Fin m) (Fin n) ℂ} {Znn : Matrix (Fin m) (Fin m) ℂ}
    {Z : Matrix (Fin n) (Fin n) ℂ} (h : kronReduction Zij Zin Znj Znn = .ok Z) {s : LineSpan} (hn : s.phases.length = n) (hm : s.neutrals.length = m)
    (hd : s.neutrals.Nodup)
    (h11 : ∀ i j, Zij i j = s.z (false, s.phases.getD i 'A') (false, s.phases.getD j 'A'))
    (h12 : ∀ i j, Zin i j = s.z (false, s.phases.getD i 'A') (true, s.neutrals.getD j 'A'))
    (h21 : ∀ i j, Znj i j = s.z (true, s.neutrals.getD i 'A') (false, s.phases.getD j 'A'))
    (h22 : ∀ i j, Znn i j = s.z (true, s.neutrals.getD i 'A') (true, s.neutrals.getD j 'A')) (U I : Char → ℂ) :
    (∀ i : Fin n, U (s.phases.getD i 'A') = s.miles * (Z *ᵥ fun j : Fin n => I (s.phases.getD j 'A')) i) ↔ s.Law U I := by
  obtain ⟨hdet, rfl⟩ := kron_ok h
  have drop1 : ∀ J : Bool × Char → ℂ, ∀ i : Fin n, s.drop J (false, s.phases.getD i 'A') =
      (Zij *ᵥ (fun j : Fin n => J (false, s.phases.getD j 'A')) + Zin *ᵥ fun j : Fin m => J (true, s.neutrals.getD j 'A')) i := by
    intro J i
    rw [LineSpan.drop, ← sum_getD hn, ← sum_getD hm, Pi.add_apply, mulVec, mulVec, dotProduct, dotProduct]
    simp only [h11, h12]
  have drop2 : ∀ J : Bool × Char → ℂ, ∀ i : Fin m, s.drop J (true, s.neutrals.getD i 'A') =
      (Znj *ᵥ (fun j : Fin n => J (false, s.phases.getD j 'A')) + Znn *ᵥ fun j : Fin m => J (true, s.neutrals.getD j 'A')) i := by
    intro J i
    rw [LineSpan.drop, ← sum_getD hn, ← sum_getD hm, Pi.add_apply, mulVec, mulVec, dotProduct, dotProduct]
    simp only [h21, h22]
  constructor
  · intro hU
    set x : Fin n → ℂ := fun j => I (s.phases.getD j 'A')
    set y : Fin m → ℂ := -(Znn⁻¹ *ᵥ (Znj *ᵥ x))
    let J : Bool × Char → ℂ := fun c => if c.1 then (if hi : s.neutrals.idxOf c.2 < m then y ⟨_, hi⟩ else 0) else I c.2
    have hJ : (fun j : Fin m => J (true, s.neutrals.getD j 'A')) = y := by
      funext j
      have hj : j.val < s.neutrals.length := by rw [hm]; exact j.2
      have e : s.neutrals.idxOf (s.neutrals.getD j 'A') = j := by
        rw [List.getD_eq_getElem?_getD, List.getElem?_eq_getElem hj]
        exact hd.idxOf_getElem _ hj
      simp only [J, if_true, e, dif_pos j.2]
    have hx : (fun j : Fin n => J (false, s.phases.getD j 'A')) = x := rfl
    refine ⟨J, fun p _ => rfl, (forall_getD hn fun p => U p = s.miles * s.drop J (false, p)).1 fun i => ?_,
      (forall_getD hm fun p => s.drop J (true, p) = 0).1 fun i => ?_⟩
    · rw [drop1, hJ, hx, hU i, kron_voltage]
    · rw [drop2, hJ, hx, (kron_current hdet x y).2 rfl]
      rfl
  · rintro ⟨J, hI, hU, h0⟩ i
    have hx : (fun j : Fin n => J (false, s.phases.getD j 'A')) = fun j : Fin n => I (s.phases.getD j 'A') :=
      funext ((forall_getD hn fun p => J (false, p) = I p).2 hI)
    have h0' : Znj *ᵥ (fun j : Fin n => I (s.phases.getD j 'A')) + Znn *ᵥ (fun j : Fin m => J (true, s.neutrals.getD j 'A')) = 0 := by
      funext i
      rw [← hx, ← drop2]
      exact (forall_getD hm fun p => s.drop J (true, p) = 0).2 h0 i
    rw [(forall_getD hn fun p => U p = s.miles * s.drop J (false, p)).2 hU i, drop1, hx, (kron_current hdet _ _).1 h0', kron_voltage]

/-! ### Objects -/

theorem Valued.same {o o' : Obj} (h : SameObj o o') {a : String} {x : ℚ} (hv : Valued o a x) : Valued o' a x := by
  obtain ⟨t, ht, hn⟩ := hv
  rcases h.clean a.toList with e | ⟨t', ht', e⟩
  · exact ⟨t, by rw [e, ht], hn⟩
  · rw [ht] at ht'
    cases ht'
    refine ⟨t, ?_, hn⟩
    rw [e]
    have := removeNonnum_spaced hn (u := []) (Or.inl rfl)
    rw [List.append_nil] at this
    rw [this]

theorem Valued.float {o : Obj} {a : String} {x : ℚ} (h : Valued o a x) : floatAttribute o a.toList = .ok (some x) := by
  obtain ⟨t, ht, hn⟩ := h
  rw [floatAttribute, Obj.get, show lookup a.toList o.attrs = some t from ht]
  simp only [floatOf_numeral hn, bind, Except.bind]

theorem Valued.unit {o : Obj} {a : String} {x : ℚ} (h : Valued o a x) {c : Char} {u : Txt} (hc : (c.isDigit || c = '.') = false) (f : ℚ) :
    unitAttribute o a.toList (c :: u) f = .ok (some x, o) := by
  obtain ⟨t, ht, hn⟩ := h
  rw [unitAttribute, Obj.get, show lookup a.toList o.attrs = some t from ht]
  simp only [find_plain hn.plain hc, Bool.false_eq_true, if_false, floatOf_numeral hn, bind, Except.bind]

/-- What the conductors give is what the wires have, if reading a conductor does not change it. -/
theorem readWires_each {α : Type} {read : Obj → Char → Py (α × Obj)} {P : Char → α → Prop} {Q : Char → Obj → Prop}
    (hr : ∀ o p w, read o p = .ok w → Q p o → P p w.1 ∧ w.2 = o)
    {names : List (Char × Txt)} {objs : List (Txt × Obj)} {r : List α × List (Txt × Obj)} (h : readWires read objs names = .ok r)
    (hn : ∀ x ∈ names, ∀ o, lookup x.2 objs = some o → Q x.1 o) : List.Forall₂ (fun x w => P x.1 w) names r.1 ∧ ∀ k, lookup k r.2 = lookup k objs := by
  induction names generalizing objs r with
  | nil => cases h; exact ⟨.nil, fun _ => rfl⟩
  | cons x names ih =>
    obtain ⟨p, n⟩ := x
    rw [readWires] at h
    split at h
    · cases h
    · rename_i o ho
      obtain ⟨w, hw, h⟩ := bind_eq_ok h
      obtain ⟨_, -, h⟩ := bind_eq_ok h
      obtain ⟨r', hr', h⟩ := bind_eq_ok h
      cases h
      obtain ⟨hP, hQ⟩ := hr o p w hw (hn (p, n) (by simp) o ho)
      have hsame : ∀ k, lookup k (store n w.2 objs) = lookup k objs := by
        intro k
        by_cases e : k = n
        · rw [e, lookup_store_self, hQ, ho]
        · exact lookup_store_ne _ e _
      obtain ⟨h1, h2⟩ := ih hr' fun y hy o' ho' => hn y (List.mem_cons_of_mem _ hy) o' (by rw [← hsame]; exact ho')
      exact ⟨.cons hP h1, fun k => by rw [h2, hsame]⟩

theorem forall₂_attr {α : Type} {P : Char → α → Prop} {phase : α → Char} (hp : ∀ p w, P p w → phase w = p) {names : List (Char × Txt)} {ws : List α}
    (h : List.Forall₂ (fun x w => P x.1 w) names ws) : ∀ w ∈ ws, P (phase w) w := by
  intro w hw
  obtain ⟨x, -, hx⟩ := forall₂_mem_right h hw
  rw [hp _ _ hx]
  exact hx

theorem names_conductors {objs : List (Txt × Obj)} {c : Obj} {ps : List Char} {Q : Char → Obj → Prop}
    (h : ∀ p ∈ conductorLetters c ps, ∃ w, Refers objs c ("conductor_".toList ++ [p]) w ∧ Q p w) :
    ∀ x ∈ conductorNames c ps, ∀ o, lookup x.2 objs = some o → Q x.1 o := by
  intro x hx o ho
  obtain ⟨p, hp, hx⟩ := List.mem_filterMap.1 hx
  obtain ⟨n, hn, rfl⟩ := Option.map_eq_some_iff.1 hx
  obtain ⟨w, ⟨n', hn', hw⟩, hq⟩ := h p (List.mem_filter.2 ⟨hp, by rw [hn]; rfl⟩)
  rw [hn, Option.some.injEq] at hn'
  subst hn'
  rw [ho, Option.some.injEq] at hw
  subst hw
  exact hq

theorem refers_unique {objs : List (Txt × Obj)} {o x y : Obj} {a : Txt} (hx : Refers objs o a x) (hy : Refers objs o a y) : x = y := by
  obtain ⟨n, h1, h2⟩ := hx
  obtain ⟨m, h3, h4⟩ := hy
  rw [h1, Option.some.injEq] at h3
  subst h3
  rw [h2, Option.some.injEq] at h4
  exact h4

/-! ### Overhead lines -/

theorem overheadConductor_valued {o : Obj} {p : Char} {w : BareWire × Obj} (h : overheadConductor o p = .ok w) {r g : ℚ} (hr : Valued o "resistance" r)
    (hg : Valued o "geometric_mean_radius" g) : (w.1.phase = p ∧ w.1.resistance = some r ∧ w.1.gmr = some g) ∧ w.2 = o := by
  rw [overheadConductor] at h
  obtain ⟨d, -, h⟩ := bind_eq_ok h
  rw [show "cm".toList = 'c' :: "m".toList from rfl, hg.unit (by decide)] at h
  rw [show "Ohm/km".toList = 'O' :: "hm/km".toList from rfl] at h
  simp only [bind, Except.bind, hr.unit (c := 'O') (u := "hm/km".toList) (by decide)] at h
  cases h
  exact ⟨⟨rfl, rfl, rfl⟩, rfl⟩

/-- Carson's impedances by letters. -/
noncomputable def carsonLetters (r g : Char → ℚ) (D : Char → Char → ℚ) (x y : Char) : ℂ :=
  earthReturn (953 / 10000) (793402 / 100000) (fun x => (r x : ℝ)) (fun x => (g x : ℝ)) (fun x y => (D x y : ℝ)) x y

theorem letterOf_revLookup : ∀ a : Fin 4, letterOf a = spacingLetters.getD a ' ' ∧ revLookup (letterOf a) = some a.val := by decide

theorem letterOf_inj : ∀ a b : Fin 4, letterOf a = letterOf b → a = b := by decide

theorem revLookup_letter (a : Fin 4) (c : Char) (hc : revLookup c = some a.val) : c = letterOf a := by
  rw [revLookup, List.findIdx?_eq_some_iff_getElem] at hc
  obtain ⟨hl, hc, -⟩ := hc
  rw [decide_eq_true_iff] at hc
  rw [← hc, (letterOf_revLookup a).1, List.getD_eq_getElem?_getD, List.getElem?_eq_getElem hl]
  rfl

theorem wireAt_letter {wires : List BareWire} (a : Fin 4) (ha : letterOf a ∈ wires.map BareWire.phase) :
    ∃ i, ∃ hi : i < wires.length, wireAt wires a = some i ∧ wires[i].phase = letterOf a := by
  obtain ⟨w, hw, hwp⟩ := List.mem_map.1 ha
  cases hwa : wireAt wires a with
  | none =>
    rw [wireAt, List.findIdx?_eq_none_iff] at hwa
    have := hwa w hw
    rw [hwp, (letterOf_revLookup a).2] at this
    simp at this
  | some i =>
    obtain ⟨hi, h⟩ := wireAt_some hwa
    exact ⟨i, hi, rfl, revLookup_letter a _ h⟩

theorem wireAt_absent {wires : List BareWire} (a : Fin 4) (ha : letterOf a ∉ wires.map BareWire.phase) : wireAt wires a = none := by
  cases hwa : wireAt wires a with
  | none => rfl
  | some i =>
    obtain ⟨hi, h⟩ := wireAt_some hwa
    exact absurd (List.mem_map.2 ⟨_, List.getElem_mem hi, revLookup_letter a _ h⟩) ha

/-- The entries of the matrix of an overhead line. -/
theorem overhead_entry {o : Obj} (ho : WellSpaced o) {wires : List BareWire} (hs : (wires.map BareWire.phase).Sublist "ABCN".toList)
    (hm : ∀ x ∈ "ABCN".toList, (x ∈ wires.map BareWire.phase ↔ ∃ y d, Spaced o x y d)) {T : Table} (hT : overheadSpacing o = .ok T) {r g : Char → ℚ}
    {D : Char → Char → ℚ} (hw : ∀ w ∈ wires, w.resistance = some (r w.phase) ∧ w.gmr = some (g w.phase))
    (hD : ∀ p ∈ wires.map BareWire.phase, ∀ q ∈ wires.map BareWire.phase, p ≠ q → 0 < D p q ∧ Spaced o p q (D p q)) (a b : Fin 4)
    (ha : letterOf a ∈ wires.map BareWire.phase) (hb : letterOf b ∈ wires.map BareWire.phase) :
    overheadPrimitive wires T a b = carsonLetters r g D (letterOf a) (letterOf b) := by
  by_cases hab : a = b
  · subst hab
    obtain ⟨i, hi, ei, pi⟩ := wireAt_letter a ha
    obtain ⟨h1, h2⟩ := hw _ (List.getElem_mem hi)
    rw [overheadPrimitive, ei]
    dsimp only
    rw [if_pos rfl, List.getD_eq_getElem?_getD, List.getElem?_eq_getElem hi, Option.getD_some, wireImpedance, h1, h2, pi]
    simp only [selfImpedance, carsonLetters, earthReturn, Bool.false_eq_true, if_false, if_true]
    congr 2
    norm_num
  · obtain ⟨T', hT', h⟩ := C54_distance_partial ho hs hm
    rw [hT] at hT'
    cases hT'
    have hne : letterOf a ≠ letterOf b := fun e => hab (letterOf_inj a b e)
    obtain ⟨hpos, hsp⟩ := hD _ ha _ hb hne
    rw [h a b _ ha hb hab hpos hsp, carsonLetters, earthReturn, if_neg hne]

theorem overhead_absent {wires : List BareWire} {T : Table} (a b : Fin 4) (ha : letterOf a ∉ wires.map BareWire.phase) : overheadPrimitive wires T a b = 0 := by
  rw [overheadPrimitive, wireAt_absent a ha]

theorem kept_letters {phases : List Char} {q : Char → Bool} (h : ∀ p ∈ "ABC".toList, q p = true ↔ p ∈ phases) :
    (keptPhases phases).map (fun i => letterOf (Fin.castAdd 1 i)) = "ABC".toList.filter q := by
  have e : ∀ p ∈ "ABC".toList, q p = decide (p ∈ phases) := fun p hp => by rw [Bool.eq_iff_iff, h p hp, decide_eq_true_iff]
  have hA := e 'A' (by decide)
  have hB := e 'B' (by decide)
  have hC := e 'C' (by decide)
  rw [show "ABC".toList = ['A', 'B', 'C'] from rfl, keptPhases, show spacingLetters = ['A', 'B', 'C', 'N', 'E'] from rfl]
  simp only [List.filter_cons, hA, hB, hC]
  by_cases h1 : 'A' ∈ phases <;> by_cases h2 : 'B' ∈ phases <;> by_cases h3 : 'C' ∈ phases <;> simp [h1, h2, h3] <;> decide

theorem kron_submatrix {n m n' : ℕ} {Zij : Matrix (Fin n) (Fin n) ℂ} {Zin : Matrix (Fin n) (Fin m) ℂ} {Znj : Matrix (Fin m) (Fin n) ℂ} {Znn : Matrix (Fin m) (Fin m) ℂ}
    {Z : Matrix (Fin n) (Fin n) ℂ} (h : kronReduction Zij Zin Znj Znn = .ok Z) (f : Fin n' → Fin n) :
    kronReduction (Zij.submatrix f f) (Zin.submatrix f id) (Znj.submatrix id f) Znn = .ok (Z.submatrix f f) := by
  obtain ⟨hd, rfl⟩ := kron_ok h
  rw [kron_of_det hd]
  rfl

theorem kron_empty {n : ℕ} (Z : Matrix (Fin n) (Fin n) ℂ) (Zin : Matrix (Fin n) (Fin 0) ℂ) (Znj : Matrix (Fin 0) (Fin n) ℂ) (Znn : Matrix (Fin 0) (Fin 0) ℂ) :
    kronReduction Z Zin Znj Znn = .ok Z := by
  rw [kron_of_det (by simp)]
  congr 1
  ext i j
  simp [Matrix.mul_apply]

theorem getD_map_get {α : Type} (l : List α) (f : α → Char) (i : Fin l.length) : (l.map f).getD i 'A' = f (l.get i) := by
  rw [List.getD_eq_getElem?_getD, List.getElem?_map, List.getElem?_eq_getElem i.2]
  rfl

/-- The law of an overhead line from its matrix. -/
theorem overhead_law {wires : List BareWire} {T : Table} {phases : List Char} {hasN : Bool} {Z : Matrix _ _ ℂ}
    (h : overheadImpedance wires T phases hasN = .ok Z) {z : Char → Char → ℂ} {q : Char → Bool} (hq : ∀ p ∈ "ABC".toList, q p = true ↔ p ∈ phases)
    (hmem : ∀ p ∈ "ABCN".toList, p ∈ wires.map BareWire.phase ↔ q p = true)
    (hz : ∀ a b : Fin 4, letterOf a ∈ wires.map BareWire.phase → letterOf b ∈ wires.map BareWire.phase → overheadPrimitive wires T a b = z (letterOf a) (letterOf b))
    {s : LineSpan} (hp : s.phases = "ABC".toList.filter q) (hn : s.neutrals = if hasN then "N".toList.filter q else [])
    (hsz : ∀ x y, (x = y ↔ x.2 = y.2) → s.z x y = z x.2 y.2) (U I : Char → ℂ) :
    s.phases.length = (keptPhases phases).length ∧
    ((∀ i : Fin (keptPhases phases).length, U (s.phases.getD i 'A') = s.miles * (Z *ᵥ fun j : Fin (keptPhases phases).length => I (s.phases.getD j 'A')) i) ↔ s.Law U I) := by
  obtain ⟨-, R, rfl, hR⟩ := overheadImpedance_ok h
  have hk : s.phases = (keptPhases phases).map (fun i => letterOf (Fin.castAdd 1 i)) := by rw [hp, kept_letters hq]
  have hlen : s.phases.length = (keptPhases phases).length := by rw [hk, List.length_map]
  have hget : ∀ i : Fin (keptPhases phases).length, s.phases.getD i 'A' = letterOf (Fin.castAdd 1 ((keptPhases phases).get i)) := by
    intro i
    rw [hk, getD_map_get]
  have hABC : ∀ i : Fin 3, letterOf (Fin.castAdd 1 i) ∈ "ABCN".toList ∧ letterOf (Fin.castAdd 1 i) ≠ 'N' := by decide
  have hin : ∀ i : Fin (keptPhases phases).length, letterOf (Fin.castAdd 1 ((keptPhases phases).get i)) ∈ wires.map BareWire.phase := by
    intro i
    rw [hmem _ (hABC _).1, ← hget]
    have : s.phases.getD i 'A' ∈ s.phases := by
      rw [List.getD_eq_getElem?_getD, List.getElem?_eq_getElem (by rw [hlen]; exact i.2)]
      exact List.getElem_mem _
    rw [hp, List.mem_filter] at this
    rw [hp]
    exact this.2
  refine ⟨hlen, ?_⟩
  cases hasN with
  | false =>
    rw [if_neg (by decide)] at hn hR
    cases hR
    refine kron_law (kron_empty _ 0 0 0) hlen (by rw [hn]; rfl) (by rw [hn]; exact List.nodup_nil) (fun i j => ?_) (fun _ j => j.elim0) (fun j => j.elim0) (fun j => j.elim0) U I
    rw [hsz _ _ (by simp), hget, hget]
    exact hz _ _ (hin i) (hin j)
  | true =>
    rw [if_pos rfl] at hn hR
    have hN : letterOf 3 ∈ wires.map BareWire.phase := by
      by_contra hc
      refine (kron_ok hR).1 ?_
      rw [det_unique]
      exact overhead_absent 3 3 hc
    have hn1 : s.neutrals = ['N'] := by
      rw [hn]
      have := (hmem 'N' (by decide)).1 hN
      rw [show "N".toList = ['N'] from rfl, List.filter_cons_of_pos this]
      rfl
    have hnat : ∀ j : Fin 1, (Fin.natAdd 3 j : Fin 4) = 3 := by decide
    have hne : ∀ i : Fin 3, 'N' ≠ letterOf (Fin.castAdd 1 i) := fun i => (hABC i).2.symm
    refine kron_law (kron_submatrix hR _) hlen (by rw [hn1]; rfl) (by rw [hn1]; simp) (fun i j => ?_) (fun i j => ?_) (fun i j => ?_) (fun i j => ?_) U I
    · rw [hsz _ _ (by simp), hget, hget]
      exact hz _ _ (hin i) (hin j)
    · rw [hn1, hget, show ['N'].getD j 'A' = 'N' by revert j; decide, hsz _ _ (by simp [(hne _).symm])]
      rw [submatrix_apply, submatrix_apply, id, hnat]
      exact hz _ _ (hin i) hN
    · rw [hn1, hget, show ['N'].getD i 'A' = 'N' by revert i; decide, hsz _ _ (by simp [hne])]
      rw [submatrix_apply, submatrix_apply, id, hnat]
      exact hz _ _ hN (hin j)
    · rw [hn1, show ['N'].getD i 'A' = 'N' by revert i; decide, show ['N'].getD j 'A' = 'N' by revert j; decide, hsz _ _ (by simp)]
      rw [submatrix_apply, hnat, hnat]
      exact hz _ _ hN hN

/-! ### Triplex lines -/

theorem triplexConductor_valued {o : Obj} {p : Char} {w : TriplexWire × Obj} (h : triplexConductor o p = .ok w) {r g : ℚ} (hr : Valued o "resistance" r)
    (hg : Valued o "geometric_mean_radius" g) : w.1 = ⟨p, some g, some r⟩ ∧ w.2 = o := by
  rw [triplexConductor, hg.float, hr.float] at h
  cases h
  exact ⟨rfl, rfl⟩

theorem triplexDistances_valued {c : Obj} {d t : ℚ} (hd : Valued c "diameter" d) (ht : Valued c "insulation_thickness" t) (w : TriplexWire) (ws : List TriplexWire) :
    triplexDistances c (w :: ws) = .ok (some ((d + 2 * t) / 12, (d + t) / 12)) := by
  rw [triplexDistances, hd.float, ht.float]
  rfl

/-- The wires of a triplex line. -/
def triplexWires (r g : Char → ℚ) : List TriplexWire := "12N".toList.map fun p => ⟨p, some (g p), some (r p)⟩

theorem triplexAt_wires (r g : Char → ℚ) (a : Fin 3) : triplexAt (triplexWires r g) a =
    some ⟨"12N".toList.getD a 'A', some (g ("12N".toList.getD a 'A')), some (r ("12N".toList.getD a 'A'))⟩ := by
  fin_cases a <;> rfl

/-- The law of a triplex line from its matrix. -/
theorem triplex_law {r g : Char → ℚ} {d t : ℚ} {Z : Matrix (Fin 2) (Fin 2) ℂ}
    (h : triplexImpedance (triplexWires r g) (some ((d + 2 * t) / 12, (d + t) / 12)) = .ok Z) {s : LineSpan} (hp : s.phases = "12".toList)
    (hn : s.neutrals = "N".toList) (hz : s.z = earthReturn (953 / 10000) (793402 / 100000) (fun x => (r x.2 : ℝ)) (fun x => (g x.2 : ℝ))
      (fun x y => (((if x.1 || y.1 then d + t else d + 2 * t) / 12 : ℚ) : ℝ))) (U I : Char → ℂ) :
    (∀ i : Fin 2, U (s.phases.getD i 'A') = s.miles * (Z *ᵥ fun j : Fin 2 => I (s.phases.getD j 'A')) i) ↔ s.Law U I := by
  have he : ∀ a b : Fin 3, triplexPrimitive (triplexWires r g) (some ((d + 2 * t) / 12, (d + t) / 12)) a b =
      s.z (decide (2 ≤ a.val), "12N".toList.getD a 'A') (decide (2 ≤ b.val), "12N".toList.getD b 'A') := by
    intro a b
    rw [triplexPrimitive, triplexAt_wires, triplexAt_wires, hz, earthReturn]
    dsimp only
    by_cases hab : a = b
    · subst hab
      rw [if_pos rfl, if_pos rfl]
      simp only [selfImpedance, Bool.false_eq_true, if_false]
      congr 2
      norm_num
    · have hne : ¬ ((decide (2 ≤ a.val), "12N".toList.getD a 'A') : Bool × Char) = (decide (2 ≤ b.val), "12N".toList.getD b 'A') := fun e =>
        hab ((show ∀ a b : Fin 3, "12N".toList.getD a 'A' = "12N".toList.getD b 'A' → a = b by decide) a b (congrArg Prod.snd e))
      rw [if_neg hab, if_neg hne]
      have hN : ∀ a : Fin 3, "12N".toList.getD a 'A' = 'N' ↔ decide (2 ≤ a.val) = true := by decide
      simp only [hN]
      simp only [mutualImpedance, Bool.false_eq_true, if_false]
      cases decide (2 ≤ a.val) <;> cases decide (2 ≤ b.val) <;> simp <;> norm_num
  refine kron_law (triplexImpedance_ok h).2 (by rw [hp]; rfl) (by rw [hn]; rfl) (by rw [hn]; decide) (fun i j => ?_) (fun i j => ?_) (fun i j => ?_) (fun i j => ?_) U I
  · rw [submatrix_apply, he, hp]
    fin_cases i <;> fin_cases j <;> rfl
  · rw [submatrix_apply, he, hp, hn]
    fin_cases i <;> fin_cases j <;> rfl
  · rw [submatrix_apply, he, hp, hn]
    fin_cases i <;> fin_cases j <;> rfl
  · rw [submatrix_apply, he, hn]
    fin_cases i <;> fin_cases j <;> rfl

/-! ### Underground lines -/

/-- What is gathered for a cable, or for a neutral of its own. -/
noncomputable def cableGathered (k : ℕ) (x : Char → CableData) (r g : ℚ) (p : Char) : Cable :=
  if p = 'N' then ⟨0, 1, 0, 0, r, g⟩
  else ⟨(x p).own, k, (x p).r, (x p).g, (x p).rs / k, (((x p).gs * k * (x p).own ^ (k - 1) : ℚ) : ℝ) ^ (1 / (k : ℝ))⟩

/-- The cable object has these data. -/
def CableValued (k : ℕ) (x : Char → CableData) (r g : ℚ) (p : Char) (w : Obj) : Prop := (w.attr "outer_diameter".toList).isSome ∧
  if p = 'N' then Valued w "conductor_resistance" r ∧ Valued w "conductor_gmr" g ∧ 0 < r
  else Valued w "outer_diameter" (x p).outer ∧ Valued w "neutral_diameter" (x p).strand ∧ Valued w "neutral_strands" k ∧ Valued w "conductor_gmr" (x p).g ∧
    Valued w "conductor_resistance" (x p).r ∧ Valued w "neutral_gmr" (x p).gs ∧ Valued w "neutral_resistance" (x p).rs ∧ 0 < (x p).r ∧ 0 < (x p).rs

theorem truncate_nat (k : ℕ) : truncate (k : ℚ) = k := by
  simp [truncate]

theorem undergroundConductor_valued {k : ℕ} (hk : 0 < k) {x : Char → CableData} {r g : ℚ} {o : Obj} {p : Char} {w : CableWire × Obj} (h : undergroundConductor o p = .ok w)
    (hv : CableValued k x r g p o) : (w.1.phase = p ∧ w.1.outer.isSome ∧ cableOf w.1 = .ok (cableGathered k x r g p)) ∧ w.2 = o := by
  rw [undergroundConductor] at h
  obtain ⟨outer, h1, h⟩ := bind_eq_ok h
  obtain ⟨strand, h2, h⟩ := bind_eq_ok h
  obtain ⟨strands, h3, h⟩ := bind_eq_ok h
  obtain ⟨cond, h4, h⟩ := bind_eq_ok h
  obtain ⟨gmr, h5, h⟩ := bind_eq_ok h
  obtain ⟨⟨res, o1⟩, h6, h⟩ := bind_eq_ok h
  obtain ⟨gs, h7, h⟩ := bind_eq_ok h
  obtain ⟨rs, h8, h⟩ := bind_eq_ok h
  cases h
  have hsome := floatAttribute_some h1 hv.1
  rw [show "Ohm/km".toList = 'O' :: "hm/km".toList from rfl] at h6
  by_cases hN : p = 'N'
  · obtain ⟨-, hv⟩ := hv
    rw [if_pos hN] at hv
    obtain ⟨hr, hg, -⟩ := hv
    rw [hr.unit (c := 'O') (u := "hm/km".toList) (by decide)] at h6
    rw [hg.float] at h5
    cases h5
    cases h6
    refine ⟨⟨rfl, hsome, ?_⟩, rfl⟩
    rw [cableOf, if_pos hN, cableGathered, if_pos hN]
    rfl
  · obtain ⟨-, hv⟩ := hv
    rw [if_neg hN] at hv
    obtain ⟨a1, a2, a3, a4, a5, a6, a7, -, -⟩ := hv
    rw [a1.float] at h1
    rw [a2.float] at h2
    rw [a3.float] at h3
    rw [a4.float] at h5
    rw [a5.unit (c := 'O') (u := "hm/km".toList) (by decide)] at h6
    rw [a6.float] at h7
    rw [a7.float] at h8
    cases h1
    cases h2
    cases h3
    cases h5
    cases h6
    cases h7
    cases h8
    refine ⟨⟨rfl, rfl, ?_⟩, rfl⟩
    rw [cableOf, if_neg hN, cableGathered, if_neg hN]
    simp only [phaseCable, Option.map_some, truncate_nat]
    rw [if_neg (by omega)]
    simp only [Int.toNat_natCast, Int.cast_natCast, CableData.own]

theorem foldlM_congr {α β : Type} {f g : α → β → Py α} {l : List β} (h : ∀ b ∈ l, ∀ a, f a b = g a b) (a : α) : l.foldlM f a = l.foldlM g a := by
  induction l generalizing a with
  | nil => rfl
  | cons b l ih =>
    rw [List.foldlM_cons, List.foldlM_cons, h b (by simp)]
    congr 1
    funext a'
    exact ih (fun b' hb' => h b' (by simp [hb'])) a'

/-- Without touching cables the two ways of reading distances are the same. -/
theorem underground_spacing_eq {o : Obj} (h : WellSpaced o) (outers : List ℚ) : undergroundSpacing outers o = overheadSpacing o := by
  refine foldlM_congr (fun p hp T => ?_) _
  rw [undergroundSpacingStep, overheadSpacingStep]
  cases hg : o.get (distanceName p.1 p.2) with
  | error e => rfl
  | ok t =>
    obtain ⟨d, hd, hs⟩ := h _ _ (sublist_pair hp).1 t hg
    obtain ⟨t', h1, h2⟩ := spaced_get hp hs
    rw [hg] at h1
    cases h1
    simp only [h2, bind, Except.bind, touching, if_pos hd.ne', if_neg hd.ne']

theorem striped_letters {o : Obj} (ho : WellSpaced o) {T : Table} (hT : overheadSpacing o = .ok T) {ps : List Char} (hs : ps.Sublist "ABCN".toList)
    (hm : ∀ x ∈ "ABCN".toList, (x ∈ ps ↔ ∃ y d, Spaced o x y d)) {i j : ℕ} (hi : i < ps.length) (hj : j < ps.length) :
    stripedDistance T i j = some (T ((revLookup ps[i]).getD 0) ((revLookup ps[j]).getD 0)) := by
  obtain ⟨r, hr⟩ := kept_wires ho hT hs hm
  have hget : ∀ i (hi : i < ps.length), ((List.range 5).filter (fun j => T j j = 0))[i]? = some ((revLookup ps[i]).getD 0) := by
    intro i hi
    rw [hr, List.getElem?_append_left (by simpa using hi)]
    simp [hi]
  rw [stripedDistance, (kept_eq hT).1, (kept_eq hT).2, hget i hi, hget j hj]

theorem striped_spaced {o : Obj} (ho : WellSpaced o) {T : Table} (hT : overheadSpacing o = .ok T) {ps : List Char} (hs : ps.Sublist "ABCN".toList)
    (hm : ∀ x ∈ "ABCN".toList, (x ∈ ps ↔ ∃ y d, Spaced o x y d)) {i j : ℕ} (hi : i < ps.length) (hj : j < ps.length) {d : ℚ} (hd : 0 < d)
    (h : Spaced o ps[i] ps[j] d) : stripedDistance T i j = some d := by
  rw [striped_letters ho hT hs hm hi hj]
  have hl : ∀ p ∈ "ABCN".toList, ∃ a < 5, revLookup p = some a ∧ spacingLetters.getD a ' ' = p := by decide
  obtain ⟨a, ha, e1, e2⟩ := hl _ (hs.subset (List.getElem_mem hi))
  obtain ⟨b, hb, e3, e4⟩ := hl _ (hs.subset (List.getElem_mem hj))
  rw [e1, e3, Option.getD_some, Option.getD_some, spaced_entry hT ha hb hd.ne' (by rw [e2, e4]; exact h)]

theorem conductorLetters_split (c : Obj) : conductorLetters c "ABCN".toList = conductorLetters c "ABC".toList ++ conductorLetters c "N".toList := by
  rw [conductorLetters, conductorLetters, conductorLetters, ← List.filter_append]
  rfl

theorem conductorLetters_phases (c : Obj) : (conductorLetters c "ABCN".toList).filter (· ≠ 'N') = conductorLetters c "ABC".toList := by
  rw [conductorLetters_split, List.filter_append]
  have h1 : (conductorLetters c "ABC".toList).filter (· ≠ 'N') = conductorLetters c "ABC".toList := by
    refine List.filter_eq_self.2 fun p hp => ?_
    have : ∀ p ∈ "ABC".toList, decide (p ≠ 'N') = true := by decide
    exact this p (List.mem_filter.1 hp).1
  have h2 : (conductorLetters c "N".toList).filter (· ≠ 'N') = [] := by
    refine List.filter_eq_nil_iff.2 fun p hp => ?_
    have : ∀ p ∈ "N".toList, ¬ decide (p ≠ 'N') = true := by decide
    exact this p (List.mem_filter.1 hp).1
  rw [h1, h2, List.append_nil]

theorem conductorLetters_sublist (c : Obj) (ps : List Char) : (conductorLetters c ps).Sublist ps := List.filter_sublist

/-- The law of an underground line from its matrix. -/
theorem cable_law {k : ℕ} {x : Char → CableData} {r g : ℚ} {D : Char → Char → ℚ} {c o : Obj} {wires : List CableWire} {T : Table} {Z : Matrix _ _ ℂ}
    (h : undergroundImpedance wires T = .ok Z) (hps : wires.map CableWire.phase = conductorLetters c "ABCN".toList)
    (hw : ∀ w ∈ wires, cableOf w = .ok (cableGathered k x r g w.phase)) (ho : WellSpaced o) (hT : overheadSpacing o = .ok T)
    (hm : ∀ x ∈ "ABCN".toList, (x ∈ conductorLetters c "ABCN".toList ↔ ∃ y d, Spaced o x y d))
    (hD : ∀ p ∈ conductorLetters c "ABCN".toList, ∀ q ∈ conductorLetters c "ABCN".toList, p ≠ q → 0 < D p q ∧ Spaced o p q (D p q))
    {s : LineSpan} (hp : s.phases = conductorLetters c "ABC".toList) (hp0 : s.phases ≠ []) (hn : s.neutrals = conductorLetters c "ABCN".toList)
    (hz : s.z = earthReturn (9327 / 100000) (795153 / 100000)
      (fun y => if y.1 then (if y.2 = 'N' then (r : ℝ) else ((x y.2).rs / k : ℚ)) else ((x y.2).r : ℝ))
      (fun y => if y.1 then (if y.2 = 'N' then (g : ℝ) else (((x y.2).gs * k * (x y.2).own ^ (k - 1) : ℚ) : ℝ) ^ (1 / (k : ℝ))) else ((x y.2).g : ℝ))
      (fun y w => if y.1 = w.1 then (D y.2 w.2 : ℝ) else if y.2 = w.2 then ((x y.2).own : ℝ)
        else ((D y.2 w.2 : ℝ) ^ k - (if (if y.1 then y.2 else w.2) = 'N' then 0 else ((x (if y.1 then y.2 else w.2)).own : ℝ)) ^ k) ^ (1 / (k : ℝ)))) (U I : Char → ℂ) :
    s.phases.length = (wires.filter (·.phase ≠ 'N')).length ∧
    ((∀ i : Fin (wires.filter (·.phase ≠ 'N')).length, U (s.phases.getD i 'A') =
      s.miles * (Z *ᵥ fun j : Fin (wires.filter (·.phase ≠ 'N')).length => I (s.phases.getD j 'A')) i) ↔ s.Law U I) := by
  obtain ⟨cables, k', hc, hk', -, M, hM, hkr⟩ := undergroundImpedance_ok h
  have hlen : s.phases.length = (wires.filter (·.phase ≠ 'N')).length := by rw [filter_phases, hps, conductorLetters_phases, hp]
  refine ⟨hlen, ?_⟩
  clear h
  generalize (wires.filter (·.phase ≠ 'N')).length = n at *
  have hwl : wires.length = s.neutrals.length := by rw [hn, ← hps, List.length_map]
  have hcl : s.neutrals.length = cables.length := by rw [← hwl]; exact (mapM_forall₂ hc).length_eq
  have hsub : s.neutrals.Sublist "ABCN".toList := by rw [hn]; exact conductorLetters_sublist _ _
  have hnd : s.neutrals.Nodup := hsub.nodup (by decide)
  have hget : ∀ i (hi : i < s.neutrals.length), s.neutrals.getD i 'A' = s.neutrals[i] := fun i hi => by
    rw [List.getD_eq_getElem?_getD, List.getElem?_eq_getElem hi]; rfl
  have hle : n ≤ s.neutrals.length := by
    rw [← hlen, hn, hp, conductorLetters_split, List.length_append]; omega
  have hph : ∀ i < n, s.phases.getD i 'A' = s.neutrals.getD i 'A' := by
    intro i hi
    rw [hn, hp, conductorLetters_split, List.getD_eq_getElem?_getD, List.getD_eq_getElem?_getD, List.getElem?_append_left]
    rw [← hp, hlen]; exact hi
  have hphN : ∀ i < n, s.neutrals.getD i 'A' ≠ 'N' := by
    intro i hi
    rw [← hph i hi]
    have hm : s.phases.getD i 'A' ∈ s.phases := by
      rw [List.getD_eq_getElem?_getD, List.getElem?_eq_getElem (by rw [hlen]; exact hi)]
      exact List.getElem_mem _
    have : ∀ p ∈ "ABC".toList, p ≠ 'N' := by decide
    refine this _ ?_
    rw [hp] at hm ⊢
    exact (List.mem_filter.1 hm).1
  have hcab : ∀ i < s.neutrals.length, cables.getD i ⟨0, 0, 0, 0, 0, 0⟩ = cableGathered k x r g (s.neutrals.getD i 'A') := by
    intro i hi
    have hi1 : i < wires.length := by omega
    have hi2 : i < cables.length := by omega
    have h1 : cableOf wires[i] = .ok cables[i] := List.forall₂_iff_get.1 (mapM_forall₂ hc) |>.2 i hi1 hi2
    rw [hw _ (List.getElem_mem hi1)] at h1
    have e : wires[i].phase = s.neutrals.getD i 'A' := by
      rw [hn, ← hps, List.getD_eq_getElem?_getD, List.getElem?_map, List.getElem?_eq_getElem hi1]
      rfl
    rw [e] at h1
    rw [List.getD_eq_getElem?_getD, List.getElem?_eq_getElem hi2]
    exact (Except.ok.inj h1).symm
  have hkk : k' = k := by
    have hn0 : 0 < n := by rw [← hlen]; exact List.length_pos_iff.2 hp0
    rw [hk', cableAt, hcab _ (by omega), cableGathered, if_neg (hphN _ (by omega))]
  subst hkk
  have hdist : ∀ i < s.neutrals.length, ∀ j < s.neutrals.length, i ≠ j →
      ((stripedDistance T i j).getD 1 : ℝ) = (D (s.neutrals.getD i 'A') (s.neutrals.getD j 'A') : ℝ) := by
    intro i hi j hj hij
    rw [hget i hi, hget j hj]
    have hne : s.neutrals[i] ≠ s.neutrals[j] := fun e => hij ((hnd.getElem_inj_iff).1 e)
    obtain ⟨hpos, hsp⟩ := hD _ (by rw [← hn]; exact List.getElem_mem hi) _ (by rw [← hn]; exact List.getElem_mem hj) hne
    rw [striped_spaced ho hT hsub (by rw [hn]; exact hm) hi hj hpos hsp]
    rfl
  have hinj : ∀ i < s.neutrals.length, ∀ j < s.neutrals.length, s.neutrals.getD i 'A' = s.neutrals.getD j 'A' → i = j := by
    intro i hi j hj e
    rw [hget i hi, hget j hj] at e
    exact (hnd.getElem_inj_iff).1 e
  have hown : ∀ j < s.neutrals.length, ((cables.getD j ⟨0, 0, 0, 0, 0, 0⟩).own : ℝ) =
      if s.neutrals.getD j 'A' = 'N' then 0 else ((x (s.neutrals.getD j 'A')).own : ℝ) := by
    intro j hj
    rw [hcab j hj, cableGathered]
    split
    · simp
    · rfl
  have hsymm : ∀ i < s.neutrals.length, ∀ j < s.neutrals.length, i ≠ j →
      D (s.neutrals.getD i 'A') (s.neutrals.getD j 'A') = D (s.neutrals.getD j 'A') (s.neutrals.getD i 'A') := by
    intro i hi j hj hij
    have h1 := hdist i hi j hj hij
    rw [striped_symm hT, hdist j hj i hi (Ne.symm hij)] at h1
    exact_mod_cast h1.symm
  have hcross : ∀ i < n, ∀ j < s.neutrals.length, mutualImpedance true (neutralDistance cables k' (fun i j => (stripedDistance T i j).getD 1) i j) =
      s.z (false, s.neutrals.getD i 'A') (true, s.neutrals.getD j 'A') ∧
      mutualImpedance true (neutralDistance cables k' (fun i j => (stripedDistance T i j).getD 1) i j) =
      s.z (true, s.neutrals.getD j 'A') (false, s.neutrals.getD i 'A') := by
    intro i hi j hj
    have hi' : i < s.neutrals.length := by omega
    have e1 : ((false, s.neutrals.getD i 'A') : Bool × Char) ≠ (true, s.neutrals.getD j 'A') := fun e => Bool.false_ne_true (congrArg Prod.fst e)
    rw [hz, earthReturn, earthReturn, if_neg e1, if_neg e1.symm]
    simp only [mutualImpedance, if_true, neutralDistance]
    by_cases hij : i = j
    · subst hij
      simp only [if_true, Bool.false_eq_true, if_false, hown i hi', if_neg (hphN i hi), reduceCtorEq, and_self]
    · have hne : s.neutrals.getD i 'A' ≠ s.neutrals.getD j 'A' := fun e => hij (hinj i hi' j hj e)
      simp only [if_neg hij, hdist i hi' j hj hij, hown j hj, Bool.false_eq_true, if_false, if_true, if_neg hne, if_neg hne.symm, reduceCtorEq, true_and]
      rw [hsymm i hi' j hj hij]
  refine kron_law (m := cables.length) hkr hlen hcl hnd (fun i j => ?_) (fun i j => ?_) (fun i j => ?_) (fun i j => ?_) U I
  · rw [hM, hph i i.2, hph j j.2]
    have hi : i.val < s.neutrals.length := by omega
    have hj : j.val < s.neutrals.length := by omega
    simp only [toBlocks₁₁, of_apply, cablePrimitive]
    rw [hz, earthReturn]
    by_cases hij : i = j
    · subst hij
      rw [if_pos rfl, if_pos rfl, hcab _ hi, cableGathered, if_neg (hphN _ i.2)]
      simp only [selfImpedance, if_true, Bool.false_eq_true, if_false]
    · have hij' : i.val ≠ j.val := fun e => hij (Fin.ext e)
      rw [if_neg hij, if_neg (fun e => hij' (hinj _ hi _ hj (congrArg Prod.snd e))), hdist _ hi _ hj hij']
      simp only [mutualImpedance, if_true]
  · rw [hM, hph i i.2]
    exact (hcross i i.2 j (by omega)).1
  · rw [hM, hph j j.2]
    exact (hcross j j.2 i (by omega)).2
  · rw [hM]
    have hi : i.val < s.neutrals.length := by omega
    have hj : j.val < s.neutrals.length := by omega
    simp only [toBlocks₂₂, of_apply, cablePrimitive]
    rw [hz, earthReturn]
    by_cases hij : i = j
    · subst hij
      rw [if_pos rfl, if_pos rfl, hcab _ hi, cableGathered]
      simp only [selfImpedance, if_true]
      split <;> rfl
    · have hij' : i.val ≠ j.val := fun e => hij (Fin.ext e)
      rw [if_neg hij, if_neg (fun e => hij' (hinj _ hi _ hj (congrArg Prod.snd e))), hdist _ hi _ hj hij']
      simp only [mutualImpedance, if_true]

end Verif.Glm
