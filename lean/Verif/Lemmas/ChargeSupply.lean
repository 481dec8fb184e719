import Verif.Spec.ChargeSupply
import Verif.Lemmas.LineSupply
import Verif.Props.LineCharge
import Verif.Props.LineAcceptance

/-!
# The charging of lines that are read
-/

namespace Verif.Glm

open Matrix ComplexConjugate

/-- The matrices of a line. -/
noncomputable def lineMats (d : LineData) : (ℕ → ℕ → ℂ) × (ℕ → ℕ → ℝ) :=
  (entryAt (((d.length : ℚ) : ℂ) • d.Z)⁻¹, fun i j => match d.S i j with | some s => (((d.length : ℚ) : ℂ) * s).im | none => 0)

theorem lineMade_makes : Makes lineMade lineMats := by
  have := makes_unbalanced (fun d : LineData => d.Z) (fun d => d.S) fun d => ((d.length : ℚ) : ℝ)
  simp only [Complex.ofReal_ratCast] at this
  exact this

/-- The current into the shunts at one end of wire `i`. -/
noncomputable def endCharge (ps : List Char) (sh : ℕ → ℕ → ℝ) (U : Char → ℂ) (i : ℕ) : ℂ :=
  ((List.range ps.length).map fun j => Complex.I * (sh i j / 2 : ℝ) * U (ps.getD j 'A')).sum

theorem wireCurrent_split (V : Txt → Char → ℂ) (a b : Txt) (ps : List Char) (y : ℕ → ℕ → ℂ) (s : ℕ → ℕ → ℝ) (i : ℕ) :
    wireCurrent V a b ps y s i = wireCurrent V a b ps y (fun _ _ => 0) i + endCharge ps s (V a) i := by
  rw [wireCurrent, wireCurrent, endCharge, list_sum_fin, list_sum_fin, list_sum_fin, ← Finset.sum_add_distrib]
  refine Finset.sum_congr rfl fun j _ => ?_
  simp

theorem sum_letters (ps : List Char) (f : Char → ℂ) : (ps.map f).sum = ∑ k : Fin ps.length, f (ps.getD k 'A') := by
  have : ps = (List.range ps.length).map fun i => ps.getD i 'A' := by
    refine List.ext_getElem (by simp) fun i h h' => ?_
    simp [List.getD_eq_getElem?_getD, h]
  conv_lhs => rw [this]
  rw [List.map_map, list_sum_fin]
  rfl

/-- Voltages and charges of a symmetric potential matrix. -/
theorem charges_pair {ps : List Char} {P : Char → Char → ℝ} (hP : ∀ p ∈ ps, ∀ q ∈ ps, P p q = P q p) {U U' Q Q' : Char → ℂ}
    (h : ∀ p ∈ ps, U p = (ps.map fun q => (P p q : ℂ) * Q q).sum) (h' : ∀ p ∈ ps, U' p = (ps.map fun q => (P p q : ℂ) * Q' q).sum) :
    (ps.map fun p => U p * Q' p).sum = (ps.map fun p => U' p * Q p).sum := by
  have hm : ∀ k : Fin ps.length, ps.getD k 'A' ∈ ps := fun k => by
    rw [List.getD_eq_getElem?_getD, List.getElem?_eq_getElem k.2]
    exact List.getElem_mem k.2
  rw [sum_letters, sum_letters]
  simp only [h _ (hm _), h' _ (hm _), sum_letters, Finset.sum_mul]
  rw [Finset.sum_comm]
  refine Finset.sum_congr rfl fun i _ => Finset.sum_congr rfl fun j _ => ?_
  rw [hP _ (hm i) _ (hm j)]
  ring

/-- One volt on one phase. -/
noncomputable def oneAt (p : Char) : Char → ℂ := fun q => if q = p then 1 else 0

theorem sum_oneAt {ps : List Char} (hn : ps.Nodup) {i : ℕ} (hi : i < ps.length) (f : Char → ℂ) : (ps.map fun p => oneAt (ps.getD i 'A') p * f p).sum = f (ps.getD i 'A') := by
  have hg : ∀ k (hk : k < ps.length), ps.getD k 'A' = ps[k] := fun k hk => by simp [List.getD_eq_getElem?_getD, hk]
  rw [sum_letters, Finset.sum_eq_single (⟨i, hi⟩ : Fin ps.length)]
  · simp [oneAt]
  · intro k _ hk
    rw [oneAt, if_neg, zero_mul]
    intro e
    rw [hg k k.2, hg i hi] at e
    exact hk (Fin.ext ((hn.getElem_inj_iff).1 e))
  · intro h
    exact absurd (Finset.mem_univ _) h

theorem endCharge_oneAt {ps : List Char} (hn : ps.Nodup) (sh : ℕ → ℕ → ℝ) (i : ℕ) {j : ℕ} (hj : j < ps.length) :
    endCharge ps sh (oneAt (ps.getD j 'A')) i = Complex.I * (sh i j / 2 : ℝ) := by
  have hg : ∀ k (hk : k < ps.length), ps.getD k 'A' = ps[k] := fun k hk => by simp [List.getD_eq_getElem?_getD, hk]
  rw [endCharge, list_sum_fin, Finset.sum_eq_single (⟨j, hj⟩ : Fin ps.length)]
  · simp [oneAt]
  · intro k _ hk
    rw [oneAt, if_neg, mul_zero]
    intro e
    rw [hg k k.2, hg j hj] at e
    exact hk (Fin.ext ((hn.getElem_inj_iff).1 e))
  · intro h
    exact absurd (Finset.mem_univ _) h

/-- Shunts that take a share of the current of charges are symmetric, and the charges are given by the voltages. -/
theorem charges_symm {ps : List Char} (hn : ps.Nodup) {P : Char → Char → ℝ} (hP : ∀ p ∈ ps, ∀ q ∈ ps, P p q = P q p) {sh : ℕ → ℕ → ℝ} {c : ℂ}
    (h : ∀ U : Char → ℂ, ∃ Q : Char → ℂ, (∀ p ∈ ps, U p = (ps.map fun q => (P p q : ℂ) * Q q).sum) ∧ ∀ i < ps.length, endCharge ps sh U i = c * Q (ps.getD i 'A')) :
    (∀ i < ps.length, ∀ j < ps.length, sh i j = sh j i) ∧
      ∀ U Q : Char → ℂ, (∀ p ∈ ps, U p = (ps.map fun q => (P p q : ℂ) * Q q).sum) → ∀ i < ps.length, endCharge ps sh U i = c * Q (ps.getD i 'A') := by
  constructor
  · intro i hi j hj
    obtain ⟨Qi, a1, a2⟩ := h (oneAt (ps.getD i 'A'))
    obtain ⟨Qj, b1, b2⟩ := h (oneAt (ps.getD j 'A'))
    have e := charges_pair hP a1 b1
    rw [sum_oneAt hn hi, sum_oneAt hn hj] at e
    have e1 := a2 j hj
    have e2 := b2 i hi
    rw [endCharge_oneAt hn sh _ hi] at e1
    rw [endCharge_oneAt hn sh _ hj, e, ← e1] at e2
    have := mul_left_cancel₀ Complex.I_ne_zero e2
    have : (sh i j / 2 : ℝ) = sh j i / 2 := by exact_mod_cast this
    linarith
  · intro U Q hQ i hi
    obtain ⟨Q', a1, a2⟩ := h U
    obtain ⟨Qi, b1, -⟩ := h (oneAt (ps.getD i 'A'))
    have e1 := charges_pair hP b1 hQ
    have e2 := charges_pair hP b1 a1
    rw [sum_oneAt hn hi] at e1 e2
    rw [a2 i hi, e2, ← e1]

theorem even_current (ps : List Char) (sh : ℕ → ℕ → ℝ) (U : Char → ℂ) (i : ℕ) :
    shuntCurrent (List.range ps.length) sh (fun r => match r with | some k => U (ps.getD k 'A') | none => 0) i = endCharge ps sh U i := by
  rw [shuntCurrent, endCharge, List.length_range]
  refine congrArg List.sum (List.map_congr_left fun j hj => ?_)
  have hj := List.mem_range.1 hj
  have : (List.range ps.length).getD j 0 = j := by simp [List.getD_eq_getElem?_getD, hj]
  rw [this]

theorem evenPairs_fst (n : ℕ) : ((List.range n).map fun k => (k, k)).map Prod.fst = List.range n := by
  rw [List.map_map]
  exact List.map_id _

theorem evenPairs_snd (n : ℕ) : ((List.range n).map fun k => (k, k)).map Prod.snd = List.range n := by
  rw [List.map_map]
  exact List.map_id _

theorem evenPairs_voltages (ps : List Char) (U : Char → ℂ) :
    EndVoltages ps ((List.range ps.length).map fun k => (k, k)) (fun r => match r with | some k => U (ps.getD k 'A') | none => 0) U := by
  intro i hi
  have : ((List.range ps.length).map fun k => (k, k)).getD i (0, 0) = (i, i) := by simp [List.getD_eq_getElem?_getD, hi]
  rw [this]
  exact ⟨rfl, rfl⟩

variable {objs objs1 objs2 : List (Txt × Obj)} {o : Obj} {ph : Phases} {s : LineSpan} {d : List Char × LineData} {v' : Option Table}

theorem FileSpan.miles (hs : FileSpan objs o ph s) : Miles o s.miles := by
  rw [FileSpan] at hs
  split_ifs at hs with c1 c2
  · obtain ⟨c, r, g, D, -, -, -, -, -, -, -, h⟩ := hs
    exact h
  · obtain ⟨c, r, g, d, t, -, -, -, -, -, -, -, h⟩ := hs
    exact h
  · obtain ⟨c, k, x, r, g, D, -, -, -, -, -, -, -, -, h⟩ := hs
    exact h

theorem FileSpan.few (hs : FileSpan objs o ph s) : s.phases.length ≤ 3 := by
  rw [hs.wired, wiredPhases]
  split_ifs
  · decide
  · split
    · exact (List.length_filter_le _ _).trans (by decide)
    · exact Nat.zero_le _

theorem wires_symm (hs : FileSpan objs o ph s) (hc : o.cls = "overhead_line".toList) {f : ℚ} {P : Char → Char → ℝ} (hP : WiresCharged f objs o P) :
    ∀ p ∈ s.phases, ∀ q ∈ s.phases, P p q = P q p := by
  rw [FileSpan, if_pos hc] at hs
  obtain ⟨c, r, g, D, h1, -, ⟨sp, h2, h3, -⟩, -, h5, -⟩ := hs
  obtain ⟨c', sp', δ, D', t, k1, k2, -, -, -, k6, k7⟩ := hP
  obtain rfl := refers_unique h1 k1
  obtain rfl := refers_unique h2 k2
  rw [h5]
  intro p hp q hq
  rw [k7, k7]
  by_cases e : p = q
  · rw [e]
  · rw [potentialCoefficient, potentialCoefficient, if_neg e, if_neg (Ne.symm e)]
    obtain ⟨T, hT⟩ := spacing_total h3
    have hl : ∀ p ∈ "ABC".toList, ∃ a < 5, spacingLetters.getD a ' ' = p := by decide
    obtain ⟨a, ha, e1⟩ := hl p (letters_mem.1 hp).1
    obtain ⟨b, hb, e2⟩ := hl q (letters_mem.1 hq).1
    obtain ⟨j1, j2⟩ := k6 p hp q hq e
    obtain ⟨j3, j4⟩ := k6 q hq p hp (Ne.symm e)
    have m1 := spaced_entry hT ha hb j1.ne' (by rw [e1, e2]; exact j2)
    have m2 := spaced_entry hT ha hb j3.ne' (by rw [e1, e2]; exact spaced_symm j4)
    rw [m1.symm.trans m2]

/-- What is known of a line that was read and is strictly passive. -/
structure ReadStrict (objs : List (Txt × Obj)) (o : Obj) (ph : Phases) (s : LineSpan) (d : List Char × LineData) : Prop where
  named : ConductorsNamed objs
  read : ∃ objs1 objs2 v', SameObjs objs objs1 ∧ readLineVar none objs1 o ph = .ok ((d, objs2), v')
  span : FileSpan objs o ph s
  phases : d.1 = s.phases
  size : d.1.length = d.2.n
  det : (((d.2.length : ℚ) : ℂ) • d.2.Z).det ≠ 0

/-- It is built between any buses. -/
theorem ReadStrict.made (h : ReadStrict objs o ph s d) (hne : d.1 ≠ []) {pairs : List (ℕ × ℕ)} (hp : pairs.length = d.1.length) :
    lineMade d.2 pairs = .ok (.unbalanced pairs (lineMats d.2).1 (lineMats d.2).2) := by
  have h3 := h.span.few
  rw [← h.phases] at h3
  have h0 : 0 < d.1.length := List.length_pos_iff.2 hne
  have hsz := h.size
  have hdet := h.det
  obtain ⟨e, he⟩ := (C18_exact d.2.Z d.2.S ((d.2.length : ℚ) : ℝ) pairs (by omega) (hp.trans hsz)).1.2 (by rw [Complex.ofReal_ratCast]; exact hdet)
  have := (lineMade_makes d.2 pairs e he).2
  rw [← this]
  exact he

/-- The current into the shunts of an underground line. -/
theorem ReadStrict.cables (h : ReadStrict objs o ph s d) (hc1 : o.cls ≠ "overhead_line".toList) (hc2 : o.cls ≠ "triplex_line".toList) {y : Char → ℝ}
    (hy : CablesCharged objs o y) (U : Char → ℂ) : ∀ i < d.1.length,
      endCharge d.1 (lineMats d.2).2 U i = 1 / 4 * (Complex.I * ((s.miles * y (d.1.getD i 'A') : ℝ) : ℂ) * U (d.1.getD i 'A')) := by
  intro i hi
  obtain ⟨objs1, objs2, v', hs1, hr⟩ := h.read
  have hm := h.made (List.length_pos_iff.1 (by omega)) (pairs := (List.range d.1.length).map fun k => (k, k)) (by simp)
  obtain ⟨Y, sh, e, key⟩ := cables_charging h.named hs1 hr hc1 hc2 (hy.same hs1) h.span.miles hm (by simp)
  cases e
  have := key _ U (evenPairs_voltages d.1 U) i hi
  rw [evenPairs_fst, evenPairs_snd, even_current] at this
  linear_combination 1 / 2 * this

/-- The current into the shunts of an overhead line. -/
theorem ReadStrict.wires (h : ReadStrict objs o ph s d) (hc : o.cls = "overhead_line".toList) {P : Char → Char → ℝ} (hP : WiresCharged 1 objs o P) (hne : d.1 ≠ [])
    (U : Char → ℂ) : ∃ Q : Char → ℂ, (∀ p ∈ d.1, U p = (d.1.map fun q => (P p q : ℂ) * Q q).sum) ∧ ∀ i < d.1.length,
      endCharge d.1 (lineMats d.2).2 U i = 1 / 4 * (Complex.I * ((2 * Real.pi * 60 / 1000000 * s.miles : ℝ) : ℂ)) * Q (d.1.getD i 'A') := by
  obtain ⟨objs1, objs2, v', hs1, hr⟩ := h.read
  have hm := h.made hne (pairs := (List.range d.1.length).map fun k => (k, k)) (by simp)
  obtain ⟨Y, sh, e, key⟩ := wires_charging h.named hs1 hr hc (hP.same hs1) h.span.miles hm (by simp)
  cases e
  obtain ⟨Q, q1, q2⟩ := key _ U (evenPairs_voltages d.1 U)
  refine ⟨Q, q1, fun i hi => ?_⟩
  have := q2 i hi
  rw [evenPairs_fst, evenPairs_snd, even_current] at this
  linear_combination 1 / 2 * this

theorem ReadStrict.triplex (h : ReadStrict objs o ph s d) (hc : o.cls = "triplex_line".toList) : ∀ i j, (lineMats d.2).2 i j = 0 := by
  obtain ⟨objs1, objs2, v', hs1, hr⟩ := h.read
  rcases readLineVar_ok hr with ⟨hc', -⟩ | ⟨-, hr, -⟩ | ⟨-, hc', -⟩
  · rw [hc] at hc'; exact absurd hc' (by decide)
  · obtain ⟨c, ws, x, len, Z, hr⟩ := readTriplexLine_ok hr
    have := hr.data
    subst this
    intro i j
    rfl
  · exact absurd hc hc'

/-- At each end of the line flows a quarter of the current that charges it. -/
theorem ReadStrict.charge (h : ReadStrict objs o ph s d) {U J : Char → ℂ} (hJ : Charged 1 objs o s U J) :
    ∀ i < d.1.length, endCharge d.1 (lineMats d.2).2 U i = 1 / 4 * J (d.1.getD i 'A') := by
  intro i hi
  have hm : d.1.getD i 'A' ∈ s.phases := by
    rw [← h.phases, List.getD_eq_getElem?_getD, List.getElem?_eq_getElem hi]
    exact List.getElem_mem hi
  rw [Charged] at hJ
  split_ifs at hJ with c1 c2
  · obtain ⟨P, Q, hP, h1, h2⟩ := hJ
    have hsym := wires_symm h.span c1 hP
    rw [← h.phases] at hsym h1
    rw [(charges_symm (by rw [h.phases]; exact h.span.nodup) hsym (h.wires c1 hP (List.length_pos_iff.1 (by omega)))).2 U Q h1 i hi, h2 _ hm]
    ring
  · rw [hJ _ hm, endCharge, list_sum_fin]
    simp [h.triplex c2]
  · obtain ⟨y, hy, h2⟩ := hJ
    rw [h.cables c1 c2 hy U i hi, h2 _ hm]

/-- The charging of a line has currents. -/
theorem ReadStrict.charged (h : ReadStrict objs o ph s d) (hw : o.cls = "overhead_line".toList → ∃ P, WiresCharged 1 objs o P)
    (hy : o.cls ≠ "overhead_line".toList → o.cls ≠ "triplex_line".toList → ∃ y, CablesCharged objs o y) (U : Char → ℂ) : ∃ J, Charged 1 objs o s U J := by
  by_cases c1 : o.cls = "overhead_line".toList
  · obtain ⟨P, hP⟩ := hw c1
    by_cases hne : d.1 = []
    · refine ⟨fun _ => 0, ?_⟩
      rw [Charged, if_pos c1]
      have : s.phases = [] := h.phases.symm.trans hne
      refine ⟨P, fun _ => 0, hP, fun p hp => ?_, fun p hp => ?_⟩ <;> · rw [this] at hp; cases hp
    · obtain ⟨Q, h1, -⟩ := h.wires c1 hP hne U
      rw [h.phases] at h1
      refine ⟨fun p => Complex.I * ((2 * Real.pi * 60 / 1000000 * s.miles : ℝ) : ℂ) * Q p, ?_⟩
      rw [Charged, if_pos c1]
      exact ⟨P, Q, hP, h1, fun _ _ => rfl⟩
  · by_cases c2 : o.cls = "triplex_line".toList
    · refine ⟨fun _ => 0, ?_⟩
      rw [Charged, if_neg c1, if_pos c2]
      exact fun _ _ => rfl
    · obtain ⟨y, hy⟩ := hy c1 c2
      refine ⟨fun p => Complex.I * ((s.miles * y p : ℝ) : ℂ) * U p, ?_⟩
      rw [Charged, if_neg c1, if_neg c2]
      exact ⟨y, hy, fun _ _ => rfl⟩

/-- The shunts are symmetric. -/
theorem ReadStrict.symm (h : ReadStrict objs o ph s d) (hw : o.cls = "overhead_line".toList → ∃ P, WiresCharged 1 objs o P) :
    ∀ i j, (lineMats d.2).2 i j = (lineMats d.2).2 j i := by
  by_cases c1 : o.cls = "overhead_line".toList
  · obtain ⟨P, hP⟩ := hw c1
    have hin : ∀ i < d.1.length, ∀ j < d.1.length, (lineMats d.2).2 i j = (lineMats d.2).2 j i := by
      by_cases hne : d.1 = []
      · intro i hi
        rw [hne] at hi
        cases hi
      · have hsym := wires_symm h.span c1 hP
        rw [← h.phases] at hsym
        exact (charges_symm (by rw [h.phases]; exact h.span.nodup) hsym (h.wires c1 hP hne)).1
    have hout : ∀ i j, ¬ (i < d.1.length ∧ j < d.1.length) → (lineMats d.2).2 i j = 0 := by
      obtain ⟨objs1, objs2, v', hs1, hr⟩ := h.read
      rcases readLineVar_ok hr with ⟨-, hr⟩ | ⟨hc', -⟩ | ⟨hc', -⟩
      · obtain ⟨c, ws, T, len, Z, B, hr, -⟩ := readOverhead_ok hr
        have hd := hr.data
        have hl : d.1.length = (ws.filter (·.phase ≠ 'N')).length := by
          rw [hd, List.filter_map, List.length_map]
          rfl
        intro i j hij
        rw [hl] at hij
        subst hd
        show (match shuntPerMeter B i j with | some s => _ | none => (0 : ℝ)) = 0
        rw [shuntPerMeter, dif_neg hij]
      · rw [c1] at hc'; exact absurd hc' (by decide)
      · exact absurd c1 hc'
    intro i j
    by_cases hij : i < d.1.length ∧ j < d.1.length
    · exact hin i hij.1 j hij.2
    · rw [hout i j hij, hout j i fun e => hij ⟨e.2, e.1⟩]
  · by_cases c2 : o.cls = "triplex_line".toList
    · intro i j
      rw [h.triplex c2, h.triplex c2]
    · obtain ⟨objs1, objs2, v', hs1, hr⟩ := h.read
      rcases readLineVar_ok hr with ⟨hc', -⟩ | ⟨hc', -⟩ | ⟨-, -, hr⟩
      · exact absurd hc' c1
      · exact absurd hc' c2
      obtain ⟨c, ws, T, len, Z, B, hr, -⟩ := readUnderground_ok hr
      have hch := hr.charging
      rw [undergroundCharging] at hch
      obtain ⟨bs, -, hch⟩ := bind_eq_ok hch
      cases hch
      have hd := hr.data
      subst hd
      intro i j
      have : shuntPerMeter (cableMatrix bs) i j = shuntPerMeter (cableMatrix bs) j i := by
        rw [shuntPerMeter, shuntPerMeter]
        by_cases hij : i < 3 ∧ j < 3
        · rw [dif_pos hij, dif_pos hij.symm, cableMatrix, cableMatrix]
          by_cases e : i = j
          · subst e; rfl
          · rw [if_neg (fun h => e (congrArg Fin.val h)), if_neg (fun h => e (congrArg Fin.val h).symm)]
        · rw [dif_neg hij, dif_neg fun e => hij e.symm]
      show (match shuntPerMeter (cableMatrix bs) i j with | some s => _ | none => (0 : ℝ)) = match shuntPerMeter (cableMatrix bs) j i with | some s => _ | none => (0 : ℝ)
      rw [this]

/-! ### Sound lines -/

theorem numeral_nonneg {t : Txt} {x : ℚ} (h : Numeral t x) : 0 ≤ x := by
  cases h with
  | whole => positivity
  | point => positivity

theorem miles_pos {o : Obj} {m : ℚ} (h : Miles o m) (h0 : m ≠ 0) : 0 < m := by
  obtain ⟨n, y, hn, ⟨-, rfl⟩ | ⟨-, rfl⟩⟩ := h
  · exact lt_of_le_of_ne (div_nonneg (numeral_nonneg hn) (by norm_num)) (Ne.symm h0)
  · exact lt_of_le_of_ne (div_nonneg (mul_nonneg (by norm_num) (numeral_nonneg hn)) (by norm_num)) (Ne.symm h0)

/-- The conductors of a sound line are known. -/
theorem SoundLine.span (h : SoundLine objs o ph) : ∃ s, FileSpan objs o ph s ∧ 0 < s.miles := by
  obtain ⟨⟨m, hm, h0⟩, h⟩ := h
  have hpos := miles_pos hm h0
  split_ifs at h with c1 c2
  · obtain ⟨c, sp, r, g, δ, D, h1, h2, h3, h4, h5, h6, h7, -⟩ := h
    refine ⟨⟨conductorLetters c "ABC".toList, if ph.hasNeutral then conductorLetters c "N".toList else [],
      earthReturn (953 / 10000) (793402 / 100000) (fun x => (r x.2 : ℝ)) (fun x => (g x.2 : ℝ)) (fun x y => (D x.2 y.2 : ℝ)), m⟩, ?_, hpos⟩
    rw [FileSpan, if_pos c1]
    exact ⟨c, r, g, D, h1, fun p hp => by obtain ⟨w, a1, a2, a3, a4, -⟩ := h2 p hp; exact ⟨w, a1, a2, a3, a4⟩, ⟨sp, h3, h4, h5, h6⟩, h7, rfl, rfl, rfl, hm⟩
  · obtain ⟨c, r, g, d, t, h1, h2, h3, h4, -⟩ := h
    refine ⟨⟨"12".toList, "N".toList, earthReturn (953 / 10000) (793402 / 100000) (fun x => (r x.2 : ℝ)) (fun x => (g x.2 : ℝ))
      (fun x y => (((if x.1 || y.1 then d + t else d + 2 * t) / 12 : ℚ) : ℝ)), m⟩, ?_, hpos⟩
    rw [FileSpan, if_neg c1, if_pos c2]
    exact ⟨c, r, g, d, t, h1, fun p hp => by obtain ⟨w, a1, a2, a3, a4, -⟩ := h2 p hp; exact ⟨w, a1, a2, a3, a4⟩, h3, h4, rfl, rfl, rfl, hm⟩
  · obtain ⟨c, sp, k, x, δ, r, g, D, h1, h2, h3, h4, h5, h6, h7, h8⟩ := h
    refine ⟨⟨conductorLetters c "ABC".toList, conductorLetters c "ABCN".toList, earthReturn (9327 / 100000) (795153 / 100000)
      (fun y => if y.1 then (if y.2 = 'N' then (r : ℝ) else ((x y.2).rs / k : ℚ)) else ((x y.2).r : ℝ))
      (fun y => if y.1 then (if y.2 = 'N' then (g : ℝ) else (((x y.2).gs * k * (x y.2).own ^ (k - 1) : ℚ) : ℝ) ^ (1 / (k : ℝ))) else ((x y.2).g : ℝ))
      (fun y w => if y.1 = w.1 then (D y.2 w.2 : ℝ) else if y.2 = w.2 then ((x y.2).own : ℝ)
        else ((D y.2 w.2 : ℝ) ^ k - (if (if y.1 then y.2 else w.2) = 'N' then 0 else ((x (if y.1 then y.2 else w.2)).own : ℝ)) ^ k) ^ (1 / (k : ℝ))), m⟩, ?_, hpos⟩
    rw [FileSpan, if_neg c1, if_neg c2]
    refine ⟨c, k, x, r, g, D, h1, h2, fun p hp => ?_, ⟨sp, h4, h5, fun p hp q hq hpq => ⟨(h6 p hp q hq hpq).1, (h6 p hp q hq hpq).2.1⟩, h7⟩, rfl, h8, rfl, rfl, hm⟩
    obtain ⟨w, a1, a2⟩ := h3 p hp
    split_ifs at a2 with e
    · obtain ⟨b1, b2, b3, b4, -⟩ := a2
      exact ⟨w, a1, b1, by rw [if_pos e]; exact ⟨b2, b3, b4⟩⟩
    · obtain ⟨b1, b2, b3, -, b5, b6, b7, b8, -, -, -, -, b9, -, b10, -⟩ := a2
      refine ⟨w, a1, ?_, by rw [if_neg e]; exact ⟨b1, b2, b3, b5, b6, b7, b8, b9, b10⟩⟩
      obtain ⟨t, ht, -⟩ := b1
      rw [ht]
      rfl

theorem SoundLine.cables (h : SoundLine objs o ph) (hc : o.cls = "underground_line".toList) : ∃ y, CablesCharged objs o y := by
  obtain ⟨-, h⟩ := h
  rw [if_neg (by rw [hc]; decide), if_neg (by rw [hc]; decide)] at h
  obtain ⟨c, sp, k, x, δ, r, g, D, h1, h2, h3, -⟩ := h
  refine ⟨fun p => concentricSusceptance (x p).outer (x p).strand (δ p) k, c, h1, fun p hp => ?_⟩
  obtain ⟨w, a1, a2⟩ := h3 p (letters_ABC hp).1
  rw [if_neg (letters_ABC hp).2] at a2
  obtain ⟨b1, b2, b3, b4, -⟩ := a2
  exact ⟨w, _, _, _, _, a1, b1, b2, b3, b4, rfl⟩

theorem SoundSupply.charged (h : SoundSupply objs) : ChargedFile objs where
  plain := h.plain
  conductors := h.conductors
  spans o ho t ph ht hph := ((h.lines o ho).1 t ph ht hph).span
  coils := h.coils
  taps := h.taps
  regs := h.regs
  impedances := h.impedances
  fed := h.fed
  ideal := h.ideal
  wires := h.wires
  cables o ho hc := by
    obtain ⟨x, hx, rfl⟩ := List.mem_map.1 (List.mem_filter.1 ho).1
    have hd : x.2.cls ∈ deviceClasses := by rw [hc]; decide
    obtain ⟨t, ph, ht, hph, -⟩ := (h.sound.objects x.1 x.2 hx hd).phases.read
    exact ((h.lines x.2 ho).1 t ph ht hph).cables hc

end Verif.Glm
