import Verif.Props.LineLaws
import Verif.Props.Lines

/-!
# C106: lines that are read are built
-/

namespace Verif.Glm

open Matrix

theorem conductor_not_written (p : Char) : "conductor_".toList ++ [p] ∉ writtenAttributes := by
  intro hm
  simp only [writtenAttributes, List.map_cons, List.map_nil, List.mem_cons, List.not_mem_nil, or_false] at hm
  rcases hm with hm | hm | hm <;> · have := congrArg List.length hm; simp at this

theorem NamesPhases.same {objs objs' : List (Txt × Obj)} (h : SameObjs objs objs') {o : Obj} {phases : List Char} (ho : NamesPhases objs o phases) :
    NamesPhases objs' o phases := by
  intro k c hk hc
  obtain ⟨c0, hc0, hs⟩ := h.to_some hc
  simp only [hs.attr _ (conductor_not_written _)]
  exact ho k c0 hk hc0

theorem filterMap_fst (f : Char → Option Txt) (ps : List Char) : (ps.filterMap fun p => (f p).map fun n => (p, n)).map Prod.fst = ps.filter fun p => (f p).isSome := by
  induction ps with
  | nil => rfl
  | cons p ps ih =>
    rw [List.filterMap_cons, List.filter_cons]
    cases f p with
    | none => simpa using ih
    | some n => simpa using ih

theorem conductorNames_fst (c : Obj) (ps : List Char) : (conductorNames c ps).map Prod.fst = ps.filter fun p => (c.attr ("conductor_".toList ++ [p])).isSome :=
  filterMap_fst (fun p => c.attr ("conductor_".toList ++ [p])) ps

/-- A matrix that takes power from every current is invertible. -/
theorem det_ne_of_strict {n : ℕ} {Z : Matrix (Fin n) (Fin n) ℂ} (h : ∀ I : Fin n → ℂ, I ≠ 0 → 0 < (star I ⬝ᵥ Z *ᵥ I).re) : Z.det ≠ 0 := by
  intro hd
  obtain ⟨I, hI, h0⟩ := exists_mulVec_eq_zero_iff.2 hd
  have := h I hI
  rw [h0, dotProduct_zero] at this
  exact lt_irrefl _ this

theorem lineMade_of_strict {d : LineData} (hn : 1 ≤ d.n ∧ d.n ≤ 3) (hl : d.length ≠ 0) (h : ∀ I : Fin d.n → ℂ, I ≠ 0 → 0 < (star I ⬝ᵥ d.Z *ᵥ I).re)
    {pairs : List (ℕ × ℕ)} (hp : pairs.length = d.n) : ∃ e, lineMade d pairs = .ok e := by
  refine (C18_exact d.Z d.S d.length pairs hn hp).1.2 ?_
  rw [det_smul]
  exact mul_ne_zero (pow_ne_zero _ (Complex.ofReal_ne_zero.2 (by exact_mod_cast hl))) (det_ne_of_strict h)

theorem perMeter_strict {n : ℕ} {Z : Matrix (Fin n) (Fin n) ℂ} {I : Fin n → ℂ} (h : 0 < (star I ⬝ᵥ Z *ᵥ I).re) : 0 < (star I ⬝ᵥ perMeter Z *ᵥ I).re := by
  rw [perMeter_power]
  exact div_pos h (by norm_num)

theorem kept_length {phases : List Char} {q : Char → Bool} (h : ∀ p ∈ "ABC".toList, q p = true ↔ p ∈ phases) :
    (("ABCN".toList.filter q).filter (· ≠ 'N')).length = (keptPhases phases).length := by
  have e : ∀ p ∈ "ABC".toList, q p = decide (p ∈ phases) := fun p hp => by rw [Bool.eq_iff_iff, h p hp, decide_eq_true_iff]
  have hA := e 'A' (by decide)
  have hB := e 'B' (by decide)
  have hC := e 'C' (by decide)
  rw [show "ABCN".toList = ['A', 'B', 'C', 'N'] from rfl, keptPhases, show spacingLetters = ['A', 'B', 'C', 'N', 'E'] from rfl]
  simp only [List.filter_cons, hA, hB, hC]
  by_cases h1 : 'A' ∈ phases <;> by_cases h2 : 'B' ∈ phases <;> by_cases h3 : 'C' ∈ phases <;> cases q 'N' <;> simp [h1, h2, h3]

theorem kept_bound {phases : List Char} (h : ∃ p ∈ "ABC".toList, p ∈ phases) : 1 ≤ (keptPhases phases).length ∧ (keptPhases phases).length ≤ 3 := by
  refine ⟨?_, (List.length_filter_le _ _).trans (by decide)⟩
  rw [Nat.one_le_iff_ne_zero, ne_eq, List.length_eq_zero_iff]
  intro e
  obtain ⟨p, hp, h⟩ := h
  have hk : ∀ i ∈ [(0 : Fin 3), 1, 2], spacingLetters.getD i ' ' ∉ phases := by
    intro i hi hm
    have : i ∈ keptPhases phases := by rw [keptPhases, List.mem_filter]; exact ⟨hi, by simpa using hm⟩
    rw [e] at this
    cases this
  rw [show "ABC".toList = ['A', 'B', 'C'] from rfl] at hp
  simp only [List.mem_cons, List.not_mem_nil, or_false] at hp
  rcases hp with rfl | rfl | rfl
  · exact hk 0 (by simp) h
  · exact hk 1 (by simp) h
  · exact hk 2 (by simp) h

theorem cable_bound {ps : List Char} (hs : ps.Sublist "ABCN".toList) (h : ∃ p ∈ "ABC".toList, p ∈ ps) :
    1 ≤ (ps.filter (· ≠ 'N')).length ∧ (ps.filter (· ≠ 'N')).length ≤ 3 := by
  refine ⟨?_, (hs.filter _).length_le.trans (by decide)⟩
  obtain ⟨p, hp, h⟩ := h
  refine List.length_pos_of_mem (a := p) (List.mem_filter.2 ⟨h, ?_⟩)
  have : ∀ p ∈ "ABC".toList, decide (p ≠ 'N') = true := by decide
  exact this p hp

/-- One line that was read takes power from every current, whatever the lines before it were. -/
theorem line_strict {v v' : Option Table} {objs objs' : List (Txt × Obj)} {o : Obj} {ph : Phases} {d : List Char × LineData}
    (hv : ∀ T, v = some T → T.Symm) (h : readLineVar v objs o ph = .ok ((d, objs'), v')) (ho : ConductorsWith (0 < ·) objs o)
    (hn : NamesPhases objs o ph.phases) : d.1.length = d.2.n ∧ (1 ≤ d.2.n ∧ d.2.n ≤ 3) ∧ ∀ I : Fin d.2.n → ℂ, I ≠ 0 → 0 < (star I ⬝ᵥ d.2.Z *ᵥ I).re := by
  have hP : ∀ y : ℚ, 0 < y → 0 < y * (1609344 / 1000000) := fun y hy => mul_pos hy (by norm_num)
  have hv' := readLineVar_symm h hv
  rcases readLineVar_ok h with ⟨hc, hr⟩ | ⟨hc, hr, -⟩ | ⟨hc1, hc2, hr⟩
  · obtain ⟨c, ws, T, len, Z, B, hr, -⟩ := readOverhead_ok hr
    obtain ⟨k, hk, hkc⟩ := configurationOf_ok hr.config
    obtain ⟨hn, hne⟩ := (hn k c hk hkc).1 hc
    have hps := readWires_phases (phase := BareWire.phase) (fun _ _ _ h => overheadConductor_phase h) hr.conductors
    rw [conductorNames_fst] at hps
    have hdata := hr.data
    subst hdata
    have hlen : ((ws.map BareWire.phase).filter (· ≠ 'N')).length = (keptPhases ph.phases).length := by
      rw [hps]
      exact kept_length hn
    refine ⟨hlen, kept_bound hne, fun I hI => perMeter_strict ?_⟩
    refine overhead_strict (hv' T hr.table).striped hr.series (overhead_wires hP hr ho hc) (fun p hp hpp => ?_) hI
    rw [hps, List.mem_filter]
    refine ⟨?_, (hn p hp).2 hpp⟩
    have : ∀ p ∈ "ABC".toList, p ∈ "ABCN".toList := by decide
    exact this p hp
  · obtain ⟨c, ws, x, len, Z, hr⟩ := readTriplexLine_ok hr
    obtain ⟨k, hk, hkc⟩ := configurationOf_ok hr.config
    have hn := (hn k c hk hkc).2.1 hc
    have hps := readWires_phases (phase := TriplexWire.phase) (fun _ _ _ h => triplexConductor_phase h) hr.conductors
    rw [conductorNames_fst] at hps
    have hm : ∀ p ∈ "12".toList, p ∈ ws.map TriplexWire.phase := by
      intro p hp
      rw [hps, List.mem_filter]
      refine ⟨?_, hn p hp⟩
      have : ∀ p ∈ "12".toList, p ∈ "12N".toList := by decide
      exact this p hp
    have hdata := hr.data
    subst hdata
    have hlen : ((ws.map TriplexWire.phase).filter (· ≠ 'N')).length = 2 := by
      rw [hps, List.filter_filter, show "12N".toList = ['1', '2', 'N'] from rfl]
      have h1 := hn '1' (by decide)
      have h2 := hn '2' (by decide)
      simp only [List.filter_cons, h1, h2]
      rfl
    refine ⟨hlen, ⟨by norm_num, by norm_num⟩, fun I hI => perMeter_strict (n := 2) ?_⟩
    refine triplex_strict hr.series (triplex_wires hr ho hc) (fun a => ?_) hI
    rw [triplexAt, List.find?_isSome]
    have ha : ∃ p ∈ "12".toList, triplexIndex p = some (a : ℕ) := by
      revert a
      decide
    obtain ⟨p, hp, hpi⟩ := ha
    obtain ⟨w, hw, rfl⟩ := List.mem_map.1 (hm p hp)
    exact ⟨w, hw, by simpa using hpi⟩
  · obtain ⟨c, ws, T, len, Z, B, hr, -⟩ := readUnderground_ok hr
    obtain ⟨k, hk, hkc⟩ := configurationOf_ok hr.config
    obtain ⟨p, hp, hpn⟩ := (hn k c hk hkc).2.2 hc1 hc2
    have hps := readWires_phases (phase := CableWire.phase) (fun _ _ _ h => undergroundConductor_phase h) hr.conductors
    have hs : (ws.map CableWire.phase).Sublist "ABCN".toList := hps ▸ conductorNames_sublist c "ABCN".toList
    rw [conductorNames_fst] at hps
    have hm : p ∈ ws.map CableWire.phase := by
      rw [hps, List.mem_filter]
      refine ⟨?_, hpn⟩
      have : ∀ p ∈ "ABC".toList, p ∈ "ABCN".toList := by decide
      exact this p hp
    have hdata := hr.data
    subst hdata
    have hlen : ((ws.map CableWire.phase).filter (· ≠ 'N')).length = (ws.filter (·.phase ≠ 'N')).length := by
      rw [List.filter_map, List.length_map]
      rfl
    refine ⟨hlen, by have := cable_bound hs ⟨p, hp, hm⟩; rwa [hlen] at this, fun I hI => perMeter_strict ?_⟩
    exact underground_strict (hv' T hr.table).striped hr.series hs (underground_wires hP hr ho) hI

/-- One line that was read is built, whatever the lines before it were. -/
theorem line_built {v v' : Option Table} {objs objs' : List (Txt × Obj)} {o : Obj} {ph : Phases} {d : List Char × LineData}
    (hv : ∀ T, v = some T → T.Symm) (h : readLineVar v objs o ph = .ok ((d, objs'), v')) (ho : ConductorsWith (0 < ·) objs o)
    (hn : NamesPhases objs o ph.phases) (hl : d.2.length ≠ 0) : d.1.length = d.2.n ∧ ∀ pairs : List (ℕ × ℕ), pairs.length = d.1.length → ∃ e, lineMade d.2 pairs = .ok e := by
  obtain ⟨h1, h2, h3⟩ := line_strict hv h ho hn
  exact ⟨h1, fun pairs hp => lineMade_of_strict h2 hl h3 (hp.trans h1)⟩

/-- **C106, partial.** Every line that is read from a file becomes a line of the network: with conductors of positive resistance, complete for overhead and triplex lines,
and with conductors for its phases, a line of nonzero length has a row of its impedance matrix for every phase and an invertible matrix, so that it is built between any
buses. What is missing: overhead lines with more or fewer conductors than phases (`C106_phases_fails`). -/
theorem C106_built_partial (objs : List (Txt × Obj)) (hf : ConductorsNamed objs) (lines : List (Obj × Phases)) (ds : List (List Char × LineData))
    (hl : ∀ x ∈ lines, ConductorsWith (0 < ·) objs x.1 ∧ NamesPhases objs x.1 x.2.phases) (h : readLinesVar none objs lines = .ok ds) :
    ∀ d ∈ ds, d.2.length ≠ 0 → ∀ pairs : List (ℕ × ℕ), pairs.length = d.1.length → ∃ e, lineMade d.2 pairs = .ok e := by
  suffices H : ∀ v objs' ds, SameObjs objs objs' → (∀ T, v = some T → T.Symm) → readLinesVar v objs' lines = .ok ds →
      ∀ d ∈ ds, d.2.length ≠ 0 → ∀ pairs : List (ℕ × ℕ), pairs.length = d.1.length → ∃ e, lineMade d.2 pairs = .ok e from
    H none objs ds (SameObjs.refl _) (fun _ h => by cases h) h
  clear h
  induction lines with
  | nil => intro v objs' ds _ _ h d hd; cases h; cases hd
  | cons x xs ih =>
    intro v objs' ds hs hv h d hd hlen
    rw [readLinesVar] at h
    obtain ⟨⟨⟨d0, objs1⟩, v'⟩, h1, h⟩ := bind_eq_ok h
    obtain ⟨rest, h2, h⟩ := bind_eq_ok h
    cases h
    rcases List.mem_cons.1 hd with rfl | hd
    · exact (line_built hv h1 ((hl x (by simp)).1.same hs) ((hl x (by simp)).2.same hs) hlen).2
    · exact ih (fun y hy => hl y (List.mem_cons_of_mem _ hy)) v' objs1 rest (hs.trans (readLineVar_keeps hf hs h1)) (readLineVar_symm h1 hv) h2 d hd hlen

theorem unspaced_resistance (P : ℚ → Prop) (hP : P (1 / 4)) (p : Char) (w : Obj) (h : UsesConductor (unspaced "2".toList) (overheadOf "spaced".toList) p w) :
    EachResistance P w ∧ CompleteBare w := by
  obtain rfl := unspaced_uses h
  refine ⟨?_, rfl, rfl⟩
  intro a ha s hs x hx
  simp only [List.map_cons, List.map_nil, List.mem_cons, List.not_mem_nil, or_false] at ha
  rcases ha with rfl | rfl | rfl
  · cases hs
    rw [show pyFloat "0.25".toList = some (1 / 4) by decide +kernel, show pyFloat (removeNonnum "0.25".toList) = some (1 / 4) by decide +kernel, or_self] at hx
    cases hx
    exact hP
  · cases hs
  · cases hs

/-- A line of two conductors two feet apart is read and built. -/
example : ∃ d, readLinesVar none (unspaced "2".toList) [(overheadOf "spaced".toList, ⟨['A', 'B'], false, false, false⟩)] = .ok [d] ∧
    ∃ e, lineMade d.2 [(0, 1), (2, 3)] = .ok e := by
  obtain ⟨Z, S, -, -, -, hx, -⟩ := unspaced_line (some (1 / 50)) (some (1 / 4)) (by rintro x ⟨⟩; norm_num) (t := "2".toList) (d := 2) (Or.inl ⟨rfl, rfl⟩)
    (show ∀ c ∈ [spacedConfig, bareConfig], readWires overheadConductor (unspaced "2".toList) (conductorNames c "ABCN".toList) = _ by decide +kernel)
  have h : readLinesVar none (unspaced "2".toList) [(overheadOf "spaced".toList, ⟨['A', 'B'], false, false, false⟩)] = .ok [(['A', 'B'], ⟨2, Z, S, 3048 / 10⟩)] := by
    simp only [unspaced, readLinesVar, hx, bind, Except.bind]
  refine ⟨_, h, C106_built_partial _ (conductorsNamed_of (by decide +kernel)) _ _ ?_ h _ (by simp) (by norm_num) _ rfl⟩
  intro x hx
  rw [List.mem_singleton] at hx
  subst hx
  refine ⟨fun p w hw => ⟨(unspaced_resistance _ (by norm_num) p w hw).1, fun _ => (unspaced_resistance _ (by norm_num : (0 : ℚ) < 1 / 4) p w hw).2⟩, ?_⟩
  intro k c hk hc
  cases hk
  cases hc
  refine ⟨fun _ => ⟨by decide +kernel, by decide⟩, fun h => absurd h (by decide), fun h => absurd rfl h⟩

/-- **C106 fails.** An overhead line with phase A only, whose configuration names conductors for A and B, is read with a matrix of one row but two phases, and cannot be
built between any buses. -/
theorem C106_phases_fails : ∃ d, readLinesVar none (unspaced "2".toList) [(overheadOf "spaced".toList, ⟨['A'], false, false, false⟩)] = .ok [d] ∧
    d.2.length ≠ 0 ∧ d.1.length = 2 ∧ ∀ pairs : List (ℕ × ℕ), pairs.length = d.1.length → ∀ e, lineMade d.2 pairs ≠ .ok e := by
  obtain ⟨hs, hr⟩ := pairTable_readable (some (1 / 50)) (some (1 / 4)) (by rintro x ⟨⟩; norm_num) (d := 2) (Or.inl rfl)
  obtain ⟨B, hB⟩ := pairTable_charging (some (1 / 50)) (some (1 / 4)) (d := 2) (by norm_num)
  have hZ : ∃ Z, overheadImpedance [pairWire (some (1 / 50)) (some (1 / 4)) 'A', pairWire (some (1 / 50)) (some (1 / 4)) 'B'] (pairTable 2) ['A'] false = .ok Z := by
    rw [overheadImpedance, if_neg (not_not.2 hr)]
    simp only [Bool.false_eq_true, if_false, bind, Except.bind]
    exact ⟨_, rfl⟩
  obtain ⟨Z, hZ⟩ := hZ
  refine ⟨(['A', 'B'], ⟨1, perMeter (n := Fin 1) Z, shuntPerMeter B, 3048 / 10⟩), ?_, by norm_num, rfl, fun pairs hp e he => ?_⟩
  · rw [readLinesVar, readLineVar, if_pos (overheadOf_cls _), readOverhead]
    simp only [show parseLineLength (overheadOf "spaced".toList) = .ok (3048 / 10, overheadOf "spaced".toList) by decide +kernel,
      show configurationOf (unspaced "2".toList) (overheadOf "spaced".toList) = .ok spacedConfig from rfl,
      show readWires overheadConductor (unspaced "2".toList) (conductorNames spacedConfig "ABCN".toList) =
        .ok ([pairWire (some (1 / 50)) (some (1 / 4)) 'A', pairWire (some (1 / 50)) (some (1 / 4)) 'B'], unspaced "2".toList) by decide +kernel, bind, Except.bind]
    rw [overheadTable, show spacedConfig.attr "spacing".toList = some "near".toList from rfl]
    simp only [show lookup "near".toList (unspaced "2".toList) = some (oneSpaced "2".toList) from rfl,
      show overheadSpacing (oneSpaced "2".toList) = .ok (pairTable 2) from oneSpaced_table (by norm_num) (by decide +kernel),
      show placeWires (pairTable 2) (([pairWire (some (1 / 50)) (some (1 / 4)) 'A', pairWire (some (1 / 50)) (some (1 / 4)) 'B'] : List BareWire).map BareWire.phase) = .ok () from
        show placeWires (pairTable 2) ['A', 'B'] = .ok () by decide +kernel, tableSet, hZ, hB, bind, Except.bind, readLinesVar]
    rfl
  · obtain ⟨-, -, h, -⟩ := makeUnbalanced_ok he
    rw [hp] at h
    exact absurd h (show ¬ 2 = 1 by decide)

end Verif.Glm
