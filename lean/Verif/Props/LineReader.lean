import Verif.Spec.LineReader
import Verif.Lemmas.LineWires
import Verif.Props.LineImpedance

/-!
# C104, C105: lines of a file
-/

namespace Verif.Glm

open Matrix

/-! ### C104 -/

theorem overheadTable_own {v v' : Option Table} {objs : List (Txt × Obj)} {c : Obj} {ps : List Char} (hs : (c.attr "spacing".toList).isSome) :
    overheadTable v objs c ps = overheadTable v' objs c ps := by
  rw [overheadTable, overheadTable]
  obtain ⟨n, hn⟩ := Option.isSome_iff_exists.1 hs
  rw [hn]

theorem undergroundTable_own {v v' : Option Table} {objs : List (Txt × Obj)} {c : Obj} {ws : List CableWire} (hs : (c.attr "spacing".toList).isSome)
    (hw : ∀ w ∈ ws, w.outer.isSome) : undergroundTable v objs c ws = undergroundTable v' objs c ws := by
  rw [undergroundTable, undergroundTable]
  obtain ⟨n, hn⟩ := Option.isSome_iff_exists.1 hs
  have : (ws.any fun w => w.outer.isNone) = false := by
    rw [List.any_eq_false]
    intro w hw'
    rw [Option.isNone_iff_eq_none]
    intro e
    have := hw w hw'
    rw [e] at this
    cases this
  rw [hn]
  simp only [this, Bool.false_eq_true, if_false]

/-- **C104, one line, partial.** If the configuration of a line says how its conductors are spaced, what is read for the line does not depend on the
lines before it. What is missing: lines whose configuration has no spacing, and cables without outer diameter (`C104_spacing_fails`). -/
theorem C104_own_spacing_partial (v v' : Option Table) (objs : List (Txt × Obj)) (o : Obj) (ph : Phases) (h : OwnSpacing objs o) :
    (readLineVar v objs o ph).map Prod.fst = (readLineVar v' objs o ph).map Prod.fst := by
  rw [readLineVar, readLineVar]
  by_cases h1 : o.cls = "overhead_line".toList
  · rw [if_pos h1, if_pos h1]
    rcases h with h | ⟨h, -⟩
    · rw [h] at h1
      exact absurd h1 (by decide)
    · rw [readOverhead, readOverhead]
      cases parseLineLength o with
      | error e => rfl
      | ok len =>
        simp only [bind, Except.bind]
        cases hc : configurationOf objs o with
        | error e => rfl
        | ok c =>
          obtain ⟨k, hk, hl⟩ := configurationOf_ok hc
          simp only
          cases readWires overheadConductor objs (conductorNames c "ABCN".toList) with
          | error e => rfl
          | ok r => simp only [overheadTable_own (v := v) (v' := v') (h k c hk hl)]
  · rw [if_neg h1, if_neg h1]
    by_cases h2 : o.cls = "triplex_line".toList
    · rw [if_pos h2, if_pos h2]
      cases readTriplexLine objs o <;> rfl
    · rw [if_neg h2, if_neg h2]
      rcases h with h | ⟨h, h'⟩
      · exact absurd h h2
      · rw [readUnderground, readUnderground]
        cases parseLineLength o with
        | error e => rfl
        | ok len =>
          simp only [bind, Except.bind]
          cases hc : configurationOf objs o with
          | error e => rfl
          | ok c =>
            obtain ⟨k, hk, hl⟩ := configurationOf_ok hc
            simp only
            cases hr : readWires undergroundConductor objs (conductorNames c "ABCN".toList) with
            | error e => rfl
            | ok r =>
              have hw := readWires_all (P := fun w : CableWire => w.outer.isSome) (Q := fun o => (o.attr "outer_diameter".toList).isSome)
                (fun o p w hw ho => undergroundConductor_outer hw ho) hr fun x hx w hw =>
                  h' h1 x.1 (conductorNames_uses hc hx hw).1 w (conductorNames_uses hc hx hw).2
              simp only [undergroundTable_own (v := v) (v' := v') (h k c hk hl) hw]

theorem UsesConductor.same {objs objs' : List (Txt × Obj)} (h : SameObjs objs objs') {o : Obj} {p : Char} {w' : Obj} (hu : UsesConductor objs' o p w') :
    ∃ w, UsesConductor objs o p w ∧ SameObj w w' := by
  obtain ⟨k, c, n, hk, hc, hn, hw⟩ := hu
  obtain ⟨c0, hc0, hsc⟩ := h.to_some hc
  obtain ⟨w0, hw0, hsw⟩ := h.to_some hw
  refine ⟨w0, ⟨k, c0, n, hk, hc0, ?_, hw0⟩, hsw⟩
  rw [← hn]
  refine (hsc.attr _ ?_).symm
  intro hm
  simp only [writtenAttributes, List.map_cons, List.map_nil, List.mem_cons, List.not_mem_nil, or_false] at hm
  rcases hm with hm | hm | hm <;> · have := congrArg List.length hm; simp at this

theorem OwnSpacing.same {objs objs' : List (Txt × Obj)} (h : SameObjs objs objs') {o : Obj} (ho : OwnSpacing objs o) : OwnSpacing objs' o := by
  rcases ho with ho | ⟨h1, h2⟩
  · exact Or.inl ho
  · refine Or.inr ⟨fun k c hk hc => ?_, fun hcl p hp w hw => ?_⟩
    · obtain ⟨c0, hc0, hs⟩ := h.to_some hc
      rw [hs.attr _ (by decide)]
      exact h1 k c0 hk hc0
    · obtain ⟨w0, hw0, hs⟩ := UsesConductor.same h hw
      rw [hs.attr _ (by decide)]
      exact h2 hcl p hp w0 hw0

/-- **C104, a file, partial.** If every line of a file has a spacing of its own, the lines are read as if each were the first: the variable that is kept
from line to line has no effect. What is missing is as in `C104_own_spacing_partial`. -/
theorem C104_lines_partial (objs : List (Txt × Obj)) (hf : ConductorsNamed objs) (lines : List (Obj × Phases))
    (h : ∀ x ∈ lines, OwnSpacing objs x.1) (v : Option Table) : readLinesVar v objs lines = readLines objs lines := by
  suffices H : ∀ objs' v, SameObjs objs objs' → readLinesVar v objs' lines = readLines objs' lines from H objs v (SameObjs.refl objs)
  induction lines with
  | nil => intros; rfl
  | cons x xs ih =>
    intro objs' v hs
    have hx := C104_own_spacing_partial v none objs' x.1 x.2 ((h x (by simp)).same hs)
    rw [readLinesVar, readLines, lineReader]
    cases h0 : readLineVar none objs' x.1 x.2 with
    | error e =>
      cases h1 : readLineVar v objs' x.1 x.2 with
      | error e' => rw [h0, h1] at hx; cases hx; rfl
      | ok r => rw [h0, h1] at hx; cases hx
    | ok r0 =>
      cases h1 : readLineVar v objs' x.1 x.2 with
      | error e' => rw [h0, h1] at hx; cases hx
      | ok r =>
        rw [h0, h1] at hx
        have e : r.1 = r0.1 := by injection hx
        simp only [bind, Except.bind, e]
        rw [ih (fun y hy => h y (List.mem_cons_of_mem _ hy)) _ _ (hs.trans (readLineVar_keeps hf hs (d := r0.1.1) (v' := r0.2) (by rw [h0])))]

/-- A configuration of two conductors without spacing. -/
def bareConfig : Obj := ⟨"line_configuration".toList, [("conductor_A".toList, "wire".toList), ("conductor_B".toList, "wire".toList)]⟩

/-- The same with a spacing. -/
def spacedConfig : Obj := ⟨"line_configuration".toList, bareConfig.attrs ++ [("spacing".toList, "near".toList)]⟩

/-- A wire, a spacing of two conductors at the distance `t`, a configuration with this spacing and one without. -/
def unspacedWith (w : Obj) (t : Txt) : List (Txt × Obj) :=
  [("wire".toList, w), ("near".toList, oneSpaced t), ("spaced".toList, spacedConfig), ("bare".toList, bareConfig)]

/-- With a wire of one inch. -/
def unspaced (t : Txt) : List (Txt × Obj) := unspacedWith ⟨"overhead_line_conductor".toList, [("geometric_mean_radius".toList, "0.02".toList),
  ("diameter".toList, "1".toList), ("resistance".toList, "0.25".toList)]⟩ t

/-- A line of 1000 feet with a configuration. -/
def overheadOf (c : Txt) : Obj := ⟨"overhead_line".toList, [("length".toList, "1000".toList), ("configuration".toList, c)]⟩

theorem overheadOf_cls (c : Txt) : (overheadOf c).cls = "overhead_line".toList := rfl

/-- The table of two conductors. -/
def pairTable (d : ℚ) : Table := (((Table.put (fun _ _ => -1) 0 1 d).put 1 0 d).put 0 0 0).put 1 1 0

theorem oneSpaced_table {t : Txt} {d : ℚ} (hd : d ≠ 0) (ht : floatOf (removeNonnum t) = .ok d) : overheadSpacing (oneSpaced t) = .ok (pairTable d) := by
  have h1 : ∀ T, overheadSpacingStep (oneSpaced t) T (0, 1) = .ok ((((T.put 0 1 d).put 1 0 d).put 0 0 0).put 1 1 0) := by
    intro T
    rw [overheadSpacingStep, show (oneSpaced t).get (distanceName (0, 1).1 (0, 1).2) = .ok t from rfl]
    simp only [ht, bind, Except.bind, if_neg hd]
  have h2 : ∀ p ∈ spacingPairs.tail, ∀ T, overheadSpacingStep (oneSpaced t) T p = .ok T := by
    intro p hp T
    have : (oneSpaced t).get (distanceName p.1 p.2) = .error .attribute := by
      simp only [spacingPairs, List.tail_cons, List.mem_cons, List.not_mem_nil, or_false] at hp
      rcases hp with rfl | rfl | rfl | rfl | rfl | rfl | rfl | rfl | rfl <;> rfl
    rw [overheadSpacingStep, this]
  have h3 : ∀ l : List (ℕ × ℕ), (∀ p ∈ l, ∀ T, overheadSpacingStep (oneSpaced t) T p = .ok T) → ∀ T, l.foldlM (overheadSpacingStep (oneSpaced t)) T = .ok T := by
    intro l hl
    induction l with
    | nil => intro T; rfl
    | cons p l ih =>
      intro T
      rw [List.foldlM_cons, hl p (by simp)]
      exact ih (fun q hq => hl q (by simp [hq])) T
  rw [overheadSpacing, show spacingPairs = (0, 1) :: spacingPairs.tail from rfl, List.foldlM_cons, h1]
  exact h3 _ h2 _

/-- A wire of one inch. -/
def pairWire (g r : Option ℚ) (p : Char) : BareWire := ⟨p, some 1, g, r⟩

theorem pairTable_charging (g r : Option ℚ) {d : ℚ} (hd : 1 ≤ d) : ∃ B, overheadCharging [pairWire g r 'A', pairWire g r 'B'] (pairTable d) = .ok B := by
  have hA : revLookup 'A' = some 0 := by decide
  have hB : revLookup 'B' = some 1 := by decide
  have hr : ChargingReadable [pairWire g r 'A', pairWire g r 'B'] (pairTable d) := by
    have h0 : (0 : ℚ) < d := by linarith
    refine ⟨?_, ?_, ?_⟩
    · intro w hw
      rcases List.mem_cons.1 hw with rfl | hw
      · exact ⟨1, rfl, one_pos⟩
      · rw [List.mem_singleton] at hw; subst hw; exact ⟨1, rfl, one_pos⟩
    · intro u hu v hv hne a b ha hb
      simp only [List.mem_cons, List.not_mem_nil, or_false] at hu hv
      rcases hu with rfl | rfl <;> rcases hv with rfl | rfl
      · exact absurd rfl hne
      · rw [show (pairWire g r 'A').phase = 'A' from rfl, hA] at ha
        rw [show (pairWire g r 'B').phase = 'B' from rfl, hB] at hb
        cases ha; cases hb
        exact ⟨h0, fun e => absurd e (by simp [pairWire])⟩
      · rw [show (pairWire g r 'B').phase = 'B' from rfl, hB] at ha
        rw [show (pairWire g r 'A').phase = 'A' from rfl, hA] at hb
        cases ha; cases hb
        exact ⟨h0, fun e => absurd e (by simp [pairWire])⟩
      · exact absurd rfl hne
    · intro u hu a ha
      simp only [List.mem_cons, List.not_mem_nil, or_false] at hu
      rcases hu with rfl | rfl
      · rw [show (pairWire g r 'A').phase = 'A' from rfl, hA] at ha
        cases ha
        exact ⟨rfl, show (-1 : ℚ) ≠ 0 by norm_num⟩
      · rw [show (pairWire g r 'B').phase = 'B' from rfl, hB] at ha
        cases ha
        exact ⟨rfl, show (-1 : ℚ) ≠ 0 by norm_num⟩
  have hN : 'N' ∉ [pairWire g r 'A', pairWire g r 'B'].map BareWire.phase := by simp [pairWire]
  have hdet : (potentialReduced [pairWire g r 'A', pairWire g r 'B'] (pairTable d)).det ≠ 0 := by
    have hdr : (1 : ℝ) ≤ (d : ℝ) := by exact_mod_cast hd
    have hself : ∀ i : ℕ, i < 2 → potentialAt [pairWire g r 'A', pairWire g r 'B'] (pairTable d) i i = 1117689 / 100000 * Real.log 4 := by
      intro i hi
      have h2 : Real.sqrt 4 = 2 := by rw [show (4 : ℝ) = 2 ^ 2 by norm_num, Real.sqrt_sq (by norm_num)]
      interval_cases i <;> · 
        norm_num [potentialAt, imageDistance, pairWire, hA, hB, pairTable, Table.put, h2]
    have hmut : ∀ i j : ℕ, i < 2 → j < 2 → i ≠ j → potentialAt [pairWire g r 'A', pairWire g r 'B'] (pairTable d) i j =
        1117689 / 100000 * Real.log (Real.sqrt ((d : ℝ) ^ 2 + 4) / d) := by
      intro i j hi hj hij
      interval_cases i <;> interval_cases j
      · exact absurd rfl hij
      · norm_num [potentialAt, imageDistance, pairWire, hA, hB, pairTable, Table.put]
      · norm_num [potentialAt, imageDistance, pairWire, hA, hB, pairTable, Table.put]
      · exact absurd rfl hij
    have h1 : 1 ≤ Real.sqrt ((d : ℝ) ^ 2 + 4) / d := by
      rw [le_div_iff₀ (by linarith), one_mul]
      exact Real.le_sqrt_of_sq_le (by linarith)
    have h2 : Real.sqrt ((d : ℝ) ^ 2 + 4) / d < 4 := by
      rw [div_lt_iff₀ (by linarith), Real.sqrt_lt' (by linarith)]
      nlinarith
    have h3 := Real.log_nonneg h1
    have h4 := Real.log_lt_log (by linarith) h2
    have h5 : (potentialReduced [pairWire g r 'A', pairWire g r 'B'] (pairTable d)).det = (1117689 / 100000 * Real.log 4) * (1117689 / 100000 * Real.log 4) -
        (1117689 / 100000 * Real.log (Real.sqrt ((d : ℝ) ^ 2 + 4) / d)) * (1117689 / 100000 * Real.log (Real.sqrt ((d : ℝ) ^ 2 + 4) / d)) := by
      refine (Matrix.det_fin_two (potentialReduced [pairWire g r 'A', pairWire g r 'B'] (pairTable d))).trans ?_
      simp only [potentialReduced, if_neg hN]
      rw [← hself 0 (by norm_num), ← hmut 0 1 (by norm_num) (by norm_num) (by norm_num)]
      congr 1
    rw [h5]
    nlinarith
  refine ⟨chargingOfPotential (potentialReduced [pairWire g r 'A', pairWire g r 'B'] (pairTable d)), ?_⟩
  rw [overheadCharging, if_neg (not_not.2 hr), if_neg fun h => hN h.1, if_neg hdet]

theorem pairTable_readable (g r : Option ℚ) (hg : ∀ x, g = some x → 0 < x) {d : ℚ} (hd : d = 2 ∨ d = 4) :
    stripedDistance (pairTable d) 0 1 = some d ∧ OverheadReadable [pairWire g r 'A', pairWire g r 'B'] (pairTable d) := by
  have h : stripedDistance (pairTable d) 0 1 = some d ∧ stripedDistance (pairTable d) 1 0 = some d ∧ 0 < d := by
    rcases hd with rfl | rfl <;> decide +kernel
  refine ⟨h.1, ?_, ?_, ?_⟩
  · intro w hw
    simp only [List.mem_cons, List.not_mem_nil, or_false] at hw
    rcases hw with rfl | rfl
    · exact ⟨0, by norm_num, show revLookup 'A' = some 0 by decide⟩
    · exact ⟨1, by norm_num, show revLookup 'B' = some 1 by decide⟩
  · intro w hw r' g' _ hg'
    simp only [List.mem_cons, List.not_mem_nil, or_false] at hw
    rcases hw with rfl | rfl <;> exact hg g' hg'
  · intro i hi j hj hij
    simp only [List.length_cons, List.length_nil] at hi hj
    interval_cases i <;> interval_cases j
    · exact absurd rfl hij
    · exact ⟨d, h.1, h.2.2⟩
    · exact ⟨d, h.2.1, h.2.2⟩
    · exact absurd rfl hij

/-- What is read for the line with the spacing and, if `distances` is that of two conductors, for the line without. -/
theorem unspaced_line (g r : Option ℚ) (hg : ∀ x, g = some x → 0 < x) {o : Obj} {t : Txt} {d : ℚ} (ht : t = "2".toList ∧ d = 2 ∨ t = "4".toList ∧ d = 4)
    (hw : ∀ c ∈ [spacedConfig, bareConfig],
      readWires overheadConductor (unspacedWith o t) (conductorNames c "ABCN".toList) = .ok ([pairWire g r 'A', pairWire g r 'B'], unspacedWith o t)) :
    ∃ (Z : Matrix (Fin 2) (Fin 2) ℂ) (S : ℕ → ℕ → Option ℂ), Z 0 1 = mutualImpedance false d / ((1609344 / 1000 : ℝ) : ℂ) ∧
      Z 1 0 = mutualImpedance false d / ((1609344 / 1000 : ℝ) : ℂ) ∧ (∀ i, Z i i = wireImpedance (pairWire g r 'A') / ((1609344 / 1000 : ℝ) : ℂ)) ∧
      (∀ v, readLineVar v (unspacedWith o t) (overheadOf "spaced".toList) ⟨['A', 'B'], false, false, false⟩ =
        .ok (((['A', 'B'], ⟨2, Z, S, 3048 / 10⟩), unspacedWith o t), some (pairTable d))) ∧
      readLineVar (some (pairTable d)) (unspacedWith o t) (overheadOf "bare".toList) ⟨['A', 'B'], false, false, false⟩ =
        .ok (((['A', 'B'], ⟨2, Z, S, 3048 / 10⟩), unspacedWith o t), some (pairTable d)) := by
  have hd : d = 2 ∨ d = 4 := by rcases ht with ⟨-, h⟩ | ⟨-, h⟩ <;> simp [h]
  obtain ⟨hs, hr⟩ := pairTable_readable g r hg hd
  obtain ⟨B, hB⟩ := pairTable_charging g r (d := d) (by rcases hd with rfl | rfl <;> norm_num)
  have hl : ∀ c ∈ (["spaced".toList, "bare".toList] : List Txt), parseLineLength (overheadOf c) = .ok (3048 / 10, overheadOf c) := by decide +kernel
  have hT : overheadSpacing (oneSpaced t) = .ok (pairTable d) := by
    rcases ht with ⟨rfl, rfl⟩ | ⟨rfl, rfl⟩ <;> exact oneSpaced_table (by norm_num) (by decide +kernel)
  have hp : placeWires (pairTable d) (([pairWire g r 'A', pairWire g r 'B'] : List BareWire).map BareWire.phase) = .ok () := by
    show placeWires (pairTable d) ['A', 'B'] = .ok ()
    rcases hd with rfl | rfl <;> decide +kernel
  have hZ : overheadImpedance [pairWire g r 'A', pairWire g r 'B'] (pairTable d) ['A', 'B'] false = .ok
      (((overheadPrimitive [pairWire g r 'A', pairWire g r 'B'] (pairTable d)).submatrix (Fin.castAdd 1) (Fin.castAdd 1)).submatrix
        (keptPhases ['A', 'B']).get (keptPhases ['A', 'B']).get) := by
    rw [overheadImpedance, if_neg (not_not.2 hr)]
    simp only [Bool.false_eq_true, if_false, bind, Except.bind]
  have h0 : wireAt [pairWire g r 'A', pairWire g r 'B'] 0 = some 0 := rfl
  have h1 : wireAt [pairWire g r 'A', pairWire g r 'B'] 1 = some 1 := rfl
  have hs' : stripedDistance (pairTable d) 1 0 = some d := by rcases hd with rfl | rfl <;> decide +kernel
  refine ⟨perMeter (((overheadPrimitive [pairWire g r 'A', pairWire g r 'B'] (pairTable d)).submatrix (Fin.castAdd 1) (Fin.castAdd 1)).submatrix
        (keptPhases ['A', 'B']).get (keptPhases ['A', 'B']).get), shuntPerMeter B, ?_, ?_, ?_, fun v => ?_, ?_⟩
  · rw [← show overheadPrimitive [pairWire g r 'A', pairWire g r 'B'] (pairTable d) 0 1 = mutualImpedance false d by
      rw [overheadPrimitive, show ((0 : Fin 4) : ℕ) = 0 from rfl, show ((1 : Fin 4) : ℕ) = 1 from rfl, h0, h1]
      simp [hs]]
    rfl
  · rw [← show overheadPrimitive [pairWire g r 'A', pairWire g r 'B'] (pairTable d) 1 0 = mutualImpedance false d by
      rw [overheadPrimitive, show ((0 : Fin 4) : ℕ) = 0 from rfl, show ((1 : Fin 4) : ℕ) = 1 from rfl, h0, h1]
      simp [hs']]
    rfl
  · intro i
    fin_cases i
    · rw [← show overheadPrimitive [pairWire g r 'A', pairWire g r 'B'] (pairTable d) 0 0 = wireImpedance (pairWire g r 'A') by
        rw [overheadPrimitive, show ((0 : Fin 4) : ℕ) = 0 from rfl, h0]
        simp]
      rfl
    · rw [← show overheadPrimitive [pairWire g r 'A', pairWire g r 'B'] (pairTable d) 1 1 = wireImpedance (pairWire g r 'A') by
        rw [overheadPrimitive, show ((1 : Fin 4) : ℕ) = 1 from rfl, h1]
        simp [wireImpedance, pairWire]]
      rfl
  · rw [readLineVar, if_pos (overheadOf_cls _), readOverhead]
    simp only [hl "spaced".toList (by simp), show configurationOf (unspacedWith o t) (overheadOf "spaced".toList) = .ok spacedConfig from rfl,
      hw spacedConfig (by simp), bind, Except.bind]
    rw [overheadTable, show spacedConfig.attr "spacing".toList = some "near".toList from rfl]
    simp only [show lookup "near".toList (unspacedWith o t) = some (oneSpaced t) from rfl, hT, hp, tableSet, hZ, hB, bind, Except.bind]
    rfl
  · rw [readLineVar, if_pos (overheadOf_cls _), readOverhead]
    simp only [hl "bare".toList (by simp), show configurationOf (unspacedWith o t) (overheadOf "bare".toList) = .ok bareConfig from rfl,
      hw bareConfig (by simp), bind, Except.bind]
    rw [overheadTable, show bareConfig.attr "spacing".toList = none from rfl]
    simp only [tableSet, hZ, hB]
    rfl

theorem mutual_ne {a b : ℝ} (ha : 0 < a) (hb : 0 < b) (h : a ≠ b) (u : Bool) : mutualImpedance u a ≠ mutualImpedance u b := by
  intro e
  have := congrArg Complex.im e
  simp only [mutualImpedance] at this
  have h2 : Real.log (1 / a) = Real.log (1 / b) := by linarith
  have := Real.log_injOn_pos (Set.mem_Ioi.2 (one_div_pos.2 ha)) (Set.mem_Ioi.2 (one_div_pos.2 hb)) h2
  rw [one_div, one_div, _root_.inv_inj] at this
  exact h this

/-- **C104 fails.** A line whose configuration has no spacing is read with the distances of the line before it: in two files that differ only in a spacing that it
does not name, it has different mutual impedances. As the only line it cannot be read. -/
theorem C104_spacing_fails : ∃ x y : List Char × LineData,
    readLinesVar none (unspaced "2".toList) [(overheadOf "spaced".toList, ⟨['A', 'B'], false, false, false⟩), (overheadOf "bare".toList, ⟨['A', 'B'], false, false, false⟩)] = .ok [x, x] ∧
    readLinesVar none (unspaced "4".toList) [(overheadOf "spaced".toList, ⟨['A', 'B'], false, false, false⟩), (overheadOf "bare".toList, ⟨['A', 'B'], false, false, false⟩)] = .ok [y, y] ∧
    entryAt x.2.Z 0 1 ≠ entryAt y.2.Z 0 1 ∧
    ∀ t z, readLinesVar none (unspaced t) [(overheadOf "bare".toList, ⟨['A', 'B'], false, false, false⟩)] ≠ .ok z := by
  obtain ⟨Z, S, hx, -, -, hx1, hx2⟩ := unspaced_line (some (1 / 50)) (some (1 / 4)) (by rintro x ⟨⟩; norm_num) (t := "2".toList) (d := 2) (Or.inl ⟨rfl, rfl⟩)
    (show ∀ c ∈ [spacedConfig, bareConfig], readWires overheadConductor (unspaced "2".toList) (conductorNames c "ABCN".toList) = _ by decide +kernel)
  obtain ⟨Z', S', hy, -, -, hy1, hy2⟩ := unspaced_line (some (1 / 50)) (some (1 / 4)) (by rintro x ⟨⟩; norm_num) (t := "4".toList) (d := 4) (Or.inr ⟨rfl, rfl⟩)
    (show ∀ c ∈ [spacedConfig, bareConfig], readWires overheadConductor (unspaced "4".toList) (conductorNames c "ABCN".toList) = _ by decide +kernel)
  refine ⟨(['A', 'B'], ⟨2, Z, S, 3048 / 10⟩), (['A', 'B'], ⟨2, Z', S', 3048 / 10⟩), ?_, ?_, ?_, ?_⟩
  · simp only [unspaced, readLinesVar, hx1, hx2, bind, Except.bind]
  · simp only [unspaced, readLinesVar, hy1, hy2, bind, Except.bind]
  · rw [show entryAt Z 0 1 = Z 0 1 from rfl, show entryAt Z' 0 1 = Z' 0 1 from rfl, hx, hy]
    intro e
    rw [div_left_inj' (Complex.ofReal_ne_zero.2 (by norm_num))] at e
    exact mutual_ne (by norm_num) (by norm_num) (by norm_num) false e
  · intro t z h
    rw [readLinesVar] at h
    obtain ⟨⟨⟨d, o'⟩, v⟩, h1, -⟩ := bind_eq_ok h
    rcases readLineVar_ok h1 with ⟨-, h1⟩ | ⟨hc, -⟩ | ⟨hc, -⟩
    · obtain ⟨c, ws, T, len, Z, B, hr, ht⟩ := readOverhead_ok h1
      have hc := hr.config
      rw [show configurationOf (unspaced t) (overheadOf "bare".toList) = .ok bareConfig from rfl] at hc
      cases hc
      rw [overheadTable, show bareConfig.attr "spacing".toList = none from rfl] at ht
      have hv := hr.table
      cases ht
      cases hv
    · exact absurd hc (by decide)
    · exact hc rfl

theorem conductorsNamed_of {objs : List (Txt × Obj)} (h : ∀ x ∈ objs, ∀ p ∈ "ABCN12".toList, ∀ n ∈ x.2.attr ("conductor_".toList ++ [p]),
    ∀ o ∈ lookup n objs, o.cls ∈ conductorClasses) : ConductorsNamed objs := fun k c hc p hp n hn o ho => h (k, c) (mem_of_lookup hc) p hp n hn o ho

/-- The file of `C104_spacing_fails` with only the spaced line, twice. -/
example (v : Option Table) : readLinesVar v (unspaced "2".toList) (List.replicate 2 (overheadOf "spaced".toList, ⟨['A', 'B'], false, false, false⟩)) =
    readLines (unspaced "2".toList) (List.replicate 2 (overheadOf "spaced".toList, ⟨['A', 'B'], false, false, false⟩)) := by
  refine C104_lines_partial _ ?_ _ ?_ v
  · exact conductorsNamed_of (by decide +kernel)
  · rintro x hx
    obtain rfl := List.eq_of_mem_replicate hx
    refine Or.inr ⟨?_, fun h => absurd rfl h⟩
    intro k c hk hc
    cases hk
    cases hc
    rfl

/-- One spaced line, after any two histories. -/
example (v v' : Option Table) (ph : Phases) : (readLineVar v (unspaced "2".toList) (overheadOf "spaced".toList) ph).map Prod.fst =
    (readLineVar v' (unspaced "2".toList) (overheadOf "spaced".toList) ph).map Prod.fst :=
  C104_own_spacing_partial v v' _ _ ph (Or.inr ⟨fun k c hk hc => by cases hk; cases hc; rfl, fun h => absurd rfl h⟩)

end Verif.Glm
