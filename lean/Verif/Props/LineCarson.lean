import Verif.Lemmas.LineLaw
import Verif.Props.GlmObjects

/-!
# C107: lines of a file obey Carson's equations
-/

namespace Verif.Glm

open Matrix

/-! ### Objects rewritten by earlier lines -/

theorem Refers.same {objs objs' : List (Txt × Obj)} (h : SameObjs objs objs') {o o' x : Obj} (ho : SameObj o o') {a : Txt} (ha : a ∉ writtenAttributes)
    (hr : Refers objs o a x) : ∃ x', SameObj x x' ∧ Refers objs' o' a x' := by
  obtain ⟨n, h1, h2⟩ := hr
  obtain ⟨x', hx', hs⟩ := h.of_some h2
  exact ⟨x', hs, n, by rw [ho.attr a ha, h1], hx'⟩

theorem conductorLetters_same {c c' : Obj} (h : SameObj c c') (ps : List Char) : conductorLetters c' ps = conductorLetters c ps :=
  List.filter_congr fun p _ => by rw [h.attr _ (conductor_not_written p)]

theorem get_same {o o' : Obj} (h : SameObj o o') {a : Txt} (ha : a ∉ writtenAttributes) : o'.get a = o.get a := by
  have := h.attr a ha
  rw [Obj.attr, Obj.attr] at this
  rw [Obj.get, Obj.get, this]

theorem distance_not_written (x y : Char) : "distance_".toList ++ [x, y] ∉ writtenAttributes := by
  intro hm
  simp only [writtenAttributes, List.map_cons, List.map_nil, List.mem_cons, List.not_mem_nil, or_false] at hm
  rcases hm with hm | hm | hm <;> · have := congrArg List.length hm; simp at this

theorem Spaced.same {o o' : Obj} (h : SameObj o o') {x y : Char} {d : ℚ} : Spaced o' x y d ↔ Spaced o x y d := by
  rw [Spaced, Spaced]
  simp only [get_same h (distance_not_written _ _)]

theorem WellSpaced.same {o o' : Obj} (h : SameObj o o') (ho : WellSpaced o) : WellSpaced o' := by
  intro x y hxy t ht
  rw [get_same h (distance_not_written _ _)] at ht
  obtain ⟨d, hd, hs⟩ := ho x y hxy t ht
  exact ⟨d, hd, (Spaced.same h).2 hs⟩

theorem SpacedBy.same {objs objs' : List (Txt × Obj)} (h : SameObjs objs objs') {c c' : Obj} (hc : SameObj c c') {ps : List Char} {D : Char → Char → ℚ}
    (hs : SpacedBy objs c ps D) : SpacedBy objs' c' ps D := by
  obtain ⟨s, hr, hw, h1, h2⟩ := hs
  obtain ⟨s', hss, hr'⟩ := hr.same h hc (by decide)
  refine ⟨s', hr', hw.same hss, fun p hp q hq hpq => ⟨(h1 p hp q hq hpq).1, (Spaced.same hss).2 (h1 p hp q hq hpq).2⟩, fun x hx => ?_⟩
  simp only [Spaced.same hss]
  exact h2 x hx

theorem Miles.same {o o' : Obj} (h : SameObj o o') {x : ℚ} (hm : Miles o x) : Miles o' x := by
  rw [Miles, h.attr "length".toList (by decide)]
  exact hm

/-- What earlier lines rewrite has no effect on what a file says about a line. -/
theorem FileSpan.same {objs objs' : List (Txt × Obj)} (h : SameObjs objs objs') {o o' : Obj} (ho : SameObj o o') {ph : Phases} {s : LineSpan}
    (hs : FileSpan objs o ph s) : FileSpan objs' o' ph s := by
  rw [FileSpan] at hs ⊢
  rw [ho.cls]
  split
  · rename_i hc
    rw [if_pos hc] at hs
    obtain ⟨c, r, g, D, h1, h2, h3, h4, h5, h6, h7, h8⟩ := hs
    obtain ⟨c', hcc, hr⟩ := h1.same h ho (by decide)
    refine ⟨c', r, g, D, hr, fun p hp => ?_, ?_, ?_, ?_, ?_, h7, h8.same ho⟩
    · rw [conductorLetters_same hcc] at hp
      obtain ⟨w, a1, a2, a3, a4⟩ := h2 p hp
      obtain ⟨w', hw, a1'⟩ := a1.same h hcc (conductor_not_written p)
      exact ⟨w', a1', a2.same hw, a3.same hw, a4⟩
    · rw [conductorLetters_same hcc]; exact h3.same h hcc
    · rw [conductorLetters_same hcc]; exact h4
    · rw [conductorLetters_same hcc]; exact h5
    · rw [conductorLetters_same hcc]; exact h6
  · rename_i hc
    rw [if_neg hc] at hs
    split
    · rename_i hc'
      rw [if_pos hc'] at hs
      obtain ⟨c, r, g, d, t, h1, h2, h3, h4, h5, h6, h7, h8⟩ := hs
      obtain ⟨c', hcc, hr⟩ := h1.same h ho (by decide)
      refine ⟨c', r, g, d, t, hr, fun p hp => ?_, h3.same hcc, h4.same hcc, h5, h6, h7, h8.same ho⟩
      obtain ⟨w, a1, a2, a3, a4⟩ := h2 p hp
      obtain ⟨w', hw, a1'⟩ := a1.same h hcc (conductor_not_written p)
      exact ⟨w', a1', a2.same hw, a3.same hw, a4⟩
    · rename_i hc'
      rw [if_neg hc'] at hs
      obtain ⟨c, k, x, r, g, D, h1, h2, h3, h4, h5, h6, h7, h8, h9⟩ := hs
      obtain ⟨c', hcc, hr⟩ := h1.same h ho (by decide)
      refine ⟨c', k, x, r, g, D, hr, h2, fun p hp => ?_, ?_, ?_, h6, ?_, h8, h9.same ho⟩
      · rw [conductorLetters_same hcc] at hp
        obtain ⟨w, a1, a2, a3⟩ := h3 p hp
        obtain ⟨w', hw, a1'⟩ := a1.same h hcc (conductor_not_written p)
        refine ⟨w', a1', by rw [hw.attr _ (by decide)]; exact a2, ?_⟩
        split
        · rename_i hp
          rw [if_pos hp] at a3
          exact ⟨a3.1.same hw, a3.2.1.same hw, a3.2.2⟩
        · rename_i hp
          rw [if_neg hp] at a3
          obtain ⟨b1, b2, b3, b4, b5, b6, b7, b8⟩ := a3
          exact ⟨b1.same hw, b2.same hw, b3.same hw, b4.same hw, b5.same hw, b6.same hw, b7.same hw, b8⟩
      · rw [conductorLetters_same hcc]; exact h4.same h hcc
      · rw [conductorLetters_same hcc]; exact h5
      · rw [conductorLetters_same hcc]; exact h7

/-! ### One line -/

theorem get_of_attr {o : Obj} {a t : Txt} (h : o.attr a = some t) : o.get a = .ok t := by
  rw [Obj.attr] at h
  rw [Obj.get, h]

theorem miles_length {o : Obj} {x : ℚ} (h : Miles o x) {len : ℚ × Obj} (hl : parseLineLength o = .ok len) : len.1 = x * (1609344 / 1000) := by
  obtain ⟨n, y, hn, ⟨ha, rfl⟩ | ⟨ha, rfl⟩⟩ := h
  · have := (C64_length_partial hn).2 (get_of_attr ha)
    rw [hl] at this
    have e : len.1 = y * (3048 / 10000) := Except.ok.inj this
    rw [e]
    ring
  · have := (C64_length_partial hn).1 (get_of_attr ha)
    rw [hl] at this
    have e : len.1 = 1000 * y := Except.ok.inj this
    rw [e]
    ring

theorem meters_drop {n : ℕ} (Z : Matrix (Fin n) (Fin n) ℂ) {len x : ℚ} (h : len = x * (1609344 / 1000)) (I : Fin n → ℂ) (i : Fin n) :
    (((len : ℂ) • perMeter Z) *ᵥ I) i = (x : ℂ) * (Z *ᵥ I) i := by
  have e : perMeter Z = (((1609344 / 1000 : ℝ) : ℂ))⁻¹ • Z := by
    ext i j
    rw [perMeter, Matrix.smul_apply, smul_eq_mul, div_eq_mul_inv, mul_comm]
  rw [e, smul_smul, smul_mulVec, Pi.smul_apply, smul_eq_mul, h]
  congr 1
  push_cast
  field_simp

theorem config_of {objs : List (Txt × Obj)} {o c c' : Obj} (h : configurationOf objs o = .ok c) (hr : Refers objs o "configuration".toList c') : c = c' := by
  obtain ⟨k, h1, h2⟩ := configurationOf_ok h
  exact refers_unique ⟨k, h1, h2⟩ hr

/-- A line that is read: its phases are those of the file, and its matrix is that of Carson's equations without the neutrals. -/
theorem line_law {v v' : Option Table} {objs objs' : List (Txt × Obj)} {o : Obj} {ph : Phases} {d : List Char × LineData}
    (h : readLineVar v objs o ph = .ok ((d, objs'), v')) {s : LineSpan} (hs : FileSpan objs o ph s) : d.1 = s.phases ∧ d.1.length = d.2.n ∧ ∀ U I : Char → ℂ,
      (∀ i : Fin d.2.n, U (d.1.getD i 'A') = ((((d.2.length : ℚ) : ℂ) • d.2.Z) *ᵥ fun j : Fin d.2.n => I (d.1.getD j 'A')) i) ↔ s.Law U I := by
  rw [FileSpan] at hs
  rcases readLineVar_ok h with ⟨hc, hr⟩ | ⟨hc, hr, -⟩ | ⟨hc1, hc2, hr⟩
  · rw [if_pos hc] at hs
    obtain ⟨c, ws, T, len, Z, B, hr, ht⟩ := readOverhead_ok hr
    obtain ⟨c', r, g, D, h1, h2, ⟨sp, hsp, hwell, hD, hm⟩, h4, h5, h6, h7, h8⟩ := hs
    obtain rfl := config_of hr.config h1
    have hps := readWires_phases (phase := BareWire.phase) (fun _ _ _ h => overheadConductor_phase h) hr.conductors
    rw [conductorNames_fst] at hps
    change _ = conductorLetters c "ABCN".toList at hps
    obtain ⟨hF, hl⟩ := readWires_each (P := fun p (w : BareWire) => w.phase = p ∧ w.resistance = some (r p) ∧ w.gmr = some (g p))
      (Q := fun p w => Valued w "resistance" (r p) ∧ Valued w "geometric_mean_radius" (g p) ∧ 0 < r p)
      (fun o p w hw hq => overheadConductor_valued hw hq.1 hq.2.1) hr.conductors (names_conductors h2)
    have hw := forall₂_attr (P := fun p (w : BareWire) => w.phase = p ∧ w.resistance = some (r p) ∧ w.gmr = some (g p)) (phase := BareWire.phase)
      (fun p w hw => hw.1) hF
    have hT : overheadSpacing sp = .ok T := by
      obtain ⟨n, hn, hnl⟩ := hsp
      rcases overheadTable_some ht with ⟨e, -⟩ | ⟨n', s', T', e1, e2, e3, -, e5⟩
      · rw [hn] at e; cases e
      · rw [hn, Option.some.injEq] at e1
        subst e1
        rw [hl, hnl, Option.some.injEq] at e2
        subst e2
        rw [hr.table, Option.some.injEq] at e5
        subst e5
        exact e3
    have hsub : (ws.map BareWire.phase).Sublist "ABCN".toList := by rw [hps]; exact conductorLetters_sublist _ _
    have hentry := overhead_entry hwell hsub (by rw [hps]; exact hm) hT (fun w h => (hw w h).2) (by rw [hps]; exact hD)
    have hdata := hr.data
    subst hdata
    have hph : (ws.map BareWire.phase).filter (· ≠ 'N') = s.phases := by rw [hps, conductorLetters_phases, h5]
    have key := overhead_law hr.series (q := fun p => (c.attr ("conductor_".toList ++ [p])).isSome) (z := carsonLetters r g D) (s := s)
      (fun p hp => by
        rw [← h4 p hp, conductorLetters, List.mem_filter]
        have : ∀ p ∈ "ABC".toList, p ∈ "ABCN".toList := by decide
        exact ⟨fun h => ⟨this p hp, h⟩, And.right⟩)
      (fun p hp => by rw [hps, conductorLetters, List.mem_filter]; exact ⟨And.right, fun h => ⟨hp, h⟩⟩) hentry h5 h6
      (fun x y hxy => by rw [h7, carsonLetters, earthReturn, earthReturn]; simp only [hxy])
    refine ⟨hph, ?_, fun U I => ?_⟩
    · dsimp only
      rw [hph]; exact (key 0 0).1
    · rw [← (key U I).2]
      dsimp only
      rw [hph]
      simp only [meters_drop Z (miles_length h8 hr.length)]
  · rw [if_neg (by rw [hc]; decide), if_pos hc] at hs
    obtain ⟨c, ws, x, len, Z, hr⟩ := readTriplexLine_ok hr
    obtain ⟨c', r, g, d, t, h1, h2, h3, h4, h5, h6, h7, h8⟩ := hs
    obtain rfl := config_of hr.config h1
    have hall : conductorLetters c "12N".toList = "12N".toList := List.filter_eq_self.2 fun p hp => by
      obtain ⟨w, ⟨n, hn, -⟩, -⟩ := h2 p hp
      rw [hn]; rfl
    obtain ⟨hF, -⟩ := readWires_each (P := fun p (w : TriplexWire) => w = ⟨p, some (g p), some (r p)⟩)
      (Q := fun p w => Valued w "resistance" (r p) ∧ Valued w "geometric_mean_radius" (g p) ∧ 0 < r p)
      (fun o p w hw hq => triplexConductor_valued hw hq.1 hq.2.1) hr.conductors (names_conductors (by rw [hall]; exact h2))
    have hws : ws = triplexWires r g := by
      have e : ws = ((conductorNames c "12N".toList).map Prod.fst).map fun p => ⟨p, some (g p), some (r p)⟩ := by
        rw [List.map_map]
        clear hr
        generalize conductorNames c "12N".toList = l at hF
        dsimp only at hF
        induction hF with
        | nil => rfl
        | cons h1 _ ih => rw [h1, ih]; rfl
      rw [e, conductorNames_fst]
      change (conductorLetters c "12N".toList).map _ = _
      rw [hall]
      rfl
    subst hws
    have hx := hr.distances
    rw [show triplexWires r g = ⟨'1', some (g '1'), some (r '1')⟩ :: _ from rfl, triplexDistances_valued h3 h4] at hx
    cases hx
    have hdata := hr.data
    subst hdata
    have hph : ((triplexWires r g).map TriplexWire.phase).filter (· ≠ 'N') = s.phases := by rw [h5]; rfl
    refine ⟨hph, rfl, fun U I => ?_⟩
    rw [← triplex_law hr.series h5 h6 h7 U I]
    dsimp only
    rw [hph]
    simp only [meters_drop Z (miles_length h8 hr.length)]
  · rw [if_neg hc1, if_neg hc2] at hs
    obtain ⟨c, ws, T, len, Z, B, hr, ht⟩ := readUnderground_ok hr
    obtain ⟨c', k, x, r, g, D, h1, hk, h2, ⟨sp, hsp, hwell, hD, hm⟩, h5, h50, h6, h7, h8⟩ := hs
    obtain rfl := config_of hr.config h1
    have hps := readWires_phases (phase := CableWire.phase) (fun _ _ _ h => undergroundConductor_phase h) hr.conductors
    rw [conductorNames_fst] at hps
    change _ = conductorLetters c "ABCN".toList at hps
    obtain ⟨hF, hl⟩ := readWires_each (P := fun p (w : CableWire) => w.phase = p ∧ w.outer.isSome ∧ cableOf w = .ok (cableGathered k x r g p))
      (Q := CableValued k x r g) (fun o p w hw hq => undergroundConductor_valued hk hw hq) hr.conductors (names_conductors h2)
    have hw := forall₂_attr (P := fun p (w : CableWire) => w.phase = p ∧ w.outer.isSome ∧ cableOf w = .ok (cableGathered k x r g p)) (phase := CableWire.phase)
      (fun p w hw => hw.1) hF
    have hT : overheadSpacing sp = .ok T := by
      obtain ⟨n, hn, hnl⟩ := hsp
      rw [undergroundTable, hn] at ht
      dsimp only at ht
      rw [hl, hnl] at ht
      dsimp only at ht
      have hany : (ws.any fun w => w.outer.isNone) = false := by
        rw [List.any_eq_false]
        intro w hwm
        obtain ⟨y, hy⟩ := Option.isSome_iff_exists.1 (hw w hwm).2.1
        rw [hy]
        simp
      rw [if_neg (by rw [hany]; decide), underground_spacing_eq hwell] at ht
      obtain ⟨T', hT', ht⟩ := bind_eq_ok ht
      rw [hr.table] at ht
      cases ht
      exact hT'
    have hdata := hr.data
    subst hdata
    have hph : (ws.map CableWire.phase).filter (· ≠ 'N') = s.phases := by rw [hps, conductorLetters_phases, h5]
    have key := cable_law hr.series hps (fun w h => (hw w h).2.2) hwell hT hm hD h5 h50 h6 h7
    refine ⟨hph, ?_, fun U I => ?_⟩
    · dsimp only
      rw [hph]; exact (key 0 0).1
    · rw [← (key U I).2]
      dsimp only
      rw [hph]
      simp only [meters_drop Z (miles_length h8 hr.length)]

/-- **C107, partial.** A line of a file obeys Carson's equations for the conductors the file gives it: its phases are the letters of its phase conductors, and voltage
drops and currents of the phases satisfy its matrix, times its length, exactly if there are currents in the neutrals, grounded at both ends, with which all conductors
satisfy Carson's equations over the length. What is missing is what `FileSpan` leaves out: resistances and radii with units (C88), distances in other units, spacings with
other conductors than the line has (C54), touching cables (`C107_touching_fails`) and cables with different numbers of strands (`C107_strands_fails`). -/
theorem C107_carson_partial (objs : List (Txt × Obj)) (hf : ConductorsNamed objs) (lines : List (Obj × Phases)) (ds : List (List Char × LineData))
    (h : readLinesVar none objs lines = .ok ds) :
    List.Forall₂ (fun x d => ∀ s, FileSpan objs x.1 x.2 s → d.1 = s.phases ∧ d.1.length = d.2.n ∧ ∀ U I : Char → ℂ,
      (∀ i : Fin d.2.n, U (d.1.getD i 'A') = ((((d.2.length : ℚ) : ℂ) • d.2.Z) *ᵥ fun j : Fin d.2.n => I (d.1.getD j 'A')) i) ↔ s.Law U I) lines ds := by
  suffices H : ∀ v objs' ds, SameObjs objs objs' → readLinesVar v objs' lines = .ok ds → List.Forall₂ (fun x d => ∀ s, FileSpan objs x.1 x.2 s →
      d.1 = s.phases ∧ d.1.length = d.2.n ∧ ∀ U I : Char → ℂ,
      (∀ i : Fin d.2.n, U (d.1.getD i 'A') = ((((d.2.length : ℚ) : ℂ) • d.2.Z) *ᵥ fun j : Fin d.2.n => I (d.1.getD j 'A')) i) ↔ s.Law U I) lines ds from
    H none objs ds (SameObjs.refl _) h
  clear h
  induction lines with
  | nil => intro v objs' ds _ h; cases h; exact .nil
  | cons x xs ih =>
    intro v objs' ds hs h
    rw [readLinesVar] at h
    obtain ⟨⟨⟨d0, objs1⟩, v'⟩, h1, h⟩ := bind_eq_ok h
    obtain ⟨rest, h2, h⟩ := bind_eq_ok h
    cases h
    exact .cons (fun s hsp => line_law h1 (hsp.same hs (SameObj.refl _))) (ih v' objs1 rest (hs.trans (readLineVar_keeps hf hs h1)) h2)

/-! ### Cases -/

theorem numeral_point {a b : Txt} {x : ℚ} (hne : a ++ b ≠ []) (ha : ∀ c ∈ a, c.isDigit = true) (hb : ∀ c ∈ b, c.isDigit = true)
    (hx : (decimal a : ℚ) + decimal b / 10 ^ b.length = x) : Numeral (a ++ '.' :: b) x := hx ▸ Numeral.point a b hne ha hb

theorem numeral_whole {a : Txt} {x : ℚ} (hne : a ≠ []) (ha : ∀ c ∈ a, c.isDigit = true) (hx : (decimal a : ℚ) = x) : Numeral a x := hx ▸ Numeral.whole a hne ha

theorem oneSpaced_spaced {t : Txt} {d : ℚ} (hn : Numeral t d) : Spaced (oneSpaced t) 'A' 'B' d := ⟨t, [], hn, Or.inl rfl, Or.inl ⟨by decide, by rw [List.append_nil]; rfl⟩⟩

theorem oneSpaced_get {u : Txt} (x y : Char) (t : Txt) (h : [x, y].Sublist "ABCNE".toList) (hg : (oneSpaced u).get ("distance_".toList ++ [x, y]) = .ok t) :
    x = 'A' ∧ y = 'B' := by
  obtain ⟨p, hp, rfl, rfl⟩ := pair_sublist h
  by_cases e : p = (0, 1)
  · subst e
    exact ⟨rfl, rfl⟩
  · have key : (oneSpaced u).get ("distance_".toList ++ [spacingLetters.getD p.1 ' ', spacingLetters.getD p.2 ' ']) = .error .attribute := by
      simp only [spacingPairs, List.mem_cons, List.not_mem_nil, or_false] at hp
      rcases hp with rfl | rfl | rfl | rfl | rfl | rfl | rfl | rfl | rfl | rfl
      · exact absurd rfl e
      all_goals rfl
    rw [key] at hg
    cases hg

theorem oneSpaced_by {w : Obj} {t : Txt} {d : ℚ} (hn : Numeral t d) (hd : 0 < d) : SpacedBy (unspacedWith w t) spacedConfig ['A', 'B'] fun _ _ => d := by
  have hAB := oneSpaced_spaced hn
  refine ⟨oneSpaced t, ⟨"near".toList, rfl, rfl⟩, ?_, ?_, ?_⟩
  · intro x y h u hg
    obtain ⟨rfl, rfl⟩ := oneSpaced_get x y u h hg
    exact ⟨d, hd, hAB⟩
  · intro p hp q hq hpq
    refine ⟨hd, ?_⟩
    have hp : p = 'A' ∨ p = 'B' := by simpa using hp
    have hq : q = 'A' ∨ q = 'B' := by simpa using hq
    rcases hp with rfl | rfl <;> rcases hq with rfl | rfl
    · exact absurd rfl hpq
    · exact hAB
    · exact spaced_symm hAB
    · exact absurd rfl hpq
  · intro x hx
    have hx : x = 'A' ∨ x = 'B' ∨ x = 'C' ∨ x = 'N' := by simpa using hx
    have none : ∀ y d, Spaced (oneSpaced t) x y d → x = 'A' ∨ x = 'B' := by
      rintro y d ⟨n, u, -, -, ⟨h, hg⟩ | ⟨h, hg⟩⟩
      · exact Or.inl (oneSpaced_get _ _ _ h hg).1
      · exact Or.inr (oneSpaced_get _ _ _ h hg).2
    rcases hx with rfl | rfl | rfl | rfl
    · exact iff_of_true (by decide) ⟨_, _, hAB⟩
    · exact iff_of_true (by decide) ⟨_, _, spaced_symm hAB⟩
    · exact iff_of_false (by decide) fun ⟨y, d, h⟩ => absurd (none y d h) (by decide)
    · exact iff_of_false (by decide) fun ⟨y, d, h⟩ => absurd (none y d h) (by decide)

/-- Two wires two feet apart over 1000 feet. -/
noncomputable def pairSpan : LineSpan where
  phases := ['A', 'B']
  neutrals := []
  z := earthReturn (953 / 10000) (793402 / 100000) (fun _ => ((1 / 4 : ℚ) : ℝ)) (fun _ => ((1 / 50 : ℚ) : ℝ)) (fun _ _ => ((2 : ℚ) : ℝ))
  miles := 1000 / 5280

theorem unspaced_span : FileSpan (unspaced "2".toList) (overheadOf "spaced".toList) ⟨['A', 'B'], false, false, false⟩ pairSpan := by
  rw [FileSpan, if_pos (overheadOf_cls _)]
  have hl : conductorLetters spacedConfig "ABCN".toList = ['A', 'B'] := by decide +kernel
  refine ⟨spacedConfig, fun _ => 1 / 4, fun _ => 1 / 50, fun _ _ => 2, ⟨_, rfl, rfl⟩, ?_, ?_, ?_, ?_, rfl, rfl, ?_⟩
  · rw [hl]
    intro p hp
    have hr : Refers (unspaced "2".toList) spacedConfig ("conductor_".toList ++ [p]) ⟨"overhead_line_conductor".toList, [("geometric_mean_radius".toList, "0.02".toList),
        ("diameter".toList, "1".toList), ("resistance".toList, "0.25".toList)]⟩ := by
      have hp : p = 'A' ∨ p = 'B' := by simpa using hp
      rcases hp with rfl | rfl <;> exact ⟨"wire".toList, rfl, rfl⟩
    refine ⟨_, hr, ⟨_, rfl, ?_⟩, ⟨_, rfl, ?_⟩, by norm_num⟩
    · exact numeral_point (a := "0".toList) (b := "25".toList) (by decide) (by decide) (by decide) (show _ = (1 / 4 : ℚ) by decide +kernel)
    · exact numeral_point (a := "0".toList) (b := "02".toList) (by decide) (by decide) (by decide) (show _ = (1 / 50 : ℚ) by decide +kernel)
  · rw [hl]
    exact oneSpaced_by numeral_two (by norm_num)
  · rw [hl]; decide
  · exact (show conductorLetters spacedConfig "ABC".toList = ['A', 'B'] by decide +kernel).symm
  · exact ⟨"1000".toList, 1000, numeral_whole (by decide) (by decide) (by decide +kernel), Or.inl ⟨rfl, rfl⟩⟩

/-- A line of two wires two feet apart is read, and obeys Carson's equations. -/
example : ∃ d, readLinesVar none (unspaced "2".toList) [(overheadOf "spaced".toList, ⟨['A', 'B'], false, false, false⟩)] = .ok [d] ∧ d.1 = ['A', 'B'] ∧
    ∀ U I : Char → ℂ, (∀ i : Fin d.2.n, U (d.1.getD i 'A') = ((((d.2.length : ℚ) : ℂ) • d.2.Z) *ᵥ fun j : Fin d.2.n => I (d.1.getD j 'A')) i) ↔ pairSpan.Law U I := by
  obtain ⟨Z, S, -, -, -, hx, -⟩ := unspaced_line (some (1 / 50)) (some (1 / 4)) (by rintro x ⟨⟩; norm_num) (t := "2".toList) (d := 2) (Or.inl ⟨rfl, rfl⟩)
    (show ∀ c ∈ [spacedConfig, bareConfig], readWires overheadConductor (unspaced "2".toList) (conductorNames c "ABCN".toList) = _ by decide +kernel)
  have h : readLinesVar none (unspaced "2".toList) [(overheadOf "spaced".toList, ⟨['A', 'B'], false, false, false⟩)] = .ok [(['A', 'B'], ⟨2, Z, S, 3048 / 10⟩)] := by
    simp only [unspaced, readLinesVar, hx, bind, Except.bind]
  have := C107_carson_partial _ (conductorsNamed_of (by decide +kernel)) _ _ h
  rw [List.forall₂_cons] at this
  obtain ⟨h1, h2, h3⟩ := this.1 pairSpan unspaced_span
  exact ⟨_, h, h1, h3⟩

/-- **C107 fails for touching cables.** Two cables of one inch that touch are one inch apart; the program has them one foot apart. -/
theorem C107_touching_fails : ∃ T, undergroundSpacing [1, 1] (oneSpaced "0".toList) = .ok T ∧ T 0 1 = 1 ∧ T 0 1 ≠ 1 / 12 := by
  refine ⟨pairTable 1, ?_, by simp [pairTable, Table.put], by norm_num [pairTable, Table.put]⟩
  have h2 : ∀ p ∈ spacingPairs.tail, ∀ T, undergroundSpacingStep [1, 1] (oneSpaced "0".toList) T p = .ok T := by
    intro p hp T
    have : (oneSpaced "0".toList).get (distanceName p.1 p.2) = .error .attribute := by
      simp only [spacingPairs, List.tail_cons, List.mem_cons, List.not_mem_nil, or_false] at hp
      rcases hp with rfl | rfl | rfl | rfl | rfl | rfl | rfl | rfl | rfl <;> rfl
    rw [undergroundSpacingStep, this]
  have h1 : ∀ T, undergroundSpacingStep [1, 1] (oneSpaced "0".toList) T (0, 1) = .ok ((((T.put 0 1 1).put 1 0 1).put 0 0 0).put 1 1 0) := by
    intro T
    rw [undergroundSpacingStep, show (oneSpaced "0".toList).get (distanceName (0, 1).1 (0, 1).2) = .ok "0".toList from rfl]
    simp only [show floatOf (removeNonnum "0".toList) = .ok 0 by decide +kernel, show touching [1, 1] (0, 1) 0 = .ok 1 by decide +kernel, bind, Except.bind]
  rw [undergroundSpacing, show spacingPairs = (0, 1) :: spacingPairs.tail from rfl, List.foldlM_cons, h1]
  have h3 : ∀ l : List (ℕ × ℕ), (∀ p ∈ l, ∀ T, undergroundSpacingStep [1, 1] (oneSpaced "0".toList) T p = .ok T) →
      ∀ T, l.foldlM (undergroundSpacingStep [1, 1] (oneSpaced "0".toList)) T = .ok T := by
    intro l hl
    induction l with
    | nil => intro T; rfl
    | cons p l ih =>
      intro T
      rw [List.foldlM_cons, hl p (by simp)]
      exact ih (fun q hq => hl q (by simp [hq])) T
  exact h3 _ h2 _

/-- A cable whose strands are half a foot around its conductor. -/
def strandCable (p : Char) (k : ℤ) : CableWire := ⟨p, some 13, some 1, some k, some 1, some (1 / 50), some 1, some (1 / 100), some 1⟩

/-- **C107 fails for cables with different strands.** Of two cables one foot apart, the strands half a foot around their conductors, one has six and one has twelve strands.
The distance of the second conductor and the six strands of the first cable is computed as if they were twelve. -/
theorem C107_strands_fails : ∃ cables : List Cable, [strandCable 'A' 6, strandCable 'B' 12].mapM cableOf = .ok cables ∧ cables.map Cable.k = [6, 12] ∧
    cables.map Cable.own = [1 / 2, 1 / 2] ∧ ∀ D : ℕ → ℕ → ℝ, D 1 0 = 1 → ∀ h : 0 < cables.length,
      cablePrimitive 2 cables (cables.getD 1 ⟨0, 0, 0, 0, 0, 0⟩).k D (.inl 1) (.inr ⟨0, h⟩) ≠ mutualImpedance true ((1 ^ 6 - (1 / 2) ^ 6) ^ (1 / (6 : ℝ))) := by
  have h1 : ∀ p ≠ 'N', ∀ k : ℤ, 0 < k → ∃ c, cableOf (strandCable p k) = .ok c ∧ c.k = k.toNat ∧ c.own = 1 / 2 := by
    intro p hp k hk
    have e : cableOf (strandCable p k) = phaseCable (strandCable p k) := if_neg hp
    rw [e, phaseCable]
    simp only [strandCable, if_neg (not_le.2 hk)]
    exact ⟨_, rfl, rfl, by norm_num⟩
  obtain ⟨a, ha, hak, hao⟩ := h1 'A' (by decide) 6 (by norm_num)
  obtain ⟨b, hb, hbk, hbo⟩ := h1 'B' (by decide) 12 (by norm_num)
  refine ⟨[a, b], by rw [List.mapM_cons, ha, List.mapM_cons, hb]; rfl, by simp [hak, hbk], by simp [hao, hbo], fun D hD h e => ?_⟩
  rw [cablePrimitive] at e
  simp only [neutralDistance, List.getD_cons_succ, List.getD_cons_zero, Fin.val_one, one_ne_zero, if_false, hD, hbk, hao] at e
  rw [mutualImpedance, mutualImpedance, Complex.ext_iff] at e
  have e2 := e.2
  simp only [if_true, one_pow] at e2
  have pa : (0 : ℝ) < 1 - ((1 / 2 : ℚ) : ℝ) ^ 12 := by norm_num
  have pb : (0 : ℝ) < 1 - (1 / 2) ^ 6 := by norm_num
  have hl : Real.log (1 / (1 - ((1 / 2 : ℚ) : ℝ) ^ 12) ^ (1 / (12 : ℝ))) = Real.log (1 / (1 - (1 / 2) ^ 6) ^ (1 / (6 : ℝ))) := by
    have e3 := e2
    simp only [show (Int.toNat 12) = 12 from rfl, Nat.cast_ofNat] at e3
    linarith
  have h2 := Real.log_injOn_pos (Set.mem_Ioi.2 (one_div_pos.2 (Real.rpow_pos_of_pos pa _))) (Set.mem_Ioi.2 (one_div_pos.2 (Real.rpow_pos_of_pos pb _))) hl
  rw [one_div, one_div (_ ^ (1 / (6 : ℝ)))] at h2
  have h3 := _root_.inv_injective h2
  have h4 := congrArg (fun x : ℝ => x ^ (12 : ℝ)) h3
  simp only [← Real.rpow_mul pa.le, ← Real.rpow_mul pb.le] at h4
  norm_num at h4

end Verif.Glm
