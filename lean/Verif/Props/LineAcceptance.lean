import Verif.Lemmas.LinePlaces
import Verif.Props.LineCharge
import Verif.Props.GlmAcceptance

/-!
# C92: a sound file with its lines is accepted
-/

namespace Verif.Glm

open Matrix

/-- **C92, partial, with lines.** If a file is sound and so are its lines - for every conductor there are the numbers its impedances need, for every two of them a distance -
the whole file is read and its network is built. Missing is what is missing in `C92_accepted_partial`; and that the potential coefficients of overhead conductors can be
inverted is assumed. -/
theorem C92_lines_partial {objs : List (Txt × Obj)} (schedules : List (Txt × Txt)) (hF : SoundFeeder objs) (hC : ConductorsNamed objs) (hL : SoundLines objs) :
    ∃ g D, parseGrid lineReader objs schedules = .ok g ∧ g.network lineMade = .ok D := C92_accepted_partial schedules (lineReader_keeps hC) hF hL.accepted

/-! ### A file with lines of all kinds -/

/-- Two overhead conductors at one height. -/
def hungAt : Obj := (fileObject "line_spacing" [("name", "s1"), ("distance_AB", "2"), ("distance_AE", "28"), ("distance_BE", "28")]).2

/-- Two cables. -/
def laidAt : Obj := (fileObject "line_spacing" [("name", "s2"), ("distance_AB", "0.5ft")]).2

/-- A file with an overhead line, an underground line and a triplex line. -/
def wiredFeeder : List (Txt × Obj) := [
  fileObject "node" [("name", "n1"), ("phases", "ABCN"), ("bustype", "SWING"), ("nominal_voltage", "2400")],
  fileObject "node" [("name", "n2"), ("phases", "AB"), ("nominal_voltage", "2400")],
  fileObject "node" [("name", "n3"), ("phases", "AB"), ("nominal_voltage", "2400")],
  fileObject "triplex_meter" [("name", "t1"), ("phases", "AS"), ("nominal_voltage", "120")],
  fileObject "triplex_node" [("name", "t2"), ("phases", "AS"), ("nominal_voltage", "120"), ("power_12", "3000+1000j")],
  fileObject "overhead_line_conductor" [("name", "w1"), ("geometric_mean_radius", "0.02"), ("diameter", "1"), ("resistance", "0.25"), ("rating.summer.emergency", "600")],
  fileObject "underground_line_conductor" [("name", "w2"), ("outer_diameter", "1.29"), ("conductor_gmr", "0.0171"), ("conductor_diameter", "0.567"),
    ("conductor_resistance", "0.41"), ("neutral_gmr", "0.00208"), ("neutral_resistance", "14.8722"), ("neutral_diameter", "0.0641"), ("neutral_strands", "13")],
  fileObject "triplex_line_conductor" [("name", "w3"), ("resistance", "0.57"), ("geometric_mean_radius", "0.0111")],
  ("s1".toList, hungAt),
  ("s2".toList, laidAt),
  fileObject "line_configuration" [("name", "c1"), ("conductor_A", "w1"), ("conductor_B", "w1"), ("spacing", "s1")],
  fileObject "line_configuration" [("name", "c2"), ("conductor_A", "w2"), ("conductor_B", "w2"), ("spacing", "s2")],
  fileObject "triplex_line_configuration" [("name", "c3"), ("conductor_1", "w3"), ("conductor_2", "w3"), ("conductor_N", "w3"), ("diameter", "0.368"),
    ("insulation_thickness", "0.08")],
  fileObject "overhead_line" [("name", "l1"), ("phases", "AB"), ("from", "n1"), ("to", "n2"), ("length", "1000"), ("configuration", "c1")],
  fileObject "underground_line" [("name", "l2"), ("phases", "AB"), ("from", "n2"), ("to", "n3"), ("length", "0.3km"), ("configuration", "c2")],
  fileObject "triplex_line" [("name", "l3"), ("phases", "AS"), ("from", "t1"), ("to", "t2"), ("length", "50"), ("configuration", "c3")]]

theorem wiredFeeder_order : ParentsFirst wiredFeeder := by
  have h : ∀ x ∈ wiredFeeder, x.2.attr "parent".toList = none := by decide +kernel
  intro pre x post he hp q hq
  rw [h x (by rw [he]; simp)] at hq
  cases hq

theorem wiredFeeder_sound : SoundFeeder wiredFeeder := by
  have h1 : ∀ x ∈ wiredFeeder, x.2.cls ∈ configClasses ++ deviceClasses := by decide +kernel
  have h2 : ∀ x ∈ wiredFeeder, x.2.cls ∈ deviceClasses → PhasesGiven x.2 := by decide +kernel
  have h3 : ∀ x ∈ wiredFeeder, x.2.cls ∈ ["node", "meter"].map String.toList → SoundNode x.2 := by decide +kernel
  have h4 : ∀ x ∈ wiredFeeder, x.2.cls = "triplex_meter".toList → hasPower x.2 = false → SoundMeter x.2 := by decide +kernel
  have h5 : ∀ x ∈ wiredFeeder, isLoadObj x.2 = true → SoundLoad wiredFeeder x.1 x.2 := by decide +kernel
  have h6 : ∀ x ∈ wiredFeeder, isPlace x.2 = true → VoltagesGiven x.2 := by decide +kernel
  have h7 : ∀ x ∈ wiredFeeder, isSwitchObj x.2 = true → SoundSwitch wiredFeeder x.2 := by decide +kernel
  have h8 : ∀ x ∈ wiredFeeder, isFuseObj x.2 = false ∧ x.2.cls ≠ "transformer".toList ∧ x.2.cls ≠ "capacitor".toList ∧ x.2.cls ≠ "regulator".toList := by decide +kernel
  refine ⟨by decide +kernel, fun name o hm => h1 (name, o) hm, fun name o hm hd => ⟨h2 (name, o) hm hd, h3 (name, o) hm, h4 (name, o) hm, h5 (name, o) hm, h6 (name, o) hm,
    fun hf => ?_, h7 (name, o) hm, fun h => absurd h (h8 (name, o) hm).2.1, fun h => absurd h (h8 (name, o) hm).2.2.1, fun h => absurd h (h8 (name, o) hm).2.2.2⟩, wiredFeeder_order⟩
  rw [(h8 (name, o) hm).1] at hf
  cases hf

theorem wiredFeeder_named : ConductorsNamed wiredFeeder := conductorsNamed_of (by decide +kernel)

/-- What a spacing gives, said for the letters. -/
theorem get_pairs {s : Obj} {P : Char → Char → Prop} (h : ∀ p ∈ spacingPairs, (s.get ("distance_".toList ++ [spacingLetters.getD p.1 ' ', spacingLetters.getD p.2 ' '])).isOk = true →
    P (spacingLetters.getD p.1 ' ') (spacingLetters.getD p.2 ' ')) {x y : Char} {t : Txt} (hxy : [x, y].Sublist "ABCNE".toList)
    (hg : s.get ("distance_".toList ++ [x, y]) = .ok t) : P x y := by
  obtain ⟨p, hp, rfl, rfl⟩ := pair_sublist hxy
  exact h p hp (by rw [hg]; rfl)

theorem Spaced.pairs {s : Obj} {x y : Char} {d : ℚ} (h : Spaced s x y d) {P : Char → Char → Prop}
    (hP : ∀ p ∈ spacingPairs, (s.get ("distance_".toList ++ [spacingLetters.getD p.1 ' ', spacingLetters.getD p.2 ' '])).isOk = true →
      P (spacingLetters.getD p.1 ' ') (spacingLetters.getD p.2 ' ')) : P x y ∨ P y x := by
  obtain ⟨n, u, -, -, ⟨h1, h2⟩ | ⟨h1, h2⟩⟩ := h
  · exact Or.inl (get_pairs hP h1 h2)
  · exact Or.inr (get_pairs hP h1 h2)

theorem Spaced.symm {s : Obj} {x y : Char} {d : ℚ} (h : Spaced s x y d) : Spaced s y x d := by
  obtain ⟨n, u, h1, h2, h3⟩ := h
  exact ⟨n, u, h1, h2, h3.symm⟩

theorem numeral_28 : Numeral "28".toList 28 := numeral_whole (by decide) (by decide) (by decide +kernel)

theorem numeral_half : Numeral "0.5".toList (1 / 2) := numeral_point (a := "0".toList) (b := "5".toList) (by decide) (by decide) (by decide) (by decide +kernel)

theorem hungAt_AB : Spaced hungAt 'A' 'B' 2 := ⟨"2".toList, [], numeral_two, Or.inl rfl, Or.inl ⟨by decide, by rw [List.append_nil]; rfl⟩⟩

theorem hungAt_AE : Spaced hungAt 'A' 'E' 28 := ⟨"28".toList, [], numeral_28, Or.inl rfl, Or.inl ⟨by decide, by rw [List.append_nil]; rfl⟩⟩

theorem hungAt_BE : Spaced hungAt 'B' 'E' 28 := ⟨"28".toList, [], numeral_28, Or.inl rfl, Or.inl ⟨by decide, by rw [List.append_nil]; rfl⟩⟩

theorem laidAt_AB : Spaced laidAt 'A' 'B' (1 / 2) := ⟨"0.5".toList, "ft".toList, numeral_half, Or.inr rfl, Or.inl ⟨by decide, rfl⟩⟩

theorem hungAt_pairs : ∀ p ∈ spacingPairs, (hungAt.get ("distance_".toList ++ [spacingLetters.getD p.1 ' ', spacingLetters.getD p.2 ' '])).isOk = true →
    (spacingLetters.getD p.1 ' ', spacingLetters.getD p.2 ' ') ∈ [('A', 'B'), ('A', 'E'), ('B', 'E')] := by decide +kernel

theorem laidAt_pairs : ∀ p ∈ spacingPairs, (laidAt.get ("distance_".toList ++ [spacingLetters.getD p.1 ' ', spacingLetters.getD p.2 ' '])).isOk = true →
    (spacingLetters.getD p.1 ' ', spacingLetters.getD p.2 ' ') ∈ [('A', 'B')] := by decide +kernel

/-- The potential coefficients of two conductors at one height can be inverted, if their radii (with the diameters in feet) are not too large for their distance. -/
theorem PotentialsInvert.pair {s : Obj} (hs : WellSpaced s) {p q : Char} (hpq : [p, q].Sublist "ABC".toList) {d h : ℚ} (hd : 0 < d) (hh : 0 < h) (h1 : Spaced s p q d)
    (hp : Spaced s p 'E' h) (hq : Spaced s q 'E' h) (hm : ∀ x ∈ "ABCN".toList, (x ∈ [p, q] ↔ ∃ y d, Spaced s x y d)) {δ : Char → ℚ}
    (hδ : ∀ x ∈ [p, q], 0 < δ x ∧ (δ x / 2) ^ 2 * (d ^ 2 + (2 * h) ^ 2) < (2 * h) ^ 2 * d ^ 2) : PotentialsInvert s [p, q] δ := by
  have hABC : ∀ x ∈ [p, q], x ∈ "ABC".toList := fun x hx => hpq.subset hx
  have hN : ∀ x ∈ [p, q], x ≠ 'N' := fun x hx e => by have := hABC x hx; rw [e] at this; revert this; decide
  have hne : p ≠ q := by
    have := (show "ABC".toList.Nodup by decide).sublist hpq
    simpa using this
  have hD : ∀ x ∈ [p, q], ∀ y ∈ [p, q], x ≠ y → 0 < d ∧ Spaced s x y d := by
    intro x hx y hy hxy
    refine ⟨hd, ?_⟩
    simp only [List.mem_cons, List.not_mem_nil, or_false] at hx hy
    rcases hx with rfl | rfl <;> rcases hy with rfl | rfl
    · exact absurd rfl hxy
    · exact h1
    · exact h1.symm
    · exact absurd rfl hxy
  have hE : ∀ x ∈ [p, q], Spaced s x 'E' h := by
    intro x hx
    simp only [List.mem_cons, List.not_mem_nil, or_false] at hx
    rcases hx with rfl | rfl
    · exact hp
    · exact hq
  intro wires T hw hdi hT
  refine ⟨fun h => absurd rfl (hN _ h), ?_⟩
  have hsub : [p, q].Sublist "ABCN".toList := hpq.trans (by decide)
  obtain ⟨e, htab⟩ := table_of (D := fun _ _ => d) hs hT (by simp) hsub hD hm (Or.inl ⟨fun _ => h, fun x hx => ⟨hh, hE x hx⟩, fun x _ y _ _ => by simpa using hd.le⟩)
  have hwm : ∀ w ∈ wires, w.phase ∈ [p, q] := fun w hwm => hw ▸ List.mem_map_of_mem hwm
  have hread := htab.charging hsub hw (δ := δ) fun w hwm' => ⟨hdi w hwm', (hδ _ (hwm w hwm')).1⟩
  have key := fun {i j : ℕ} (hi : i < wires.length) (hj : j < wires.length) => potential_charged hT hread (D := fun _ _ => d) hh
    (fun w hwm' => ⟨hdi w hwm', hABC _ (hwm w hwm'), hE _ (hwm w hwm')⟩) (fun v hv w hwm' hvw => hD _ (hwm v hv) _ (hwm w hwm') hvw)
    (by rw [hw]; simpa using hne) hi hj
  have hlen : wires.length = 2 := by simpa using congrArg List.length hw
  match wires, hlen with
  | [v, w], _ =>
    simp only [List.map_cons, List.map_nil, List.cons.injEq, and_true] at hw
    obtain ⟨rfl, rfl⟩ := hw
    have hall : ([v, w] : List BareWire).filter (·.phase ≠ 'N') = [v, w] := List.filter_eq_self.2 fun x hx => by simpa using hN _ (hwm x hx)
    have hN' : 'N' ∉ ([v, w] : List BareWire).map BareWire.phase := fun h => hN _ h rfl
    have hdet : (Matrix.of fun i j : Fin 2 => potentialAt [v, w] T i j).det ≠ 0 := by
      rw [Matrix.det_fin_two]
      have k00 := key (i := 0) (j := 0) (by simp) (by simp)
      have k01 := key (i := 0) (j := 1) (by simp) (by simp)
      have k10 := key (i := 1) (j := 0) (by simp) (by simp)
      have k11 := key (i := 1) (j := 1) (by simp) (by simp)
      simp only [List.getElem_cons_zero, List.getElem_cons_succ, potentialCoefficient, hne, hne.symm, if_true, if_false, one_mul] at k00 k01 k10 k11
      simp only [Matrix.of_apply, Fin.val_zero, Fin.val_one, k00, k01, k10, k11]
      have hd' : (0 : ℝ) < d := by exact_mod_cast hd
      have hh' : (0 : ℝ) < h := by exact_mod_cast hh
      have hs : 1 < Real.sqrt ((d : ℝ) ^ 2 + (2 * h) ^ 2) / d := by
        rw [one_lt_div hd']
        exact Real.lt_sqrt_of_sq_lt (by nlinarith)
      have hx : ∀ x ∈ [v.phase, w.phase], Real.log (Real.sqrt ((d : ℝ) ^ 2 + (2 * h) ^ 2) / d) < Real.log (2 * h / (δ x / 2 : ℚ)) := by
        intro x hx
        obtain ⟨g1, g2⟩ := hδ x hx
        have g1' : (0 : ℝ) < (δ x / 2 : ℚ) := by exact_mod_cast half_pos g1
        have g2' : ((δ x / 2 : ℚ) : ℝ) ^ 2 * ((d : ℝ) ^ 2 + (2 * h) ^ 2) < (2 * h) ^ 2 * (d : ℝ) ^ 2 := by exact_mod_cast g2
        refine Real.log_lt_log (by linarith) ?_
        rw [div_lt_div_iff₀ hd' g1']
        refine lt_of_pow_lt_pow_left₀ 2 (by positivity) ?_
        rw [mul_pow, Real.sq_sqrt (by positivity), mul_pow]
        linarith
      have l0 := Real.log_pos hs
      have l1 := hx v.phase (by simp)
      have l2 := hx w.phase (by simp)
      generalize Real.log (Real.sqrt ((d : ℝ) ^ 2 + (2 * h) ^ 2) / d) = m at l0 l1 l2
      generalize Real.log (2 * h / (δ v.phase / 2 : ℚ)) = a at l1
      generalize Real.log (2 * h / (δ w.phase / 2 : ℚ)) = b at l2
      have : m * m < a * b := mul_lt_mul'' l1 l2 l0.le l0.le
      nlinarith
    have e : potentialReduced [v, w] T = (Matrix.of fun i j : Fin 2 => potentialAt [v, w] T i j).submatrix (finCongr (by rw [hall]; rfl)) (finCongr (by rw [hall]; rfl)) := by
      ext i j
      rw [potentialReduced, if_neg hN']
      rfl
    rw [e, Matrix.det_submatrix_equiv_self]
    exact hdet

theorem hungAt_well : WellSpaced hungAt := by
  intro x y hxy t ht
  have := get_pairs (P := fun x y => (x, y) ∈ [('A', 'B'), ('A', 'E'), ('B', 'E')]) hungAt_pairs hxy ht
  simp only [List.mem_cons, Prod.mk.injEq, List.not_mem_nil, or_false] at this
  rcases this with ⟨rfl, rfl⟩ | ⟨rfl, rfl⟩ | ⟨rfl, rfl⟩
  · exact ⟨2, by norm_num, hungAt_AB⟩
  · exact ⟨28, by norm_num, hungAt_AE⟩
  · exact ⟨28, by norm_num, hungAt_BE⟩

theorem hungAt_only : ∀ x ∈ "ABCN".toList, (x ∈ ['A', 'B'] ↔ ∃ y d, Spaced hungAt x y d) := by
  intro x hx
  constructor
  · intro hm
    have hm : x = 'A' ∨ x = 'B' := by simpa using hm
    rcases hm with rfl | rfl
    · exact ⟨_, _, hungAt_AB⟩
    · exact ⟨_, _, hungAt_AB.symm⟩
  · rintro ⟨y, d, h⟩
    have hN : x ≠ 'E' := by rintro rfl; revert hx; decide
    rcases h.pairs (P := fun x y => (x, y) ∈ [('A', 'B'), ('A', 'E'), ('B', 'E')]) hungAt_pairs with h | h <;>
      simp only [List.mem_cons, Prod.mk.injEq, List.not_mem_nil, or_false] at h ⊢ <;> rcases h with ⟨h1, h2⟩ | ⟨h1, h2⟩ | ⟨h1, h2⟩
    · exact Or.inl h1
    · exact Or.inl h1
    · exact Or.inr h1
    · exact Or.inr h2
    · exact absurd h2 hN
    · exact absurd h2 hN

theorem wiredFeeder_overhead : SoundOverhead wiredFeeder wiredFeeder[13].2 ⟨['A', 'B'], true, false, false⟩ := by
  have hl : conductorLetters wiredFeeder[10].2 "ABCN".toList = ['A', 'B'] := by decide +kernel
  refine ⟨wiredFeeder[10].2, hungAt, fun _ => 1 / 4, fun _ => 1 / 50, fun _ => 1, fun _ _ => 2, ⟨"c1".toList, by decide +kernel, by decide +kernel⟩, ?_,
    ⟨"s1".toList, by decide +kernel, by decide +kernel⟩, ?_, ?_, ?_, ?_, ⟨'A', by decide, by decide⟩, fun h => absurd h (by decide), ?_, ?_⟩
  all_goals try rw [hl]
  · intro p hp
    have hr : Refers wiredFeeder wiredFeeder[10].2 ("conductor_".toList ++ [p]) wiredFeeder[5].2 := by
      have hp : p = 'A' ∨ p = 'B' := by simpa using hp
      rcases hp with rfl | rfl <;> exact ⟨"w1".toList, by decide +kernel, by decide +kernel⟩
    refine ⟨_, hr, ⟨"0.25".toList, by decide +kernel, ?_⟩, ⟨"0.02".toList, by decide +kernel, ?_⟩, by norm_num, by norm_num, by norm_num, Or.inl ⟨"1".toList, by decide +kernel, ?_⟩, ?_⟩
    · exact numeral_point (a := "0".toList) (b := "25".toList) (by decide) (by decide) (by decide) (show _ = (1 / 4 : ℚ) by decide +kernel)
    · exact numeral_point (a := "0".toList) (b := "02".toList) (by decide) (by decide) (by decide) (show _ = (1 / 50 : ℚ) by decide +kernel)
    · exact numeral_whole (by decide) (by decide) (show _ = (1 : ℚ) by decide +kernel)
    · exact ⟨by decide +kernel, by decide +kernel⟩
  · exact hungAt_well
  · intro p hp q hq hpq
    refine ⟨by norm_num, ?_⟩
    have hp : p = 'A' ∨ p = 'B' := by simpa using hp
    have hq : q = 'A' ∨ q = 'B' := by simpa using hq
    rcases hp with rfl | rfl <;> rcases hq with rfl | rfl
    · exact absurd rfl hpq
    · exact hungAt_AB
    · exact hungAt_AB.symm
    · exact absurd rfl hpq
  · exact hungAt_only
  · decide
  · refine Or.inl ⟨fun _ => 28, fun p hp => ⟨by norm_num, ?_⟩, fun p _ q _ _ => by norm_num⟩
    have hp : p = 'A' ∨ p = 'B' := by simpa using hp
    rcases hp with rfl | rfl
    · exact hungAt_AE
    · exact hungAt_BE
  · exact .pair hungAt_well (by decide) (by norm_num) (by norm_num) hungAt_AB hungAt_AE hungAt_BE hungAt_only fun _ _ => by norm_num

theorem wiredFeeder_triplex : SoundTriplex wiredFeeder wiredFeeder[15].2 := by
  refine ⟨wiredFeeder[12].2, fun _ => 57 / 100, fun _ => 111 / 10000, 368 / 1000, 8 / 100, ⟨"c3".toList, by decide +kernel, by decide +kernel⟩, fun p hp => ?_,
    ⟨"0.368".toList, by decide +kernel, numeral_point (a := "0".toList) (b := "368".toList) (by decide) (by decide) (by decide) (by decide +kernel)⟩,
    ⟨"0.08".toList, by decide +kernel, numeral_point (a := "0".toList) (b := "08".toList) (by decide) (by decide) (by decide) (by decide +kernel)⟩, by norm_num, by norm_num⟩
  have hr : Refers wiredFeeder wiredFeeder[12].2 ("conductor_".toList ++ [p]) wiredFeeder[7].2 := by
    have hp : p = '1' ∨ p = '2' ∨ p = 'N' := by simpa using hp
    rcases hp with rfl | rfl | rfl <;> exact ⟨"w3".toList, by decide +kernel, by decide +kernel⟩
  exact ⟨_, hr, ⟨"0.57".toList, by decide +kernel, numeral_point (a := "0".toList) (b := "57".toList) (by decide) (by decide) (by decide) (show _ = (57 / 100 : ℚ) by decide +kernel)⟩,
    ⟨"0.0111".toList, by decide +kernel, numeral_point (a := "0".toList) (b := "0111".toList) (by decide) (by decide) (by decide) (show _ = (111 / 10000 : ℚ) by decide +kernel)⟩,
    by norm_num, by norm_num, by decide +kernel, by decide +kernel⟩

/-- The cable of the file. -/
def fileCable : CableData := ⟨129 / 100, 641 / 10000, 171 / 10000, 41 / 100, 208 / 100000, 148722 / 10000⟩

theorem fileCable_sound : SoundCable 13 fileCable (567 / 1000) wiredFeeder[6].2 := by
  refine ⟨⟨"1.29".toList, by decide +kernel, numeral_point (a := "1".toList) (b := "29".toList) (by decide) (by decide) (by decide) (by decide +kernel)⟩,
    ⟨"0.0641".toList, by decide +kernel, numeral_point (a := "0".toList) (b := "0641".toList) (by decide) (by decide) (by decide) (by decide +kernel)⟩,
    ⟨"13".toList, by decide +kernel, numeral_whole (by decide) (by decide) (by decide +kernel)⟩,
    ⟨"0.567".toList, by decide +kernel, numeral_point (a := "0".toList) (b := "567".toList) (by decide) (by decide) (by decide) (by decide +kernel)⟩,
    ⟨"0.0171".toList, by decide +kernel, numeral_point (a := "0".toList) (b := "0171".toList) (by decide) (by decide) (by decide) (by decide +kernel)⟩,
    ⟨"0.41".toList, by decide +kernel, numeral_point (a := "0".toList) (b := "41".toList) (by decide) (by decide) (by decide) (by decide +kernel)⟩,
    ⟨"0.00208".toList, by decide +kernel, numeral_point (a := "0".toList) (b := "00208".toList) (by decide) (by decide) (by decide) (by decide +kernel)⟩,
    ⟨"14.8722".toList, by decide +kernel, numeral_point (a := "14".toList) (b := "8722".toList) (by decide) (by decide) (by decide) (by decide +kernel)⟩,
    by norm_num [fileCable], by norm_num [fileCable], by norm_num, by norm_num [fileCable], by norm_num [fileCable], by norm_num [fileCable], by norm_num [fileCable],
    ⟨by decide +kernel, by decide +kernel⟩, ?_⟩
  have h1 : 0 < Real.log (((fileCable.outer : ℝ) - fileCable.strand) / (567 / 1000 : ℚ)) := Real.log_pos (by norm_num [fileCable])
  have h2 : Real.log ((13 : ℕ) * fileCable.strand / ((fileCable.outer : ℝ) - fileCable.strand)) < 0 := Real.log_neg (by norm_num [fileCable]) (by norm_num [fileCable])
  have h3 : Real.log ((13 : ℕ) * fileCable.strand / ((fileCable.outer : ℝ) - fileCable.strand)) / (13 : ℕ) < 0 := div_neg_of_neg_of_pos h2 (by norm_num)
  exact (h3.trans h1).ne'

theorem wiredFeeder_underground : SoundUnderground wiredFeeder wiredFeeder[14].2 := by
  have hl : conductorLetters wiredFeeder[11].2 "ABCN".toList = ['A', 'B'] := by decide +kernel
  refine ⟨wiredFeeder[11].2, laidAt, 13, fun _ => fileCable, fun _ => 567 / 1000, 1, 1, fun _ _ => 1 / 2, ⟨"c2".toList, by decide +kernel, by decide +kernel⟩, by norm_num, ?_,
    ⟨"s2".toList, by decide +kernel, by decide +kernel⟩, ?_, ?_, ?_, by decide +kernel⟩
  all_goals try rw [hl]
  · intro p hp
    have hr : p ≠ 'N' ∧ Refers wiredFeeder wiredFeeder[11].2 ("conductor_".toList ++ [p]) wiredFeeder[6].2 := by
      have hp : p = 'A' ∨ p = 'B' := by simpa using hp
      rcases hp with rfl | rfl <;> exact ⟨by decide, "w2".toList, by decide +kernel, by decide +kernel⟩
    exact ⟨_, hr.2, by rw [if_neg hr.1]; exact fileCable_sound⟩
  · intro x y hxy t ht
    have := get_pairs (P := fun x y => (x, y) ∈ [('A', 'B')]) laidAt_pairs hxy ht
    simp only [List.mem_cons, Prod.mk.injEq, List.not_mem_nil, or_false] at this
    obtain ⟨rfl, rfl⟩ := this
    exact ⟨1 / 2, by norm_num, laidAt_AB⟩
  · intro p hp q hq hpq
    refine ⟨by norm_num, ?_, fun _ => by norm_num [fileCable, CableData.own]⟩
    have hp : p = 'A' ∨ p = 'B' := by simpa using hp
    have hq : q = 'A' ∨ q = 'B' := by simpa using hq
    rcases hp with rfl | rfl <;> rcases hq with rfl | rfl
    · exact absurd rfl hpq
    · exact laidAt_AB
    · exact laidAt_AB.symm
    · exact absurd rfl hpq
  · intro x hx
    constructor
    · intro hm
      have hm : x = 'A' ∨ x = 'B' := by simpa using hm
      rcases hm with rfl | rfl
      · exact ⟨_, _, laidAt_AB⟩
      · exact ⟨_, _, laidAt_AB.symm⟩
    · rintro ⟨y, d, h⟩
      rcases h.pairs (P := fun x y => (x, y) ∈ [('A', 'B')]) laidAt_pairs with h | h <;>
        simp only [List.mem_cons, Prod.mk.injEq, List.not_mem_nil, or_false] at h ⊢
      · exact Or.inl h.1
      · exact Or.inr h.2

theorem wiredFeeder_declared : declaredLines wiredFeeder = [wiredFeeder[13].2, wiredFeeder[14].2, wiredFeeder[15].2] := by decide +kernel

theorem wiredFeeder_lines : SoundLines wiredFeeder := by
  rw [SoundLines, wiredFeeder_declared]
  have hj : ∀ o ∈ [wiredFeeder[13].2, wiredFeeder[14].2, wiredFeeder[15].2], ∀ c ∈ (o.attr "configuration".toList).bind (fun n => lookup n wiredFeeder),
      ∀ p ∈ conductorLetters c (if o.cls = "triplex_line".toList then "12".toList else "ABC".toList), Joins wiredFeeder o p := by decide +kernel
  intro o ho
  refine ⟨?_, ?_⟩
  · simp only [List.mem_cons, List.not_mem_nil, or_false] at ho
    rcases ho with rfl | rfl | rfl
    · intro t ph ht hph
      obtain rfl : t = "AB".toList := Option.some.inj (ht.symm.trans (by decide +kernel))
      rw [show parsePhases "AB".toList = .ok ⟨['A', 'B'], true, false, false⟩ by decide +kernel] at hph
      cases hph
      refine ⟨⟨1000 / 5280, ⟨"1000".toList, 1000, numeral_whole (by decide) (by decide) (by decide +kernel), Or.inl ⟨by decide +kernel, by norm_num⟩⟩, by norm_num⟩, ?_⟩
      rw [if_pos (by decide +kernel)]
      exact wiredFeeder_overhead
    · intro t ph ht hph
      refine ⟨⟨1000 * (3 / 10) / (1609344 / 1000), ⟨"0.3".toList, 3 / 10,
        numeral_point (a := "0".toList) (b := "3".toList) (by decide) (by decide) (by decide) (by decide +kernel), Or.inr ⟨by decide +kernel, rfl⟩⟩, by norm_num⟩, ?_⟩
      rw [if_neg (by decide +kernel), if_neg (by decide +kernel)]
      exact wiredFeeder_underground
    · intro t ph ht hph
      refine ⟨⟨50 / 5280, ⟨"50".toList, 50, numeral_whole (by decide) (by decide) (by decide +kernel), Or.inl ⟨by decide +kernel, by norm_num⟩⟩, by norm_num⟩, ?_⟩
      rw [if_neg (by decide +kernel), if_pos (by decide +kernel)]
      exact wiredFeeder_triplex
  · rintro p ⟨c, ⟨n, h1, h2⟩, hp⟩
    exact hj o ho c (by rw [h1]; exact h2) p hp

/-- The file is sound, so it is read and its network is built. -/
example (schedules : List (Txt × Txt)) : ∃ g D, parseGrid lineReader wiredFeeder schedules = .ok g ∧ g.network lineMade = .ok D :=
  C92_lines_partial schedules wiredFeeder_sound wiredFeeder_named wiredFeeder_lines

/-- Sound lines can be read, one after the other. -/
theorem soundLines_read {objs : List (Txt × Obj)} (hf : ConductorsNamed objs) (lines : List (Obj × Phases)) (h : ∀ x ∈ lines, SoundLine objs x.1 x.2) :
    ∃ ds, readLinesVar none objs lines = .ok ds ∧ List.Forall₂ (fun _ d => ∀ pairs : List (ℕ × ℕ), pairs.length = d.1.length → ∃ e, lineMade d.2 pairs = .ok e) lines ds := by
  suffices H : ∀ v objs', SameObjs objs objs' → ∃ ds, readLinesVar v objs' lines = .ok ds ∧
      List.Forall₂ (fun _ d => ∀ pairs : List (ℕ × ℕ), pairs.length = d.1.length → ∃ e, lineMade d.2 pairs = .ok e) lines ds from H none objs (SameObjs.refl _)
  induction lines with
  | nil => exact fun _ _ _ => ⟨[], rfl, .nil⟩
  | cons x xs ih =>
    intro v objs' hs
    obtain ⟨d, objs1, v', h1, -, h3⟩ := ((h x List.mem_cons_self).same hs).accepted (v := v)
    obtain ⟨ds, h4, h5⟩ := ih (fun y hy => h y (List.mem_cons_of_mem _ hy)) v' objs1 (hs.trans (readLineVar_keeps hf hs h1))
    refine ⟨d :: ds, ?_, .cons h3 h5⟩
    rw [readLinesVar, h1]
    simp only [ok_bind', h4]

theorem wiredFeeder_cables : CablesCharged wiredFeeder wiredFeeder[14].2 fun _ => concentricSusceptance (129 / 100) (641 / 10000) (567 / 1000) 13 := by
  have hl : conductorLetters wiredFeeder[11].2 "ABC".toList = ['A', 'B'] := by decide +kernel
  refine ⟨wiredFeeder[11].2, ⟨"c2".toList, by decide +kernel, by decide +kernel⟩, fun p hp => ?_⟩
  rw [hl] at hp
  have hr : Refers wiredFeeder wiredFeeder[11].2 ("conductor_".toList ++ [p]) wiredFeeder[6].2 := by
    have hp : p = 'A' ∨ p = 'B' := by simpa using hp
    rcases hp with rfl | rfl <;> exact ⟨"w2".toList, by decide +kernel, by decide +kernel⟩
  exact ⟨_, _, _, _, _, hr, fileCable_sound.1, fileCable_sound.2.1, fileCable_sound.2.2.1, fileCable_sound.2.2.2.1, rfl⟩

theorem wiredFeeder_wires : WiresCharged 1 wiredFeeder wiredFeeder[13].2 fun p q => potentialCoefficient 28 2 (1 / 2) (p = q) := by
  have hl : conductorLetters wiredFeeder[10].2 "ABC".toList = ['A', 'B'] := by decide +kernel
  refine ⟨wiredFeeder[10].2, hungAt, fun _ => 1, fun _ _ => 2, 28, ⟨"c1".toList, by decide +kernel, by decide +kernel⟩, ⟨"s1".toList, by decide +kernel, by decide +kernel⟩,
    by decide +kernel, by norm_num, ?_, ?_, fun p q => by norm_num⟩
  all_goals rw [hl]
  · intro p hp
    have hp : p = 'A' ∨ p = 'B' := by simpa using hp
    have hv : Valued wiredFeeder[5].2 "diameter" 1 := ⟨"1".toList, by decide +kernel, numeral_whole (by decide) (by decide) (by decide +kernel)⟩
    rcases hp with rfl | rfl
    · exact ⟨hungAt_AE, _, ⟨"w1".toList, by decide +kernel, by decide +kernel⟩, hv⟩
    · exact ⟨hungAt_BE, _, ⟨"w1".toList, by decide +kernel, by decide +kernel⟩, hv⟩
  · intro p hp q hq hpq
    refine ⟨by norm_num, ?_⟩
    have hp : p = 'A' ∨ p = 'B' := by simpa using hp
    have hq : q = 'A' ∨ q = 'B' := by simpa using hq
    rcases hp with rfl | rfl <;> rcases hq with rfl | rfl
    · exact absurd rfl hpq
    · exact hungAt_AB
    · exact hungAt_AB.symm
    · exact absurd rfl hpq

/-- `C55_file_partial` for the overhead line and the cables of the file, both of which are read and built. -/
example : ∃ d1 d2, readLinesVar none wiredFeeder [(wiredFeeder[13].2, ⟨['A', 'B'], true, false, false⟩), (wiredFeeder[14].2, ⟨['A', 'B'], true, false, false⟩)] = .ok [d1, d2] ∧
    (∀ pairs : List (ℕ × ℕ), pairs.length = d1.1.length → ∃ Y sh, lineMade d1.2 pairs = .ok (.unbalanced pairs Y sh) ∧
      ∀ (V : Ref → ℂ) (U : Char → ℂ), EndVoltages d1.1 pairs V U → ∃ Q : Char → ℂ,
        (∀ p ∈ d1.1, U p = (d1.1.map fun q => (potentialCoefficient 28 2 (1 / 2) (p = q) : ℂ) * Q q).sum) ∧ ∀ i < d1.1.length,
        shuntCurrent (pairs.map Prod.fst) sh V i + shuntCurrent (pairs.map Prod.snd) sh V i =
          1 / 2 * (Complex.I * ((2 * Real.pi * 60 / 1000000 * (1000 / 5280 : ℚ) : ℝ) : ℂ) * Q (d1.1.getD i 'A'))) ∧
    ∀ pairs : List (ℕ × ℕ), pairs.length = d2.1.length → ∃ Y sh, lineMade d2.2 pairs = .ok (.unbalanced pairs Y sh) ∧
      ∀ (V : Ref → ℂ) (U : Char → ℂ), EndVoltages d2.1 pairs V U → ∀ i < d2.1.length,
        shuntCurrent (pairs.map Prod.fst) sh V i + shuntCurrent (pairs.map Prod.snd) sh V i =
          1 / 2 * (Complex.I * (((1000 * (3 / 10) / (1609344 / 1000) : ℚ) * concentricSusceptance (129 / 100) (641 / 10000) (567 / 1000) 13 : ℝ) : ℂ) * U (d2.1.getD i 'A')) := by
  have hs : ∀ x ∈ [(wiredFeeder[13].2, (⟨['A', 'B'], true, false, false⟩ : Phases)), (wiredFeeder[14].2, ⟨['A', 'B'], true, false, false⟩)], SoundLine wiredFeeder x.1 x.2 := by
    have h1 : wiredFeeder[13].2 ∈ declaredLines wiredFeeder := by rw [wiredFeeder_declared]; simp
    have h2 : wiredFeeder[14].2 ∈ declaredLines wiredFeeder := by rw [wiredFeeder_declared]; simp
    intro x hx
    simp only [List.mem_cons, List.not_mem_nil, or_false] at hx
    rcases hx with rfl | rfl
    · exact (wiredFeeder_lines _ h1).1 "AB".toList _ (by decide +kernel) (by decide +kernel)
    · exact (wiredFeeder_lines _ h2).1 "AB".toList _ (by decide +kernel) (by decide +kernel)
  obtain ⟨ds, h1, h2⟩ := soundLines_read wiredFeeder_named _ hs
  have h3 := C55_file_partial wiredFeeder wiredFeeder_named _ ds h1
  obtain ⟨d1, ds1, hb1, h4, rfl⟩ := List.forall₂_cons_left_iff.1 h2
  obtain ⟨d2, ds2, hb2, h5, rfl⟩ := List.forall₂_cons_left_iff.1 h4
  obtain rfl := List.forall₂_nil_left_iff.1 h5
  rw [List.forall₂_cons, List.forall₂_cons] at h3
  obtain ⟨c1, c2, -⟩ := h3
  refine ⟨d1, d2, h1, fun pairs hp => ?_, fun pairs hp => ?_⟩
  · obtain ⟨e, he⟩ := hb1 pairs hp
    obtain ⟨Y, sh, rfl, key⟩ := c1 (1000 / 5280) pairs e
      ⟨"1000".toList, 1000, numeral_whole (by decide) (by decide) (by decide +kernel), Or.inl ⟨by decide +kernel, by norm_num⟩⟩ he hp
    exact ⟨Y, sh, he, fun V U hV => (key V U hV).2 (by decide +kernel) _ wiredFeeder_wires⟩
  · obtain ⟨e, he⟩ := hb2 pairs hp
    obtain ⟨Y, sh, rfl, key⟩ := c2 (1000 * (3 / 10) / (1609344 / 1000)) pairs e
      ⟨"0.3".toList, 3 / 10, numeral_point (a := "0".toList) (b := "3".toList) (by decide) (by decide) (by decide) (by decide +kernel), Or.inr ⟨by decide +kernel, rfl⟩⟩ he hp
    have n1 : wiredFeeder[14].2.cls ≠ "overhead_line".toList := by decide +kernel
    have n2 : wiredFeeder[14].2.cls ≠ "triplex_line".toList := by decide +kernel
    refine ⟨Y, sh, he, fun V U hV => ?_⟩
    have h6 := (key V U hV).1 n1 n2 _ wiredFeeder_cables
    intro i hi
    have h7 := h6 i hi
    rw [h7]

end Verif.Glm
