import Verif.Spec.LineFlow
import Verif.Props.GlmFlow
import Verif.Props.LineCarson
import Verif.Props.LineBuilt

/-!
# C108: the equations of the network of a GridLAB-D file are the circuit of the file, with the lines by their conductors
-/

namespace Verif.Glm

open Matrix

theorem FileSpan.nodup {objs : List (Txt × Obj)} {o : Obj} {ph : Phases} {s : LineSpan} (h : FileSpan objs o ph s) : s.phases.Nodup := by
  rw [FileSpan] at h
  split at h
  · obtain ⟨c, r, g, D, -, -, -, -, h, -⟩ := h
    rw [h]
    exact List.Nodup.filter _ (by decide)
  · split at h
    · obtain ⟨c, r, g, d, t, -, -, -, -, h, -⟩ := h
      rw [h]
      decide
    · obtain ⟨c, k, x, r, g, D, -, -, -, -, h, -⟩ := h
      rw [h]
      exact List.Nodup.filter _ (by decide)

theorem wireCurrent_series (V : Txt → Char → ℂ) (a b : Txt) {ps : List Char} {n : ℕ} (hn : ps.length = n) (Y : Matrix (Fin n) (Fin n) ℂ) (i : Fin n) :
    wireCurrent V a b ps (entryAt Y) (fun _ _ => 0) i = (Y *ᵥ fun j : Fin n => V a (ps.getD j 'A') - V b (ps.getD j 'A')) i := by
  subst hn
  rw [wireCurrent, list_sum_fin, mulVec, dotProduct]
  refine Finset.sum_congr rfl fun j _ => ?_
  rw [show entryAt Y i j = Y i j from dif_pos ⟨i.2, j.2⟩]
  simp

theorem flatMap_phases {α : Type} (ps : List Char) (f : Char → List α) : (List.range ps.length).flatMap (fun i => f (ps.getD i 'A')) = ps.flatMap f := by
  induction ps with
  | nil => rfl
  | cons p ps ih =>
    rw [List.length_cons, List.range_succ_eq_map, List.flatMap_cons, List.flatMap_map, List.flatMap_cons, ← ih]
    rfl

theorem forall₂_zip_iff {α δ γ : Type} {R : α → δ → Prop} {S : α × δ → γ → Prop} {T : α → γ → Prop} {as : List α} {ds : List δ} (h : List.Forall₂ R as ds)
    (hST : ∀ a d c, a ∈ as → d ∈ ds → R a d → (S (a, d) c ↔ T a c)) (cs : List γ) : List.Forall₂ S (as.zip ds) cs ↔ List.Forall₂ T as cs := by
  induction h generalizing cs with
  | nil => exact Iff.of_eq (by simp)
  | cons hx _ ih =>
    cases cs with
    | nil => simp
    | cons l ls =>
      rw [List.zip_cons_cons, List.forall₂_cons, List.forall₂_cons]
      exact and_congr (hST _ _ _ (by simp) (by simp) hx) (ih (fun a d c ha hd => hST a d c (by simp [ha]) (by simp [hd])) ls)

theorem lineFlow_iff {V : Txt → Char → ℂ} {o : Obj} {d : List Char × LineData} {s : LineSpan} {l : List (Term × ℂ)} (h1 : d.1 = s.phases) (h2 : d.1.length = d.2.n)
    (h3 : ∀ U I : Char → ℂ, (∀ i : Fin d.2.n, U (d.1.getD i 'A') = ((((d.2.length : ℚ) : ℂ) • d.2.Z) *ᵥ fun j : Fin d.2.n => I (d.1.getD j 'A')) i) ↔ s.Law U I)
    (hd : (((d.2.length : ℚ) : ℂ) • d.2.Z).det ≠ 0) (hn : s.phases.Nodup) :
    LineFlow (fun d : LineData => (entryAt (((d.length : ℚ) : ℂ) • d.Z)⁻¹, fun _ _ => 0)) V (o, d) l ↔
      ∃ a b, ∃ I : Char → ℂ, o.attr "from".toList = some a ∧ o.attr "to".toList = some b ∧ s.Law (fun p => V a p - V b p) I ∧
        l = s.phases.flatMap fun p => through (some (a, p)) (some (b, p)) (I p) := by
  set Z := (((d.2.length : ℚ) : ℂ) • d.2.Z) with hZ
  have hu : IsUnit Z.det := isUnit_iff_ne_zero.2 hd
  have key : ∀ a b, ∀ I : Char → ℂ, (∀ i : Fin d.2.n, I (d.1.getD i 'A') = (Z⁻¹ *ᵥ fun j : Fin d.2.n => V a (d.1.getD j 'A') - V b (d.1.getD j 'A')) i) →
      ((List.range d.1.length).flatMap fun i => [(some (a, d.1.getD i 'A'), wireCurrent V a b d.1 (entryAt Z⁻¹) (fun _ _ => 0) i),
        ((some (b, d.1.getD i 'A') : Term), wireCurrent V b a d.1 (entryAt Z⁻¹) (fun _ _ => 0) i)]) =
      s.phases.flatMap fun p => through (some (a, p)) (some (b, p)) (I p) := by
    intro a b I hI
    rw [← h1, ← flatMap_phases]
    refine List.flatMap_congr fun i hi => ?_
    have hi : i < d.2.n := by rw [← h2]; exact List.mem_range.1 hi
    have e1 := wireCurrent_series V a b h2 Z⁻¹ ⟨i, hi⟩
    have e2 := wireCurrent_series V b a h2 Z⁻¹ ⟨i, hi⟩
    have e3 : (fun j : Fin d.2.n => V b (d.1.getD j 'A') - V a (d.1.getD j 'A')) = -fun j : Fin d.2.n => V a (d.1.getD j 'A') - V b (d.1.getD j 'A') := by
      funext j
      simp
    rw [e3, mulVec_neg, Pi.neg_apply] at e2
    have e4 := hI ⟨i, hi⟩
    simp only at e1 e2 e4
    rw [through, e1, e2, ← e4]
  constructor
  · rintro ⟨a, b, ha, hb, hl⟩
    let I : Char → ℂ := fun p => wireCurrent V a b d.1 (entryAt Z⁻¹) (fun _ _ => 0) (d.1.idxOf p)
    have hI : ∀ i : Fin d.2.n, I (d.1.getD i 'A') = (Z⁻¹ *ᵥ fun j : Fin d.2.n => V a (d.1.getD j 'A') - V b (d.1.getD j 'A')) i := by
      intro i
      have hi : (i : ℕ) < d.1.length := by rw [h2]; exact i.2
      rw [← wireCurrent_series V a b h2 Z⁻¹ i]
      show wireCurrent V a b d.1 (entryAt Z⁻¹) (fun _ _ => 0) (d.1.idxOf (d.1.getD i 'A')) = _
      have hg : d.1.getD i 'A' = d.1[(i : ℕ)] := by simp [List.getD_eq_getElem?_getD, hi]
      rw [hg, (show d.1.Nodup by rw [h1]; exact hn).idxOf_getElem]
    refine ⟨a, b, I, ha, hb, (h3 _ _).1 fun i => ?_, hl.trans (key a b I hI)⟩
    rw [show (fun j : Fin d.2.n => I (d.1.getD j 'A')) = Z⁻¹ *ᵥ fun j : Fin d.2.n => V a (d.1.getD j 'A') - V b (d.1.getD j 'A') from funext hI, mulVec_mulVec,
      mul_nonsing_inv _ hu, one_mulVec]
  · rintro ⟨a, b, I, ha, hb, hlaw, hl⟩
    refine ⟨a, b, ha, hb, hl.trans (key a b I fun i => ?_).symm⟩
    have h4 := (h3 _ _).2 hlaw
    rw [show (fun j : Fin d.2.n => V a (d.1.getD j 'A') - V b (d.1.getD j 'A')) = Z *ᵥ fun j : Fin d.2.n => I (d.1.getD j 'A') from funext h4, mulVec_mulVec,
      nonsing_inv_mul _ hu, one_mulVec]

/-- **C108, partial.** For a plain feeder whose lines have known conductors, read and built without line charging, the equations of the network are the circuit of the
file: voltages of its places belong to a solution of the assembled equations exactly if they are voltages of the circuit the file describes, in which the conductors
of every line obey Carson's equations. Nothing here is left to a parameter: the circuit is one of the objects of the file. Missing: what `PlainFeeder` (C101) and
`SpansGiven` (C107) leave out, and the charging of lines, which the program computes to half of what it is (C55). -/
theorem C108_circuit_partial {L : Library} (hL : L.Loaded) {objs : List (Txt × Obj)} {schedules : List (Txt × Txt)} {g : Grid LineData} (hf : PlainFeeder objs)
    (hc : ConductorsNamed objs) (hs : SpansGiven objs) (h : parseGrid lineReader objs schedules = .ok g) {D : DxNet} (hD : g.network seriesMade = .ok D) (V : Txt → Char → ℂ) :
    (∃ v, (∀ name p b, FileAt objs g name p b → V name p = (D.network.assign L).voltages v (some b)) ∧
        ∀ i, networkEq (D.network.assign L).all 0 v i = 0) ↔ FileFlow objs V := by
  have hm : Makes seriesMade fun d : LineData => (entryAt (((d.length : ℚ) : ℂ) • d.Z)⁻¹, fun _ _ => 0) := by
    have := makes_unbalanced (fun d : LineData => d.Z) (fun _ _ _ => none) fun d => ((d.length : ℚ) : ℝ)
    simp only [Complex.ofReal_ratCast] at this
    exact this
  obtain ⟨ds, hds, hmade, hV⟩ := C101_circuit_partial hL (lineReader_keeps hc) hm hf h hD
  rw [hV V, FeederFlow, FileFlow]
  refine exists_congr fun lines => and_congr_left fun _ => ?_
  refine forall₂_zip_iff hds (fun o d l ho hd hR => ?_) lines
  obtain ⟨objs1, objs2, o1, t, ph, hs1, ho1, ht, hph, hr⟩ := hR
  obtain ⟨ps, e, he⟩ := hmade d hd
  obtain ⟨v', hr⟩ := lineReader_ok hr
  have hdet : (((d.2.length : ℚ) : ℂ) • d.2.Z).det ≠ 0 := by
    obtain ⟨Y, hY, -⟩ := makeUnbalanced_ok he
    rw [exactInverse] at hY
    split at hY
    · cases hY
    · rename_i hne
      rwa [Complex.ofReal_ratCast] at hne
  constructor
  · intro hl
    obtain ⟨s, hsp⟩ := hs o ho t ph ht hph
    obtain ⟨h1, h2, h3⟩ := line_law hr (hsp.same hs1 ho1)
    obtain ⟨a, b, I, ha, hb, hlaw, hl⟩ := (lineFlow_iff h1 h2 h3 hdet hsp.nodup).1 hl
    exact ⟨t, ph, s, a, b, I, ht, hph, hsp, ha, hb, hlaw, hl⟩
  · rintro ⟨t', ph', s, a, b, I, ht', hph', hsp, ha, hb, hlaw, hl⟩
    rw [ht'] at ht
    cases ht
    rw [hph'] at hph
    cases hph
    obtain ⟨h1, h2, h3⟩ := line_law hr (hsp.same hs1 ho1)
    exact (lineFlow_iff h1 h2 h3 hdet hsp.nodup).2 ⟨a, b, I, ha, hb, hlaw, hl⟩

/-! ### A case -/

theorem ok_bind {α β : Type} (x : α) (f : α → Py β) : ((.ok x : Py α) >>= f) = f x := rfl

/-- A reader of lines that reads more. -/
theorem parseGrid_more {M : Type} {R R' : LineReader M} (hR : ∀ objs o ph r, R objs o ph = .ok r → R' objs o ph = .ok r) {objs : List (Txt × Obj)} {schedules : List (Txt × Txt)}
    {g : Grid M} (h : parseGrid R objs schedules = .ok g) : parseGrid R' objs schedules = .ok g := by
  have h1 : ∀ {objs name o r}, objectModels R schedules objs name o = .ok r → objectModels R' schedules objs name o = .ok r := by
    intro objs name o r h
    rw [objectModels] at h ⊢
    by_cases hc : o.cls ∈ sharedConfigObjects
    · rw [if_pos hc] at h ⊢
      exact h
    · rw [if_neg hc] at h ⊢
      obtain ⟨t, ht, h⟩ := bind_eq_ok h
      obtain ⟨ph, hph, h⟩ := bind_eq_ok h
      rw [ht, ok_bind, hph, ok_bind]
      generalize objectClass o = c at h ⊢
      cases hr : R objs o ph with
      | ok x =>
        rw [hR _ _ _ _ hr]
        rw [hr] at h
        exact h
      | error e =>
        rw [hr] at h
        dsimp only at h ⊢
        by_cases hl : c = "overhead_line".toList ∨ c = "triplex_line".toList ∨ c = "underground_line".toList
        · exfalso
          rw [if_pos hl] at h
          have hx : ∀ x ∈ ["node", "meter", "triplex_meter", "transformer", "load", "triplex_load", "fuse", "switch", "recloser"].map String.toList, c ≠ x := by
            rcases hl with rfl | rfl | rfl <;> decide +kernel
          simp only [List.map_cons, List.map_nil, List.forall_mem_cons] at hx
          obtain ⟨x1, x2, x3, x4, x5, x6, x7, x8, x9, -⟩ := hx
          rw [if_neg (not_or.2 ⟨x1, x2⟩), if_neg x3, if_neg x4, if_neg (not_or.2 ⟨x5, x6⟩), if_neg x7, if_neg (not_or.2 ⟨x8, x9⟩)] at h
          cases h
        · rw [if_neg hl] at h ⊢
          exact h
  have h2 : ∀ {s name s'}, readObject R schedules s name = .ok s' → readObject R' schedules s name = .ok s' := by
    intro s name s' h
    rw [readObject] at h ⊢
    split at h
    · cases h
    · obtain ⟨x, hx, h⟩ := bind_eq_ok h
      simp only [h1 hx, bind, Except.bind]
      exact h
  have h3 : ∀ (l : List Txt) s s', l.foldlM (readObject R schedules) s = .ok s' → l.foldlM (readObject R' schedules) s = .ok s' := by
    intro l
    induction l with
    | nil => exact fun s s' h => h
    | cons x xs ih =>
      intro s s' h
      rw [List.foldlM_cons] at h ⊢
      obtain ⟨s1, hs1, h⟩ := bind_eq_ok h
      simp only [h2 hs1, bind, Except.bind]
      exact ih _ _ h
  rw [parseGrid] at h ⊢
  obtain ⟨s, hs, h⟩ := bind_eq_ok h
  rw [readModels] at hs ⊢
  simp only [h3 _ _ _ hs, bind, Except.bind]
  exact h

/-- A line of 1000 feet. -/
def spanLine : Obj :=
  (fileObject "overhead_line" [("name", "o"), ("phases", "AB"), ("from", "n1"), ("to", "l_1"), ("configuration", "spaced"), ("length", "1000")]).2

/-- A source, a line of two wires two feet apart, and a load. -/
def spanFeeder : List (Txt × Obj) := unspaced "2".toList ++ [
  fileObject "node" [("name", "n1"), ("phases", "AB"), ("bustype", "SWING"), ("nominal_voltage", "2400")], ("o".toList, spanLine),
  fileObject "load" [("name", "l_1"), ("phases", "AB"), ("nominal_voltage", "2400"), ("constant_power_A", "100+20j")]]

/-- A reader that knows this line. -/
def spanReader {M : Type} (d : M) : LineReader M := fun objs o ph =>
  if objs = spanFeeder ∧ o = spanLine ∧ ph = ⟨['A', 'B'], true, false, false⟩ then .ok ((['A', 'B'], d), spanFeeder) else .error .raised

theorem spanFeeder_read {M : Type} (d : M) : match parseGrid (spanReader d) spanFeeder [] with
    | .ok g => g.regulators = [] ∧ g.lines.map DLine.data = [d] ∧ g.lines.map (fun l => (linePhases g l).map List.length) = [.ok 2]
    | .error _ => False := by
  with_unfolding_all exact ⟨rfl, rfl, rfl⟩

theorem spanFeeder_plain : PlainFeeder spanFeeder where
  keys := by decide +kernel
  outer := outerFile_of_check (by decide +kernel)
  once := by
    have : ∀ x ∈ spanFeeder, isPlace x.2 = true → (placePhases x.2).Nodup := by decide +kernel
    exact fun name o hm => this (name, o) hm
  noBase := by
    have : ∀ x ∈ spanFeeder, isLoadObj x.2 = true → ∀ c ∈ loadEndings, x.2.attr ("base_power_".toList ++ c) = none := by decide +kernel
    exact fun name o hm => this (name, o) hm
  states := by
    have : ∀ x ∈ spanFeeder, isSwitchObj x.2 = false := by decide +kernel
    intro name o hm hs
    rw [this _ hm] at hs
    cases hs
  fuseStates := by
    have : ∀ x ∈ spanFeeder, isFuseObj x.2 = false := by decide +kernel
    intro name o hm hs
    rw [this _ hm] at hs
    cases hs
  fusesGood := by decide +kernel
  plain := by
    have : ∀ x ∈ spanFeeder, x.2.cls ∈ ["regulator", "transformer"].map String.toList → ∀ c ∈ configOf spanFeeder x.2, c.cls ∉ conductorClasses := by decide +kernel
    exact fun name o c hm hc h => this (name, o) hm hc c h
  noStray := by
    have : ∀ x ∈ spanFeeder, x.2.cls ≠ "regulator".toList := by decide +kernel
    exact fun name o hm hc => absurd hc (this _ hm)
  ownSources := by decide +kernel
  caps := by decide +kernel
  capsWye := by
    have : ∀ d ∈ declaredCaps spanFeeder, ∀ t ∈ d.obj.attr "phases".toList, 'D' ∉ t := by decide +kernel
    exact this
  taps := by
    have : declaredRegs spanFeeder = [] := by decide +kernel
    rw [this]
    intro d hd
    cases hd
  noShunts := by
    have : declaredXfmrs spanFeeder = [] := by decide +kernel
    rw [this]
    intro o c p q h
    cases h
  centerTaps := by
    have : declaredXfmrs spanFeeder = [] := by decide +kernel
    rw [this]
    intro o c h
    cases h

theorem spanFeeder_lines : declaredLines spanFeeder = [spanLine] := by decide +kernel

theorem spanFeeder_span : FileSpan spanFeeder spanLine ⟨['A', 'B'], true, false, false⟩ pairSpan := by
  have hcls : spanLine.cls = "overhead_line".toList := rfl
  rw [FileSpan, if_pos hcls]
  have hl : conductorLetters spacedConfig "ABCN".toList = ['A', 'B'] := by decide +kernel
  refine ⟨spacedConfig, fun _ => 1 / 4, fun _ => 1 / 50, fun _ _ => 2, ⟨_, rfl, rfl⟩, ?_, ?_, ?_, ?_, rfl, rfl, ?_⟩
  · rw [hl]
    intro p hp
    have hr : Refers spanFeeder spacedConfig ("conductor_".toList ++ [p]) ⟨"overhead_line_conductor".toList, [("geometric_mean_radius".toList, "0.02".toList),
        ("diameter".toList, "1".toList), ("resistance".toList, "0.25".toList)]⟩ := by
      have hp : p = 'A' ∨ p = 'B' := by simpa using hp
      rcases hp with rfl | rfl <;> exact ⟨"wire".toList, rfl, rfl⟩
    refine ⟨_, hr, ⟨_, rfl, ?_⟩, ⟨_, rfl, ?_⟩, by norm_num⟩
    · exact numeral_point (a := "0".toList) (b := "25".toList) (by decide) (by decide) (by decide) (show _ = (1 / 4 : ℚ) by decide +kernel)
    · exact numeral_point (a := "0".toList) (b := "02".toList) (by decide) (by decide) (by decide) (show _ = (1 / 50 : ℚ) by decide +kernel)
  · rw [hl]
    obtain ⟨s, ⟨n, h1, h2⟩, h⟩ := oneSpaced_by (w := ⟨"overhead_line_conductor".toList, [("geometric_mean_radius".toList, "0.02".toList),
        ("diameter".toList, "1".toList), ("resistance".toList, "0.25".toList)]⟩) numeral_two (by norm_num)
    refine ⟨s, ⟨n, h1, ?_⟩, h⟩
    cases h1
    exact h2
  · rw [hl]; decide
  · exact (show conductorLetters spacedConfig "ABC".toList = ['A', 'B'] by decide +kernel).symm
  · exact ⟨"1000".toList, 1000, numeral_whole (by decide) (by decide) (by decide +kernel), Or.inl ⟨rfl, rfl⟩⟩

theorem spanFeeder_given : SpansGiven spanFeeder := by
  rw [SpansGiven, spanFeeder_lines]
  intro o ho t ph ht hph
  rw [List.mem_singleton] at ho
  subst ho
  have : t = "AB".toList := Option.some.inj (ht.symm.trans (by decide +kernel))
  subst this
  have hp : parsePhases "AB".toList = .ok ⟨['A', 'B'], true, false, false⟩ := by decide +kernel
  rw [hp] at hph
  cases hph
  exact ⟨_, spanFeeder_span⟩

/-- What is read for the line. -/
theorem spanLine_read : ∃ d : LineData, lineReader spanFeeder spanLine ⟨['A', 'B'], true, false, false⟩ = .ok ((['A', 'B'], d), spanFeeder) ∧ d.length ≠ 0 := by
  obtain ⟨hs, hr⟩ := pairTable_readable (some (1 / 50)) (some (1 / 4)) (by rintro x ⟨⟩; norm_num) (d := 2) (Or.inl rfl)
  obtain ⟨B, hB⟩ := pairTable_charging (some (1 / 50)) (some (1 / 4)) (d := 2) (by norm_num)
  have hZ : ∃ Z, overheadImpedance [pairWire (some (1 / 50)) (some (1 / 4)) 'A', pairWire (some (1 / 50)) (some (1 / 4)) 'B'] (pairTable 2) ['A', 'B'] false = .ok Z := by
    rw [overheadImpedance, if_neg (not_not.2 hr)]
    simp only [Bool.false_eq_true, if_false, bind, Except.bind]
    exact ⟨_, rfl⟩
  obtain ⟨Z, hZ⟩ := hZ
  have hcls : spanLine.cls = "overhead_line".toList := rfl
  refine ⟨⟨2, perMeter (n := Fin 2) Z, shuntPerMeter B, 3048 / 10⟩, ?_, by norm_num⟩
  rw [lineReader, readLineVar, if_pos hcls, readOverhead]
  simp only [show parseLineLength spanLine = .ok (3048 / 10, spanLine) by decide +kernel,
    show configurationOf spanFeeder spanLine = .ok spacedConfig from rfl,
    show readWires overheadConductor spanFeeder (conductorNames spacedConfig "ABCN".toList) =
      .ok ([pairWire (some (1 / 50)) (some (1 / 4)) 'A', pairWire (some (1 / 50)) (some (1 / 4)) 'B'], spanFeeder) by decide +kernel, bind, Except.bind]
  rw [overheadTable, show spacedConfig.attr "spacing".toList = some "near".toList from rfl]
  simp only [show lookup "near".toList spanFeeder = some (oneSpaced "2".toList) from rfl,
    show overheadSpacing (oneSpaced "2".toList) = .ok (pairTable 2) from oneSpaced_table (by norm_num) (by decide +kernel),
    show placeWires (pairTable 2) (([pairWire (some (1 / 50)) (some (1 / 4)) 'A', pairWire (some (1 / 50)) (some (1 / 4)) 'B'] : List BareWire).map BareWire.phase) = .ok () from
      show placeWires (pairTable 2) ['A', 'B'] = .ok () by decide +kernel, tableSet, hZ, hB, bind, Except.bind]
  rfl

theorem spanLine_uses {p : Char} {w : Obj} (h : UsesConductor spanFeeder spanLine p w) : UsesConductor (unspaced "2".toList) (overheadOf "spaced".toList) p w := by
  obtain ⟨k, c, n, hk, hc, hn, hw⟩ := h
  rw [show spanLine.attr "configuration".toList = some "spaced".toList from rfl, Option.some.injEq] at hk
  subst hk
  rw [show lookup "spaced".toList spanFeeder = some spacedConfig from rfl, Option.some.injEq] at hc
  subst hc
  refine ⟨_, _, n, rfl, rfl, hn, ?_⟩
  have hm : ("conductor_".toList ++ [p], n) ∈ spacedConfig.attrs := by
    generalize spacedConfig = c at hn
    generalize "conductor_".toList ++ [p] = a at hn ⊢
    exact mem_of_lookup hn
  have hl : lookup "wire".toList spanFeeder = lookup "wire".toList (unspaced "2".toList) := rfl
  rw [show spacedConfig.attrs = [("conductor_A".toList, "wire".toList), ("conductor_B".toList, "wire".toList), ("spacing".toList, "near".toList)] from rfl] at hm
  rcases List.mem_cons.1 hm with h | hm
  · rw [show n = "wire".toList from congrArg Prod.snd h] at hw ⊢; exact hl ▸ hw
  rcases List.mem_cons.1 hm with h | hm
  · rw [show n = "wire".toList from congrArg Prod.snd h] at hw ⊢; exact hl ▸ hw
  rw [List.mem_singleton] at hm
  have := congrArg (fun x => x.1.length) hm
  simp only [List.length_append, List.length_singleton] at this
  exact absurd this (by decide)

theorem spanLine_made {d : LineData} (h : lineReader spanFeeder spanLine ⟨['A', 'B'], true, false, false⟩ = .ok ((['A', 'B'], d), spanFeeder)) (hl : d.length ≠ 0)
    {ps : List (ℕ × ℕ)} (hps : ps.length = 2) : ∃ e, seriesMade d ps = .ok e := by
  obtain ⟨v', hv⟩ := lineReader_ok h
  have hw : ConductorsWith (0 < ·) spanFeeder spanLine := fun p w hw =>
    ⟨(unspaced_resistance _ (by norm_num) p w (spanLine_uses hw)).1, fun _ => (unspaced_resistance _ (by norm_num : (0 : ℚ) < 1 / 4) p w (spanLine_uses hw)).2⟩
  have hn : NamesPhases spanFeeder spanLine ['A', 'B'] := by
    intro k c hk hc
    cases hk
    cases hc
    exact ⟨fun _ => ⟨by decide +kernel, by decide⟩, fun h => absurd h (by decide), fun h => absurd rfl h⟩
  obtain ⟨e, he⟩ := (line_built (by intro T hT; cases hT) hv hw hn hl).2 ps hps
  obtain ⟨Y, hY, hn, hn', -⟩ := makeUnbalanced_ok he
  rw [exactInverse] at hY
  split at hY
  · cases hY
  · rename_i hd
    exact (C18_exact _ _ _ _ (by omega) hn).1.2 hd

theorem spanFeeder_network : ∃ g D, parseGrid lineReader spanFeeder [] = .ok g ∧ g.network seriesMade = .ok D := by
  obtain ⟨d, hd, hlen⟩ := spanLine_read
  have hg := spanFeeder_read d
  split at hg
  · rename_i g hgr
    obtain ⟨h1, h2, h3⟩ := hg
    have hg' : parseGrid lineReader spanFeeder [] = .ok g := parseGrid_more (fun objs o ph r hr => by
      rw [spanReader] at hr
      split at hr
      · rename_i e
        obtain ⟨rfl, rfl, rfl⟩ := e
        cases hr
        exact hd
      · cases hr) hgr
    obtain ⟨l, hl⟩ := List.length_eq_one_iff.1 (by simpa using congrArg List.length h2 : g.lines.length = 1)
    rw [hl, List.map_singleton, List.singleton_inj] at h2 h3
    have hD : ∃ D, g.network seriesMade = .ok D := by
      cases hp : linePhases g l with
      | error e => rw [hp] at h3; cases h3
      | ok ps =>
        rw [hp] at h3
        obtain ⟨e, he⟩ := spanLine_made hd hlen (ps := ps) (Except.ok.inj h3)
        rw [Grid.network, hl, h1]
        have : [l].mapM (lineElement seriesMade g) = .ok [e] := by
          rw [List.mapM_cons, lineElement, hp]
          simp only [h2, he]
          rfl
        rw [this]
        exact ⟨_, rfl⟩
    obtain ⟨D, hD⟩ := hD
    exact ⟨g, D, hg', hD⟩
  · exact hg.elim

/-- The file becomes a network, whose equations are the circuit of the file. -/
example {L : Library} (hL : L.Loaded) : ∃ g D, parseGrid lineReader spanFeeder [] = .ok g ∧ g.network seriesMade = .ok D ∧
    ∀ V, (∃ v, (∀ name p b, FileAt spanFeeder g name p b → V name p = (D.network.assign L).voltages v (some b)) ∧
      ∀ i, networkEq (D.network.assign L).all 0 v i = 0) ↔ FileFlow spanFeeder V := by
  obtain ⟨g, D, hg, hD⟩ := spanFeeder_network
  exact ⟨g, D, hg, hD, C108_circuit_partial hL spanFeeder_plain (conductorsNamed_of (by decide +kernel)) spanFeeder_given hg hD⟩

end Verif.Glm
