import Verif.Props.LineReader

/-!
# C105: lines of a file are reciprocal and passive
-/

namespace Verif.Glm

open Matrix

/-! ### C105 -/

theorem perMeter_power {n : Type} [Fintype n] (Z : Matrix n n ℂ) (I : n → ℂ) :
    (star I ⬝ᵥ perMeter Z *ᵥ I).re = (star I ⬝ᵥ Z *ᵥ I).re / (1609344 / 1000) := by
  have : perMeter Z = (((1609344 / 1000 : ℝ)⁻¹ : ℝ) : ℂ) • Z := by
    ext i j
    rw [Matrix.smul_apply, perMeter, smul_eq_mul, Complex.ofReal_inv, div_eq_inv_mul]
  rw [this, smul_mulVec, dotProduct_smul, smul_eq_mul, Complex.re_ofReal_mul, ← div_eq_inv_mul]

/-- One line is reciprocal, whatever the lines before it were. -/
theorem line_symm {v v' : Option Table} {objs objs' : List (Txt × Obj)} {o : Obj} {ph : Phases} {d : List Char × LineData}
    (hv : ∀ T, v = some T → T.Symm) (h : readLineVar v objs o ph = .ok ((d, objs'), v')) : ∀ i j, d.2.Z i j = d.2.Z j i := by
  have hv' := readLineVar_symm h hv
  rcases readLineVar_ok h with ⟨-, hl⟩ | ⟨-, hl, -⟩ | ⟨-, -, hl⟩
  · obtain ⟨c, ws, T, len, Z, B, hr, -⟩ := readOverhead_ok hl
    rw [hr.data]
    intro i j
    have := overhead_symm (hv' T hr.table).striped hr.series i j
    simp only [perMeter, this]
  · obtain ⟨c, ws, x, len, Z, hr⟩ := readTriplexLine_ok hl
    rw [hr.data]
    intro i j
    have := triplex_symm hr.series i j
    simp only [perMeter, this]
  · obtain ⟨c, ws, T, len, Z, B, hr, -⟩ := readUnderground_ok hl
    rw [hr.data]
    intro i j
    have := underground_symm (hv' T hr.table).striped hr.series i j
    simp only [perMeter, this]

/-- **C105, reciprocity.** The impedance matrix of every line that is read from a file is symmetric: overhead, triplex and underground lines, in any order,
with any conductors and spacings, and also those that get the distances of a line before them. -/
theorem C105_reciprocal (objs : List (Txt × Obj)) (lines : List (Obj × Phases)) (ds : List (List Char × LineData))
    (h : readLinesVar none objs lines = .ok ds) : ∀ d ∈ ds, ∀ i j, d.2.Z i j = d.2.Z j i := by
  suffices H : ∀ v objs ds, (∀ T, v = some T → T.Symm) → readLinesVar v objs lines = .ok ds → ∀ d ∈ ds, ∀ i j, d.2.Z i j = d.2.Z j i from
    H none objs ds (fun _ h => by cases h) h
  clear h
  induction lines with
  | nil => intro v objs ds _ h d hd; cases h; cases hd
  | cons x xs ih =>
    intro v objs ds hv h d hd
    rw [readLinesVar] at h
    obtain ⟨⟨⟨d0, objs'⟩, v'⟩, h1, h⟩ := bind_eq_ok h
    obtain ⟨rest, h2, h⟩ := bind_eq_ok h
    cases h
    rcases List.mem_cons.1 hd with rfl | hd
    · exact line_symm hv h1
    · exact ih v' objs' rest (readLineVar_symm h1 hv) h2 d hd

theorem ConductorsWith.same {P : ℚ → Prop} {objs objs' : List (Txt × Obj)} (h : SameObjs objs objs') {o : Obj} (ho : ConductorsWith P objs o) :
    ConductorsWith P objs' o := by
  intro p w hw
  obtain ⟨w0, hw0, hs⟩ := UsesConductor.same h hw
  exact ⟨(ho p w0 hw0).1.same hs, fun hc => ((ho p w0 hw0).2 hc).same hs⟩

theorem overhead_wires {P : ℚ → Prop} (hP : ∀ y, P y → P (y * (1609344 / 1000000))) {v : Option Table} {objs objs' : List (Txt × Obj)} {o : Obj} {ph : Phases}
    {d : List Char × LineData} {c : Obj} {wires : List BareWire} {T : Table} {len : ℚ × Obj} {Z : Matrix _ _ ℂ} {B : Matrix _ _ ℝ}
    (h : OverheadRead v objs o ph d objs' c wires T len Z B) (ho : ConductorsWith P objs o) (hc : o.cls = "overhead_line".toList) :
    ∀ w ∈ wires, ∃ r g, w.resistance = some r ∧ w.gmr = some g ∧ P r :=
  readWires_all (P := fun w : BareWire => ∃ r g, w.resistance = some r ∧ w.gmr = some g ∧ P r) (Q := fun o => EachResistance P o ∧ CompleteBare o)
    (fun _ _ _ hw ho => overheadConductor_each hP hw ho) h.conductors fun x hx w hw => by
      have := ho x.1 w (conductorNames_uses h.config hx hw).2
      exact ⟨this.1, this.2 (by rw [hc]; decide)⟩

theorem triplex_wires {P : ℚ → Prop} {objs objs' : List (Txt × Obj)} {o : Obj}
    {d : List Char × LineData} {c : Obj} {wires : List TriplexWire} {x : Option (ℚ × ℚ)} {len : ℚ × Obj} {Z : Matrix _ _ ℂ}
    (h : TriplexRead objs o d objs' c wires x len Z) (ho : ConductorsWith P objs o) (hc : o.cls = "triplex_line".toList) :
    ∀ w ∈ wires, ∃ r g, w.resistance = some r ∧ w.gmr = some g ∧ P r :=
  readWires_all (P := fun w : TriplexWire => ∃ r g, w.resistance = some r ∧ w.gmr = some g ∧ P r) (Q := fun o => EachResistance P o ∧ CompleteBare o)
    (fun _ _ _ hw ho => triplexConductor_each hw ho) h.conductors fun x hx w hw => by
      have := ho x.1 w (conductorNames_uses h.config hx hw).2
      exact ⟨this.1, this.2 (by rw [hc]; decide)⟩

theorem underground_wires {P : ℚ → Prop} (hP : ∀ y, P y → P (y * (1609344 / 1000000))) {v : Option Table} {objs objs' : List (Txt × Obj)} {o : Obj}
    {d : List Char × LineData} {c : Obj} {wires : List CableWire} {T : Table} {len : ℚ × Obj} {Z : Matrix _ _ ℂ} {B : Matrix _ _ ℝ}
    (h : UndergroundRead v objs o d objs' c wires T len Z B) (ho : ConductorsWith P objs o) :
    ∀ w ∈ wires, (∀ r, w.resistance = some r → P r) ∧ ∀ r, w.strandResistance = some r → P r :=
  readWires_all (P := fun w : CableWire => (∀ r, w.resistance = some r → P r) ∧ ∀ r, w.strandResistance = some r → P r) (Q := fun o => EachResistance P o)
    (fun _ _ _ hw ho => undergroundConductor_each hP hw ho) h.conductors fun x hx w hw => (ho x.1 w (conductorNames_uses h.config hx hw).2).1

theorem line_passive {v v' : Option Table} {objs objs' : List (Txt × Obj)} {o : Obj} {ph : Phases} {d : List Char × LineData}
    (hv : ∀ T, v = some T → T.Symm) (h : readLineVar v objs o ph = .ok ((d, objs'), v')) (ho : ConductorsWith (0 ≤ ·) objs o) (I : Fin d.2.n → ℂ) :
    0 ≤ (star I ⬝ᵥ d.2.Z *ᵥ I).re := by
  have hP : ∀ y : ℚ, 0 ≤ y → 0 ≤ y * (1609344 / 1000000) := fun y hy => mul_nonneg hy (by norm_num)
  have hv' := readLineVar_symm h hv
  have hd : (0 : ℝ) ≤ 1609344 / 1000 := by norm_num
  rcases readLineVar_ok h with ⟨hc, hl⟩ | ⟨hc, hl, -⟩ | ⟨-, -, hl⟩
  · obtain ⟨c, ws, T, len, Z, B, hr, -⟩ := readOverhead_ok hl
    have hdata := hr.data
    subst hdata
    rw [perMeter_power]
    exact div_nonneg (overhead_passive (hv' T hr.table).striped hr.series (overhead_wires hP hr ho hc) I) hd
  · obtain ⟨c, ws, x, len, Z, hr⟩ := readTriplexLine_ok hl
    have hdata := hr.data
    subst hdata
    rw [perMeter_power]
    exact div_nonneg (triplex_passive hr.series (triplex_wires hr ho hc) I) hd
  · obtain ⟨c, ws, T, len, Z, B, hr, -⟩ := readUnderground_ok hl
    have hdata := hr.data
    subst hdata
    rw [perMeter_power]
    exact div_nonneg (underground_passive (hv' T hr.table).striped hr.series (underground_wires hP hr ho) I) hd

/-- **C105, passivity, partial.** No line that is read from a file gives power: if the conductors it uses have no negative resistance, and those of an overhead or
triplex line have a resistance and a radius at all, then for every set of phase currents the real part of the sum of conjugate current times voltage drop is not
less than zero. What is missing: bare conductors without resistance or radius (`C105_incomplete_fails`). -/
theorem C105_passive_partial (objs : List (Txt × Obj)) (hf : ConductorsNamed objs) (lines : List (Obj × Phases)) (ds : List (List Char × LineData))
    (hl : ∀ x ∈ lines, ConductorsWith (0 ≤ ·) objs x.1) (h : readLinesVar none objs lines = .ok ds) :
    ∀ d ∈ ds, ∀ I : Fin d.2.n → ℂ, 0 ≤ (∑ i, (starRingEnd ℂ) (I i) * ∑ j, d.2.Z i j * I j).re := by
  suffices H : ∀ v objs' ds, SameObjs objs objs' → (∀ T, v = some T → T.Symm) → readLinesVar v objs' lines = .ok ds →
      ∀ d ∈ ds, ∀ I : Fin d.2.n → ℂ, 0 ≤ (star I ⬝ᵥ d.2.Z *ᵥ I).re from H none objs ds (SameObjs.refl _) (fun _ h => by cases h) h
  clear h
  induction lines with
  | nil => intro v objs' ds _ _ h d hd; cases h; cases hd
  | cons x xs ih =>
    intro v objs' ds hs hv h d hd
    rw [readLinesVar] at h
    obtain ⟨⟨⟨d0, objs1⟩, v'⟩, h1, h⟩ := bind_eq_ok h
    obtain ⟨rest, h2, h⟩ := bind_eq_ok h
    cases h
    rcases List.mem_cons.1 hd with rfl | hd
    · exact line_passive hv h1 ((hl x (by simp)).same hs)
    · exact ih (fun y hy => hl y (List.mem_cons_of_mem _ hy)) v' objs1 rest (hs.trans (readLineVar_keeps hf hs h1)) (readLineVar_symm h1 hv) h2 d hd

theorem unspaced_uses {o w : Obj} {t : Txt} {p : Char} (h : UsesConductor (unspacedWith o t) (overheadOf "spaced".toList) p w) : w = o := by
  obtain ⟨k, c, n, hk, hc, hn, hw⟩ := h
  rw [show (overheadOf "spaced".toList).attr "configuration".toList = some "spaced".toList from rfl, Option.some.injEq] at hk
  subst hk
  rw [show lookup "spaced".toList (unspacedWith o t) = some spacedConfig from rfl, Option.some.injEq] at hc
  subst hc
  have hm : ("conductor_".toList ++ [p], n) ∈ spacedConfig.attrs := by
    generalize spacedConfig = c at hn
    generalize "conductor_".toList ++ [p] = a at hn ⊢
    exact mem_of_lookup hn
  have hl : lookup "wire".toList (unspacedWith o t) = some o := rfl
  rw [show spacedConfig.attrs = [("conductor_A".toList, "wire".toList), ("conductor_B".toList, "wire".toList), ("spacing".toList, "near".toList)] from rfl] at hm
  rcases List.mem_cons.1 hm with h | hm
  · rw [show n = "wire".toList from congrArg Prod.snd h, hl, Option.some.injEq] at hw; exact hw.symm
  rcases List.mem_cons.1 hm with h | hm
  · rw [show n = "wire".toList from congrArg Prod.snd h, hl, Option.some.injEq] at hw; exact hw.symm
  rw [List.mem_singleton] at hm
  have := congrArg (fun x => x.1.length) hm
  simp only [List.length_append, List.length_singleton] at this
  exact absurd this (by decide)

/-- A line of two conductors two feet apart is read, and meets the hypotheses. -/
example : ∃ ds, ds ≠ [] ∧ readLinesVar none (unspaced "2".toList) [(overheadOf "spaced".toList, ⟨['A', 'B'], false, false, false⟩)] = .ok ds ∧
    (∀ d ∈ ds, ∀ i j, d.2.Z i j = d.2.Z j i) ∧ ∀ d ∈ ds, ∀ I : Fin d.2.n → ℂ, 0 ≤ (∑ i, (starRingEnd ℂ) (I i) * ∑ j, d.2.Z i j * I j).re := by
  obtain ⟨Z, S, -, -, -, hx, -⟩ := unspaced_line (some (1 / 50)) (some (1 / 4)) (by rintro x ⟨⟩; norm_num) (t := "2".toList) (d := 2) (Or.inl ⟨rfl, rfl⟩)
    (show ∀ c ∈ [spacedConfig, bareConfig], readWires overheadConductor (unspaced "2".toList) (conductorNames c "ABCN".toList) = _ by decide +kernel)
  have h : readLinesVar none (unspaced "2".toList) [(overheadOf "spaced".toList, ⟨['A', 'B'], false, false, false⟩)] = .ok [(['A', 'B'], ⟨2, Z, S, 3048 / 10⟩)] := by
    simp only [unspaced, readLinesVar, hx, bind, Except.bind]
  refine ⟨_, List.cons_ne_nil _ _, h, C105_reciprocal _ _ _ h, C105_passive_partial _ (conductorsNamed_of (by decide +kernel)) _ _ ?_ h⟩
  intro x hx p w hw
  rw [List.mem_singleton] at hx
  subst hx
  obtain rfl := unspaced_uses hw
  refine ⟨?_, fun _ => ⟨rfl, rfl⟩⟩
  intro a ha s hs x hx
  simp only [List.map_cons, List.map_nil, List.mem_cons, List.not_mem_nil, or_false] at ha
  rcases ha with rfl | rfl | rfl
  · cases hs
    rw [show pyFloat "0.25".toList = some (1 / 4) by decide +kernel, show pyFloat (removeNonnum "0.25".toList) = some (1 / 4) by decide +kernel, or_self] at hx
    cases hx
    norm_num
  · cases hs
  · cases hs

/-- **C105 fails.** A line whose conductors have a radius but no resistance is read, with zeros on the diagonal of its impedance matrix, and gives power: a current that
flows out in one conductor and back in the other gains real power from the line. -/
theorem C105_incomplete_fails : ∃ d : List Char × LineData,
    readLinesVar none (unspacedWith ⟨"overhead_line_conductor".toList, [("geometric_mean_radius".toList, "0.02".toList), ("diameter".toList, "1".toList)]⟩ "2".toList)
      [(overheadOf "spaced".toList, ⟨['A', 'B'], false, false, false⟩)] = .ok [d] ∧
    ∃ I : Fin d.2.n → ℂ, (∑ i, (starRingEnd ℂ) (I i) * ∑ j, d.2.Z i j * I j).re < 0 := by
  obtain ⟨Z, S, h1, h2, h3, hx, -⟩ := unspaced_line (some (1 / 50)) none (by rintro x ⟨⟩; norm_num) (t := "2".toList) (d := 2) (Or.inl ⟨rfl, rfl⟩)
    (o := ⟨"overhead_line_conductor".toList, [("geometric_mean_radius".toList, "0.02".toList), ("diameter".toList, "1".toList)]⟩) (by decide +kernel)
  refine ⟨(['A', 'B'], ⟨2, Z, S, 3048 / 10⟩), ?_, ![1, -1], ?_⟩
  · simp only [readLinesVar, hx, bind, Except.bind]
  · show (∑ i : Fin 2, (starRingEnd ℂ) ((![1, -1] : Fin 2 → ℂ) i) * ∑ j : Fin 2, Z i j * (![1, -1] : Fin 2 → ℂ) j).re < 0
    have h0 : wireImpedance (pairWire (some (1 / 50)) none 'A') = 0 := rfl
    simp only [Fin.sum_univ_two, h1, h2, h3, h0, zero_div]
    simp only [cons_val_zero, cons_val_one, map_one, map_neg, mul_one, mul_neg, zero_add, one_mul, neg_zero, add_zero, Complex.add_re, Complex.neg_re, neg_mul]
    have : (mutualImpedance false ((2 : ℚ) : ℝ) / ((1609344 / 1000 : ℝ) : ℂ)).re = 9530 / 100000 / (1609344 / 1000) := by
      rw [Complex.div_ofReal_re]
      rfl
    rw [this]
    norm_num

end Verif.Glm
