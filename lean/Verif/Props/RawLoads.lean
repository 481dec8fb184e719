import Verif.Props.RawLoading

/-!
# C78: which RAW cases load

A sufficient condition under which loading succeeds, and three kinds of sound case that cannot be loaded.
-/

namespace Verif.Raw

theorem mapPy_exists {α β : Type} {f : α → Py β} {l : List α} (h : ∀ a ∈ l, ∃ b, f a = .ok b) : ∃ r, mapPy f l = .ok r := by
  induction l with
  | nil => exact ⟨[], rfl⟩
  | cons a as ih =>
    obtain ⟨b, hb⟩ := h a (List.mem_cons_self ..)
    obtain ⟨r, hr⟩ := ih fun x hx => h x (List.mem_cons_of_mem _ hx)
    exact ⟨b :: r, by rw [mapPy, hb, hr]⟩

/-- A loop succeeds if every step does, under an invariant of the items left and the state. -/
theorem foldPy_exists {α σ : Type} {f : σ → α → Py σ} {I : List α → σ → Prop}
    (step : ∀ a as s, I (a :: as) s → ∃ s', f s a = .ok s' ∧ I as s') : ∀ (l : List α) (s : σ), I l s →
    ∃ s', foldPy f s l = .ok s' ∧ I [] s' := by
  intro l
  induction l with
  | nil => exact fun s h => ⟨s, rfl, h⟩
  | cons a as ih =>
    intro s h
    obtain ⟨t, ht, hI⟩ := step a as s h
    obtain ⟨s', hs', hI'⟩ := ih t hI
    exact ⟨s', by rw [foldPy, ht]; exact hs', hI'⟩

theorem bus_of_energised {c : Case} {i : ℤ} (h : c.Energised i) : c.bus i = .ok i := bus_ok.2 ⟨rfl, h⟩

theorem energised_of_known {c : Case} {i : ℤ} (h : c.Known i) (ho : i ∉ c.offline) : c.Energised i := by
  obtain ⟨b, hb, hi⟩ := h
  refine ⟨b, hb, hi, fun h4 => ho (mem_offline.2 ⟨b, hb, hi, h4⟩)⟩

theorem controlling_false {gens : List GenAt} {i : ℤ} : controlling gens i = false ↔ i ∉ gens.map GenAt.bus := by
  simp only [controlling, List.any_eq_false, decide_eq_true_eq, List.mem_map, not_exists, not_and]

theorem slackStep_exists {c : Case} (hs : c.sbase ≠ 0) {s : GenState} {g : GenRec} (h3 : c.HasType g.i 3) :
    ∃ s', slackStep c s g = .ok s' ∧ s'.gens = s.gens := by
  obtain ⟨b, hb⟩ := busRec_of_energised (c := c) (i := g.i) ⟨h3.choose, h3.choose_spec.1, h3.choose_spec.2.1⟩
  have he : c.bus g.i = .ok g.i := bus_of_energised (HasType.energised h3 (by norm_num))
  unfold slackStep
  rw [hb]
  simp only
  split
  · split
    · simp [addPinit, pyDiv, hs]
    · rw [he]
      exact ⟨_, rfl, rfl⟩
  · exact ⟨_, rfl, rfl⟩

theorem pvStep_exists {c : Case} {s : GenState} {g : GenRec} (h2 : g.wmod ≠ 2) (h3 : g.wmod ≠ 3) (hq : g.qb ≤ g.qt)
    (hc : g.Regulates c → controlling s.gens g.i = false) :
    ∃ s', pvStep c s g = .ok s' ∧
      (g.Regulates c → s'.gens.map GenAt.bus = s.gens.map GenAt.bus ++ [g.i]) ∧ (¬ g.Regulates c → s'.gens = s.gens) := by
  have hdat := genData_plain (g := g) h2 h3
  unfold pvStep
  rw [hdat]
  simp only
  by_cases hin : c.HasType g.i 2 ∧ g.stat = 1
  · have hen : c.bus g.i = .ok g.i := bus_of_energised (HasType.energised hin.1 (by norm_num))
    by_cases ha : almostEqual g.qb g.qt = true
    · have hnr : ¬ g.Regulates c := fun h => Regulates.range h (by
        rw [almostEqual_iff] at ha
        rw [abs_sub_comm]
        exact ha)
      have ha' : almostEqual g.qt g.qb = true := by
        rw [almostEqual_iff] at ha ⊢
        rw [abs_sub_comm]
        exact ha
      simp only [ha, if_true, mem_pvList, hin.1, hin.2, ha', h2, ne_eq, not_false_eq_true, and_self, genLoad, hen]
      exact ⟨_, rfl, fun h => absurd h hnr, fun _ => rfl⟩
    · have ha' : ¬ almostEqual g.qt g.qb = true := by
        rw [almostEqual_iff] at ha ⊢
        rw [abs_sub_comm]
        exact ha
      have hreg : g.Regulates c := by
        refine ⟨hin.1, hin.2, h2, h3, ?_⟩
        rw [almostEqual_iff, not_lt, abs_of_nonneg (by linarith)] at ha
        linarith
      have hz : ¬ (g.pg = 0 ∧ g.qt = 0 ∧ g.qb = 0) := by
        rintro ⟨-, e1, e2⟩
        apply ha
        rw [almostEqual_iff, e1, e2]
        norm_num
      simp only [ha, if_false, mem_pvList, hin.1, hin.2, ha', false_and, and_self, if_true, hz, hc hreg, genIntegrate, hen,
        Bool.false_eq_true]
      exact ⟨_, rfl, fun _ => by simp, fun h => absurd hreg h⟩
  · have hnr : ¬ g.Regulates c := fun h => hin ⟨h.1, h.2.1⟩
    have hin' : ∀ k : GenRec, k.i = g.i → k.stat = g.stat → ¬ (k.i ∈ c.pvList ∧ k.stat = 1) := by
      intro k hk1 hk2
      rw [hk1, hk2, mem_pvList]
      exact hin
    rw [if_neg (hin' _ (by split <;> rfl) (by split <;> rfl))]
    exact ⟨_, rfl, fun h => absurd h hnr, fun _ => rfl⟩

theorem switchedStep_exists {c : Case} {s : List GenAt × List ShuntAt} {r : SwitchedRec} (hk : r.stat = 1 → c.Known r.i)
    (hd : c.DistinctBuses) (hc : r.Regulates c → controlling s.1 r.i = false) :
    ∃ s', switchedStep c s r = .ok s' ∧
      (r.Regulates c → s'.1.map GenAt.bus = s.1.map GenAt.bus ++ [r.i]) ∧ (¬ r.Regulates c → s'.1 = s.1) := by
  unfold switchedStep
  split
  · rename_i hin
    have hen := energised_of_known (hk hin.2) hin.1
    split
    · rename_i hm
      have hreg : r.Regulates c := ⟨hm, hin.2, hen⟩
      rw [hc hreg]
      simp only [Bool.false_eq_true, if_false]
      have hdat := genData_plain (g := continuousGen r) (by simp [continuousGen]) (by simp [continuousGen])
      rw [hdat]
      simp only
      have hi : ∀ k : GenRec, k.i = r.i → ∃ x, genIntegrate c k = .ok x ∧ x.bus = r.i := by
        intro k hk
        unfold genIntegrate
        rw [hk, bus_of_energised hen]
        exact ⟨_, rfl, rfl⟩
      obtain ⟨x, hx, hxb⟩ := hi (if almostEqual (continuousGen r).qb (continuousGen r).qt = true then
        { continuousGen r with qg := (continuousGen r).qt } else continuousGen r) (by split <;> rfl)
      rw [hx]
      exact ⟨_, rfl, fun _ => by simp [hxb], fun h => absurd hreg h⟩
    · rename_i hm
      rw [bus_of_energised hen]
      exact ⟨_, rfl, fun h => absurd h.1 hm, fun _ => rfl⟩
  · rename_i hin
    refine ⟨_, rfl, fun h => ?_, fun _ => rfl⟩
    exact absurd ⟨hd.not_off h.2.2, h.2.1⟩ hin

theorem turnsOf_exists {cw : ℤ} {w n b : ℝ} (hb : b ≠ 0) (hw : w ≠ 0) (hn : n ≠ 0) : ∃ t, turnsOf cw w n b = .ok t ∧ t ≠ 0 := by
  unfold turnsOf pyDiv
  split
  · exact ⟨w, rfl, hw⟩
  split
  · exact ⟨_, rfl, div_ne_zero hw hb⟩
  split
  · exact ⟨_, rfl, div_ne_zero (mul_ne_zero hw hn) hb⟩
  · exact ⟨w, rfl, hw⟩

theorem turnsOf_exists' {cw : ℤ} {w n b : ℝ} (hb : b ≠ 0) : ∃ t, turnsOf cw w n b = .ok t := by
  unfold turnsOf pyDiv
  split
  · exact ⟨w, rfl⟩
  split
  · exact ⟨_, rfl⟩
  split
  · exact ⟨_, rfl⟩
  · exact ⟨w, rfl⟩

theorem twoData_exists {c : Case} {r : TwoRec} (hs : c.sbase ≠ 0) (hi : c.Known r.i) (hj : c.Known r.j) (hu : r.Usable c) :
    ∃ d, twoData c r = .ok d ∧ d.2.1.1 ^ 2 + d.2.1.2 ^ 2 ≠ 0 := by
  obtain ⟨bi, hbi⟩ := busRec_of_energised hi
  obtain ⟨bj, hbj⟩ := busRec_of_energised hj
  have hbi0 := hu.base bi (busRec_ok hbi).1 (Or.inl (busRec_ok hbi).2)
  have hbj0 := hu.base bj (busRec_ok hbj).1 (Or.inr (busRec_ok hbj).2)
  obtain ⟨ti, hti⟩ := turnsOf_exists' (cw := r.cw) (w := r.w1.windv)
    (n := if 0 < r.w1.nomv then r.w1.nomv else bi.baskv) hbi0
  obtain ⟨tj, htj, htj0⟩ := turnsOf_exists (cw := r.cw) (w := r.windv2)
    (n := if 0 < r.nomv2 then r.nomv2 else bj.baskv) hbj0 hu.windv2 (by
      split
      · rename_i h; exact h.ne'
      · exact hbj0)
  have htap : tapChecks2 r tj = .ok () := by
    unfold tapChecks2
    split
    · rename_i hc
      obtain ⟨h1, h2⟩ := hu.tap hc
      simp [h1, h2, htj0]
    · rfl
  have hmag : magnetizing r.cm r.mag1 r.mag2 r.z12.sbase c.sbase = .ok (r.mag1, r.mag2) := by
    simp [magnetizing, hu.mag]
  have hz : ∃ z, impedanceOf r.cz r.z12 c.sbase (tj * tj) = .ok z ∧ z.1 ^ 2 + z.2 ^ 2 ≠ 0 := by
    have pos : ∀ k : ℝ, k ≠ 0 → (r.z12.r * k) ^ 2 + (r.z12.x * k) ^ 2 ≠ 0 := by
      intro k hk h0
      have h1 : 0 ≤ (r.z12.r * k) ^ 2 := sq_nonneg _
      have h2 : 0 ≤ (r.z12.x * k) ^ 2 := sq_nonneg _
      have e1 : (r.z12.r * k) ^ 2 = 0 := by linarith
      have e2 : (r.z12.x * k) ^ 2 = 0 := by linarith
      rcases hu.imp with h | h
      · exact absurd e1 (pow_ne_zero _ (mul_ne_zero h hk))
      · exact absurd e2 (pow_ne_zero _ (mul_ne_zero h hk))
    rcases hu.code with h | h
    · refine ⟨_, by simp only [impedanceOf, h, if_true]; rfl, ?_⟩
      exact pos _ (mul_ne_zero htj0 htj0)
    · have h21 : ¬ (2 : ℤ) = 1 := by norm_num
      refine ⟨_, by simp only [impedanceOf, h, h21, hu.zbase, if_true, if_false]; rfl, ?_⟩
      have := pos (tj * tj * c.sbase / r.z12.sbase) (div_ne_zero (mul_ne_zero (mul_ne_zero htj0 htj0) hs) hu.zbase)
      intro h0
      apply this
      rw [← h0]
      ring
  obtain ⟨z, hz, hz0⟩ := hz
  refine ⟨(ti / tj, z, (r.mag1, r.mag2)), ?_, hz0⟩
  unfold twoData
  rw [if_neg hs, hbi]
  simp only
  rw [hbj]
  simp only
  rw [hti]
  simp only
  rw [htj]
  simp only [pyDiv, if_neg htj0]
  rw [htap]
  simp only
  rw [hz]
  simp only
  rw [hmag]

/-- **C78, what does hold.** A sound case without wind machines and three-winding transformers in service, in which no line
has shunts at its ends and no two devices hold the voltage of one bus, loads. Missing from the full claim: those cases, see
`C78_line_shunt_fails`, `C78_three_winding_fails`, `C78_two_holders_fails`. -/
theorem C78_supported_loads_partial {c : Case} (h : c.Supported) : ∃ o, parseRaw c = .ok o := by
  classical
  have hd := h.distinct
  -- generators
  obtain ⟨g, hg, hgI⟩ := foldPy_exists (f := genStep c)
    (I := fun l s => (s.gens.map GenAt.bus ++ (l.filter fun g => g.Regulates c).map GenRec.i ++
      (c.switched.filter fun r => r.Regulates c).map SwitchedRec.i).Nodup ∧ ∀ g ∈ l, g ∈ c.generators) (by
    rintro a as s ⟨hn, hm⟩
    have hma := hm a (List.mem_cons_self ..)
    have hm' : ∀ g ∈ as, g ∈ c.generators := fun x hx => hm x (List.mem_cons_of_mem _ hx)
    obtain ⟨h2, h3, hq⟩ := h.machines a hma
    unfold genStep
    split
    · rename_i hsl
      rw [mem_slackBuses] at hsl
      obtain ⟨s', hs', hgens⟩ := slackStep_exists h.base (s := s) (g := a) hsl
      have hnr : ¬ a.Regulates c := fun hr => by
        have := hd.type hsl hr.1
        omega
      refine ⟨s', hs', ?_, hm'⟩
      rw [hgens]
      simpa [List.filter_cons, hnr] using hn
    · obtain ⟨s', hs', hr, hnr⟩ := pvStep_exists (s := s) h2 h3 hq (c := c) (fun hr => by
        rw [controlling_false]
        intro hmem
        simp only [List.filter_cons, hr, decide_true, if_true, List.map_cons] at hn
        rw [List.append_assoc, List.nodup_append] at hn
        exact hn.2.2 _ hmem _ (List.mem_append_left _ (List.mem_cons_self ..)) rfl)
      refine ⟨s', hs', ?_, hm'⟩
      by_cases hreg : a.Regulates c
      · rw [hr hreg]
        simpa [List.filter_cons, hreg] using hn
      · rw [hnr hreg]
        simpa [List.filter_cons, hreg] using hn) c.generators ⟨[], [], []⟩ ⟨by simpa using h.holders, fun _ h => h⟩
  obtain ⟨sw, hsw, -⟩ := foldPy_exists (f := switchedStep c)
    (I := fun l s => (s.1.map GenAt.bus ++ (l.filter fun r => r.Regulates c).map SwitchedRec.i).Nodup ∧
      ∀ r ∈ l, r ∈ c.switched) (by
    rintro a as s ⟨hn, hm⟩
    have hma := hm a (List.mem_cons_self ..)
    obtain ⟨s', hs', hr, hnr⟩ := switchedStep_exists (s := s) (h.switched a hma) hd (fun hr => by
      rw [controlling_false]
      intro hmem
      simp only [List.filter_cons, hr, decide_true, if_true, List.map_cons] at hn
      rw [List.nodup_append] at hn
      exact hn.2.2 _ hmem _ (List.mem_cons_self ..) rfl)
    refine ⟨s', hs', ?_, fun x hx => hm x (List.mem_cons_of_mem _ hx)⟩
    by_cases hreg : a.Regulates c
    · rw [hr hreg]
      simpa [List.filter_cons, hreg] using hn
    · rw [hnr hreg]
      simpa [List.filter_cons, hreg] using hn) c.switched (g.gens, []) ⟨by simpa using hgI.1, fun _ h => h⟩
  obtain ⟨fs, hfs⟩ := mapPy_exists (f := fixedIntegrate c) (l := c.fixed.filter (fixedIn c)) (by
    intro r hr
    obtain ⟨hm, hin⟩ := List.mem_filter.1 hr
    simp only [fixedIn, decide_eq_true_eq] at hin
    unfold fixedIntegrate
    rw [bus_of_energised (energised_of_known (h.fixed r hm hin.2.1) hin.1)]
    exact ⟨_, rfl⟩)
  obtain ⟨ls, hls⟩ := mapPy_exists (f := loadIntegrate c) (l := c.loads.filter (loadIn c)) (by
    intro r hr
    obtain ⟨hm, hin⟩ := List.mem_filter.1 hr
    simp only [loadIn, decide_eq_true_eq] at hin
    unfold loadIntegrate
    rw [bus_of_energised (energised_of_known (h.loads r hm hin.2) hin.1)]
    exact ⟨_, rfl⟩)
  obtain ⟨bs, hbs⟩ := mapPy_exists (f := branchIntegrate c) (l := c.branches.filter (branchIn c)) (by
    intro r hr
    obtain ⟨hm, hin⟩ := List.mem_filter.1 hr
    simp only [branchIn, decide_eq_true_eq] at hin
    obtain ⟨k1, k2⟩ := h.branches r hm hin.2.2
    have e1 := energised_of_known k1 hin.1
    have e2 := energised_of_known k2 hin.2.1
    obtain ⟨hz, g1, g2, g3, g4⟩ := h.lines r hm ⟨hin.2.2, e1, e2⟩
    have hne : r.x ^ 2 + r.r ^ 2 ≠ 0 := by
      intro h0
      have h1 : 0 ≤ r.x ^ 2 := sq_nonneg _
      have h2 : 0 ≤ r.r ^ 2 := sq_nonneg _
      have e1 : r.x ^ 2 = 0 := by linarith
      have e2 : r.r ^ 2 = 0 := by linarith
      rcases hz with h | h
      · exact absurd e2 (pow_ne_zero _ h)
      · exact absurd e1 (pow_ne_zero _ h)
    exact ⟨_, branchIntegrate_ok.2 ⟨e1, e2, hne, ⟨g1, g2, g3, g4⟩, rfl⟩⟩)
  obtain ⟨x2, hx2⟩ := mapPy_exists (f := twoIntegrate c) (l := c.two.filter (twoIn c)) (by
    intro r hr
    obtain ⟨hm, hin⟩ := List.mem_filter.1 hr
    simp only [twoIn, decide_eq_true_eq] at hin
    obtain ⟨k1, k2⟩ := h.two r hm
    have e1 := energised_of_known k1 hin.1
    have e2 := energised_of_known k2 hin.2
    obtain ⟨d, hdat, hz⟩ := twoData_exists h.base k1 k2 (h.twoUsable r hm e1 e2)
    unfold twoIntegrate
    rw [hdat]
    simp only
    split
    · exact ⟨_, rfl⟩
    · rw [bus_of_energised e1]
      simp only
      rw [bus_of_energised e2]
      simp only [makeXfmr, if_neg hz]
      exact ⟨_, rfl⟩)
  obtain ⟨top, htop⟩ : ∃ top, largest c.online = .ok top := by
    obtain ⟨i, hi⟩ := h.nonempty
    have := mem_online.2 hi
    cases hl : c.online with
    | nil => rw [hl] at this; cases this
    | cons a as => exact ⟨_, rfl⟩
  have h3 : c.three.filter threeIn = [] := by
    rw [List.filter_eq_nil_iff]
    intro r hr
    simp [threeIn, h.three r hr]
  refine ⟨_, parseRaw_ok.2 ⟨g, sw, fs, ls, bs, x2, top, [], hg, hsw, hfs, hls, hbs, hx2, htop, ?_, rfl⟩⟩
  rw [h3]
  rfl

/-- **C78 fails for line shunts**: no case with a branch in service that has a shunt at an end can be loaded. -/
theorem C78_line_shunt_fails {c : Case} (hd : c.DistinctBuses) {r : BranchRec} (hr : r ∈ c.branches) (hs : r.Served c)
    (hsh : r.gi ≠ 0 ∨ r.bi ≠ 0 ∨ r.gj ≠ 0 ∨ r.bj ≠ 0) (o : Out) : parseRaw c ≠ .ok o := by
  intro h
  obtain ⟨g, sw, fs, ls, bs, x2, top, x3, -, -, -, -, h5, -⟩ := parseRaw_ok.1 h
  rw [mapPy_ok] at h5
  have hm : r ∈ c.branches.filter (branchIn c) := by
    rw [List.mem_filter]
    refine ⟨hr, ?_⟩
    simp only [branchIn, decide_eq_true_eq]
    exact ⟨hd.not_off hs.2.1, hd.not_off hs.2.2, hs.1⟩
  obtain ⟨i, hl, rfl⟩ := List.mem_iff_getElem.1 hm
  have := (List.forall₂_iff_get.1 h5).2 i hl ((List.forall₂_iff_get.1 h5).1 ▸ hl)
  obtain ⟨-, -, -, ⟨h1, h2, h3, h4⟩, -⟩ := branchIntegrate_ok.1 this
  rcases hsh with h | h | h | h
  · exact h h1
  · exact h h2
  · exact h h3
  · exact h h4

/-- **C78 fails for three-winding transformers**: no case with one in service between energised buses can be loaded, unless
some bus has the number `-1`. -/
theorem C78_three_winding_fails {c : Case} (hd : c.DistinctBuses) (hm1 : ¬ c.Energised (-1)) {r : ThreeRec}
    (hr : r ∈ c.three) (hst : r.stat = 1) (hi : c.Energised r.i) (hj : c.Energised r.j) (o : Out) : parseRaw c ≠ .ok o := by
  intro h
  obtain ⟨g, sw, fs, ls, bs, x2, top, x3, -, -, -, -, -, -, -, h8, -⟩ := parseRaw_ok.1 h
  rw [mapPy_ok] at h8
  have hm : r ∈ c.three.filter threeIn := by
    rw [List.mem_filter]
    exact ⟨hr, by simp [threeIn, hst]⟩
  obtain ⟨n, hl, rfl⟩ := List.mem_iff_getElem.1 hm
  have hint := (List.forall₂_iff_get.1 h8).2 n hl ((List.forall₂_iff_get.1 h8).1 ▸ hl)
  simp only [List.get_eq_getElem] at hint
  generalize (c.three.filter threeIn)[n] = r at *
  unfold threeIntegrate at hint
  split at hint
  · cases hint
  rename_i d hdat
  obtain ⟨bi, bj, bk, e1, e2, -, hstat⟩ := threeData_status hdat
  have hbi : bi.ide ≠ 4 := fun h4 => hd.not_off hi (mem_offline.2 ⟨bi, (busRec_ok e1).1, (busRec_ok e1).2, h4⟩)
  have hbj : bj.ide ≠ 4 := fun h4 => hd.not_off hj (mem_offline.2 ⟨bj, (busRec_ok e2).1, (busRec_ok e2).2, h4⟩)
  have hon : d.status.1 = true := by
    rw [hstat]
    simp [windingStatus, hst, hbi, hbj]
  split at hint
  · cases hint
  rename_i a ha
  unfold starWinding at ha
  rw [if_pos hon, bus_of_energised hi] at ha
  simp only at ha
  have hneg : c.bus (-1) = .error .key := by
    unfold Case.bus
    rw [if_neg (fun h => hm1 (mem_online.1 h))]
  rw [hneg] at ha
  cases ha

/-- **C78 fails for two devices on one bus**: a case with two machines holding the voltage of one bus cannot be loaded. -/
theorem C78_two_holders_fails {c : Case} (hd : c.DistinctBuses) {l1 l2 l3 : List GenRec} {g g' : GenRec}
    (hg : c.generators = l1 ++ g :: l2 ++ g' :: l3) (hr : g.Regulates c) (hr' : g'.Regulates c) (hi : g.i = g'.i) (o : Out) :
    parseRaw c ≠ .ok o := by
  intro h
  have := C47_no_two_regulate hd h
  rw [hg, List.append_assoc, List.pairwise_append] at this
  have h2 := this.2.1
  rw [List.cons_append, List.pairwise_cons] at h2
  exact h2.1 g' (by simp) ⟨hr, hr', hi⟩

/-- A loadable case: swing bus, machine, line, transformer, load and fixed shunt. -/
noncomputable def smallCase : Case where
  sbase := 100
  buses := [⟨1, 3, 1, 0, 138⟩, ⟨2, 2, 1, 0, 138⟩, ⟨3, 1, 1, 0, 69⟩]
  generators := [⟨1, 0, 0, 50, -50, 1, 1, 0, 1⟩, ⟨2, 40, 0, 50, -50, 1, 1, 0, 1⟩]
  switched := []
  fixed := [⟨3, 1, 0, 5⟩]
  loads := [⟨3, 1, 50, 20, 0, 0, 0, 0⟩]
  branches := [⟨1, 2, 1 / 100, 1 / 10, 1 / 50, 0, 0, 0, 0, 1⟩]
  two := [⟨2, 3, 1, 1, 1, 1, 0, 0, ⟨0, 1 / 10, 100⟩, ⟨1, 0, 0, 0, 0, 0, 0⟩, 1, 0⟩]
  three := []

theorem smallCase_supported : smallCase.Supported := by
  classical
  have hk : ∀ i : ℤ, i = 1 ∨ i = 2 ∨ i = 3 → smallCase.Known i := by
    rintro i (rfl | rfl | rfl) <;> simp [smallCase, Case.Known]
  have hr1 : ¬ GenRec.Regulates smallCase ⟨1, 0, 0, 50, -50, 1, 1, 0, 1⟩ := by
    rintro ⟨⟨b, hb, hi, ht⟩, -⟩
    simp only [smallCase, List.mem_cons, List.not_mem_nil, or_false] at hb
    rcases hb with rfl | rfl | rfl <;> simp_all
  constructor
  · simp [Case.DistinctBuses, smallCase]
  · exact ⟨1, by simp [Case.Energised, smallCase]⟩
  · norm_num [smallCase]
  · intro g hg
    simp only [smallCase, List.mem_cons, List.not_mem_nil, or_false] at hg
    rcases hg with rfl | rfl <;> norm_num
  · have : smallCase.switched = [] := rfl
    have hg : smallCase.generators = [⟨1, 0, 0, 50, -50, 1, 1, 0, 1⟩, ⟨2, 40, 0, 50, -50, 1, 1, 0, 1⟩] := rfl
    rw [this, hg]
    simp only [List.filter_cons, hr1, decide_false, List.filter_nil, List.map_nil, List.append_nil, Bool.false_eq_true,
      if_false]
    split <;> simp
  · simp [smallCase]
  · intro r hr _
    simp only [smallCase, List.mem_cons, List.not_mem_nil, or_false] at hr
    subst hr
    exact hk _ (by norm_num)
  · intro r hr _
    simp only [smallCase, List.mem_cons, List.not_mem_nil, or_false] at hr
    subst hr
    exact hk _ (by norm_num)
  · intro r hr _
    simp only [smallCase, List.mem_cons, List.not_mem_nil, or_false] at hr
    subst hr
    exact ⟨hk _ (by norm_num), hk _ (by norm_num)⟩
  · intro r hr _
    simp only [smallCase, List.mem_cons, List.not_mem_nil, or_false] at hr
    subst hr
    norm_num
  · intro r hr
    simp only [smallCase, List.mem_cons, List.not_mem_nil, or_false] at hr
    subst hr
    exact ⟨hk _ (by norm_num), hk _ (by norm_num)⟩
  · intro r hr _ _
    simp only [smallCase, List.mem_cons, List.not_mem_nil, or_false] at hr
    subst hr
    refine ⟨?_, by norm_num, by norm_num, by norm_num, by norm_num, by norm_num, by norm_num⟩
    intro b hb _
    simp only [smallCase, List.mem_cons, List.not_mem_nil, or_false] at hb
    rcases hb with rfl | rfl | rfl <;> norm_num
  · simp [smallCase]

example : ∃ o, parseRaw smallCase = .ok o := C78_supported_loads_partial smallCase_supported

/-- The hypotheses of `C78_line_shunt_fails`. -/
example (o : Out) : parseRaw { smallCase with branches := [⟨1, 2, 1 / 100, 1 / 10, 1 / 50, 0, 1 / 100, 0, 0, 1⟩] } ≠ .ok o :=
  C78_line_shunt_fails (by simp [Case.DistinctBuses, smallCase]) (r := ⟨1, 2, 1 / 100, 1 / 10, 1 / 50, 0, 1 / 100, 0, 0, 1⟩)
    (by simp) (by simp [BranchRec.Served, Case.Energised, smallCase]) (by norm_num) o

/-- The hypotheses of `C78_three_winding_fails`. -/
example (o : Out) : parseRaw threeCase.1 ≠ .ok o :=
  C78_three_winding_fails (by simp [Case.DistinctBuses, threeCase]) (by simp [Case.Energised, threeCase])
    (r := threeCase.2) (by simp [threeCase]) rfl (by simp [Case.Energised, threeCase]) (by simp [Case.Energised, threeCase]) o

/-- The hypotheses of `C78_two_holders_fails`. -/
example (o : Out) : parseRaw (twoMachines 2) ≠ .ok o := by
  have ht : (twoMachines 2).HasType 2 2 := ⟨⟨2, 2, 1, 0, 138⟩, by simp [twoMachines], rfl, rfl⟩
  have hr : GenRec.Regulates (twoMachines 2) ⟨2, 40, 0, 50, -50, 1, 1, 0, 1⟩ := ⟨ht, rfl, by norm_num, by norm_num, by norm_num⟩
  exact C78_two_holders_fails (by simp [Case.DistinctBuses, twoMachines]) (l1 := [⟨1, 0, 0, 50, -50, 1, 1, 0, 1⟩]) (l2 := [])
    (l3 := []) (by simp [twoMachines, List.replicate]) hr hr rfl o

end Verif.Raw
