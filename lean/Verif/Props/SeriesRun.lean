import Verif.Model.SeriesRun
import Verif.Props.Checked
import Verif.Props.Disk

/-!
# C157: from the options of a time series to its files
-/

namespace Verif

theorem factor_one (D : DxNet) : D.factor 1 1 = D := by
  have he : ∀ e : Element, e.factor 1 1 = e := fun e => by
    cases e <;> simp [Element.factor]
  cases D with
  | mk b items o t =>
    simp only [DxNet.factor, DxNet.mk.injEq, true_and, and_true]
    refine (List.map_congr_left fun i _ => ?_).trans (List.map_id _)
    cases i <;> simp [he]

end Verif

namespace Verif.Glm

variable {L : Library} {objs : List (Txt × Obj)} {schedules : List (Txt × Txt)} {g : Grid LineData} {D : DxNet}

/-- The run, the load factor having the sign `e`. -/
theorem series_signed {e : ℝ} (he : e = 1 ∨ e = -1) (hL : L.Loaded) (hs : ChargedFile objs) (h : parseGrid lineReader objs schedules = .ok g) (hD : g.network lineMade = .ok D)
    (hne : ownPlaces objs ≠ []) (hj : ∀ x ∈ ownPlaces objs, ∀ y ∈ ownPlaces objs, FileJoined objs (wiredLines objs) x.1.1 y.1.1)
    (hown : ∀ x ∈ ownPlaces objs, isSwing x.1.2 = true ∨ x.1.1 ∉ parentNames objs)
    (hnom : ∀ x ∈ ownPlaces objs, ∀ y ∈ ownPlaces objs, PlainJoined objs (wiredLines objs) x.1.1 y.1.1 → ∀ u w, placeVoltage x.1.2 x.2 = some u →
      placeVoltage y.1.2 y.2 = some w → |u.magnitude - w.magnitude| ≤ 19 / 2) (hr : LoadsRated objs)
    {V0 : Txt → Char → ℂ} (h0 : ChargedFlowAt 1 (1 / 4) objs 0 V0) (hlive : LoadsLive objs V0) (hoff : LoadsOffAxes objs V0) (ε tol : ℝ) (hε : 0 < ε) (htol : 0 < tol) :
    ∃ s0 > 0, ∀ (scale : ℤ → ℝ) (start stop : ℤ) (cols : List Column), ScaledColumns objs cols scale start stop →
      (∀ hour, start ≤ hour → hour < stop → 0 < scale hour ∧ scale hour ≤ s0) →
      ∀ S : PFSettings, tol ≤ S.tolerance → 2 ≤ S.maxIters →
      (S.control = true → declaredFuses objs = [] ∧ ∀ d ∈ declaredCaps objs, d.obj.attr "control".toList = some "MANUAL".toList) →
      ∀ islands voltageIslands : PFNet → List (List Txt), (∀ s, IsIslands (g.pf (D.factor s s)).graph (islands (g.pf (D.factor s s)))) →
      (∀ s, IsEdgeIslands ((g.pf (D.factor s s)).graph.plainEdges (g.pf (D.factor s s)).connected) (voltageIslands (g.pf (D.factor s s)))) →
      ∀ mark : Results → Except String Results, (∀ s v, ∃ b, mark (feederResults L g D s v) = .ok { feederResults L g D s v with violates := b }) →
      ∀ names shown readCsv isFile select f (o : Options) (fuel : ℕ), o.loadfile = some f → readCsv f = .ok cols → isFile f = true → o.loadstart = some (hourText start) →
      o.loadend = some (hourText stop) → o.swing = none ∨ o.negativeloads = none → o.selectIsland = none →
      ∀ (x : ℚ) (a : ℝ), factorOption o.loadFactor = .ok x → (x : ℝ) = e * a → 0 < a →
      ∃ m, commandRun (feederSurroundings L S (fun G => idealSolve (G.net.network.assign L).size) islands voltageIslands mark g names shown readCsv isFile select) o (fuel + 1) D
          (g.loads.map GLoad.named) = some m ∧ m.raised = none ∧ m.errors = [] ∧ m.shown.length = (stop - start).toNat ∧
        ∀ hour, start ≤ hour → hour < stop → ∃ r V, m.shown[(hour - start).toNat]? = some r ∧ r.success = true ∧ ChargedFlowAt 1 (1 / 4) objs (e * scale hour) V ∧
          List.Forall₂ (fun b y => (∃ z, g.buses[b.bus]? = some z ∧ z.name = y.1.1 ∧ z.phase = y.2) ∧ ‖b.V - V y.1.1 y.2‖ ≤ ε) r.buses (ownPlaces objs) ∧
          ∀ n, o.outputfile = some n → ∀ (d : OutDisk) (buses : List BusName) v p, FilesOf (n ++ '_' :: hourText hour) v p →
            (d.after (Results.texts buses) m.files) v = some (r.voltageText buses) ∧ (d.after (Results.texts buses) m.files) p = some (r.powerText buses) := by
  obtain ⟨s0, hs0, H⟩ := hours_signed he hL hs h hD hne hj hown hnom hr h0 hlive hoff ε tol hε htol
  refine ⟨s0, hs0, fun scale start stop cols hc hsc S h1 h2 h3 islands vis hi hv mark hmark names shown readCsv isFile select f o fuel hf hcsv hfile hst hen hsw hsel x a hx hxa ha => ?_⟩
  obtain ⟨res, st, hrun, hlen, hat, hres⟩ := H scale start stop cols hc hsc S h1 h2 h3 islands vis hi hv mark hmark names o.swing o.negativeloads o.outputfile hsw 1 a fuel ha
  rw [factor_one, ← hxa] at hrun
  have hp : ∀ l, prepare (feederSurroundings L S (fun G => idealSolve (G.net.network.assign L).size) islands vis mark g names shown readCsv isFile select) o D l =
      (.ok (feederSeries L S (fun G => idealSolve (G.net.network.assign L).size) islands vis mark g names cols start stop o.swing o.negativeloads o.outputfile), D, l) := fun l => by
    unfold prepare
    rw [hst, hen, hourOption_text, hourOption_text, hf, hsel]
    simp only [feederSurroundings, hcsv, Except.map, selectOption, Option.any_some, hfile, Bool.not_true, Bool.true_eq_false, if_false, Bool.false_eq_true]
    rfl
  have hm : commandRun (feederSurroundings L S (fun G => idealSolve (G.net.network.assign L).size) islands vis mark g names shown readCsv isFile select) o (fuel + 1) D
      (g.loads.map GLoad.named) = some ⟨none, [], res.map Prod.snd, st.files⟩ := by
    unfold commandRun
    rw [hx]
    simp only
    rw [hp]
    simp only
    rw [hrun]
    simp only [Option.map_some]
    rw [show ((res.map Prod.snd).findSome? fun r => (feederSurroundings L S (fun G => idealSolve (G.net.network.assign L).size) islands vis mark g names shown readCsv isFile
      select).display r false) = none from List.findSome?_eq_none_iff.2 fun r _ => rfl]
  refine ⟨_, hm, rfl, rfl, by rw [List.length_map, hlen], fun hour hh1 hh2 => ?_⟩
  have hlt : (hour - start).toNat < res.length := by omega
  have hget := List.getElem?_eq_getElem hlt
  have hhour : res[(hour - start).toNat].1 = hour := by
    rw [hat _ _ hget]
    omega
  obtain ⟨r1, V, r2, r3⟩ := hres _ (List.getElem_mem hlt)
  rw [hhour] at r2
  have hshown : (res.map Prod.snd)[(hour - start).toNat]? = some res[(hour - start).toNat].2 := by rw [List.getElem?_map, hget, Option.map_some]
  refine ⟨_, V, hshown, r1, r2, r3, fun n hn d buses v p hvp => ?_⟩
  have := (C156_hours_partial _ o (fuel + 1) D (g.loads.map GLoad.named) f cols start stop hf hcsv hc.names hst hen _ hm rfl rfl n hn (Results.texts buses) d).2.held _ _ v p
    ⟨hour, hh1, hh2, rfl, hshown⟩ hvp
  exact this

/-- **C157, partial.** Load a feeder as in C149 and run it with `--load_factor` a positive number and a load file as in C154, from an hour to an hour, with or without output
name. For every distance and tolerance there is a bound such that, if the factors of the hours are positive and below it, the run raises nothing and prints no error; it shows one
result for each hour, each says success and has the voltages of the circuit at the loads of its hour within that distance; and the two files of the hour hold this result.
Missing: heavier loads, columns with different factors, balancing by generators, islands. -/
theorem C157_series_partial (hL : L.Loaded) (hs : ChargedFile objs) (h : parseGrid lineReader objs schedules = .ok g) (hD : g.network lineMade = .ok D)
    (hne : ownPlaces objs ≠ []) (hj : ∀ x ∈ ownPlaces objs, ∀ y ∈ ownPlaces objs, FileJoined objs (wiredLines objs) x.1.1 y.1.1)
    (hown : ∀ x ∈ ownPlaces objs, isSwing x.1.2 = true ∨ x.1.1 ∉ parentNames objs)
    (hnom : ∀ x ∈ ownPlaces objs, ∀ y ∈ ownPlaces objs, PlainJoined objs (wiredLines objs) x.1.1 y.1.1 → ∀ u w, placeVoltage x.1.2 x.2 = some u →
      placeVoltage y.1.2 y.2 = some w → |u.magnitude - w.magnitude| ≤ 19 / 2) (hr : LoadsRated objs)
    {V0 : Txt → Char → ℂ} (h0 : ChargedFlowAt 1 (1 / 4) objs 0 V0) (hlive : LoadsLive objs V0) (hoff : LoadsOffAxes objs V0) (ε tol : ℝ) (hε : 0 < ε) (htol : 0 < tol) :
    ∃ s0 > 0, ∀ (scale : ℤ → ℝ) (start stop : ℤ) (cols : List Column), ScaledColumns objs cols scale start stop →
      (∀ hour, start ≤ hour → hour < stop → 0 < scale hour ∧ scale hour ≤ s0) →
      ∀ S : PFSettings, tol ≤ S.tolerance → 2 ≤ S.maxIters →
      (S.control = true → declaredFuses objs = [] ∧ ∀ d ∈ declaredCaps objs, d.obj.attr "control".toList = some "MANUAL".toList) →
      ∀ islands voltageIslands : PFNet → List (List Txt), (∀ s, IsIslands (g.pf (D.factor s s)).graph (islands (g.pf (D.factor s s)))) →
      (∀ s, IsEdgeIslands ((g.pf (D.factor s s)).graph.plainEdges (g.pf (D.factor s s)).connected) (voltageIslands (g.pf (D.factor s s)))) →
      ∀ mark : Results → Except String Results, (∀ s v, ∃ b, mark (feederResults L g D s v) = .ok { feederResults L g D s v with violates := b }) →
      ∀ names shown readCsv isFile select f (o : Options) (fuel : ℕ), o.loadfile = some f → readCsv f = .ok cols → isFile f = true → o.loadstart = some (hourText start) →
      o.loadend = some (hourText stop) → o.swing = none ∨ o.negativeloads = none → o.selectIsland = none →
      ∀ x : ℚ, factorOption o.loadFactor = .ok x → 0 < x →
      ∃ m, commandRun (feederSurroundings L S (fun G => idealSolve (G.net.network.assign L).size) islands voltageIslands mark g names shown readCsv isFile select) o (fuel + 1) D
          (g.loads.map GLoad.named) = some m ∧ m.raised = none ∧ m.errors = [] ∧ m.shown.length = (stop - start).toNat ∧
        ∀ hour, start ≤ hour → hour < stop → ∃ r V, m.shown[(hour - start).toNat]? = some r ∧ r.success = true ∧ ChargedFlowAt 1 (1 / 4) objs (scale hour) V ∧
          List.Forall₂ (fun b y => (∃ z, g.buses[b.bus]? = some z ∧ z.name = y.1.1 ∧ z.phase = y.2) ∧ ‖b.V - V y.1.1 y.2‖ ≤ ε) r.buses (ownPlaces objs) ∧
          ∀ n, o.outputfile = some n → ∀ (d : OutDisk) (buses : List BusName) v p, FilesOf (n ++ '_' :: hourText hour) v p →
            (d.after (Results.texts buses) m.files) v = some (r.voltageText buses) ∧ (d.after (Results.texts buses) m.files) p = some (r.powerText buses) := by
  obtain ⟨s0, hs0, H⟩ := series_signed (.inl rfl) hL hs h hD hne hj hown hnom hr h0 hlive hoff ε tol hε htol
  refine ⟨s0, hs0, fun scale start stop cols hc hsc S h1 h2 h3 islands vis hi hv mark hmark names shown readCsv isFile select f o fuel hf hcsv hfile hst hen hsw hsel x hx hpos => ?_⟩
  have := H scale start stop cols hc hsc S h1 h2 h3 islands vis hi hv mark hmark names shown readCsv isFile select f o fuel hf hcsv hfile hst hen hsw hsel x x hx (one_mul _).symm
    (by exact_mod_cast hpos)
  simp only [one_mul] at this
  exact this

/-- **C157 fails without `--load_factor`.** The same run without this option shows and writes, as successful results of the hours, the voltages of a feeder whose loads produce the
powers of the load file. -/
theorem C157_default_fails (hL : L.Loaded) (hs : ChargedFile objs) (h : parseGrid lineReader objs schedules = .ok g) (hD : g.network lineMade = .ok D)
    (hne : ownPlaces objs ≠ []) (hj : ∀ x ∈ ownPlaces objs, ∀ y ∈ ownPlaces objs, FileJoined objs (wiredLines objs) x.1.1 y.1.1)
    (hown : ∀ x ∈ ownPlaces objs, isSwing x.1.2 = true ∨ x.1.1 ∉ parentNames objs)
    (hnom : ∀ x ∈ ownPlaces objs, ∀ y ∈ ownPlaces objs, PlainJoined objs (wiredLines objs) x.1.1 y.1.1 → ∀ u w, placeVoltage x.1.2 x.2 = some u →
      placeVoltage y.1.2 y.2 = some w → |u.magnitude - w.magnitude| ≤ 19 / 2) (hr : LoadsRated objs)
    {V0 : Txt → Char → ℂ} (h0 : ChargedFlowAt 1 (1 / 4) objs 0 V0) (hlive : LoadsLive objs V0) (hoff : LoadsOffAxes objs V0) (ε tol : ℝ) (hε : 0 < ε) (htol : 0 < tol) :
    ∃ s0 > 0, ∀ (scale : ℤ → ℝ) (start stop : ℤ) (cols : List Column), ScaledColumns objs cols scale start stop →
      (∀ hour, start ≤ hour → hour < stop → 0 < scale hour ∧ scale hour ≤ s0) →
      ∀ S : PFSettings, tol ≤ S.tolerance → 2 ≤ S.maxIters →
      (S.control = true → declaredFuses objs = [] ∧ ∀ d ∈ declaredCaps objs, d.obj.attr "control".toList = some "MANUAL".toList) →
      ∀ islands voltageIslands : PFNet → List (List Txt), (∀ s, IsIslands (g.pf (D.factor s s)).graph (islands (g.pf (D.factor s s)))) →
      (∀ s, IsEdgeIslands ((g.pf (D.factor s s)).graph.plainEdges (g.pf (D.factor s s)).connected) (voltageIslands (g.pf (D.factor s s)))) →
      ∀ mark : Results → Except String Results, (∀ s v, ∃ b, mark (feederResults L g D s v) = .ok { feederResults L g D s v with violates := b }) →
      ∀ names shown readCsv isFile select f (o : Options) (fuel : ℕ), o.loadfile = some f → readCsv f = .ok cols → isFile f = true → o.loadstart = some (hourText start) →
      o.loadend = some (hourText stop) → o.swing = none ∨ o.negativeloads = none → o.selectIsland = none → o.loadFactor = none →
      ∃ m, commandRun (feederSurroundings L S (fun G => idealSolve (G.net.network.assign L).size) islands voltageIslands mark g names shown readCsv isFile select) o (fuel + 1) D
          (g.loads.map GLoad.named) = some m ∧ m.raised = none ∧ m.errors = [] ∧ m.shown.length = (stop - start).toNat ∧
        ∀ hour, start ≤ hour → hour < stop → ∃ r V, m.shown[(hour - start).toNat]? = some r ∧ r.success = true ∧ ChargedFlowAt 1 (1 / 4) objs (-scale hour) V ∧
          List.Forall₂ (fun b y => (∃ z, g.buses[b.bus]? = some z ∧ z.name = y.1.1 ∧ z.phase = y.2) ∧ ‖b.V - V y.1.1 y.2‖ ≤ ε) r.buses (ownPlaces objs) ∧
          ∀ n, o.outputfile = some n → ∀ (d : OutDisk) (buses : List BusName) v p, FilesOf (n ++ '_' :: hourText hour) v p →
            (d.after (Results.texts buses) m.files) v = some (r.voltageText buses) ∧ (d.after (Results.texts buses) m.files) p = some (r.powerText buses) := by
  obtain ⟨s0, hs0, H⟩ := series_signed (.inr rfl) hL hs h hD hne hj hown hnom hr h0 hlive hoff ε tol hε htol
  refine ⟨s0, hs0, fun scale start stop cols hc hsc S h1 h2 h3 islands vis hi hv mark hmark names shown readCsv isFile select f o fuel hf hcsv hfile hst hen hsw hsel hx => ?_⟩
  have := H scale start stop cols hc hsc S h1 h2 h3 islands vis hi hv mark hmark names shown readCsv isFile select f o fuel hf hcsv hfile hst hen hsw hsel (-1) 1 (by rw [hx]; rfl)
    (by norm_num) one_pos
  simp only [neg_one_mul] at this
  exact this

/-! ### A case -/

/-- The options of a day: `--load_factor 1`, the hours 0 to 24 and an output name. -/
def wholeDay : Options := ⟨some ['l'], some ['0'], some ['2', '4'], none, none, some ['o'], false, some ['1'], none⟩

/-- A day of the feeder with its lines charged from its options to its files, with the default settings. -/
example (hL : L.Loaded) : ∃ g D, parseGrid lineReader chargedFeeder [] = .ok g ∧ g.network lineMade = .ok D ∧ ∃ s > 0, ∃ islands voltageIslands m,
    commandRun (feederSurroundings L ⟨1 / 100000, 20, true, false, false, true, true⟩ (fun G => idealSolve (G.net.network.assign L).size) islands voltageIslands .ok g (fun _ => ([], []))
      (fun _ => (0, 0, 0)) (fun _ => .ok [⟨"cl_1A".toList, fun hour : ℤ => some (s * ((hour + 1 : ℤ) : ℝ) / 100 * ‖toComplex (100, 20)‖)⟩]) (fun _ => true)
      (fun _ s l => (.ok (), s, l))) wholeDay 1 D (g.loads.map GLoad.named) = some m ∧ m.raised = none ∧ m.errors = [] ∧ m.shown.length = 24 ∧
    ∀ hour : ℤ, 0 ≤ hour → hour < 24 → ∃ r V, m.shown[hour.toNat]? = some r ∧ r.success = true ∧ ChargedFlowAt 1 (1 / 4) chargedFeeder (s * ((hour + 1 : ℤ) : ℝ) / 100) V ∧
      ∀ (d : OutDisk) (buses : List BusName), (d.after (Results.texts buses) m.files) ("o_".toList ++ hourText hour ++ "_voltage.csv".toList) = some (r.voltageText buses) := by
  obtain ⟨g, D, V0, hg, hD, h0, -⟩ := C149_total_partial hL [] chargedFeeder_supply
  obtain ⟨s0, hs0, h⟩ := C157_series_partial hL chargedFeeder_supply.charged hg hD chargedFeeder_places chargedFeeder_joined chargedFeeder_own
    (fun x hx y hy _ => chargedFeeder_alike x hx y hy) chargedFeeder_rated h0 (chargedFeeder_live h0).1 (chargedFeeder_live h0).2 1 (1 / 100000) one_pos (by norm_num)
  have hi : ∀ G : PFNet, ∃ cs, IsIslands G.graph cs := fun G => islands_exist G.buses G.connected
  have hv : ∀ G : PFNet, ∃ vs, IsEdgeIslands (G.graph.plainEdges G.connected) vs := fun G => edgeIslands_exist _
  choose islands hi using hi
  choose vis hv using hv
  have hsc : ∀ hour : ℤ, 0 ≤ hour → hour < 24 → 0 < s0 * ((hour + 1 : ℤ) : ℝ) / 100 ∧ s0 * ((hour + 1 : ℤ) : ℝ) / 100 ≤ s0 := fun hour h1 h2 => by
    have e1 : (1 : ℝ) ≤ ((hour + 1 : ℤ) : ℝ) := by exact_mod_cast (by omega : (1 : ℤ) ≤ hour + 1)
    have e2 : ((hour + 1 : ℤ) : ℝ) ≤ 24 := by exact_mod_cast (by omega : hour + 1 ≤ 24)
    constructor
    · positivity
    · rw [div_le_iff₀ (by norm_num)]
      nlinarith
  obtain ⟨m, e1, e2, e3, e4, e5⟩ := h (fun hour => s0 * ((hour + 1 : ℤ) : ℝ) / 100) 0 24 _ (chargedFeeder_columns _ 0 24) hsc ⟨1 / 100000, 20, true, false, false, true, true⟩
    le_rfl (by norm_num) (fun _ => chargedFeeder_manual) islands vis (fun s => hi _) (fun s => hv _) .ok (fun s v => ⟨false, rfl⟩) (fun _ => ([], [])) (fun _ => (0, 0, 0)) (fun _ => .ok [⟨"cl_1A".toList, fun hour : ℤ => some (s0 * ((hour + 1 : ℤ) : ℝ) / 100 * ‖toComplex (100, 20)‖)⟩])
    (fun _ => true) (fun _ s l => (.ok (), s, l)) ['l'] wholeDay 0 rfl rfl rfl (by decide) (by decide) (.inl rfl) rfl 1 (by decide +kernel) one_pos
  refine ⟨g, D, hg, hD, s0, hs0, islands, vis, m, e1, e2, e3, e4, fun hour h1 h2 => ?_⟩
  obtain ⟨r, V, f1, f2, f3, -, f5⟩ := e5 hour h1 h2
  refine ⟨r, V, by rw [← f1, sub_zero], f2, f3, fun d buses => ?_⟩
  have := (f5 ['o'] rfl d buses _ _ ⟨rfl, rfl⟩).1
  rwa [show ("o_".toList ++ hourText hour ++ "_voltage.csv".toList) = ['o'] ++ '_' :: hourText hour ++ "_voltage.csv".toList by
    rw [show "o_".toList = ['o', '_'] from by decide]; rfl]

/-- The same day without `--load_factor`. -/
example (hL : L.Loaded) : ∃ g D, parseGrid lineReader chargedFeeder [] = .ok g ∧ g.network lineMade = .ok D ∧ ∃ s > 0, ∃ islands voltageIslands m,
    commandRun (feederSurroundings L ⟨1 / 100000, 20, true, false, false, true, true⟩ (fun G => idealSolve (G.net.network.assign L).size) islands voltageIslands .ok g (fun _ => ([], []))
      (fun _ => (0, 0, 0)) (fun _ => .ok [⟨"cl_1A".toList, fun hour : ℤ => some (s * ((hour + 1 : ℤ) : ℝ) / 100 * ‖toComplex (100, 20)‖)⟩]) (fun _ => true)
      (fun _ s l => (.ok (), s, l))) { wholeDay with loadFactor := none } 1 D (g.loads.map GLoad.named) = some m ∧ m.raised = none ∧ m.errors = [] ∧ m.shown.length = 24 ∧
    ∀ hour : ℤ, 0 ≤ hour → hour < 24 → ∃ r V, m.shown[hour.toNat]? = some r ∧ r.success = true ∧ ChargedFlowAt 1 (1 / 4) chargedFeeder (-(s * ((hour + 1 : ℤ) : ℝ) / 100)) V := by
  obtain ⟨g, D, V0, hg, hD, h0, -⟩ := C149_total_partial hL [] chargedFeeder_supply
  obtain ⟨s0, hs0, h⟩ := C157_default_fails hL chargedFeeder_supply.charged hg hD chargedFeeder_places chargedFeeder_joined chargedFeeder_own
    (fun x hx y hy _ => chargedFeeder_alike x hx y hy) chargedFeeder_rated h0 (chargedFeeder_live h0).1 (chargedFeeder_live h0).2 1 (1 / 100000) one_pos (by norm_num)
  have hi : ∀ G : PFNet, ∃ cs, IsIslands G.graph cs := fun G => islands_exist G.buses G.connected
  have hv : ∀ G : PFNet, ∃ vs, IsEdgeIslands (G.graph.plainEdges G.connected) vs := fun G => edgeIslands_exist _
  choose islands hi using hi
  choose vis hv using hv
  have hsc : ∀ hour : ℤ, 0 ≤ hour → hour < 24 → 0 < s0 * ((hour + 1 : ℤ) : ℝ) / 100 ∧ s0 * ((hour + 1 : ℤ) : ℝ) / 100 ≤ s0 := fun hour h1 h2 => by
    have e1 : (1 : ℝ) ≤ ((hour + 1 : ℤ) : ℝ) := by exact_mod_cast (by omega : (1 : ℤ) ≤ hour + 1)
    have e2 : ((hour + 1 : ℤ) : ℝ) ≤ 24 := by exact_mod_cast (by omega : hour + 1 ≤ 24)
    constructor
    · positivity
    · rw [div_le_iff₀ (by norm_num)]
      nlinarith
  obtain ⟨m, e1, e2, e3, e4, e5⟩ := h (fun hour => s0 * ((hour + 1 : ℤ) : ℝ) / 100) 0 24 _ (chargedFeeder_columns _ 0 24) hsc ⟨1 / 100000, 20, true, false, false, true, true⟩
    le_rfl (by norm_num) (fun _ => chargedFeeder_manual) islands vis (fun s => hi _) (fun s => hv _) .ok (fun s v => ⟨false, rfl⟩) (fun _ => ([], [])) (fun _ => (0, 0, 0)) (fun _ => .ok [⟨"cl_1A".toList, fun hour : ℤ => some (s0 * ((hour + 1 : ℤ) : ℝ) / 100 * ‖toComplex (100, 20)‖)⟩])
    (fun _ => true) (fun _ s l => (.ok (), s, l)) ['l'] { wholeDay with loadFactor := none } 0 rfl rfl rfl (by decide) (by decide) (.inl rfl) rfl rfl
  refine ⟨g, D, hg, hD, s0, hs0, islands, vis, m, e1, e2, e3, e4, fun hour h1 h2 => ?_⟩
  obtain ⟨r, V, f1, f2, f3, -, -⟩ := e5 hour h1 h2
  exact ⟨r, V, by rw [← f1, sub_zero], f2, f3⟩

end Verif.Glm
