import Verif.Lemmas.HourlyRun
import Verif.Props.ChargeSupply

/-!
# C154: the hours of a load file are solved

The run of C149 in a time series: a load file brings the loads of the feeder to a factor of their own in each hour.
-/

namespace Verif.Glm

variable {L : Library} {objs : List (Txt × Obj)} {schedules : List (Txt × Txt)} {g : Grid LineData} {D : DxNet}

theorem mem_hourRange {start stop hour : ℤ} : hour ∈ hourRange start stop ↔ start ≤ hour ∧ hour < stop := by
  unfold hourRange
  rw [List.mem_map]
  constructor
  · rintro ⟨k, hk, rfl⟩
    rw [List.mem_range] at hk
    omega
  · rintro ⟨h1, h2⟩
    exact ⟨(hour - start).toNat, List.mem_range.2 (by omega), by omega⟩

/-- **C154, loads of an hour.** The network an hour is solved on is the network of the file with its constant powers multiplied by the factor of this hour, whatever the hours before
set them to. -/
theorem C154_network (hs : ChargedFile objs) (h : parseGrid lineReader objs schedules = .ok g) (hD : g.network lineMade = .ok D) {cols : List Column} {scale : ℤ → ℝ}
    {start stop hour : ℤ} (hc : ScaledColumns objs cols scale start stop) (h1 : start ≤ hour) (h2 : hour < stop) {a : ℝ} (ha : 0 < a) :
    (D.factor a a).putLoads (setLoadValues cols hour (modifyLoadFactor (g.loads.map GLoad.named) a a)) = D.factor (scale hour) (scale hour) := by
  have := setLoadValues_scaled (lineReader_keeps hs.conductors) hs.plain.outer hs.plain.keys hs.plain.noBase h hc h1 h2 ha (.inl rfl)
  rw [one_mul, one_mul] at this
  rw [this, putLoads_factor lineMade_makes hD]

/-- The results of the feeder at load factor `s` made from the values `v` of the unknowns (`powerflowresults.py` 94-161). -/
noncomputable def feederResults (L : Library) (g : Grid LineData) (D : DxNet) (s : ℝ) (v : ℕ → ℝ) : Results :=
  Results.make (D.factor s s).network ((g.pf D).buses.map fun b => ⟨b.virtual, b.vnom⟩) ((D.factor s s).network.assign L) true v

theorem execute_made {S : PFSettings} {solve : (ℕ → ℕ → ℝ) → (ℕ → ℝ) → Option (ℕ → ℝ)} {cs vs : List (List Txt)} {G : PFNet} {R : Results} {D' : DxNet}
    (h : execute L S solve cs vs G = .ok (R, D')) :
    ∃ v, R = Results.make D'.network (G.buses.map fun b => ⟨b.virtual, b.vnom⟩) (D'.network.assign L) R.success v := by
  unfold execute at h
  cases h1 : executeChecks G.buses cs vs with
  | error e => rw [h1] at h; cases h
  | ok u =>
    cases h2 : (G.net.run L (G.context L S solve) S.txStepping S.control (G.start L S)).out with
    | error e => rw [h1, h2] at h; cases h
    | ok r =>
      rw [h1, h2] at h
      cases h
      exact ⟨_, rfl⟩

/-- The loop over hours each of which is solved and leaves the devices as they are. -/
theorem hoursLoop_scaled {C : TSConfig DxNet Results} (hsw : C.swing = none ∨ C.negative = none) {cols : List Column} {B : List NamedLoad}
    {scale : ℤ → ℝ} {raw res : ℤ → Results} {P : ℤ → Prop} {e : ℝ}
    (hset : ∀ hour, P hour → ∀ a, 0 < a → setLoadValues cols hour (modifyLoadFactor B (e * a) (e * a)) = modifyLoadFactor B (e * scale hour) (e * scale hour))
    (hpos : ∀ hour, P hour → 0 < scale hour) (hmark : ∀ hour, P hour → C.mark (raw hour) = .ok (res hour))
    (hsolve : ∀ hour, P hour → ∀ c, C.solve (D.factor c c) (modifyLoadFactor B (e * scale hour) (e * scale hour)) =
      (.ok (raw hour), D.factor (e * scale hour) (e * scale hour))) (fuel : ℕ)
    (hours : List ℤ) : (∀ hour ∈ hours, P hour) → ∀ (c a : ℝ) (rs : List (ℤ × Results)) (fs : List (Txt × Results)), 0 < a →
      ∃ c' b fs', 0 < b ∧ hoursLoop C cols (fuel + 1) hours ⟨D.factor c c, modifyLoadFactor B (e * a) (e * a), rs, fs⟩ =
        some (none, ⟨D.factor c' c', modifyLoadFactor B (e * b) (e * b), rs ++ hours.map fun hour => (hour, res hour), fs'⟩) := by
  induction hours with
  | nil =>
    intro _ c a rs fs ha
    exact ⟨c, a, fs, ha, by rw [hoursLoop, List.map_nil, List.append_nil]⟩
  | cons hour hours ih =>
    intro hP c a rs fs ha
    have hp := hP hour List.mem_cons_self
    have hadj : ∀ gens ls, adjustGenerators C.swing C.negative gens ls = (.ok false, ls) := fun gens ls => by
      unfold adjustGenerators
      rcases hsw with hn | hn
      · rw [hn]
      · rw [hn]; cases C.swing <;> rfl
    have hex : executePowerflow C (fuel + 1) (D.factor c c) (modifyLoadFactor B (e * scale hour) (e * scale hour)) =
        some (.ok (res hour), D.factor (e * scale hour) (e * scale hour), modifyLoadFactor B (e * scale hour) (e * scale hour)) := by
      unfold executePowerflow
      rw [hsolve hour hp c]
      simp only [balanceLoop, hadj, Option.map_some]
      show some (C.mark (raw hour), _) = _
      rw [hmark hour hp]
    obtain ⟨c', b, fs', hb, hl⟩ := ih (fun x hx => hP x (List.mem_cons_of_mem _ hx)) (e * scale hour) (scale hour) (rs ++ [(hour, res hour)])
      (writeFiles (C.outputfile.map (· ++ '_' :: hourText hour)) (res hour) fs) (hpos hour hp)
    refine ⟨c', b, fs', hb, ?_⟩
    rw [hoursLoop]
    simp only [hset hour hp a ha, hex]
    rw [hl, List.append_assoc]
    rfl

/-- The hours, the loads having the sign `e`. -/
theorem hours_signed {e : ℝ} (he : e = 1 ∨ e = -1) (hL : L.Loaded) (hs : ChargedFile objs) (h : parseGrid lineReader objs schedules = .ok g) (hD : g.network lineMade = .ok D)
    (hne : ownPlaces objs ≠ []) (hj : ∀ x ∈ ownPlaces objs, ∀ y ∈ ownPlaces objs, FileJoined objs (wiredLines objs) x.1.1 y.1.1)
    (hown : ∀ x ∈ ownPlaces objs, isSwing x.1.2 = true ∨ x.1.1 ∉ parentNames objs)
    (hnom : ∀ x ∈ ownPlaces objs, ∀ y ∈ ownPlaces objs, PlainJoined objs (wiredLines objs) x.1.1 y.1.1 → ∀ u w, placeVoltage x.1.2 x.2 = some u →
      placeVoltage y.1.2 y.2 = some w → |u.magnitude - w.magnitude| ≤ 19 / 2) (hr : LoadsRated objs)
    {V0 : Txt → Char → ℂ} (h0 : ChargedFlowAt 1 (1 / 4) objs 0 V0) (hlive : LoadsLive objs V0) (hoff : LoadsOffAxes objs V0) (ε tol : ℝ) (hε : 0 < ε) (htol : 0 < tol) :
    ∃ s0 > 0, ∀ (scale : ℤ → ℝ) (start stop : ℤ) (cols : List Column), ScaledColumns objs cols scale start stop →
      (∀ hour, start ≤ hour → hour < stop → 0 < scale hour ∧ scale hour ≤ s0) →
      ∀ S : PFSettings, tol ≤ S.tolerance → 2 ≤ S.maxIters →
      (S.control = true → declaredFuses objs = [] ∧ ∀ d ∈ declaredCaps objs, d.obj.attr "control".toList = some "MANUAL".toList) →
      ∀ islands voltageIslands : PFNet → List (List Txt), (∀ s, IsIslands (g.pf (D.factor s s)).graph (islands (g.pf (D.factor s s)))) →
      (∀ s, IsEdgeIslands ((g.pf (D.factor s s)).graph.plainEdges (g.pf (D.factor s s)).connected) (voltageIslands (g.pf (D.factor s s)))) →
      ∀ mark : Results → Except String Results, (∀ s v, ∃ b, mark (feederResults L g D s v) = .ok { feederResults L g D s v with violates := b }) → ∀ names swing negative output, swing = none ∨ negative = none → ∀ (c a : ℝ) (fuel : ℕ), 0 < a →
      ∃ (res : List (ℤ × Results)) (st : TSState DxNet Results),
        tsExecute (feederSeries L S (fun G => idealSolve (G.net.network.assign L).size) islands voltageIslands mark g names cols start stop swing negative output) (fuel + 1)
          ⟨D.factor c c, modifyLoadFactor (g.loads.map GLoad.named) (e * a) (e * a), [], []⟩ = some (.ok (.hours res), st) ∧
        res.length = (stop - start).toNat ∧ (∀ (k : ℕ) x, res[k]? = some x → x.1 = start + k) ∧
        ∀ x ∈ res, x.2.success = true ∧ ∃ V, ChargedFlowAt 1 (1 / 4) objs (e * scale x.1) V ∧
          List.Forall₂ (fun b y => (∃ z, g.buses[b.bus]? = some z ∧ z.name = y.1.1 ∧ z.phase = y.2) ∧ ‖b.V - V y.1.1 y.2‖ ≤ ε) x.2.buses (ownPlaces objs) := by
  have he0 : e ≠ 0 := by rcases he with rfl | rfl <;> norm_num
  have habs : |e| = 1 := by rcases he with rfl | rfl <;> norm_num
  obtain ⟨s0, hs0, hrun⟩ := C149_execute_partial hL hs h hD hne hj hown hnom hr h0 hlive hoff ε tol hε htol
  refine ⟨s0, hs0, fun scale start stop cols hc hsc S h1 h2 h3 islands vis hi hv mark hmark names swing negative output hsw c a fuel ha => ?_⟩
  have hex : ∀ hour, ∃ R, start ≤ hour ∧ hour < stop → (execute L S (idealSolve ((D.factor (e * scale hour) (e * scale hour)).network.assign L).size)
      (islands (g.pf (D.factor (e * scale hour) (e * scale hour)))) (vis (g.pf (D.factor (e * scale hour) (e * scale hour)))) (g.pf (D.factor (e * scale hour) (e * scale hour))) =
        .ok (R, D.factor (e * scale hour) (e * scale hour)) ∧ R.success = true ∧ ∃ V, ChargedFlowAt 1 (1 / 4) objs (e * scale hour) V ∧
          List.Forall₂ (fun b y => (∃ z, g.buses[b.bus]? = some z ∧ z.name = y.1.1 ∧ z.phase = y.2) ∧ ‖b.V - V y.1.1 y.2‖ ≤ ε) R.buses (ownPlaces objs)) := fun hour => by
    by_cases hh : start ≤ hour ∧ hour < stop
    · obtain ⟨hp, hle⟩ := hsc hour hh.1 hh.2
      obtain ⟨R, V, e1, e2, e3, e4⟩ := hrun (e * scale hour) (mul_ne_zero he0 hp.ne') (by rw [abs_mul, habs, one_mul, abs_of_pos hp]; exact hle) S h1 h2 h3 _ _ (hi _) (hv _)
      exact ⟨R, fun _ => ⟨e1, e2, V, e3, e4⟩⟩
    · exact ⟨Results.make D.network [] (D.network.assign L) true fun _ => 0, fun h => absurd h hh⟩
  choose raw hraw using hex
  have hm : ∀ hour, ∃ b, start ≤ hour ∧ hour < stop → mark (raw hour) = .ok { raw hour with violates := b } := fun hour => by
    by_cases hh : start ≤ hour ∧ hour < stop
    · obtain ⟨v, hv⟩ := execute_made (hraw hour hh).1
      rw [(hraw hour hh).2.1] at hv
      obtain ⟨b, hb⟩ := hmark (e * scale hour) v
      refine ⟨b, fun _ => ?_⟩
      rw [hv]
      exact hb
    · exact ⟨true, fun h => absurd h hh⟩
  choose viol hm using hm
  obtain ⟨c', b, fs, -, hl⟩ := hoursLoop_scaled (e := e) (D := D) (cols := cols) (B := g.loads.map GLoad.named) (scale := scale) (raw := raw)
    (res := fun hour => { raw hour with violates := viol hour })
    (C := feederSeries L S (fun G => idealSolve (G.net.network.assign L).size) islands vis mark g names cols start stop swing negative output)
    (P := fun hour => start ≤ hour ∧ hour < stop) hsw
    (fun hour hh a ha => setLoadValues_scaled (lineReader_keeps hs.conductors) hs.plain.outer hs.plain.keys hs.plain.noBase h hc hh.1 hh.2 ha he)
    (fun hour hh => (hsc hour hh.1 hh.2).1) hm
    (fun hour hh c => by
      show (match execute L S (idealSolve (((D.factor c c).putLoads _).network.assign L).size) (islands (g.pf ((D.factor c c).putLoads _)))
        (vis (g.pf ((D.factor c c).putLoads _))) (g.pf ((D.factor c c).putLoads _)) with
        | .ok (R, D) => ((.ok R, D) : Except String Results × DxNet)
        | .error er => (.error er, (D.factor c c).putLoads _)) = _
      rw [putLoads_factor lineMade_makes hD, (hraw hour hh).1])
    fuel (hourRange start stop) (fun hour hh => mem_hourRange.1 hh) c a [] [] ha
  refine ⟨(hourRange start stop).map fun hour => (hour, { raw hour with violates := viol hour }), ⟨D.factor c' c', modifyLoadFactor (g.loads.map GLoad.named) (e * b) (e * b),
    [] ++ (hourRange start stop).map fun hour => (hour, { raw hour with violates := viol hour }), fs⟩, ?_, by simp [hourRange], fun k x hx => ?_, fun x hx => ?_⟩
  · show ((hoursLoop _ cols (fuel + 1) (hourRange start stop) _).map _) = _
    rw [hl]
    rfl
  · rw [List.getElem?_map, hourRange, List.getElem?_map] at hx
    obtain ⟨hour, hh, rfl⟩ := Option.map_eq_some_iff.1 hx
    obtain ⟨j, hj, rfl⟩ := Option.map_eq_some_iff.1 hh
    obtain ⟨hlt, rfl⟩ := List.getElem?_eq_some_iff.1 hj
    rw [List.getElem_range]
  · obtain ⟨hour, hh, rfl⟩ := List.mem_map.1 hx
    exact (hraw hour (mem_hourRange.1 hh)).2

/-- **C154, partial: the hours.** Take a file as in C149 and a load file that gives each constant power a column of its own with, in each hour, a multiple of its magnitude. For
every distance and tolerance there is a bound such that, if the factors of the hours are positive and below it, the time series returns a result for each hour from the first to before
the last, in order; each says success and has the voltages of the circuit at the factor of its hour within that distance. It does not matter at which positive factor the loads
were before. Missing: what is missing in C149, columns that change the loads by different factors, balancing. That the check of the ratings raises no exception on such a feeder is assumed here, see C155. -/
theorem C154_hours_partial (hL : L.Loaded) (hs : ChargedFile objs) (h : parseGrid lineReader objs schedules = .ok g) (hD : g.network lineMade = .ok D)
    (hne : ownPlaces objs ≠ []) (hj : ∀ x ∈ ownPlaces objs, ∀ y ∈ ownPlaces objs, FileJoined objs (wiredLines objs) x.1.1 y.1.1)
    (hown : ∀ x ∈ ownPlaces objs, isSwing x.1.2 = true ∨ x.1.1 ∉ parentNames objs)
    (hnom : ∀ x ∈ ownPlaces objs, ∀ y ∈ ownPlaces objs, PlainJoined objs (wiredLines objs) x.1.1 y.1.1 → ∀ u w, placeVoltage x.1.2 x.2 = some u →
      placeVoltage y.1.2 y.2 = some w → |u.magnitude - w.magnitude| ≤ 19 / 2) (hr : LoadsRated objs)
    {V0 : Txt → Char → ℂ} (h0 : ChargedFlowAt 1 (1 / 4) objs 0 V0) (hlive : LoadsLive objs V0) (hoff : LoadsOffAxes objs V0) (ε tol : ℝ) (hε : 0 < ε) (htol : 0 < tol) :
    ∃ s0 > 0, ∀ (scale : ℤ → ℝ) (start stop : ℤ) (cols : List Column), ScaledColumns objs cols scale start stop →
      (∀ hour, start ≤ hour → hour < stop → 0 < scale hour ∧ scale hour ≤ s0) →
      ∀ S : PFSettings, tol ≤ S.tolerance → 2 ≤ S.maxIters →
      (S.control = true → declaredFuses objs = [] ∧ ∀ d ∈ declaredCaps objs, d.obj.attr "control".toList = some "MANUAL".toList) →
      ∀ islands voltageIslands : PFNet → List (List Txt), (∀ s, IsIslands (g.pf (D.factor s s)).graph (islands (g.pf (D.factor s s)))) →
      (∀ s, IsEdgeIslands ((g.pf (D.factor s s)).graph.plainEdges (g.pf (D.factor s s)).connected) (voltageIslands (g.pf (D.factor s s)))) →
      ∀ mark : Results → Except String Results, (∀ s v, ∃ b, mark (feederResults L g D s v) = .ok { feederResults L g D s v with violates := b }) → ∀ names swing negative output, swing = none ∨ negative = none → ∀ (a : ℝ) (fuel : ℕ), 0 < a →
      ∃ (res : List (ℤ × Results)) (st : TSState DxNet Results),
        tsExecute (feederSeries L S (fun G => idealSolve (G.net.network.assign L).size) islands voltageIslands mark g names cols start stop swing negative output) (fuel + 1)
          ⟨D.factor a a, modifyLoadFactor (g.loads.map GLoad.named) a a, [], []⟩ = some (.ok (.hours res), st) ∧
        res.length = (stop - start).toNat ∧ (∀ (k : ℕ) x, res[k]? = some x → x.1 = start + k) ∧
        ∀ x ∈ res, x.2.success = true ∧ ∃ V, ChargedFlowAt 1 (1 / 4) objs (scale x.1) V ∧
          List.Forall₂ (fun b y => (∃ z, g.buses[b.bus]? = some z ∧ z.name = y.1.1 ∧ z.phase = y.2) ∧ ‖b.V - V y.1.1 y.2‖ ≤ ε) x.2.buses (ownPlaces objs) := by
  obtain ⟨s0, hs0, H⟩ := hours_signed (.inl rfl) hL hs h hD hne hj hown hnom hr h0 hlive hoff ε tol hε htol
  refine ⟨s0, hs0, fun scale start stop cols hc hsc S h1 h2 h3 islands vis hi hv mark hmark names swing negative output hsw a fuel ha => ?_⟩
  have := H scale start stop cols hc hsc S h1 h2 h3 islands vis hi hv mark hmark names swing negative output hsw a a fuel ha
  simp only [one_mul] at this
  exact this

/-- **C154 fails for the default load factor.** Without `--load_factor` the program multiplies all loads by -1 before the hours, and the hours keep the angles of the loads: for all
feeders and load files as above every hour succeeds with the voltages of a feeder whose loads produce the power of the load file. -/
theorem C154_default_fails (hL : L.Loaded) (hs : ChargedFile objs) (h : parseGrid lineReader objs schedules = .ok g) (hD : g.network lineMade = .ok D)
    (hne : ownPlaces objs ≠ []) (hj : ∀ x ∈ ownPlaces objs, ∀ y ∈ ownPlaces objs, FileJoined objs (wiredLines objs) x.1.1 y.1.1)
    (hown : ∀ x ∈ ownPlaces objs, isSwing x.1.2 = true ∨ x.1.1 ∉ parentNames objs)
    (hnom : ∀ x ∈ ownPlaces objs, ∀ y ∈ ownPlaces objs, PlainJoined objs (wiredLines objs) x.1.1 y.1.1 → ∀ u w, placeVoltage x.1.2 x.2 = some u →
      placeVoltage y.1.2 y.2 = some w → |u.magnitude - w.magnitude| ≤ 19 / 2) (hr : LoadsRated objs)
    {V0 : Txt → Char → ℂ} (h0 : ChargedFlowAt 1 (1 / 4) objs 0 V0) (hlive : LoadsLive objs V0) (hoff : LoadsOffAxes objs V0) (ε tol : ℝ) (hε : 0 < ε) (htol : 0 < tol) :
    ∃ s0 > 0, ∀ (scale : ℤ → ℝ) (start stop : ℤ) (cols : List Column), ScaledColumns objs cols scale start stop →
      (∀ hour, start ≤ hour → hour < stop → 0 < scale hour ∧ scale hour ≤ s0) →
      ∀ S : PFSettings, tol ≤ S.tolerance → 2 ≤ S.maxIters →
      (S.control = true → declaredFuses objs = [] ∧ ∀ d ∈ declaredCaps objs, d.obj.attr "control".toList = some "MANUAL".toList) →
      ∀ islands voltageIslands : PFNet → List (List Txt), (∀ s, IsIslands (g.pf (D.factor s s)).graph (islands (g.pf (D.factor s s)))) →
      (∀ s, IsEdgeIslands ((g.pf (D.factor s s)).graph.plainEdges (g.pf (D.factor s s)).connected) (voltageIslands (g.pf (D.factor s s)))) →
      ∀ mark : Results → Except String Results, (∀ s v, ∃ b, mark (feederResults L g D s v) = .ok { feederResults L g D s v with violates := b }) → ∀ names swing negative output, swing = none ∨ negative = none → ∀ fuel : ℕ,
      ∃ (res : List (ℤ × Results)) (st : TSState DxNet Results),
        tsExecute (feederSeries L S (fun G => idealSolve (G.net.network.assign L).size) islands voltageIslands mark g names cols start stop swing negative output) (fuel + 1)
          ⟨D.factor (-1) (-1), modifyLoadFactor (g.loads.map GLoad.named) (-1) (-1), [], []⟩ = some (.ok (.hours res), st) ∧
        res.length = (stop - start).toNat ∧ (∀ (k : ℕ) x, res[k]? = some x → x.1 = start + k) ∧
        ∀ x ∈ res, x.2.success = true ∧ ∃ V, ChargedFlowAt 1 (1 / 4) objs (-scale x.1) V ∧
          List.Forall₂ (fun b y => (∃ z, g.buses[b.bus]? = some z ∧ z.name = y.1.1 ∧ z.phase = y.2) ∧ ‖b.V - V y.1.1 y.2‖ ≤ ε) x.2.buses (ownPlaces objs) := by
  obtain ⟨s0, hs0, H⟩ := hours_signed (.inr rfl) hL hs h hD hne hj hown hnom hr h0 hlive hoff ε tol hε htol
  refine ⟨s0, hs0, fun scale start stop cols hc hsc S h1 h2 h3 islands vis hi hv mark hmark names swing negative output hsw fuel => ?_⟩
  have := H scale start stop cols hc hsc S h1 h2 h3 islands vis hi hv mark hmark names swing negative output hsw (-1) 1 fuel one_pos
  simp only [neg_one_mul, mul_one] at this
  exact this

/-! ### A case -/

theorem chargedFeeder_namedLoads : (namedLoads chargedFeeder).map (fun d => (d.1.1, d.2.phases, d.2.kind, d.2.value)) = [("l_1".toList, "A".toList, .power, (100, 20))] := by
  decide +kernel

/-- A column for the load of the feeder. -/
theorem chargedFeeder_columns (scale : ℤ → ℝ) (start stop : ℤ) :
    ScaledColumns chargedFeeder [⟨"cl_1A".toList, fun hour => some (scale hour * ‖toComplex (100, 20)‖)⟩] scale start stop := by
  have hl : (namedLoads chargedFeeder).length = 1 := by
    have := congrArg List.length chargedFeeder_namedLoads
    rwa [List.length_map] at this
  have hd : ∀ d ∈ namedLoads chargedFeeder, d.1.1 = "l_1".toList ∧ d.2.phases = "A".toList ∧ d.2.kind = .power ∧ d.2.value = (100, 20) := fun d hd => by
    have := List.mem_map_of_mem (f := fun d : (Txt × Obj) × DeclaredLoad => (d.1.1, d.2.phases, d.2.kind, d.2.value)) hd
    rw [chargedFeeder_namedLoads, List.mem_singleton, Prod.mk.injEq, Prod.mk.injEq, Prod.mk.injEq] at this
    exact this
  refine ⟨List.nodup_singleton _, fun d h _ => ⟨_, List.mem_singleton.2 rfl, ?_, fun hour _ _ => by rw [(hd d h).2.2.2]⟩, fun i j d d' hi hj _ _ _ _ => ?_,
    fun d h hk => absurd (hd d h).2.2.1 hk⟩
  · rw [(hd d h).1, (hd d h).2.1]
    have : ColumnFor "l_1".toList "A".toList "cl_1A".toList := columnFor_iff.2 (by decide +kernel)
    exact this
  · obtain ⟨h1, -⟩ := List.getElem?_eq_some_iff.1 hi
    obtain ⟨h2, -⟩ := List.getElem?_eq_some_iff.1 hj
    omega

/-- A day of the feeder with its lines charged, its load following a column of 24 hours in steps of a hundredth: all hours are solved, with the default settings. -/
example (hL : L.Loaded) : ∃ g D, parseGrid lineReader chargedFeeder [] = .ok g ∧ g.network lineMade = .ok D ∧ ∃ s > 0, ∃ islands voltageIslands res st,
    tsExecute (feederSeries L ⟨1 / 100000, 20, true, false, false, true, true⟩ (fun G => idealSolve (G.net.network.assign L).size) islands voltageIslands .ok g
      (fun _ => ([], [])) [⟨"cl_1A".toList, fun hour : ℤ => some (s * ((hour + 1 : ℤ) : ℝ) / 100 * ‖toComplex (100, 20)‖)⟩] 0 24 none none none) 1
      ⟨D.factor 1 1, modifyLoadFactor (g.loads.map GLoad.named) 1 1, [], []⟩ = some (.ok (.hours res), st) ∧
    res.length = 24 ∧ ∀ x ∈ res, x.2.success = true ∧ x.2.buses.length = 6 ∧ ∃ V, ChargedFlowAt 1 (1 / 4) chargedFeeder (s * ((x.1 + 1 : ℤ) : ℝ) / 100) V := by
  obtain ⟨g, D, V0, hg, hD, h0, -⟩ := C149_total_partial hL [] chargedFeeder_supply
  obtain ⟨s0, hs0, h⟩ := C154_hours_partial hL chargedFeeder_supply.charged hg hD chargedFeeder_places chargedFeeder_joined chargedFeeder_own
    (fun x hx y hy _ => chargedFeeder_alike x hx y hy) chargedFeeder_rated h0 (chargedFeeder_live h0).1 (chargedFeeder_live h0).2 1 (1 / 100000) one_pos (by norm_num)
  have hi : ∀ G : PFNet, ∃ cs, IsIslands G.graph cs := fun G => islands_exist G.buses G.connected
  have hv : ∀ G : PFNet, ∃ vs, IsEdgeIslands (G.graph.plainEdges G.connected) vs := fun G => edgeIslands_exist _
  choose islands hi using hi
  choose vis hv using hv
  have hsc : ∀ hour : ℤ, 0 ≤ hour → hour < 24 → 0 < s0 * ((hour + 1 : ℤ) : ℝ) / 100 ∧ s0 * ((hour + 1 : ℤ) : ℝ) / 100 ≤ s0 := fun hour h1 h2 => by
    have e1 : (1 : ℝ) ≤ ((hour + 1 : ℤ) : ℝ) := by exact_mod_cast (by omega : (1 : ℤ) ≤ hour + 1)
    have e2 : ((hour + 1 : ℤ) : ℝ) ≤ 24 := by exact_mod_cast (by omega : hour + 1 ≤ 24)
    constructor
    · positivity
    · rw [div_le_iff₀ (by norm_num)]
      nlinarith
  obtain ⟨res, st, e1, e2, -, e3⟩ := h (fun hour => s0 * ((hour + 1 : ℤ) : ℝ) / 100) 0 24 _ (chargedFeeder_columns _ 0 24) hsc ⟨1 / 100000, 20, true, false, false, true, true⟩
    le_rfl (by norm_num) (fun _ => chargedFeeder_manual) islands vis (fun s => hi _) (fun s => hv _) .ok (fun s v => ⟨false, rfl⟩) (fun _ => ([], [])) none none none (Or.inl rfl) 1 0 one_pos
  refine ⟨g, D, hg, hD, s0, hs0, islands, vis, res, st, e1, e2, fun x hx => ?_⟩
  obtain ⟨f1, V, f2, f3⟩ := e3 x hx
  exact ⟨f1, f3.length_eq.trans chargedFeeder_length, V, f2⟩

/-- The same day without `--load_factor`: all hours are solved as if the load produced the powers of its column. -/
example (hL : L.Loaded) : ∃ g D, parseGrid lineReader chargedFeeder [] = .ok g ∧ g.network lineMade = .ok D ∧ ∃ s > 0, ∃ islands voltageIslands res st,
    tsExecute (feederSeries L ⟨1 / 100000, 20, true, false, false, true, true⟩ (fun G => idealSolve (G.net.network.assign L).size) islands voltageIslands .ok g
      (fun _ => ([], [])) [⟨"cl_1A".toList, fun hour : ℤ => some (s * ((hour + 1 : ℤ) : ℝ) / 100 * ‖toComplex (100, 20)‖)⟩] 0 24 none none none) 1
      ⟨D.factor (-1) (-1), modifyLoadFactor (g.loads.map GLoad.named) (-1) (-1), [], []⟩ = some (.ok (.hours res), st) ∧
    res.length = 24 ∧ ∀ x ∈ res, x.2.success = true ∧ x.2.buses.length = 6 ∧ ∃ V, ChargedFlowAt 1 (1 / 4) chargedFeeder (-(s * ((x.1 + 1 : ℤ) : ℝ) / 100)) V := by
  obtain ⟨g, D, V0, hg, hD, h0, -⟩ := C149_total_partial hL [] chargedFeeder_supply
  obtain ⟨s0, hs0, h⟩ := C154_default_fails hL chargedFeeder_supply.charged hg hD chargedFeeder_places chargedFeeder_joined chargedFeeder_own
    (fun x hx y hy _ => chargedFeeder_alike x hx y hy) chargedFeeder_rated h0 (chargedFeeder_live h0).1 (chargedFeeder_live h0).2 1 (1 / 100000) one_pos (by norm_num)
  have hi : ∀ G : PFNet, ∃ cs, IsIslands G.graph cs := fun G => islands_exist G.buses G.connected
  have hv : ∀ G : PFNet, ∃ vs, IsEdgeIslands (G.graph.plainEdges G.connected) vs := fun G => edgeIslands_exist _
  choose islands hi using hi
  choose vis hv using hv
  have hsc : ∀ hour : ℤ, 0 ≤ hour → hour < 24 → 0 < s0 * ((hour + 1 : ℤ) : ℝ) / 100 ∧ s0 * ((hour + 1 : ℤ) : ℝ) / 100 ≤ s0 := fun hour h1 h2 => by
    have e1 : (1 : ℝ) ≤ ((hour + 1 : ℤ) : ℝ) := by exact_mod_cast (by omega : (1 : ℤ) ≤ hour + 1)
    have e2 : ((hour + 1 : ℤ) : ℝ) ≤ 24 := by exact_mod_cast (by omega : hour + 1 ≤ 24)
    constructor
    · positivity
    · rw [div_le_iff₀ (by norm_num)]
      nlinarith
  obtain ⟨res, st, e1, e2, -, e3⟩ := h (fun hour => s0 * ((hour + 1 : ℤ) : ℝ) / 100) 0 24 _ (chargedFeeder_columns _ 0 24) hsc ⟨1 / 100000, 20, true, false, false, true, true⟩
    le_rfl (by norm_num) (fun _ => chargedFeeder_manual) islands vis (fun s => hi _) (fun s => hv _) .ok (fun s v => ⟨false, rfl⟩) (fun _ => ([], [])) none none none (Or.inl rfl) 0
  refine ⟨g, D, hg, hD, s0, hs0, islands, vis, res, st, e1, e2, fun x hx => ?_⟩
  obtain ⟨f1, V, f2, f3⟩ := e3 x hx
  exact ⟨f1, f3.length_eq.trans chargedFeeder_length, V, f2⟩

end Verif.Glm
