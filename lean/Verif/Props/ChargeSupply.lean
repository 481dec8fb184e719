import Verif.Lemmas.ChargeSupply
import Verif.Props.LineSupply

/-!
# C149: feeders run with lines charged

The run of C148 with line charging, which is the default.
-/

namespace Verif.Glm

open ComplexConjugate Matrix

variable {L : Library} {objs : List (Txt × Obj)} {schedules : List (Txt × Txt)} {g : Grid LineData} {D : DxNet}

/-- The currents of a line that was read are those of its conductors and a quarter of those of its charging at each end. -/
theorem chargedFlow_iff {V : Txt → Char → ℂ} {o : Obj} {ph : Phases} {d : List Char × LineData} {s : LineSpan} {l : List (Term × ℂ)} (h : ReadStrict objs o ph s d)
    (h3 : ∀ U I : Char → ℂ, (∀ i : Fin d.2.n, U (d.1.getD i 'A') = ((((d.2.length : ℚ) : ℂ) • d.2.Z) *ᵥ fun j : Fin d.2.n => I (d.1.getD j 'A')) i) ↔ s.Law U I)
    (hJ : ∀ U, ∃ J, Charged 1 objs o s U J) :
    LineFlow lineMats V (o, d) l ↔ ∃ a b, ∃ I J K : Char → ℂ, o.attr "from".toList = some a ∧ o.attr "to".toList = some b ∧ s.Law (fun p => V a p - V b p) I ∧
      Charged 1 objs o s (V a) J ∧ Charged 1 objs o s (V b) K ∧
      l = s.phases.flatMap fun p => [(some (a, p), I p + (1 / 4 : ℝ) * J p), (some (b, p), -I p + (1 / 4 : ℝ) * K p)] := by
  have hser : ∀ l', LineFlow (fun d : LineData => (entryAt (((d.length : ℚ) : ℂ) • d.Z)⁻¹, fun _ _ => 0)) V (o, d) l' ↔ _ :=
    fun l' => lineFlow_iff (V := V) (o := o) (l := l') h.phases h.size h3 h.det h.span.nodup
  have key : ∀ a b, ∀ I J K : Char → ℂ, o.attr "from".toList = some a → o.attr "to".toList = some b → s.Law (fun p => V a p - V b p) I →
      Charged 1 objs o s (V a) J → Charged 1 objs o s (V b) K →
      ((List.range d.1.length).flatMap fun i => [(some (a, d.1.getD i 'A'), wireCurrent V a b d.1 (lineMats d.2).1 (lineMats d.2).2 i),
        ((some (b, d.1.getD i 'A') : Term), wireCurrent V b a d.1 (lineMats d.2).1 (lineMats d.2).2 i)]) =
      s.phases.flatMap fun p => [(some (a, p), I p + (1 / 4 : ℝ) * J p), (some (b, p), -I p + (1 / 4 : ℝ) * K p)] := by
    intro a b I J K ha hb hlaw hJ hK
    obtain ⟨a', b', ha', hb', he⟩ := (hser _).2 ⟨a, b, I, ha, hb, hlaw, rfl⟩
    obtain rfl : a = a' := Option.some.inj (ha.symm.trans ha')
    obtain rfl : b = b' := Option.some.inj (hb.symm.trans hb')
    have hI : ∀ i < d.1.length, wireCurrent V a b d.1 (lineMats d.2).1 (fun _ _ => 0) i = I (d.1.getD i 'A') ∧
        wireCurrent V b a d.1 (lineMats d.2).1 (fun _ _ => 0) i = -I (d.1.getD i 'A') := by
      intro i hi
      have hi' : i < d.2.n := by rw [← h.size]; exact hi
      have e1 := wireCurrent_series V a b h.size (((d.2.length : ℚ) : ℂ) • d.2.Z)⁻¹ ⟨i, hi'⟩
      have e2 := wireCurrent_series V b a h.size (((d.2.length : ℚ) : ℂ) • d.2.Z)⁻¹ ⟨i, hi'⟩
      have hu : IsUnit (((d.2.length : ℚ) : ℂ) • d.2.Z).det := isUnit_iff_ne_zero.2 h.det
      have h4 := (h3 _ _).2 hlaw
      have e3 : (fun j : Fin d.2.n => V b (d.1.getD j 'A') - V a (d.1.getD j 'A')) = -fun j : Fin d.2.n => V a (d.1.getD j 'A') - V b (d.1.getD j 'A') := by
        funext j
        simp
      rw [e3, mulVec_neg, Pi.neg_apply] at e2
      rw [show (fun j : Fin d.2.n => V a (d.1.getD j 'A') - V b (d.1.getD j 'A')) = (((d.2.length : ℚ) : ℂ) • d.2.Z) *ᵥ fun j : Fin d.2.n => I (d.1.getD j 'A') from funext h4,
        mulVec_mulVec, nonsing_inv_mul _ hu, one_mulVec] at e1 e2
      exact ⟨e1, e2⟩
    rw [← h.phases, ← flatMap_phases]
    refine List.flatMap_congr fun i hi => ?_
    have hi := List.mem_range.1 hi
    rw [wireCurrent_split V a b, wireCurrent_split V b a, (hI i hi).1, (hI i hi).2, h.charge hJ i hi, h.charge hK i hi]
    push_cast
    rfl
  constructor
  · rintro ⟨a, b, ha, hb, hl⟩
    obtain ⟨a', b', I, ha', hb', hlaw, -⟩ := (hser _).1 ⟨a, b, ha, hb, rfl⟩
    obtain rfl : a = a' := Option.some.inj (ha.symm.trans ha')
    obtain rfl : b = b' := Option.some.inj (hb.symm.trans hb')
    obtain ⟨J, hJa⟩ := hJ (V a)
    obtain ⟨K, hKb⟩ := hJ (V b)
    exact ⟨a, b, I, J, K, ha, hb, hlaw, hJa, hKb, hl.trans (key a b I J K ha hb hlaw hJa hKb)⟩
  · rintro ⟨a, b, I, J, K, ha, hb, hlaw, hJa, hKb, hl⟩
    exact ⟨a, b, ha, hb, hl.trans (key a b I J K ha hb hlaw hJa hKb).symm⟩

/-- What was read for the lines is what their conductors say. -/
theorem read_charged (hs : ChargedFile objs) (h : parseGrid lineReader objs schedules = .ok g) (hD : g.network lineMade = .ok D) :
    (∀ d ∈ g.lineData, Lossy d.1.length (lineMats d.2)) ∧ g.lineData.map Prod.fst = (wiredLines objs).map Prod.fst ∧
      ∀ V lines, List.Forall₂ (LineFlow lineMats V) ((declaredLines objs).zip g.lineData) lines ↔
        List.Forall₂ (ChargedSpanFlow 1 (1 / 4) objs V) (declaredLines objs) lines := by
  obtain ⟨-, -, hds, -⟩ := feeder_parts (lineReader_keeps hs.conductors) lineMade_makes hs.plain h hD
  have hcls : ∀ o ∈ declaredLines objs, o.cls ∉ conductorClasses ∧
      (o.cls = "overhead_line".toList ∨ o.cls = "triplex_line".toList ∨ o.cls = "underground_line".toList) := fun o ho => by
    have : o.cls ∈ ["overhead_line", "triplex_line", "underground_line"].map String.toList := by simpa [isLineObj] using (List.mem_filter.1 ho).2
    rw [show ["overhead_line", "triplex_line", "underground_line"].map String.toList = ["overhead_line".toList, "triplex_line".toList, "underground_line".toList] from rfl,
      List.mem_cons, List.mem_cons, List.mem_singleton] at this
    exact ⟨by rcases this with e | e | e <;> rw [e] <;> decide, this⟩
  have hwires := hs.wires
  have hcables : ∀ o ∈ declaredLines objs, o.cls ≠ "overhead_line".toList → o.cls ≠ "triplex_line".toList → ∃ y, CablesCharged objs o y := fun o ho c1 c2 => by
    rcases (hcls o ho).2 with e | e | e
    · exact absurd e c1
    · exact absurd e c2
    · exact hs.cables o ho e
  have key : ∀ o d, o ∈ declaredLines objs → LineRead lineReader objs o d → ∃ t ph s, o.attr "phases".toList = some t ∧ parsePhases t = .ok ph ∧
      (∀ i j, d.2.Z i j = d.2.Z j i) ∧ (∀ I : Fin d.2.n → ℂ, I ≠ 0 → 0 < (star I ⬝ᵥ (((d.2.length : ℚ) : ℂ) • d.2.Z) *ᵥ I).re) ∧ ReadStrict objs o ph s d ∧
      ∀ s', FileSpan objs o ph s' → ReadStrict objs o ph s' d ∧ ∀ U I : Char → ℂ,
        (∀ i : Fin d.2.n, U (d.1.getD i 'A') = ((((d.2.length : ℚ) : ℂ) • d.2.Z) *ᵥ fun j : Fin d.2.n => I (d.1.getD j 'A')) i) ↔ s'.Law U I := by
    rintro o d ho ⟨objs1, objs2, o1, t, ph, hs1, ho1, ht, hph, hr⟩
    obtain rfl : o1 = o := ho1.other (hcls o ho).1
    obtain ⟨v', hr⟩ := lineReader_ok hr
    obtain ⟨s, hsp, hm⟩ := hs.spans o1 ho t ph ht hph
    have hl := fun s' (hs' : FileSpan objs o1 ph s') => line_law hr (hs'.same hs1 ho1)
    obtain ⟨h1, h2, h3⟩ := hl s hsp
    have hst := fun I hI => span_strict (I := I) h1 h2 h3 hsp.nodup (fun U J hJ hne => hsp.loss_pos hm hJ hne) hI
    have hrs : ∀ s', FileSpan objs o1 ph s' → ReadStrict objs o1 ph s' d := fun s' hs' =>
      ⟨hs.conductors, ⟨objs1, objs2, v', hs1, hr⟩, hs', (hl s' hs').1, h2, det_ne_of_strict hst⟩
    exact ⟨t, ph, s, ht, hph, line_symm (by intro T hT; cases hT) hr, hst, hrs s hsp, fun s' hs' => ⟨hrs s' hs', (hl s' hs').2.2⟩⟩
  refine ⟨fun d hd => ?_, ?_, fun V lines => ?_⟩
  · obtain ⟨o, ho, hod⟩ := forall₂_mem_right hds hd
    obtain ⟨t, ph, s, -, -, hsym, hst, hrs, -⟩ := key o d ho hod
    obtain ⟨a1, -, a3⟩ := lossy_of_strict hrs.size (fun i j => by rw [Matrix.smul_apply, Matrix.smul_apply, hsym]) hst
    exact ⟨a1, hrs.symm (hwires o ho), a3⟩
  · rw [wiredLines, List.map_map]
    have : ∀ o ∈ declaredLines objs, ∀ d, LineRead lineReader objs o d → d.1 = wiredPhases objs o := fun o ho d hod => by
      obtain ⟨t, ph, s, -, -, -, -, hrs, -⟩ := key o d ho hod
      rw [hrs.phases, hrs.span.wired]
    generalize declaredLines objs = ls at hds this
    generalize g.lineData = ds at hds
    induction hds with
    | nil => rfl
    | cons hx _ ih =>
      rw [List.map_cons, List.map_cons, this _ List.mem_cons_self _ hx, ih fun o ho => this o (List.mem_cons_of_mem _ ho)]
      rfl
  · refine forall₂_zip_iff hds (fun o d l ho hd hR => ?_) lines
    obtain ⟨t, ph, s, ht, hph, -, -, hrs, hall⟩ := key o d ho hR
    constructor
    · intro hf
      obtain ⟨a, b, I, J, K, ha, hb, hlaw, hJ, hK, hl⟩ := (chargedFlow_iff hrs (hall s hrs.span).2 (hrs.charged (hwires o ho) (hcables o ho))).1 hf
      exact ⟨t, ph, s, a, b, I, J, K, ht, hph, hrs.span, ha, hb, hlaw, hJ, hK, hl⟩
    · rintro ⟨t', ph', s', a, b, I, J, K, ht', hph', hsp', ha, hb, hlaw, hJ, hK, hl'⟩
      rw [ht'] at ht
      cases ht
      rw [hph'] at hph
      cases hph
      obtain ⟨k1, k2⟩ := hall s' hsp'
      exact (chargedFlow_iff k1 k2 (k1.charged (hwires o ho) (hcables o ho))).2 ⟨a, b, I, J, K, ha, hb, hlaw, hJ, hK, hl'⟩

/-- **C149, the feeder.** With charging, too, the network of a supplied file is a supplied feeder, if the wires of its overhead lines are level: the shunts are
symmetric. -/
theorem C149_supplied (hs : ChargedFile objs) (h : parseGrid lineReader objs schedules = .ok g) (hD : g.network lineMade = .ok D) :
    SuppliedFeeder lineMats objs g.lineData := by
  obtain ⟨h1, h2, -⟩ := read_charged hs h hD
  exact ⟨hs.plain, h1, hs.coils, hs.taps, hs.regs, hs.impedances, fun x hx hp => (hs.fed x hx hp).of_phases h2.symm, hs.ideal⟩

/-- **C149, partial: the circuit.** With any load factor, the voltages of the network that was read are those of the circuit in which conductors obey Carson's equations
and each end of a line takes a quarter of the current that charges the line, for wires of twelve times their radius. What is missing: it should be a half
(`C55_charging_fails`), and the radius itself (`C94_radius_fails`), that is, `ChargedFlowAt (1 / 12) (1 / 2)`. -/
theorem C149_circuit_partial (hs : ChargedFile objs) (h : parseGrid lineReader objs schedules = .ok g) (hD : g.network lineMade = .ok D) (s : ℝ) (V : Txt → Char → ℂ) :
    FeederFlowAt lineMats objs g.lineData s V ↔ ChargedFlowAt 1 (1 / 4) objs s V :=
  exists_congr fun lines => and_congr_left fun _ => (read_charged hs h hD).2.2 V lines

/-- **C149, without load.** The feeder with its lines charged has voltages without constant power, and these are determined at every phase of every node. -/
theorem C149_idle (hL : L.Loaded) (hs : ChargedFile objs) (h : parseGrid lineReader objs schedules = .ok g) (hD : g.network lineMade = .ok D) :
    ∃ V0, ChargedFlowAt 1 (1 / 4) objs 0 V0 ∧
      ∀ V', ChargedFlowAt 1 (1 / 4) objs 0 V' → ∀ x ∈ declaredPlaces objs, x.1.2.attr "parent".toList = none → V' x.1.1 x.2 = V0 x.1.1 x.2 := by
  obtain ⟨V0, h1, h2⟩ := C145_idle hL (lineReader_keeps hs.conductors) lineMade_makes h hD (C149_supplied hs h hD)
  exact ⟨V0, (C149_circuit_partial hs h hD 0 V0).1 h1, fun V' hV' => h2 V' ((C149_circuit_partial hs h hD 0 V').2 hV')⟩

/-- **C149, partial: the run.** Take a supplied file that is one island of places rated alike and whose loads have voltage without load, and run it with line charging, as
is the default. For every distance and tolerance all small enough load factors but zero make `execute` return results that say success, with the voltages of the
circuit within that distance. Missing: the size of the charging (see `C149_circuit_partial`), overhead lines that are not level or have a neutral, what `PlainFeeder`
and `FileSpan` leave out, and all but light loads. -/
theorem C149_execute_partial (hL : L.Loaded) (hs : ChargedFile objs) (h : parseGrid lineReader objs schedules = .ok g) (hD : g.network lineMade = .ok D)
    (hne : ownPlaces objs ≠ []) (hj : ∀ x ∈ ownPlaces objs, ∀ y ∈ ownPlaces objs, FileJoined objs (wiredLines objs) x.1.1 y.1.1)
    (hown : ∀ x ∈ ownPlaces objs, isSwing x.1.2 = true ∨ x.1.1 ∉ parentNames objs)
    (hnom : ∀ x ∈ ownPlaces objs, ∀ y ∈ ownPlaces objs, PlainJoined objs (wiredLines objs) x.1.1 y.1.1 → ∀ u w, placeVoltage x.1.2 x.2 = some u →
      placeVoltage y.1.2 y.2 = some w → |u.magnitude - w.magnitude| ≤ 19 / 2) (hr : LoadsRated objs)
    {V0 : Txt → Char → ℂ} (h0 : ChargedFlowAt 1 (1 / 4) objs 0 V0) (hlive : LoadsLive objs V0) (hoff : LoadsOffAxes objs V0) (ε tol : ℝ) (hε : 0 < ε) (htol : 0 < tol) :
    ∃ s0 > 0, ∀ s : ℝ, s ≠ 0 → |s| ≤ s0 → ∀ S : PFSettings, tol ≤ S.tolerance → 2 ≤ S.maxIters →
      (S.control = true → declaredFuses objs = [] ∧ ∀ d ∈ declaredCaps objs, d.obj.attr "control".toList = some "MANUAL".toList) →
      ∀ cs vs, IsIslands (g.pf (D.factor s s)).graph cs →
      IsEdgeIslands ((g.pf (D.factor s s)).graph.plainEdges (g.pf (D.factor s s)).connected) vs →
      ∃ R V, execute L S (idealSolve ((D.factor s s).network.assign L).size) cs vs (g.pf (D.factor s s)) = .ok (R, D.factor s s) ∧ R.success = true ∧
        ChargedFlowAt 1 (1 / 4) objs s V ∧
        List.Forall₂ (fun b x => (∃ y, g.buses[b.bus]? = some y ∧ y.name = x.1.1 ∧ y.phase = x.2) ∧ ‖b.V - V x.1.1 x.2‖ ≤ ε) R.buses (ownPlaces objs) := by
  have h2 := (read_charged hs h hD).2.1
  obtain ⟨s0, hs0, hrun⟩ := C147_execute_partial hL (lineReader_keeps hs.conductors) lineMade_makes h hD (C149_supplied hs h hD) hne
    (fun x hx y hy => (hj x hx y hy).of_phases h2.symm) hown (fun x hx y hy hxy => hnom x hx y hy (hxy.of_phases h2)) hr ((C149_circuit_partial hs h hD 0 V0).2 h0) hlive hoff
    ε tol hε htol
  refine ⟨s0, hs0, fun s h1 h2 S h3 h4 h5 cs vs hcs hvs => ?_⟩
  obtain ⟨R, V, e1, e2, e3, e4⟩ := hrun s h1 h2 S h3 h4 h5 cs vs hcs hvs
  exact ⟨R, V, e1, e2, (C149_circuit_partial hs h hD s V).1 e3, e4⟩

/-- **C149, partial: from the file to the results.** A sound file (C92) that is a plain feeder fed from its sources is read, its network is built, and it has voltages
without load, with its lines charged. If it is one island of places rated alike and its loads have voltage without load, then for every distance and tolerance all small
enough load factors but zero make `execute` return results that say success, with the voltages of the circuit within that distance. Nothing is assumed of what the
reader or the builder return. Missing: what is missing in `C149_execute_partial`. -/
theorem C149_total_partial (hL : L.Loaded) (schedules : List (Txt × Txt)) (hs : SoundSupply objs) :
    ∃ g D V0, parseGrid lineReader objs schedules = .ok g ∧ g.network lineMade = .ok D ∧ ChargedFlowAt 1 (1 / 4) objs 0 V0 ∧
      (ownPlaces objs ≠ [] → (∀ x ∈ ownPlaces objs, ∀ y ∈ ownPlaces objs, FileJoined objs (wiredLines objs) x.1.1 y.1.1) →
        (∀ x ∈ ownPlaces objs, isSwing x.1.2 = true ∨ x.1.1 ∉ parentNames objs) →
        (∀ x ∈ ownPlaces objs, ∀ y ∈ ownPlaces objs, PlainJoined objs (wiredLines objs) x.1.1 y.1.1 → ∀ u w, placeVoltage x.1.2 x.2 = some u →
          placeVoltage y.1.2 y.2 = some w → |u.magnitude - w.magnitude| ≤ 19 / 2) → LoadsRated objs → LoadsLive objs V0 → LoadsOffAxes objs V0 →
        ∀ ε tol : ℝ, 0 < ε → 0 < tol → ∃ s0 > 0, ∀ s : ℝ, s ≠ 0 → |s| ≤ s0 → ∀ S : PFSettings, tol ≤ S.tolerance → 2 ≤ S.maxIters →
          (S.control = true → declaredFuses objs = [] ∧ ∀ d ∈ declaredCaps objs, d.obj.attr "control".toList = some "MANUAL".toList) →
          ∃ cs vs R V, execute L S (idealSolve ((D.factor s s).network.assign L).size) cs vs (g.pf (D.factor s s)) = .ok (R, D.factor s s) ∧ R.success = true ∧
            IsIslands (g.pf (D.factor s s)).graph cs ∧ IsEdgeIslands ((g.pf (D.factor s s)).graph.plainEdges (g.pf (D.factor s s)).connected) vs ∧
            ChargedFlowAt 1 (1 / 4) objs s V ∧
            List.Forall₂ (fun b x => (∃ y, g.buses[b.bus]? = some y ∧ y.name = x.1.1 ∧ y.phase = x.2) ∧ ‖b.V - V x.1.1 x.2‖ ≤ ε) R.buses (ownPlaces objs)) := by
  obtain ⟨g, D, hg, hD⟩ := C92_lines_partial schedules hs.sound hs.conductors hs.lines
  obtain ⟨V0, h0, -⟩ := C149_idle hL hs.charged hg hD
  refine ⟨g, D, V0, hg, hD, h0, fun hne hj hown hnom hr hlive hoff ε tol hε htol => ?_⟩
  obtain ⟨s0, hs0, h⟩ := C149_execute_partial hL hs.charged hg hD hne hj hown hnom hr h0 hlive hoff ε tol hε htol
  refine ⟨s0, hs0, fun s h1 h2 S h3 h4 h5 => ?_⟩
  obtain ⟨cs, hc⟩ := islands_exist (g.pf (D.factor s s)).buses (g.pf (D.factor s s)).connected
  obtain ⟨vs, hv⟩ := edgeIslands_exist ((g.pf (D.factor s s)).graph.plainEdges (g.pf (D.factor s s)).connected)
  obtain ⟨R, V, e1, e2, e3, e4⟩ := h s h1 h2 S h3 h4 h5 cs vs hc hv
  exact ⟨cs, vs, R, V, e1, e2, hc, hv, e3, e4⟩

/-! ### A case -/

/-- A source with a load, an overhead line and an underground line. -/
def chargedFeeder : List (Txt × Obj) := [
  fileObject "node" [("name", "n1"), ("phases", "AB"), ("bustype", "SWING"), ("nominal_voltage", "2400")],
  fileObject "node" [("name", "n2"), ("phases", "AB"), ("nominal_voltage", "2400")],
  fileObject "node" [("name", "n3"), ("phases", "AB"), ("nominal_voltage", "2400")],
  fileObject "load" [("name", "l_1"), ("phases", "AB"), ("nominal_voltage", "2400"), ("parent", "n1"), ("constant_power_A", "100+20j")],
  fileObject "overhead_line_conductor" [("name", "w1"), ("geometric_mean_radius", "0.02"), ("diameter", "1"), ("resistance", "0.25"), ("rating.summer.emergency", "600")],
  fileObject "underground_line_conductor" [("name", "w2"), ("outer_diameter", "1.29"), ("conductor_gmr", "0.0171"), ("conductor_diameter", "0.567"),
    ("conductor_resistance", "0.41"), ("neutral_gmr", "0.00208"), ("neutral_resistance", "14.8722"), ("neutral_diameter", "0.0641"), ("neutral_strands", "13")],
  ("s1".toList, hungAt),
  ("s2".toList, laidAt),
  fileObject "line_configuration" [("name", "c1"), ("conductor_A", "w1"), ("conductor_B", "w1"), ("spacing", "s1")],
  fileObject "line_configuration" [("name", "c2"), ("conductor_A", "w2"), ("conductor_B", "w2"), ("spacing", "s2")],
  fileObject "overhead_line" [("name", "l1"), ("phases", "AB"), ("from", "n1"), ("to", "n2"), ("length", "1000"), ("configuration", "c1")],
  fileObject "underground_line" [("name", "l2"), ("phases", "AB"), ("from", "n2"), ("to", "n3"), ("length", "0.3km"), ("configuration", "c2")]]

theorem chargedFeeder_order : ParentsFirst chargedFeeder := by
  intro pre x post he hp q hq p hpp
  have h : ∀ i < chargedFeeder.length, ∀ x ∈ chargedFeeder[i]?, isPlace x.2 = true → ∀ q ∈ x.2.attr "parent".toList, ∀ p ∈ placePhases x.2,
      HasPlace (chargedFeeder.take i) q p := by decide +kernel
  have := h pre.length (by rw [he]; simp) x (by rw [he]; simp) hp q hq p hpp
  rw [he, List.take_left] at this
  exact this

theorem chargedFeeder_sound : SoundFeeder chargedFeeder := by
  have h1 : ∀ x ∈ chargedFeeder, x.2.cls ∈ configClasses ++ deviceClasses := by decide +kernel
  have h2 : ∀ x ∈ chargedFeeder, x.2.cls ∈ deviceClasses → PhasesGiven x.2 := by decide +kernel
  have h3 : ∀ x ∈ chargedFeeder, x.2.cls ∈ ["node", "meter"].map String.toList → SoundNode x.2 := by decide +kernel
  have h4 : ∀ x ∈ chargedFeeder, x.2.cls = "triplex_meter".toList → hasPower x.2 = false → SoundMeter x.2 := by decide +kernel
  have h5 : ∀ x ∈ chargedFeeder, isLoadObj x.2 = true → SoundLoad chargedFeeder x.1 x.2 := by decide +kernel
  have h6 : ∀ x ∈ chargedFeeder, isPlace x.2 = true → VoltagesGiven x.2 := by decide +kernel
  have h7 : ∀ x ∈ chargedFeeder, isSwitchObj x.2 = true → SoundSwitch chargedFeeder x.2 := by decide +kernel
  have h8 : ∀ x ∈ chargedFeeder, isFuseObj x.2 = false ∧ x.2.cls ≠ "transformer".toList ∧ x.2.cls ≠ "capacitor".toList ∧ x.2.cls ≠ "regulator".toList := by decide +kernel
  refine ⟨by decide +kernel, fun name o hm => h1 (name, o) hm, fun name o hm hd => ⟨h2 (name, o) hm hd, h3 (name, o) hm, h4 (name, o) hm, h5 (name, o) hm, h6 (name, o) hm,
    fun hf => ?_, h7 (name, o) hm, fun h => absurd h (h8 (name, o) hm).2.1, fun h => absurd h (h8 (name, o) hm).2.2.1, fun h => absurd h (h8 (name, o) hm).2.2.2⟩, chargedFeeder_order⟩
  rw [(h8 (name, o) hm).1] at hf
  cases hf

theorem chargedFeeder_named : ConductorsNamed chargedFeeder := conductorsNamed_of (by decide +kernel)

theorem chargedFeeder_overhead : SoundOverhead chargedFeeder chargedFeeder[10].2 ⟨['A', 'B'], true, false, false⟩ := by
  have hl : conductorLetters chargedFeeder[8].2 "ABCN".toList = ['A', 'B'] := by decide +kernel
  refine ⟨chargedFeeder[8].2, hungAt, fun _ => 1 / 4, fun _ => 1 / 50, fun _ => 1, fun _ _ => 2, ⟨"c1".toList, by decide +kernel, by decide +kernel⟩, ?_,
    ⟨"s1".toList, by decide +kernel, by decide +kernel⟩, ?_, ?_, ?_, ?_, ⟨'A', by decide, by decide⟩, fun h => absurd h (by decide), ?_, ?_⟩
  all_goals try rw [hl]
  · intro p hp
    have hr : Refers chargedFeeder chargedFeeder[8].2 ("conductor_".toList ++ [p]) chargedFeeder[4].2 := by
      have hp : p = 'A' ∨ p = 'B' := by simpa using hp
      rcases hp with rfl | rfl <;> exact ⟨"w1".toList, by decide +kernel, by decide +kernel⟩
    refine ⟨_, hr, ⟨"0.25".toList, by decide +kernel, ?_⟩, ⟨"0.02".toList, by decide +kernel, ?_⟩, by norm_num, by norm_num, by norm_num, Or.inl ⟨"1".toList, by decide +kernel, ?_⟩, ?_⟩
    · exact numeral_point (a := "0".toList) (b := "25".toList) (by decide) (by decide) (by decide) (show _ = (1 / 4 : ℚ) by decide +kernel)
    · exact numeral_point (a := "0".toList) (b := "02".toList) (by decide) (by decide) (by decide) (show _ = (1 / 50 : ℚ) by decide +kernel)
    · exact numeral_whole (by decide) (by decide) (show _ = (1 : ℚ) by decide +kernel)
    · exact ⟨by decide +kernel, by decide +kernel⟩
  · exact hungAt_well
  · intro p hp q hq hpq
    refine ⟨by norm_num, ?_⟩
    have hp : p = 'A' ∨ p = 'B' := by simpa using hp
    have hq : q = 'A' ∨ q = 'B' := by simpa using hq
    rcases hp with rfl | rfl <;> rcases hq with rfl | rfl
    · exact absurd rfl hpq
    · exact hungAt_AB
    · exact hungAt_AB.symm
    · exact absurd rfl hpq
  · exact hungAt_only
  · decide
  · refine Or.inl ⟨fun _ => 28, fun p hp => ⟨by norm_num, ?_⟩, fun p _ q _ _ => by norm_num⟩
    have hp : p = 'A' ∨ p = 'B' := by simpa using hp
    rcases hp with rfl | rfl
    · exact hungAt_AE
    · exact hungAt_BE
  · exact .pair hungAt_well (by decide) (by norm_num) (by norm_num) hungAt_AB hungAt_AE hungAt_BE hungAt_only fun _ _ => by norm_num

theorem chargedFeeder_underground : SoundUnderground chargedFeeder chargedFeeder[11].2 := by
  have hl : conductorLetters chargedFeeder[9].2 "ABCN".toList = ['A', 'B'] := by decide +kernel
  refine ⟨chargedFeeder[9].2, laidAt, 13, fun _ => fileCable, fun _ => 567 / 1000, 1, 1, fun _ _ => 1 / 2, ⟨"c2".toList, by decide +kernel, by decide +kernel⟩, by norm_num, ?_,
    ⟨"s2".toList, by decide +kernel, by decide +kernel⟩, ?_, ?_, ?_, by decide +kernel⟩
  all_goals try rw [hl]
  · intro p hp
    have hr : p ≠ 'N' ∧ Refers chargedFeeder chargedFeeder[9].2 ("conductor_".toList ++ [p]) chargedFeeder[5].2 := by
      have hp : p = 'A' ∨ p = 'B' := by simpa using hp
      rcases hp with rfl | rfl <;> exact ⟨by decide, "w2".toList, by decide +kernel, by decide +kernel⟩
    exact ⟨_, hr.2, by rw [if_neg hr.1]; exact fileCable_sound⟩
  · intro x y hxy t ht
    have := get_pairs (P := fun x y => (x, y) ∈ [('A', 'B')]) laidAt_pairs hxy ht
    simp only [List.mem_cons, Prod.mk.injEq, List.not_mem_nil, or_false] at this
    obtain ⟨rfl, rfl⟩ := this
    exact ⟨1 / 2, by norm_num, laidAt_AB⟩
  · intro p hp q hq hpq
    refine ⟨by norm_num, ?_, fun _ => by norm_num [fileCable, CableData.own]⟩
    have hp : p = 'A' ∨ p = 'B' := by simpa using hp
    have hq : q = 'A' ∨ q = 'B' := by simpa using hq
    rcases hp with rfl | rfl <;> rcases hq with rfl | rfl
    · exact absurd rfl hpq
    · exact laidAt_AB
    · exact laidAt_AB.symm
    · exact absurd rfl hpq
  · intro x hx
    constructor
    · intro hm
      have hm : x = 'A' ∨ x = 'B' := by simpa using hm
      rcases hm with rfl | rfl
      · exact ⟨_, _, laidAt_AB⟩
      · exact ⟨_, _, laidAt_AB.symm⟩
    · rintro ⟨y, d, h⟩
      rcases h.pairs (P := fun x y => (x, y) ∈ [('A', 'B')]) laidAt_pairs with h | h <;>
        simp only [List.mem_cons, Prod.mk.injEq, List.not_mem_nil, or_false] at h ⊢
      · exact Or.inl h.1
      · exact Or.inr h.2

theorem chargedFeeder_declared : declaredLines chargedFeeder = [chargedFeeder[10].2, chargedFeeder[11].2] := by decide +kernel

theorem chargedFeeder_lines : SoundLines chargedFeeder := by
  rw [SoundLines, chargedFeeder_declared]
  have hj : ∀ o ∈ [chargedFeeder[10].2, chargedFeeder[11].2], ∀ c ∈ (o.attr "configuration".toList).bind (fun n => lookup n chargedFeeder),
      ∀ p ∈ conductorLetters c (if o.cls = "triplex_line".toList then "12".toList else "ABC".toList), Joins chargedFeeder o p := by decide +kernel
  intro o ho
  refine ⟨?_, ?_⟩
  · simp only [List.mem_cons, List.not_mem_nil, or_false] at ho
    rcases ho with rfl | rfl
    · intro t ph ht hph
      obtain rfl : t = "AB".toList := Option.some.inj (ht.symm.trans (by decide +kernel))
      rw [show parsePhases "AB".toList = .ok ⟨['A', 'B'], true, false, false⟩ by decide +kernel] at hph
      cases hph
      refine ⟨⟨1000 / 5280, ⟨"1000".toList, 1000, numeral_whole (by decide) (by decide) (by decide +kernel), Or.inl ⟨by decide +kernel, by norm_num⟩⟩, by norm_num⟩, ?_⟩
      rw [if_pos (by decide +kernel)]
      exact chargedFeeder_overhead
    · intro t ph ht hph
      refine ⟨⟨1000 * (3 / 10) / (1609344 / 1000), ⟨"0.3".toList, 3 / 10,
        numeral_point (a := "0".toList) (b := "3".toList) (by decide) (by decide) (by decide) (by decide +kernel), Or.inr ⟨by decide +kernel, rfl⟩⟩, by norm_num⟩, ?_⟩
      rw [if_neg (by decide +kernel), if_neg (by decide +kernel)]
      exact chargedFeeder_underground
  · rintro p ⟨c, ⟨n, h1, h2⟩, hp⟩
    exact hj o ho c (by rw [h1]; exact h2) p hp

theorem chargedFeeder_wires : WiresCharged 1 chargedFeeder chargedFeeder[10].2 fun p q => potentialCoefficient 28 2 (1 / 2) (p = q) := by
  have hl : conductorLetters chargedFeeder[8].2 "ABC".toList = ['A', 'B'] := by decide +kernel
  refine ⟨chargedFeeder[8].2, hungAt, fun _ => 1, fun _ _ => 2, 28, ⟨"c1".toList, by decide +kernel, by decide +kernel⟩, ⟨"s1".toList, by decide +kernel, by decide +kernel⟩,
    by decide +kernel, by norm_num, ?_, ?_, fun p q => by norm_num⟩
  all_goals rw [hl]
  · intro p hp
    have hp : p = 'A' ∨ p = 'B' := by simpa using hp
    have hv : Valued chargedFeeder[4].2 "diameter" 1 := ⟨"1".toList, by decide +kernel, numeral_whole (by decide) (by decide) (by decide +kernel)⟩
    rcases hp with rfl | rfl
    · exact ⟨hungAt_AE, _, ⟨"w1".toList, by decide +kernel, by decide +kernel⟩, hv⟩
    · exact ⟨hungAt_BE, _, ⟨"w1".toList, by decide +kernel, by decide +kernel⟩, hv⟩
  · intro p hp q hq hpq
    refine ⟨by norm_num, ?_⟩
    have hp : p = 'A' ∨ p = 'B' := by simpa using hp
    have hq : q = 'A' ∨ q = 'B' := by simpa using hq
    rcases hp with rfl | rfl <;> rcases hq with rfl | rfl
    · exact absurd rfl hpq
    · exact hungAt_AB
    · exact hungAt_AB.symm
    · exact absurd rfl hpq

theorem chargedFeeder_plain : PlainFeeder chargedFeeder where
  keys := by decide +kernel
  outer := outerFile_of_check (by decide +kernel)
  once := by
    have : ∀ x ∈ chargedFeeder, isPlace x.2 = true → (placePhases x.2).Nodup := by decide +kernel
    exact fun name o hm => this (name, o) hm
  noBase := by
    have : ∀ x ∈ chargedFeeder, isLoadObj x.2 = true → ∀ c ∈ loadEndings, x.2.attr ("base_power_".toList ++ c) = none := by decide +kernel
    exact fun name o hm => this (name, o) hm
  states := by
    have : ∀ x ∈ chargedFeeder, isSwitchObj x.2 = false := by decide +kernel
    intro name o hm hs
    rw [this _ hm] at hs
    cases hs
  fuseStates := by
    have : ∀ x ∈ chargedFeeder, isFuseObj x.2 = false := by decide +kernel
    intro name o hm hs
    rw [this _ hm] at hs
    cases hs
  fusesGood := by decide +kernel
  plain := by
    have : ∀ x ∈ chargedFeeder, x.2.cls ∈ ["regulator", "transformer"].map String.toList → ∀ c ∈ configOf chargedFeeder x.2, c.cls ∉ conductorClasses := by decide +kernel
    exact fun name o c hm hc h => this (name, o) hm hc c h
  noStray := by
    have : ∀ x ∈ chargedFeeder, x.2.cls ≠ "regulator".toList := by decide +kernel
    exact fun name o hm hc => absurd hc (this _ hm)
  ownSources := by decide +kernel
  caps := by decide +kernel
  capsWye := by
    have : ∀ d ∈ declaredCaps chargedFeeder, ∀ t ∈ d.obj.attr "phases".toList, 'D' ∉ t := by decide +kernel
    exact this
  taps := by
    have : declaredRegs chargedFeeder = [] := by decide +kernel
    rw [this]
    intro d hd
    cases hd
  noShunts := by
    have : declaredXfmrs chargedFeeder = [] := by decide +kernel
    rw [this]
    intro o c p q h
    cases h
  centerTaps := by
    have : declaredXfmrs chargedFeeder = [] := by decide +kernel
    rw [this]
    intro o c h
    cases h

/-- The source of the file. -/
def chargedSource : Obj := (fileObject "node" [("name", "n1"), ("phases", "AB"), ("bustype", "SWING"), ("nominal_voltage", "2400")]).2

theorem chargedFeeder_sources : declaredSources chargedFeeder = [(("n1".toList, chargedSource), 'A'), (("n1".toList, chargedSource), 'B')] := by decide +kernel

theorem chargedFeeder_wired : wiredLines chargedFeeder = [(['A', 'B'], ()), (['A', 'B'], ())] := by decide +kernel

theorem chargedFeeder_loads : declaredLoads chargedFeeder = [⟨"n1".toList, ['A'], .power, (100, 20)⟩] := by decide +kernel

theorem chargedFeeder_names : ∀ x ∈ declaredPlaces chargedFeeder, (x.1.1 = "n1".toList ∨ x.1.1 = "n2".toList ∨ x.1.1 = "n3".toList) ∧ (x.2 = 'A' ∨ x.2 = 'B') ∧
    placeVoltage x.1.2 x.2 = some (.nominal 2400 x.2) ∧ (isSwing x.1.2 = true ∨ x.1.1 ∉ parentNames chargedFeeder) := by decide +kernel

theorem chargedFeeder_roots : FileRoot chargedFeeder "n1".toList "n1".toList ∧ FileRoot chargedFeeder "n2".toList "n2".toList ∧ FileRoot chargedFeeder "n3".toList "n3".toList :=
  ⟨.own _ chargedFeeder[0].2 (by decide +kernel) (by decide +kernel) (by decide +kernel), .own _ chargedFeeder[1].2 (by decide +kernel) (by decide +kernel) (by decide +kernel),
    .own _ chargedFeeder[2].2 (by decide +kernel) (by decide +kernel) (by decide +kernel)⟩

theorem chargedFeeder_supply : SoundSupply chargedFeeder where
  sound := chargedFeeder_sound
  lines := chargedFeeder_lines
  plain := chargedFeeder_plain
  conductors := chargedFeeder_named
  wires := by
    rw [chargedFeeder_declared]
    intro o ho hc
    simp only [List.mem_cons, List.not_mem_nil, or_false] at ho
    rcases ho with rfl | rfl
    · exact ⟨_, chargedFeeder_wires⟩
    · exact absurd hc (by decide +kernel)
  coils := by
    have : declaredXfmrs chargedFeeder = [] := by decide +kernel
    rw [this]
    intro o c p q h
    cases h
  taps := by
    have : declaredXfmrs chargedFeeder = [] := by decide +kernel
    rw [this]
    intro o c h
    cases h
  regs := by
    have : declaredRegs chargedFeeder = [] := by decide +kernel
    rw [this]
    intro d hd
    cases hd
  impedances := by
    rw [chargedFeeder_loads]
    intro d hd hk
    rw [List.mem_singleton] at hd
    subst hd
    cases hk
  fed := by
    intro x hx _
    obtain ⟨hn, hp, -⟩ := chargedFeeder_names x hx
    have hin : ∀ p, p = 'A' ∨ p = 'B' → p ∈ ['A', 'B'] := by
      rintro p (rfl | rfl) <;> decide
    have h1 : ∀ p, p = 'A' ∨ p = 'B' → Fed chargedFeeder (wiredLines chargedFeeder) "n1".toList p := by
      rintro p (rfl | rfl)
      · exact Fed.source (x := (("n1".toList, chargedSource), 'A')) (by rw [chargedFeeder_sources]; exact List.mem_cons_self)
      · exact Fed.source (x := (("n1".toList, chargedSource), 'B')) (by rw [chargedFeeder_sources]; exact List.mem_cons_of_mem _ (List.mem_singleton.2 rfl))
    have h2 : ∀ p, p = 'A' ∨ p = 'B' → Fed chargedFeeder (wiredLines chargedFeeder) "n2".toList p := fun p hp =>
      Fed.line (x := (chargedFeeder[10].2, ['A', 'B'], ())) (by rw [chargedFeeder_declared, chargedFeeder_wired]; exact List.mem_cons_self) rfl rfl (hin p hp) (h1 p hp)
    rcases hn with hn | hn | hn <;> rw [hn]
    · exact h1 _ hp
    · exact h2 _ hp
    · exact Fed.line (x := (chargedFeeder[11].2, ['A', 'B'], ())) (by rw [chargedFeeder_declared, chargedFeeder_wired]; exact List.mem_cons_of_mem _ (List.mem_singleton.2 rfl))
        rfl rfl (hin _ hp) (h2 _ hp)
  ideal := by
    refine ⟨fun _ p => if p = 'A' then 0 else 1, fun _ _ _ _ => rfl, ?_⟩
    have h2 : declaredSwitches chargedFeeder = [] := by decide +kernel
    rw [idealBranches, chargedFeeder_sources, h2]
    exact .leaf (l₁ := []) (l₂ := [(some 1, none)]) 0 (.leaf (l₁ := []) (l₂ := []) 1 .nil (by simp) (Or.inl ⟨rfl, by simp⟩)) (by simp) (Or.inl ⟨rfl, by simp⟩)

/-- Its load has voltage without load, with which it is not aligned. -/
theorem chargedFeeder_live {V0 : Txt → Char → ℂ} (h0 : ChargedFlowAt 1 (1 / 4) chargedFeeder 0 V0) : LoadsLive chargedFeeder V0 ∧ LoadsOffAxes chargedFeeder V0 := by
  have hV : V0 "n1".toList 'A' = ((2400 : ℝ) : ℂ) := by
    obtain ⟨lines, -, -, xs, ss, -, -, -, -, -, -, hss, -⟩ := h0
    rw [chargedFeeder_sources] at hss
    cases hss with
    | cons hx _ =>
      obtain ⟨u, I, hu, hv, -⟩ := hx
      rw [show swingVoltage (("n1".toList, chargedSource), 'A').1.2 (("n1".toList, chargedSource), 'A').2 = some (.nominal 2400 'A') by decide +kernel] at hu
      cases hu
      rw [Phasor.complex, unitAt_A] at hv
      rw [hv]
      norm_num
  have hacross : ∀ V : Txt → Char → ℂ, ∀ d ∈ declaredLoads chargedFeeder, d.value = (100, 20) ∧ d.across V = V "n1".toList 'A' := by
    rw [chargedFeeder_loads]
    intro V d hd
    rw [List.mem_singleton] at hd
    subst hd
    exact ⟨rfl, sub_zero _⟩
  refine ⟨fun d hd _ _ => by
    rw [(hacross _ d hd).2, hV]
    norm_num, fun d hd _ _ => by
    rw [(hacross _ d hd).2, (hacross (fun _ _ => 0) d hd).1, hV, Complex.conj_ofReal, ← Complex.ofReal_pow, Complex.re_mul_ofReal, Complex.im_mul_ofReal]
    constructor <;> norm_num [toComplex]⟩

/-- It is one island. -/
theorem chargedFeeder_joined : ∀ x ∈ ownPlaces chargedFeeder, ∀ y ∈ ownPlaces chargedFeeder, FileJoined chargedFeeder (wiredLines chargedFeeder) x.1.1 y.1.1 := by
  have hown : ∀ x ∈ ownPlaces chargedFeeder, x ∈ declaredPlaces chargedFeeder := fun x hx => (mem_ownPlaces.1 hx).1
  have s1 : NextTo chargedFeeder (FileStep chargedFeeder (wiredLines chargedFeeder)) "n1".toList "n2".toList :=
    ⟨_, _, Or.inl (.plain (.line (x := (chargedFeeder[10].2, ['A', 'B'], ())) (by rw [chargedFeeder_declared, chargedFeeder_wired]; exact List.mem_cons_self)
      (List.cons_ne_nil _ _) rfl rfl)), chargedFeeder_roots.1, chargedFeeder_roots.2.1⟩
  have s2 : NextTo chargedFeeder (FileStep chargedFeeder (wiredLines chargedFeeder)) "n2".toList "n3".toList :=
    ⟨_, _, Or.inl (.plain (.line (x := (chargedFeeder[11].2, ['A', 'B'], ()))
      (by rw [chargedFeeder_declared, chargedFeeder_wired]; exact List.mem_cons_of_mem _ (List.mem_singleton.2 rfl)) (List.cons_ne_nil _ _) rfl rfl)),
      chargedFeeder_roots.2.1, chargedFeeder_roots.2.2⟩
  intro x hx y hy
  rcases (chargedFeeder_names x (hown x hx)).1 with e1 | e1 | e1 <;> rcases (chargedFeeder_names y (hown y hy)).1 with e2 | e2 | e2 <;> rw [e1, e2]
  · exact .refl
  · exact .single s1
  · exact (Relation.ReflTransGen.single s1).tail s2
  · exact .single (nextTo_symm s1)
  · exact .refl
  · exact .single s2
  · exact (Relation.ReflTransGen.single (nextTo_symm s2)).tail (nextTo_symm s1)
  · exact .single (nextTo_symm s2)
  · exact .refl

theorem chargedFeeder_rated : LoadsRated chargedFeeder := fun d hd _ x hx _ _ _ => ⟨2400, by norm_num, (chargedFeeder_names x ((mem_ownPlaces.1 hx).1)).2.2.1⟩

theorem chargedFeeder_length : (ownPlaces chargedFeeder).length = 6 := by decide +kernel

theorem chargedFeeder_own : ∀ x ∈ ownPlaces chargedFeeder, isSwing x.1.2 = true ∨ x.1.1 ∉ parentNames chargedFeeder := fun x hx =>
  (chargedFeeder_names x (mem_ownPlaces.1 hx).1).2.2.2

theorem chargedFeeder_alike : ∀ x ∈ ownPlaces chargedFeeder, ∀ y ∈ ownPlaces chargedFeeder, ∀ u w, placeVoltage x.1.2 x.2 = some u → placeVoltage y.1.2 y.2 = some w →
    |u.magnitude - w.magnitude| ≤ 19 / 2 := fun x hx y hy u w hu hw => by
  rw [(chargedFeeder_names x (mem_ownPlaces.1 hx).1).2.2.1] at hu
  rw [(chargedFeeder_names y (mem_ownPlaces.1 hy).1).2.2.1] at hw
  cases hu
  cases hw
  norm_num [Phasor.magnitude]

theorem chargedFeeder_manual : declaredFuses chargedFeeder = [] ∧ ∀ d ∈ declaredCaps chargedFeeder, d.obj.attr "control".toList = some "MANUAL".toList :=
  ⟨by decide +kernel, by rw [show declaredCaps chargedFeeder = [] by decide +kernel]; intro d hd; cases hd⟩

theorem chargedFeeder_places : ownPlaces chargedFeeder ≠ [] := fun e => by
  have := chargedFeeder_length
  rw [e] at this
  cases this

/-- The file is read and built, and its load multiplied by a small factor it is run to the end with the default settings, its lines charged. -/
example (hL : L.Loaded) : ∃ g D, parseGrid lineReader chargedFeeder [] = .ok g ∧ g.network lineMade = .ok D ∧ SuppliedFeeder lineMats chargedFeeder g.lineData ∧
    (∀ s V, FeederFlowAt lineMats chargedFeeder g.lineData s V ↔ ChargedFlowAt 1 (1 / 4) chargedFeeder s V) ∧ (∃ V0, ChargedFlowAt 1 (1 / 4) chargedFeeder 0 V0) ∧
    ∃ s0 > 0, ∀ s : ℝ, s ≠ 0 → |s| ≤ s0 → ∃ cs vs R V,
      execute L ⟨1 / 100000, 20, true, false, false, true, true⟩ (idealSolve ((D.factor s s).network.assign L).size) cs vs (g.pf (D.factor s s)) = .ok (R, D.factor s s) ∧
      R.success = true ∧ ChargedFlowAt 1 (1 / 4) chargedFeeder s V ∧ R.buses.length = 6 := by
  obtain ⟨g, D, V0, hg, hD, h0, h⟩ := C149_total_partial hL [] chargedFeeder_supply
  obtain ⟨s0, hs0, h⟩ := h chargedFeeder_places chargedFeeder_joined chargedFeeder_own (fun x hx y hy _ => chargedFeeder_alike x hx y hy) chargedFeeder_rated
    (chargedFeeder_live h0).1 (chargedFeeder_live h0).2 1 (1 / 100000) one_pos (by norm_num)
  refine ⟨g, D, hg, hD, C149_supplied chargedFeeder_supply.charged hg hD, C149_circuit_partial chargedFeeder_supply.charged hg hD,
    (C149_idle hL chargedFeeder_supply.charged hg hD).imp fun _ h => h.1, s0, hs0, fun s hs1 hs2 => ?_⟩
  obtain ⟨cs, vs, R, V, e1, e2, -, -, e3, e4⟩ := h s hs1 hs2 ⟨1 / 100000, 20, true, false, false, true, true⟩ le_rfl (by norm_num) (fun _ => chargedFeeder_manual)
  exact ⟨cs, vs, R, V, e1, e2, e3, e4.length_eq.trans chargedFeeder_length⟩

end Verif.Glm
