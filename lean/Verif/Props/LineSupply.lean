import Verif.Lemmas.LineSupply
import Verif.Props.GlmStarts

/-!
# C148: feeders run with the lines by their conductors

From the objects of a file, lines with their conductors, to the voltages `PowerFlow.execute` returns.
-/

namespace Verif.Glm

open ComplexConjugate Matrix

variable {L : Library} {objs : List (Txt × Obj)} {schedules : List (Txt × Txt)} {g : Grid LineData} {D : DxNet}

/-- The matrices of a line without charging. -/
noncomputable def seriesMats (d : LineData) : (ℕ → ℕ → ℂ) × (ℕ → ℕ → ℝ) := (entryAt (((d.length : ℚ) : ℂ) • d.Z)⁻¹, fun _ _ => 0)

theorem seriesMade_makes : Makes seriesMade seriesMats := by
  have := makes_unbalanced (fun d : LineData => d.Z) (fun _ _ _ => none) fun d => ((d.length : ℚ) : ℝ)
  simp only [Complex.ofReal_ratCast] at this
  exact this

/-- **C148, lines lose power.** Carson's equations of the conductors of a line of a file, over a length above zero, dissipate: whatever voltage drops and currents of its
phases satisfy them, the line loses active power unless no phase carries a current. -/
theorem C148_losses {o : Obj} {ph : Phases} {s : LineSpan} (hs : FileSpan objs o ph s) (hm : 0 < s.miles) {U I : Char → ℂ} (h : s.Law U I)
    (hI : ∃ p ∈ s.phases, I p ≠ 0) : 0 < s.loss U I := hs.loss_pos hm h hI

/-- What was read for the lines is what their conductors say. -/
theorem read_spans (hs : SuppliedFile objs) (h : parseGrid lineReader objs schedules = .ok g) (hD : g.network seriesMade = .ok D) :
    List.Forall₂ (LineRead lineReader objs) (declaredLines objs) g.lineData ∧ (∀ d ∈ g.lineData, Lossy d.1.length (seriesMats d.2)) ∧
      g.lineData.map Prod.fst = (wiredLines objs).map Prod.fst ∧ ∀ V lines, List.Forall₂ (LineFlow seriesMats V) ((declaredLines objs).zip g.lineData) lines ↔
        List.Forall₂ (SpanFlow objs V) (declaredLines objs) lines := by
  obtain ⟨-, -, hds, -⟩ := feeder_parts (lineReader_keeps hs.conductors) seriesMade_makes hs.plain h hD
  have key : ∀ o d, o ∈ declaredLines objs → LineRead lineReader objs o d → ∃ t ph s, o.attr "phases".toList = some t ∧ parsePhases t = .ok ph ∧ FileSpan objs o ph s ∧
      d.1 = s.phases ∧ d.1.length = d.2.n ∧ (∀ s', FileSpan objs o ph s' → d.1 = s'.phases ∧ d.1.length = d.2.n ∧ ∀ U I : Char → ℂ,
        (∀ i : Fin d.2.n, U (d.1.getD i 'A') = ((((d.2.length : ℚ) : ℂ) • d.2.Z) *ᵥ fun j : Fin d.2.n => I (d.1.getD j 'A')) i) ↔ s'.Law U I) ∧
      (∀ i j, d.2.Z i j = d.2.Z j i) ∧ ∀ I : Fin d.2.n → ℂ, I ≠ 0 → 0 < (star I ⬝ᵥ (((d.2.length : ℚ) : ℂ) • d.2.Z) *ᵥ I).re := by
    rintro o d ho ⟨objs1, objs2, o1, t, ph, hs1, ho1, ht, hph, hr⟩
    obtain ⟨v', hr⟩ := lineReader_ok hr
    obtain ⟨s, hsp, hm⟩ := hs.spans o ho t ph ht hph
    have hl := fun s' (hs' : FileSpan objs o ph s') => line_law hr (hs'.same hs1 ho1)
    obtain ⟨h1, h2, h3⟩ := hl s hsp
    exact ⟨t, ph, s, ht, hph, hsp, h1, h2, hl, line_symm (by intro T hT; cases hT) hr,
      fun I hI => span_strict h1 h2 h3 hsp.nodup (fun U J hJ hne => hsp.loss_pos hm hJ hne) hI⟩
  refine ⟨hds, fun d hd => ?_, ?_, fun V lines => ?_⟩
  · obtain ⟨o, ho, hod⟩ := forall₂_mem_right hds hd
    obtain ⟨t, ph, s, -, -, -, -, h2, -, hsym, hst⟩ := key o d ho hod
    exact lossy_of_strict h2 (fun i j => by rw [Matrix.smul_apply, Matrix.smul_apply, hsym]) hst
  · rw [wiredLines, List.map_map]
    have : ∀ o ∈ declaredLines objs, ∀ d, LineRead lineReader objs o d → d.1 = wiredPhases objs o := fun o ho d hod => by
      obtain ⟨t, ph, s, -, -, hsp, h1, -⟩ := key o d ho hod
      rw [h1, hsp.wired]
    generalize declaredLines objs = ls at hds this
    generalize g.lineData = ds at hds
    induction hds with
    | nil => rfl
    | cons hx _ ih =>
      rw [List.map_cons, List.map_cons, this _ List.mem_cons_self _ hx, ih fun o ho => this o (List.mem_cons_of_mem _ ho)]
      rfl
  · refine forall₂_zip_iff hds (fun o d l ho hd hR => ?_) lines
    obtain ⟨t, ph, s, ht, hph, hsp, h1, h2, hl, -, hst⟩ := key o d ho hR
    constructor
    · intro hf
      obtain ⟨a, b, I, ha, hb, hlaw, hl⟩ := (lineFlow_iff h1 h2 (hl s hsp).2.2 (det_ne_of_strict hst) hsp.nodup).1 hf
      exact ⟨t, ph, s, a, b, I, ht, hph, hsp, ha, hb, hlaw, hl⟩
    · rintro ⟨t', ph', s', a, b, I, ht', hph', hsp', ha, hb, hlaw, hl'⟩
      rw [ht'] at ht
      cases ht
      rw [hph'] at hph
      cases hph
      obtain ⟨k1, k2, k3⟩ := hl s' hsp'
      exact (lineFlow_iff k1 k2 k3 (det_ne_of_strict hst) hsp'.nodup).2 ⟨a, b, I, ha, hb, hlaw, hl'⟩

/-- **C148, the feeder.** The network of a supplied file is a supplied feeder: the lines that were read have resistance and join the phases of their conductors. -/
theorem C148_supplied (hs : SuppliedFile objs) (h : parseGrid lineReader objs schedules = .ok g) (hD : g.network seriesMade = .ok D) :
    SuppliedFeeder seriesMats objs g.lineData := by
  obtain ⟨-, h1, h2, -⟩ := read_spans hs h hD
  exact ⟨hs.plain, h1, hs.coils, hs.taps, hs.regs, hs.impedances, fun x hx hp => (hs.fed x hx hp).of_phases h2.symm, hs.ideal⟩

/-- **C148, the circuit.** With any load factor, the voltages of the network that was read are those of the circuit in which conductors obey Carson's equations. -/
theorem C148_circuit (hs : SuppliedFile objs) (h : parseGrid lineReader objs schedules = .ok g) (hD : g.network seriesMade = .ok D) (s : ℝ) (V : Txt → Char → ℂ) :
    FeederFlowAt seriesMats objs g.lineData s V ↔ FileFlowAt objs s V :=
  exists_congr fun lines => and_congr_left fun _ => (read_spans hs h hD).2.2.2 V lines

/-- **C148, the run.** Take a supplied file that is one island of places rated alike and whose loads have voltage without load. For every distance and tolerance all small
enough load factors but zero make `execute` return results that say success, with the voltages of the circuit the file describes within that distance, in which the
conductors of every line obey Carson's equations. Nothing is left to what the reader found. Missing: what `PlainFeeder` and `FileSpan` leave out, the charging of
lines, and all but light loads. -/
theorem C148_execute_partial (hL : L.Loaded) (hs : SuppliedFile objs) (h : parseGrid lineReader objs schedules = .ok g) (hD : g.network seriesMade = .ok D)
    (hne : ownPlaces objs ≠ []) (hj : ∀ x ∈ ownPlaces objs, ∀ y ∈ ownPlaces objs, FileJoined objs (wiredLines objs) x.1.1 y.1.1)
    (hown : ∀ x ∈ ownPlaces objs, isSwing x.1.2 = true ∨ x.1.1 ∉ parentNames objs)
    (hnom : ∀ x ∈ ownPlaces objs, ∀ y ∈ ownPlaces objs, PlainJoined objs (wiredLines objs) x.1.1 y.1.1 → ∀ u w, placeVoltage x.1.2 x.2 = some u →
      placeVoltage y.1.2 y.2 = some w → |u.magnitude - w.magnitude| ≤ 19 / 2) (hr : LoadsRated objs)
    {V0 : Txt → Char → ℂ} (h0 : FileFlowAt objs 0 V0) (hlive : LoadsLive objs V0) (hoff : LoadsOffAxes objs V0) (ε tol : ℝ) (hε : 0 < ε) (htol : 0 < tol) :
    ∃ s0 > 0, ∀ s : ℝ, s ≠ 0 → |s| ≤ s0 → ∀ S : PFSettings, tol ≤ S.tolerance → 2 ≤ S.maxIters →
      (S.control = true → declaredFuses objs = [] ∧ ∀ d ∈ declaredCaps objs, d.obj.attr "control".toList = some "MANUAL".toList) →
      ∀ cs vs, IsIslands (g.pf (D.factor s s)).graph cs →
      IsEdgeIslands ((g.pf (D.factor s s)).graph.plainEdges (g.pf (D.factor s s)).connected) vs →
      ∃ R V, execute L S (idealSolve ((D.factor s s).network.assign L).size) cs vs (g.pf (D.factor s s)) = .ok (R, D.factor s s) ∧ R.success = true ∧
        FileFlowAt objs s V ∧
        List.Forall₂ (fun b x => (∃ y, g.buses[b.bus]? = some y ∧ y.name = x.1.1 ∧ y.phase = x.2) ∧ ‖b.V - V x.1.1 x.2‖ ≤ ε) R.buses (ownPlaces objs) := by
  have h2 := (read_spans hs h hD).2.2.1
  obtain ⟨s0, hs0, hrun⟩ := C147_execute_partial hL (lineReader_keeps hs.conductors) seriesMade_makes h hD (C148_supplied hs h hD) hne
    (fun x hx y hy => (hj x hx y hy).of_phases h2.symm) hown (fun x hx y hy hxy => hnom x hx y hy (hxy.of_phases h2)) hr ((C148_circuit hs h hD 0 V0).2 h0) hlive hoff
    ε tol hε htol
  refine ⟨s0, hs0, fun s h1 h2 S h3 h4 h5 cs vs hcs hvs => ?_⟩
  obtain ⟨R, V, e1, e2, e3, e4⟩ := hrun s h1 h2 S h3 h4 h5 cs vs hcs hvs
  exact ⟨R, V, e1, e2, (C148_circuit hs h hD s V).1 e3, e4⟩

/-! ### A case -/

theorem spanFeeder_sources : declaredSources spanFeeder = [(("n1".toList, (fileObject "node" [("name", "n1"), ("phases", "AB"), ("bustype", "SWING"), ("nominal_voltage", "2400")]).2), 'A'),
    (("n1".toList, (fileObject "node" [("name", "n1"), ("phases", "AB"), ("bustype", "SWING"), ("nominal_voltage", "2400")]).2), 'B')] := by decide +kernel

theorem spanFeeder_wired : wiredLines spanFeeder = [(['A', 'B'], ())] := by decide +kernel

theorem spanFeeder_loads : declaredLoads spanFeeder = [⟨"l_1".toList, ['A'], .power, (100, 20)⟩] := by decide +kernel

theorem spanFeeder_names : ∀ x ∈ declaredPlaces spanFeeder, (x.1.1 = "n1".toList ∨ x.1.1 = "l_1".toList) ∧ (x.2 = 'A' ∨ x.2 = 'B') ∧
    placeVoltage x.1.2 x.2 = some (.nominal 2400 x.2) ∧ x.1.1 ∉ parentNames spanFeeder := by decide +kernel

theorem spanFeeder_roots : FileRoot spanFeeder "n1".toList "n1".toList ∧ FileRoot spanFeeder "l_1".toList "l_1".toList :=
  ⟨.own _ (fileObject "node" [("name", "n1"), ("phases", "AB"), ("bustype", "SWING"), ("nominal_voltage", "2400")]).2 (by decide +kernel) (by decide +kernel) (by decide +kernel),
    .own _ (fileObject "load" [("name", "l_1"), ("phases", "AB"), ("nominal_voltage", "2400"), ("constant_power_A", "100+20j")]).2 (by decide +kernel) (by decide +kernel)
      (by decide +kernel)⟩

theorem spanFeeder_supplied : SuppliedFile spanFeeder where
  plain := spanFeeder_plain
  conductors := conductorsNamed_of (by decide +kernel)
  spans := by
    rw [spanFeeder_lines]
    intro o ho t ph ht hph
    rw [List.mem_singleton] at ho
    subst ho
    have : t = "AB".toList := Option.some.inj (ht.symm.trans (by decide +kernel))
    subst this
    have hp : parsePhases "AB".toList = .ok ⟨['A', 'B'], true, false, false⟩ := by decide +kernel
    rw [hp] at hph
    cases hph
    exact ⟨_, spanFeeder_span, by norm_num [pairSpan]⟩
  coils := by
    have : declaredXfmrs spanFeeder = [] := by decide +kernel
    rw [this]
    intro o c p q h
    cases h
  taps := by
    have : declaredXfmrs spanFeeder = [] := by decide +kernel
    rw [this]
    intro o c h
    cases h
  regs := by
    have : declaredRegs spanFeeder = [] := by decide +kernel
    rw [this]
    intro d hd
    cases hd
  impedances := by
    rw [spanFeeder_loads]
    intro d hd hk
    rw [List.mem_singleton] at hd
    subst hd
    cases hk
  fed := by
    intro x hx _
    obtain ⟨hn, hp, -⟩ := spanFeeder_names x hx
    have hsrc : ∀ p, p = 'A' ∨ p = 'B' → Fed spanFeeder (wiredLines spanFeeder) "n1".toList p := by
      rintro p (rfl | rfl)
      · exact Fed.source (x := (("n1".toList, (fileObject "node" [("name", "n1"), ("phases", "AB"), ("bustype", "SWING"), ("nominal_voltage", "2400")]).2), 'A'))
          (by rw [spanFeeder_sources]; exact List.mem_cons_self)
      · exact Fed.source (x := (("n1".toList, (fileObject "node" [("name", "n1"), ("phases", "AB"), ("bustype", "SWING"), ("nominal_voltage", "2400")]).2), 'B'))
          (by rw [spanFeeder_sources]; exact List.mem_cons_of_mem _ (List.mem_singleton.2 rfl))
    rcases hn with hn | hn
    · rw [hn]
      exact hsrc _ hp
    · rw [hn]
      refine Fed.line (x := (spanLine, ['A', 'B'], ())) (by rw [spanFeeder_lines, spanFeeder_wired]; exact List.mem_singleton.2 rfl) rfl rfl ?_ (hsrc _ hp)
      rcases hp with hp | hp
      · rw [hp]; exact List.mem_cons_self
      · rw [hp]; exact List.mem_cons_of_mem _ (List.mem_singleton.2 rfl)
  ideal := by
    refine ⟨fun _ p => if p = 'A' then 0 else 1, fun _ _ _ _ => rfl, ?_⟩
    have h2 : declaredSwitches spanFeeder = [] := by decide +kernel
    rw [idealBranches, spanFeeder_sources, h2]
    exact .leaf (l₁ := []) (l₂ := [(some 1, none)]) 0 (.leaf (l₁ := []) (l₂ := []) 1 .nil (by simp) (Or.inl ⟨rfl, by simp⟩)) (by simp) (Or.inl ⟨rfl, by simp⟩)

/-- Without load each phase is at the voltage of the source. -/
theorem spanFeeder_idle : FileFlowAt spanFeeder 0 fun _ p => 2400 * unitAt p := by
  refine ⟨[['A', 'B'].flatMap fun p => through (some ("n1".toList, p)) (some ("l_1".toList, p)) 0], ?_, fun _ _ _ _ _ => rfl, [],
    [[(some ("n1".toList, 'A'), 0)], [(some ("n1".toList, 'B'), 0)]], [], [through (some ("l_1".toList, 'A')) none 0], [], [], [], ?_, ?_, ?_, ?_, ?_, ?_, ?_,
    fun x _ _ => ?_⟩
  · rw [spanFeeder_lines]
    refine .cons ⟨"AB".toList, ⟨['A', 'B'], true, false, false⟩, pairSpan, "n1".toList, "l_1".toList, fun _ => 0, by decide +kernel, by decide +kernel, spanFeeder_span, rfl, rfl,
      ⟨fun _ => 0, fun _ _ => rfl, fun p _ => ?_, fun n hn => by cases hn⟩, rfl⟩ .nil
    simp [LineSpan.drop]
  · rw [show declaredXfmrs spanFeeder = [] by decide +kernel]
    exact .nil
  · rw [spanFeeder_sources]
    refine .cons ⟨.nominal 2400 'A', 0, by decide +kernel, ?_, rfl⟩ (.cons ⟨.nominal 2400 'B', 0, by decide +kernel, ?_, rfl⟩ .nil)
    · rw [Phasor.complex]
      norm_num
    · rw [Phasor.complex]
      norm_num
  · rw [show declaredSwitches spanFeeder = [] by decide +kernel]
    exact .nil
  · rw [spanFeeder_loads]
    refine .cons ⟨'A', [], rfl, ?_⟩ .nil
    rw [show ∀ U, DeclaredLoad.currentAt 0 ⟨"l_1".toList, ['A'], .power, (100, 20)⟩ U = 0 from fun U => by simp [DeclaredLoad.currentAt]]
    rfl
  · rw [show declaredRegs spanFeeder = [] by decide +kernel]
    exact .nil
  · rw [show declaredFuses spanFeeder = [] by decide +kernel]
    exact .nil
  · rw [show declaredCaps spanFeeder = [] by decide +kernel]
    exact .nil
  · refine drawnAt_zero fun y hy => ?_
    have hy' : y ∈ ([(some ("n1".toList, 'A'), 0), (some ("l_1".toList, 'A'), -0), (some ("n1".toList, 'B'), 0), (some ("l_1".toList, 'B'), -0),
      (some ("n1".toList, 'A'), 0), (some ("n1".toList, 'B'), 0), (some ("l_1".toList, 'A'), 0), (none, -0)] : List (Term × ℂ)) := hy
    have : ∀ l : List (Term × ℂ), l.map Prod.snd = [0, -0, 0, -0, 0, 0, 0, -0] → y ∈ l → y.2 = 0 := fun l hl hy => by
      have := List.mem_map_of_mem (f := Prod.snd) hy
      rw [hl] at this
      simpa using this
    exact this _ rfl hy'

/-- The line loses power. -/
example {U I : Char → ℂ} (h : pairSpan.Law U I) (hI : I 'A' ≠ 0) : 0 < pairSpan.loss U I :=
  C148_losses spanFeeder_span (by norm_num [pairSpan]) h ⟨'A', by simp [pairSpan], hI⟩

/-- The feeder with two wires over earth, its load multiplied by a small factor, is run to the end with the default settings. -/
example (hL : L.Loaded) : ∃ g D, parseGrid lineReader spanFeeder [] = .ok g ∧ g.network seriesMade = .ok D ∧ SuppliedFeeder seriesMats spanFeeder g.lineData ∧
    (∀ s V, FeederFlowAt seriesMats spanFeeder g.lineData s V ↔ FileFlowAt spanFeeder s V) ∧
    ∃ s0 > 0, ∀ s : ℝ, s ≠ 0 → |s| ≤ s0 → ∃ cs vs R V,
      execute L ⟨1 / 100000, 20, true, false, false, true, true⟩ (idealSolve ((D.factor s s).network.assign L).size) cs vs (g.pf (D.factor s s)) = .ok (R, D.factor s s) ∧
      R.success = true ∧ FileFlowAt spanFeeder s V ∧ R.buses.length = 4 := by
  obtain ⟨g, D, hg, hD⟩ := spanFeeder_network
  have hown : ∀ x ∈ ownPlaces spanFeeder, x ∈ declaredPlaces spanFeeder := fun x hx => (mem_ownPlaces.1 hx).1
  have hacross : ∀ V : Txt → Char → ℂ, ∀ d ∈ declaredLoads spanFeeder, d.kind = .power ∧ d.value = (100, 20) ∧ d.across V = V "l_1".toList 'A' ∧ d.phases = ['A'] := by
    rw [spanFeeder_loads]
    intro V d hd
    rw [List.mem_singleton] at hd
    subst hd
    exact ⟨rfl, rfl, sub_zero _, rfl⟩
  have hval : (2400 * unitAt 'A' : ℂ) = ((2400 : ℝ) : ℂ) := by rw [unitAt_A]; norm_num
  have hlive : LoadsLive spanFeeder fun _ p => 2400 * unitAt p := fun d hd _ _ => by
    rw [(hacross _ d hd).2.2.1, hval]
    norm_num
  have hoff : LoadsOffAxes spanFeeder fun _ p => 2400 * unitAt p := fun d hd _ _ => by
    rw [(hacross _ d hd).2.2.1, (hacross (fun _ _ => 0) d hd).2.1, hval, Complex.conj_ofReal, ← Complex.ofReal_pow, Complex.re_mul_ofReal, Complex.im_mul_ofReal]
    constructor <;> norm_num [toComplex]
  have hst : NextTo spanFeeder (FileStep spanFeeder (wiredLines spanFeeder)) "n1".toList "l_1".toList :=
    ⟨_, _, Or.inl (.plain (.line (x := (spanLine, ['A', 'B'], ())) (by rw [spanFeeder_lines, spanFeeder_wired]; exact List.mem_singleton.2 rfl) (List.cons_ne_nil _ _) rfl rfl)),
      spanFeeder_roots.1, spanFeeder_roots.2⟩
  have hj : ∀ x ∈ ownPlaces spanFeeder, ∀ y ∈ ownPlaces spanFeeder, FileJoined spanFeeder (wiredLines spanFeeder) x.1.1 y.1.1 := fun x hx y hy => by
    rcases (spanFeeder_names x (hown x hx)).1 with e1 | e1 <;> rcases (spanFeeder_names y (hown y hy)).1 with e2 | e2 <;> rw [e1, e2]
    · exact .refl
    · exact .single hst
    · exact .single (nextTo_symm hst)
    · exact .refl
  have hr : LoadsRated spanFeeder := fun d hd _ x hx _ _ _ => ⟨2400, by norm_num, (spanFeeder_names x (hown x hx)).2.2.1⟩
  have hlen : (ownPlaces spanFeeder).length = 4 := by decide +kernel
  refine ⟨g, D, hg, hD, C148_supplied spanFeeder_supplied hg hD, C148_circuit spanFeeder_supplied hg hD, ?_⟩
  obtain ⟨s0, hs0, h⟩ := C148_execute_partial hL spanFeeder_supplied hg hD (fun e => by rw [e] at hlen; cases hlen) hj
    (fun x hx => Or.inr (spanFeeder_names x (hown x hx)).2.2.2) (fun x hx y hy _ u w hu hw => by
      rw [(spanFeeder_names x (hown x hx)).2.2.1] at hu
      rw [(spanFeeder_names y (hown y hy)).2.2.1] at hw
      cases hu
      cases hw
      norm_num [Phasor.magnitude]) hr spanFeeder_idle hlive hoff 1 (1 / 100000) one_pos (by norm_num)
  refine ⟨s0, hs0, fun s hs1 hs2 => ?_⟩
  obtain ⟨cs, hc⟩ := islands_exist (g.pf (D.factor s s)).buses (g.pf (D.factor s s)).connected
  obtain ⟨vs, hv⟩ := edgeIslands_exist ((g.pf (D.factor s s)).graph.plainEdges (g.pf (D.factor s s)).connected)
  obtain ⟨R, V, e1, e2, e3, e4⟩ := h s hs1 hs2 ⟨1 / 100000, 20, true, false, false, true, true⟩ le_rfl (by norm_num)
    (fun _ => ⟨by decide +kernel, by rw [show declaredCaps spanFeeder = [] by decide +kernel]; intro d hd; cases hd⟩) cs vs hc hv
  exact ⟨cs, vs, R, V, e1, e2, e3, e4.length_eq.trans hlen⟩

end Verif.Glm
