import Verif.Lemmas.GlmRun
import Verif.Props.GlmCarson

/-!
# C145: a lightly loaded feeder is solved

From the objects of a GridLAB-D file to the voltages the run returns: the conditions are on the objects, the conclusion is about names, phases and the circuit the
file describes.
-/

namespace Verif.Glm

open ComplexConjugate

variable {M : Type} {L : Library} {readLine : LineReader M} {make : M → List (ℕ × ℕ) → Except String Element} {mats : M → (ℕ → ℕ → ℂ) × (ℕ → ℕ → ℝ)}
  {objs : List (Txt × Obj)} {schedules : List (Txt × Txt)} {g : Grid M} {D : DxNet}

/-- **C145, the circuit.** For a plain feeder and every load factor the equations of the network with its loads multiplied by the factor are the circuit of the
file with its constant power multiplied by the factor. What is read for the lines is listed by `lineData`. -/
theorem C145_circuit (hL : L.Loaded) (hR : Keeps readLine objs) (hm : Makes make mats) (hf : PlainFeeder objs)
    (h : parseGrid readLine objs schedules = .ok g) (hD : g.network make = .ok D) :
    List.Forall₂ (LineRead readLine objs) (declaredLines objs) g.lineData ∧ ∀ s V,
      (∃ v, (∀ name p b, FileAt objs g name p b → V name p = ((D.factor s s).network.assign L).voltages v (some b)) ∧
        ∀ i, networkEq ((D.factor s s).network.assign L).all 0 v i = 0) ↔ FeederFlowAt mats objs g.lineData s V := by
  obtain ⟨lines, regs, hds, hP⟩ := feeder_parts hR hm hf h hD
  refine ⟨hds, fun s V => ?_⟩
  rw [DxNet.factor_network]
  exact hP.circuit hL hf s V

/-- The factor one leaves the circuit as it is. -/
theorem C145_one (ds : List (List Char × M)) (V : Txt → Char → ℂ) :
    FeederFlowAt mats objs ds 1 V ↔ FeederFlow mats objs ds V := feederFlowAt_one mats objs ds V

/-- Voltages of names that agree with those of buses agree at every place. -/
theorem Parts.same {ds : List (List Char × M)} {lines : List Element} {regs : List Item} (hP : Parts mats objs ds g D lines regs) {V V' : Txt → Char → ℂ} {W : Ref → ℂ}
    (h : ∀ n p b, FileAt objs g n p b → V n p = W (some b)) (h' : ∀ n p b, FileAt objs g n p b → V' n p = W (some b)) :
    ∀ x ∈ declaredPlaces objs, x.1.2.attr "parent".toList = none → V' x.1.1 x.2 = V x.1.1 x.2 := by
  intro x hx hp
  obtain ⟨b, hb⟩ := hP.busesOf.have_ x hx hp
  have := hb.2
  rw [h _ _ _ this, h' _ _ _ this]

/-- **C145, without load.** A feeder fed from its sources has voltages without constant power, and these are determined at every phase of every node. -/
theorem C145_idle (hL : L.Loaded) (hR : Keeps readLine objs) (hm : Makes make mats) (h : parseGrid readLine objs schedules = .ok g)
    (hD : g.network make = .ok D) (hs : SuppliedFeeder mats objs g.lineData) :
    ∃ V0, FeederFlowAt mats objs g.lineData 0 V0 ∧
      ∀ V', FeederFlowAt mats objs g.lineData 0 V' → ∀ x ∈ declaredPlaces objs, x.1.2.attr "parent".toList = none → V' x.1.1 x.2 = V0 x.1.1 x.2 := by
  obtain ⟨lines, regs, hds, hP⟩ := feeder_parts hR hm hs.plain h hD
  have hN := hP.sturdy hs
  have hc := hP.circuit hL hs.plain 0
  have hk := fun v => C67_equations_are_kirchhoff hL (D.network.factor 0 0) hN.plain 0 v
  obtain ⟨⟨x, hx⟩, hu⟩ := C125_unique_partial hL (D.network.factor 0 0) (factor_valid (hP.valid hs.plain) 0) hN
  have hV0 : ∀ n p b, FileAt objs g n p b → namedVolts objs g (((D.network.factor 0 0).assign L).voltages x) n p = ((D.network.factor 0 0).assign L).voltages x (some b) :=
    fun n p b hb => namedVolts_at hP.busesOf _ hb
  refine ⟨namedVolts objs g (((D.network.factor 0 0).assign L).voltages x), (hc _).1 ⟨x, hV0, (hk x).2 hx⟩, fun V' hV' => ?_⟩
  obtain ⟨y, hy1, hy2⟩ := (hc _).2 hV'
  rw [volt_agree hL hN.plain fun i hi => hu y x ((hk y).1 hy2) hx i hi] at hy1
  exact hP.same hV0 hy1

/-- **C145, the equations.** Take a feeder fed from its sources (`SuppliedFeeder`) and its voltages without constant power, under which every load of constant
power has voltage. For every distance there is a load factor up to which the circuit with its constant power multiplied by the factor has voltages within that
distance, and no others in which every load of constant power has at least half of its voltage without load. -/
theorem C145_solution_partial (hL : L.Loaded) (hR : Keeps readLine objs) (hm : Makes make mats) (h : parseGrid readLine objs schedules = .ok g)
    (hD : g.network make = .ok D) (hs : SuppliedFeeder mats objs g.lineData) {V0 : Txt → Char → ℂ} (h0 : FeederFlowAt mats objs g.lineData 0 V0)
    (hlive : LoadsLive objs V0) (ε : ℝ) (hε : 0 < ε) :
    ∃ s0 > 0, ∀ s : ℝ, |s| ≤ s0 → ∃ V, FeederFlowAt mats objs g.lineData s V ∧
      (∀ x ∈ declaredPlaces objs, x.1.2.attr "parent".toList = none → ‖V x.1.1 x.2 - V0 x.1.1 x.2‖ ≤ ε) ∧
      (∀ d ∈ declaredLoads objs, d.kind = .power → d.value ≠ 0 → ‖d.across V0‖ / 2 ≤ ‖d.across V‖) ∧
      ∀ V', FeederFlowAt mats objs g.lineData s V' → (∀ d ∈ declaredLoads objs, d.kind = .power → d.value ≠ 0 → ‖d.across V0‖ / 2 ≤ ‖d.across V'‖) →
        ∀ x ∈ declaredPlaces objs, x.1.2.attr "parent".toList = none → V' x.1.1 x.2 = V x.1.1 x.2 := by
  obtain ⟨lines, regs, hds, hP⟩ := feeder_parts hR hm hs.plain h hD
  have hN := hP.sturdy hs
  have hv := hP.valid hs.plain
  have hpl : D.network.optimization = none := hP.plain
  obtain ⟨x0, hx0, hz0⟩ := (hP.circuit hL hs.plain 0 V0).2 h0
  have hx0' : ∀ n p b, FileAt objs g n p b → V0 n p = (D.network.assign L).voltages x0 (some b) := hx0
  have hk0 := (C67_equations_are_kirchhoff hL (D.network.factor 0 0) hN.plain 0 x0).1 hz0
  obtain ⟨m, hm0, hfl⟩ := loads_floor hlive
  obtain ⟨s1, hs1, hA⟩ := C130_healthy_partial hL D.network hv hN x0 hk0 (fun k hk => by
    obtain ⟨d, hd, hdk, hdv, e⟩ := hP.loadAt hs hk
    rw [e V0 _ rfl hx0']
    exact hlive d hd hdk hdv)
  obtain ⟨δ, hδ, hB⟩ := C130_solution_partial hL D.network hv hN x0 hk0 (hP.regular hs rfl hx0' hlive)
  obtain ⟨s2, hs2, hB⟩ := hB (min ε m / 8) (by positivity)
  refine ⟨min s1 s2, lt_min hs1 hs2, fun s hss => ?_⟩
  obtain ⟨x, hx1, hx2, hx3⟩ := hA s (hss.trans (min_le_left _ _))
  obtain ⟨w, hw1, hw2, -⟩ := hB s (hss.trans (min_le_right _ _))
  have hclose : ∀ r, ‖(D.network.assign L).voltages w r - (D.network.assign L).voltages x0 r‖ ≤ min ε m / 4 := fun r => by
    have := volt_close hL (N := D.network) hpl (by positivity) hw1 r
    linarith
  have hVw : ∀ n p b, FileAt objs g n p b → namedVolts objs g ((D.network.assign L).voltages w) n p = (D.network.assign L).voltages w (some b) :=
    fun n p b hb => namedVolts_at hP.busesOf _ hb
  have hhalf : ∀ d ∈ declaredLoads objs, d.kind = .power → d.value ≠ 0 → ‖d.across V0‖ / 2 ≤ ‖d.across (namedVolts objs g ((D.network.assign L).voltages w))‖ := by
    intro d hd hdk hdv
    obtain ⟨y, hy, hdec⟩ := forall₂_mem_left hP.loads hd
    have h2 := hfl d hd hdk hdv
    rw [← declared_across (W := (D.network.assign L).voltages w) rfl hVw hdec]
    rw [← declared_across (W := (D.network.assign L).voltages x0) rfl hx0' hdec] at h2 ⊢
    have h4 := hclose (some y.f)
    have h5 := hclose y.t
    set a := (D.network.assign L).voltages w (some y.f)
    set b := (D.network.assign L).voltages w y.t
    set a' := (D.network.assign L).voltages x0 (some y.f)
    set b' := (D.network.assign L).voltages x0 y.t
    have h6 : ‖a' - b'‖ ≤ ‖a - b‖ + (‖a - a'‖ + ‖b - b'‖) := by
      calc ‖a' - b'‖ = ‖(a - b) + (-(a - a') + (b - b'))‖ := by congr 1; ring
        _ ≤ _ := (norm_add_le _ _).trans (by
          have := norm_add_le (-(a - a')) (b - b')
          rw [norm_neg] at this
          linarith)
    linarith [min_le_right ε m]
  have hloads : ∀ (V : Txt → Char → ℂ) (y : ℕ → ℝ), (∀ n p b, FileAt objs g n p b → V n p = (D.network.assign L).voltages y (some b)) →
      (∀ d ∈ declaredLoads objs, d.kind = .power → d.value ≠ 0 → ‖d.across V0‖ / 2 ≤ ‖d.across V‖) → ∀ k, D.network.power k ≠ 0 →
      ‖D.network.across ((D.network.assign L).voltages x0) k‖ / 2 ≤ ‖D.network.across ((D.network.assign L).voltages y) k‖ := fun V y hVy hh k hk => by
    obtain ⟨d, hd, hdk, hdv, e⟩ := hP.loadAt hs hk
    rw [e V0 _ rfl hx0', e V _ rfl hVy]
    exact hh d hd hdk hdv
  have hwx := hx3 w hw2 (hloads _ w hVw hhalf)
  refine ⟨namedVolts objs g ((D.network.assign L).voltages w), (hP.circuit hL hs.plain s _).1 ⟨w, hVw, (C67_equations_are_kirchhoff hL (D.network.factor s s) hpl 0 w).2 hw2⟩,
    fun x hx hp => ?_, hhalf, fun V' hV' hh => ?_⟩
  · obtain ⟨b, hb⟩ := hP.busesOf.have_ x hx hp
    have := hb.2
    rw [hVw _ _ _ this, hx0' _ _ _ this]
    have := hclose (some b)
    linarith [min_le_left ε m]
  · obtain ⟨y, hy1, hy2⟩ := (hP.circuit hL hs.plain s V').2 hV'
    have hy1' : ∀ n p b, FileAt objs g n p b → V' n p = (D.network.assign L).voltages y (some b) := hy1
    have hyx := hx3 y ((C67_equations_are_kirchhoff hL (D.network.factor s s) hpl 0 y).1 hy2) (hloads V' y hy1' hh)
    rw [volt_agree hL (N := D.network) hpl fun i hi => (hyx i hi).trans (hwx i hi).symm] at hy1'
    exact hP.same hVw hy1'

/-- **C145, the run.** Take a feeder as before whose loads are not aligned with their voltages without load (`LoadsOffAxes`), and a start vector under which every
load of constant power has voltage. If device control is on, there are no fuses, and capacitors are switched by hand. For every distance and tolerance all small
enough load factors but zero make the whole run - device control, homotopy and Newton's method - report success and leave the devices as they are. The voltages it
returns are within that distance of voltages of the circuit of the file with its constant power multiplied by the factor. -/
theorem C145_run_partial (hL : L.Loaded) (hR : Keeps readLine objs) (hm : Makes make mats) (h : parseGrid readLine objs schedules = .ok g)
    (hD : g.network make = .ok D) (hs : SuppliedFeeder mats objs g.lineData) (hne : ∃ x ∈ declaredPlaces objs, x.1.2.attr "parent".toList = none)
    {V0 : Txt → Char → ℂ} (h0 : FeederFlowAt mats objs g.lineData 0 V0) (hlive : LoadsLive objs V0) (hoff : LoadsOffAxes objs V0) (vInit : ℕ → ℝ) {Vi : Txt → Char → ℂ}
    (hVi : ∀ name p b, FileAt objs g name p b → Vi name p = (D.network.assign L).voltages vInit (some b)) (hvi : LoadsLive objs Vi)
    (ε tol : ℝ) (hε : 0 < ε) (htol : 0 < tol) :
    ∃ s0 > 0, ∀ s : ℝ, s ≠ 0 → |s| ≤ s0 → ∀ (C : NRContext) (txStepping control : Bool), C.solve = idealSolve (D.network.assign L).size → C.limit = none →
      tol ≤ C.tolerance → 2 ≤ C.maxIters →
      (control = true → declaredFuses objs = [] ∧ ∀ d ∈ declaredCaps objs, d.obj.attr "control".toList = some "MANUAL".toList) →
      ∃ r V, ((D.factor s s).run L C txStepping control vInit).out = .ok (r, D.factor s s) ∧ r.success = true ∧ FeederFlowAt mats objs g.lineData s V ∧
        (∀ x ∈ declaredPlaces objs, x.1.2.attr "parent".toList = none → ‖V x.1.1 x.2 - V0 x.1.1 x.2‖ ≤ ε) ∧
        ∀ name p b, FileAt objs g name p b → ‖((D.factor s s).network.assign L).voltages r.v (some b) - V name p‖ ≤ ε := by
  obtain ⟨lines, regs, hds, hP⟩ := feeder_parts hR hm hs.plain h hD
  have hN := hP.sturdy hs
  have hv := hP.valid hs.plain
  have hpl : D.network.optimization = none := hP.plain
  obtain ⟨x0, hx0, hz0⟩ := (hP.circuit hL hs.plain 0 V0).2 h0
  have hx0' : ∀ n p b, FileAt objs g n p b → V0 n p = (D.network.assign L).voltages x0 (some b) := hx0
  have hk0 := (C67_equations_are_kirchhoff hL (D.network.factor 0 0) hN.plain 0 x0).1 hz0
  have hsz : (D.network.assign L).size ≠ 0 := by
    obtain ⟨x, hx, hp⟩ := hne
    obtain ⟨b, hb⟩ := hP.busesOf.have_ x hx hp
    refine size_of_bus hL hpl ?_
    rw [hP.buses]
    exact Nat.lt_of_le_of_lt (Nat.zero_le _) (fileAt_lt hb.2)
  obtain ⟨s1, hs1, hA⟩ := C130_light_partial hL D.network hv hN hsz x0 hk0 (hP.steady hs rfl hx0' hoff) vInit (hP.regular hs rfl hVi hvi) (ε / 4) tol (by positivity) htol
  obtain ⟨s2, hs2, hB⟩ := C145_solution_partial hL hR hm h hD hs h0 hlive (ε / 2) (by positivity)
  refine ⟨min s1 s2, lt_min hs1 hs2, fun s hs0 hss C tx control hsolve hlim htl hmax hctl => ?_⟩
  obtain ⟨V, hV1, hV2, -⟩ := hB s (hss.trans (min_le_right _ _))
  obtain ⟨m, hmb, -⟩ := build_ready (D.network.factor s s).opt ((D.network.factor s s).assign L).all (network_wellPlaced hL _ (factor_valid hv s))
  have hfs := factor_size (N := D.network) (L := L) hpl hL s
  obtain ⟨r, hr1, hr2, -, -, -, hr3⟩ := hA s hs0 (hss.trans (min_le_left _ _)) m { C with size := ((D.network.factor s s).assign L).size } tx hmb rfl
    (by show C.solve = idealSolve _; rw [hfs]; exact hsolve) hlim htl hmax
  refine ⟨r, V, ?_, hr2, hV1, fun x hx hp => by linarith [hV2 x hx hp], fun name p b hb => ?_⟩
  · refine settled_run (m := m) (factor_items (fun e => rfl) (hP.good hs.plain hD)) (fun hc => factor_items (fun e => trivial) (hP.still hD (hctl hc).1 (hctl hc).2)) ?_ ?_
    · rw [DxNet.factor_network]
      exact hmb
    · rw [DxNet.factor_network]
      exact hr1
  · rw [DxNet.factor_network, factor_voltages]
    have hw : Within (D.network.assign L).size (ε / 4) r.v x0 := fun i hi => hr3 i (by show i < ((D.network.factor s s).assign L).size; rw [hfs]; exact hi)
    have h1 := volt_close hL (N := D.network) hpl (by positivity) hw (some b)
    obtain ⟨root, y, hroot, hy, hyn, hyp, hyv⟩ := hb
    obtain ⟨x, hx, hp, hxn, hxp⟩ := hP.busesOf.outer b y hy hyv
    have h2 := hV2 x hx hp
    have hVr : V name p = V x.1.1 x.2 := by
      have hc := hV1
      obtain ⟨_, -, hc⟩ := hc
      rw [hxp, hyp]
      have := hc.1 x hx hp name (by rw [hxn, hyn]; exact hroot)
      rw [hxp, hyp] at this
      exact this
    have hat : FileAt objs g x.1.1 x.2 b := by
      obtain ⟨b', hb'⟩ := hP.busesOf.have_ x hx hp
      exact ⟨x.1.1, y, hb'.1, hy, hxn.symm, hxp.symm, hyv⟩
    rw [← hx0' _ _ _ hat] at h1
    rw [hVr]
    rw [norm_sub_rev] at h2
    calc _ = ‖((D.network.assign L).voltages r.v (some b) - V0 x.1.1 x.2) + (V0 x.1.1 x.2 - V x.1.1 x.2)‖ := by rw [sub_add_sub_cancel]
      _ ≤ _ := norm_add_le _ _
      _ ≤ ε := by linarith

/-! ### A feeder -/

/-- A source, a line and a load on one phase. -/
def shortFeeder : List (Txt × Obj) := [
  fileObject "node" [("name", "n1"), ("phases", "A"), ("bustype", "SWING"), ("nominal_voltage", "2400")],
  fileObject "overhead_line" [("name", "o"), ("phases", "A"), ("from", "n1"), ("to", "l_1"), ("length", "100")],
  fileObject "load" [("name", "l_1"), ("phases", "A"), ("nominal_voltage", "2400"), ("constant_power_A", "100+20j")]]

/-- The constructor of its line, with an impedance of one ohm per unit of length. -/
noncomputable def shortMake : ℚ → List (ℕ × ℕ) → Except String Element := fun d ps => makeUnbalanced exactInverse (1 : Matrix (Fin 1) (Fin 1) ℂ) (fun _ _ => none) d ps

/-- The admittances of its line. -/
noncomputable def shortMats (d : ℚ) : (ℕ → ℕ → ℂ) × (ℕ → ℕ → ℝ) := (entryAt (((d : ℝ) : ℂ) • (1 : Matrix (Fin 1) (Fin 1) ℂ))⁻¹, fun _ _ => 0)

theorem shortFeeder_makes : Makes shortMake shortMats := makes_unbalanced (fun _ : ℚ => (1 : Matrix (Fin 1) (Fin 1) ℂ)) (fun _ _ _ => none) fun d => (d : ℝ)

theorem shortFeeder_network : ∃ g D, parseGrid oneLine shortFeeder [] = .ok g ∧ g.network shortMake = .ok D ∧ g.lineData = [(['A'], 100)] := by
  have : (match parseGrid oneLine shortFeeder [] with
    | .ok g => decide (g.regulators.length = 0 ∧ g.lineData = [(['A'], 100)] ∧ ∀ l ∈ g.lines, l.data = 100 ∧ (linePhases g l).map List.length = .ok 1)
    | .error _ => false) = true := by decide +kernel
  cases hg : parseGrid oneLine shortFeeder [] with
  | error e => rw [hg] at this; cases this
  | ok g =>
    rw [hg] at this
    obtain ⟨h1, h3, h2⟩ := of_decide_eq_true this
    obtain ⟨ls, hls, -⟩ := mapM_except_ok (lineElement shortMake g) g.lines fun l hl => by
      obtain ⟨e1, e2⟩ := h2 l hl
      rw [lineElement]
      cases hb : linePhases g l with
      | error e => rw [hb] at e2; cases e2
      | ok bs =>
        rw [hb] at e2
        have hlen : bs.length = 1 := Except.ok.inj e2
        simp only [shortMake, e1]
        refine (C18_exact _ _ _ bs (by norm_num) hlen).1.2 ?_
        simp
    have hr : g.regulators = [] := List.length_eq_zero_iff.1 h1
    have hD : ∃ D, g.network shortMake = .ok D := by
      rw [Grid.network, hls, hr]
      exact ⟨_, rfl⟩
    obtain ⟨D, hD⟩ := hD
    exact ⟨g, D, rfl, hD, h3⟩

theorem shortFeeder_plain : PlainFeeder shortFeeder where
  keys := by decide +kernel
  outer := outerFile_of_check (by decide +kernel)
  once := by
    have : ∀ x ∈ shortFeeder, isPlace x.2 = true → (placePhases x.2).Nodup := by decide +kernel
    exact fun name o hm => this (name, o) hm
  noBase := by
    have : ∀ x ∈ shortFeeder, isLoadObj x.2 = true → ∀ c ∈ loadEndings, x.2.attr ("base_power_".toList ++ c) = none := by decide +kernel
    exact fun name o hm => this (name, o) hm
  states := by
    have : ∀ x ∈ shortFeeder, isSwitchObj x.2 = false := by decide +kernel
    intro name o hm hs
    rw [this _ hm] at hs
    cases hs
  fuseStates := by
    have : ∀ x ∈ shortFeeder, isFuseObj x.2 = false := by decide +kernel
    intro name o hm hs
    rw [this _ hm] at hs
    cases hs
  fusesGood := by decide +kernel
  plain := by
    have : ∀ x ∈ shortFeeder, x.2.cls ∈ ["regulator", "transformer"].map String.toList → ∀ c ∈ configOf shortFeeder x.2, c.cls ∉ conductorClasses := by decide +kernel
    exact fun name o c hm hc h => this (name, o) hm hc c h
  noStray := by
    have : ∀ x ∈ shortFeeder, x.2.cls ≠ "regulator".toList := by decide +kernel
    exact fun name o hm hc => absurd hc (this _ hm)
  ownSources := by decide +kernel
  caps := by decide +kernel
  capsWye := by
    have : ∀ d ∈ declaredCaps shortFeeder, ∀ t ∈ d.obj.attr "phases".toList, 'D' ∉ t := by decide +kernel
    exact this
  taps := by
    have : declaredRegs shortFeeder = [] := by decide +kernel
    rw [this]
    intro d hd
    cases hd
  noShunts := by
    have : declaredXfmrs shortFeeder = [] := by decide +kernel
    rw [this]
    intro o c p q h
    cases h
  centerTaps := by
    have : declaredXfmrs shortFeeder = [] := by decide +kernel
    rw [this]
    intro o c h
    cases h

theorem shortFeeder_loads : declaredLoads shortFeeder = [⟨"l_1".toList, ['A'], .power, (100, 20)⟩] := by decide +kernel

theorem shortFeeder_sources : declaredSources shortFeeder = [(shortFeeder[0], 'A')] := by decide +kernel

theorem shortFeeder_lines : declaredLines shortFeeder = [shortFeeder[1].2] := by decide +kernel

theorem shortFeeder_places : declaredPlaces shortFeeder = [(shortFeeder[0], 'A'), (shortFeeder[2], 'A')] := by decide +kernel

theorem shortFeeder_supplied : SuppliedFeeder shortMats shortFeeder [(['A'], (100 : ℚ))] where
  plain := shortFeeder_plain
  lines := by
    intro d hd
    rw [List.mem_singleton] at hd
    subst hd
    have hsym : ∀ (A : Matrix (Fin 1) (Fin 1) ℂ) i j, entryAt A i j = entryAt A j i := by
      intro A i j
      unfold entryAt
      by_cases h : i < 1 ∧ j < 1
      · obtain ⟨rfl, rfl⟩ : i = 0 ∧ j = 0 := by omega
        rfl
      · rw [dif_neg h, dif_neg (by omega)]
    refine ⟨hsym _, fun _ _ => rfl, fun d ⟨i, hi, hd⟩ => ?_⟩
    obtain rfl : i = 0 := by
      have : i < 1 := hi
      omega
    have he : ((shortMats 100).1 0 0).re = 1 / 100 := by
      show (entryAt (((100 : ℚ) : ℝ) • (1 : Matrix (Fin 1) (Fin 1) ℂ))⁻¹ 0 0).re = 1 / 100
      rw [entryAt, dif_pos ⟨by norm_num, by norm_num⟩, Matrix.inv_subsingleton]
      norm_num
    show 0 < ∑ i ∈ Finset.range 1, ∑ j ∈ Finset.range 1, d i * ((shortMats 100).1 i j).re * d j
    rw [Finset.sum_range_one, Finset.sum_range_one, he]
    have := mul_self_pos.2 hd
    linarith
  coils := by
    have : declaredXfmrs shortFeeder = [] := by decide +kernel
    rw [this]
    intro o c p q h
    cases h
  taps := by
    have : declaredXfmrs shortFeeder = [] := by decide +kernel
    rw [this]
    intro o c h
    cases h
  regs := by
    have : declaredRegs shortFeeder = [] := by decide +kernel
    rw [this]
    intro d hd
    cases hd
  impedances := by
    rw [shortFeeder_loads]
    intro d hd hk
    rw [List.mem_singleton] at hd
    subst hd
    cases hk
  fed := by
    have hsrc : Fed shortFeeder [(['A'], (100 : ℚ))] "n1".toList 'A' := Fed.source (x := (shortFeeder[0], 'A')) (by rw [shortFeeder_sources]; exact List.mem_singleton.2 rfl)
    rw [shortFeeder_places]
    intro x hx _
    rcases List.mem_cons.1 hx with rfl | hx
    · exact hsrc
    · rw [List.mem_singleton] at hx
      subst hx
      exact Fed.line (x := (shortFeeder[1].2, ['A'], 100)) (by rw [shortFeeder_lines]; exact List.mem_singleton.2 rfl) rfl rfl (List.mem_singleton.2 rfl) hsrc
  ideal := by
    refine ⟨fun _ _ => 0, fun _ _ _ _ => rfl, ?_⟩
    have h2 : declaredSwitches shortFeeder = [] := by decide +kernel
    rw [idealBranches, shortFeeder_sources, h2]
    exact .leaf (l₁ := []) (l₂ := []) 0 .nil (by simp) (Or.inl ⟨rfl, by simp⟩)

/-- Currents that are all zero add up to zero. -/
theorem drawnAt_zero {objs : List (Txt × Obj)} {r : Txt} {p : Char} {l : List (Term × ℂ)} (h : ∀ x ∈ l, x.2 = 0) : drawnAt objs r p l = 0 := by
  rw [drawnAt]
  refine List.sum_eq_zero fun z hz => ?_
  obtain ⟨x, hx, rfl⟩ := List.mem_map.1 hz
  rw [h x hx, ite_self]

/-- Without load all of it is at the voltage of the source. -/
theorem shortFeeder_idle : FeederFlowAt shortMats shortFeeder [(['A'], (100 : ℚ))] 0 fun _ _ => 2400 := by
  refine ⟨[[(some ("n1".toList, 'A'), 0), (some ("l_1".toList, 'A'), 0)]], ?_, fun _ _ _ _ _ => rfl, [], [[(some ("n1".toList, 'A'), 0)]], [],
    [through (some ("l_1".toList, 'A')) none 0], [], [], [], ?_, ?_, ?_, ?_, ?_, ?_, ?_, fun x _ _ => ?_⟩
  · rw [shortFeeder_lines]
    refine .cons ⟨"n1".toList, "l_1".toList, rfl, rfl, ?_⟩ .nil
    have : ∀ (a b : Txt) (i : ℕ), wireCurrent (fun _ _ => 2400) a b ['A'] (shortMats 100).1 (shortMats 100).2 i = 0 := by
      intro a b i
      rw [wireCurrent]
      refine List.sum_eq_zero fun z hz => ?_
      obtain ⟨j, -, rfl⟩ := List.mem_map.1 hz
      simp [shortMats]
    show _ = (List.range 1).flatMap _
    simp only [this]
    rfl
  · rw [show declaredXfmrs shortFeeder = [] by decide +kernel]
    exact .nil
  · rw [shortFeeder_sources]
    refine .cons ⟨.nominal 2400 'A', 0, by decide +kernel, ?_, rfl⟩ .nil
    rw [Phasor.complex, unitAt, if_neg (by decide), if_neg (by decide), if_neg (by decide)]
    norm_num
  · rw [show declaredSwitches shortFeeder = [] by decide +kernel]
    exact .nil
  · rw [shortFeeder_loads]
    refine .cons ⟨'A', [], rfl, ?_⟩ .nil
    rw [show ∀ U, DeclaredLoad.currentAt 0 ⟨"l_1".toList, ['A'], .power, (100, 20)⟩ U = 0 from fun U => by simp [DeclaredLoad.currentAt]]
    rfl
  · rw [show declaredRegs shortFeeder = [] by decide +kernel]
    exact .nil
  · rw [show declaredFuses shortFeeder = [] by decide +kernel]
    exact .nil
  · rw [show declaredCaps shortFeeder = [] by decide +kernel]
    exact .nil
  · refine drawnAt_zero fun y hy => ?_
    have hy' : y ∈ ([(some ("n1".toList, 'A'), 0), (some ("l_1".toList, 'A'), 0), (some ("n1".toList, 'A'), 0), (some ("l_1".toList, 'A'), 0), (none, -0)] : List (Term × ℂ)) := hy
    rcases List.mem_cons.1 hy' with rfl | hy'
    · rfl
    rcases List.mem_cons.1 hy' with rfl | hy'
    · rfl
    rcases List.mem_cons.1 hy' with rfl | hy'
    · rfl
    rcases List.mem_cons.1 hy' with rfl | hy'
    · rfl
    rw [List.mem_singleton] at hy'
    subst hy'
    exact neg_zero

/-- The feeder with its loads as they are. -/
example (V : Txt → Char → ℂ) : FeederFlowAt shortMats shortFeeder [(['A'], 100)] 1 V ↔ FeederFlow shortMats shortFeeder [(['A'], 100)] V := C145_one _ V

theorem shortFeeder_across (V : Txt → Char → ℂ) : ∀ d ∈ declaredLoads shortFeeder, d.kind = .power ∧ d.value = (100, 20) ∧ d.across V = V "l_1".toList 'A' := by
  rw [shortFeeder_loads]
  intro d hd
  rw [List.mem_singleton] at hd
  subst hd
  exact ⟨rfl, rfl, sub_zero _⟩

/-- The feeder with the load multiplied by a small factor is solved, with device control and without, and has one solution in which the load has at least half the
voltage of the source. -/
example (hL : L.Loaded) : ∃ g D, parseGrid oneLine shortFeeder [] = .ok g ∧ g.network shortMake = .ok D ∧
    (∃ V0, FeederFlowAt shortMats shortFeeder g.lineData 0 V0 ∧
      ∀ V', FeederFlowAt shortMats shortFeeder g.lineData 0 V' → ∀ x ∈ declaredPlaces shortFeeder, x.1.2.attr "parent".toList = none → V' x.1.1 x.2 = V0 x.1.1 x.2) ∧
    (∃ s0 > 0, ∀ s : ℝ, |s| ≤ s0 → ∃ V, FeederFlowAt shortMats shortFeeder g.lineData s V ∧ ‖V "l_1".toList 'A' - 2400‖ ≤ 1) ∧
    ∃ vInit, ∃ s0 > 0, ∀ s : ℝ, s ≠ 0 → |s| ≤ s0 → ∀ (C : NRContext) (txStepping control : Bool), C.solve = idealSolve (D.network.assign L).size → C.limit = none →
      1 / 1000 ≤ C.tolerance → 2 ≤ C.maxIters →
      ∃ r V, ((D.factor s s).run L C txStepping control vInit).out = .ok (r, D.factor s s) ∧ r.success = true ∧ FeederFlowAt shortMats shortFeeder g.lineData s V := by
  obtain ⟨g, D, hg, hD, hds⟩ := shortFeeder_network
  have hs : SuppliedFeeder shortMats shortFeeder g.lineData := hds ▸ shortFeeder_supplied
  have h0 : FeederFlowAt shortMats shortFeeder g.lineData 0 fun _ _ => 2400 := hds ▸ shortFeeder_idle
  have hlive : LoadsLive shortFeeder fun _ _ => 2400 := fun d hd _ _ => by
    rw [(shortFeeder_across _ d hd).2.2]
    norm_num
  have hoff : LoadsOffAxes shortFeeder fun _ _ => 2400 := fun d hd _ _ => by
    rw [(shortFeeder_across _ d hd).2.2, (shortFeeder_across (fun _ _ => 0) d hd).2.1]
    have : conj (2400 : ℂ) ^ 2 = ((5760000 : ℝ) : ℂ) := by
      rw [show (2400 : ℂ) = ((2400 : ℝ) : ℂ) by norm_num, Complex.conj_ofReal]
      norm_num
    rw [this, Complex.re_mul_ofReal, Complex.im_mul_ofReal]
    constructor <;> norm_num [toComplex]
  have hplace : (shortFeeder[2], 'A') ∈ declaredPlaces shortFeeder := by
    rw [shortFeeder_places]
    exact List.mem_cons_of_mem _ (List.mem_singleton.2 rfl)
  obtain ⟨v, hv, -⟩ := ((C145_circuit hL oneLine_keeps shortFeeder_makes shortFeeder_plain hg hD).2 0 _).2 h0
  rw [DxNet.factor_network] at hv
  refine ⟨g, D, hg, hD, C145_idle hL oneLine_keeps shortFeeder_makes hg hD hs, ?_, v, ?_⟩
  · obtain ⟨s0, hs0, h⟩ := C145_solution_partial hL oneLine_keeps shortFeeder_makes hg hD hs h0 hlive 1 one_pos
    refine ⟨s0, hs0, fun s hss => ?_⟩
    obtain ⟨V, h1, h2, -⟩ := h s hss
    exact ⟨V, h1, h2 _ hplace rfl⟩
  · obtain ⟨s0, hs0, h⟩ := C145_run_partial hL oneLine_keeps shortFeeder_makes hg hD hs ⟨_, hplace, rfl⟩ h0 hlive hoff v hv hlive 1 (1 / 1000) one_pos (by norm_num)
    refine ⟨s0, hs0, fun s hs1 hss C tx control hsolve hlim htl hmax => ?_⟩
    obtain ⟨r, V, h1, h2, h3, -⟩ := h s hs1 hss C tx control hsolve hlim htl hmax fun _ => ⟨by decide +kernel, by
      rw [show declaredCaps shortFeeder = [] by decide +kernel]
      intro d hd
      cases hd⟩
    exact ⟨r, V, h1, h2, h3⟩

end Verif.Glm
