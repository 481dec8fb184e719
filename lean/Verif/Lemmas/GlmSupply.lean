import Verif.Props.GlmFlow
import Verif.Spec.GlmSupply
import Verif.Lemmas.Light

/-!
# The network of a supplied feeder
-/

namespace Verif.Glm

open ComplexConjugate

variable {M : Type}

/-- What becomes of the parts of a file: the network `D` has the elements of the devices of the file. -/
structure Parts (mats : M → (ℕ → ℕ → ℂ) × (ℕ → ℕ → ℝ)) (objs : List (Txt × Obj)) (ds : List (List Char × M)) (g : Grid M) (D : DxNet)
    (lines : List Element) (regs : List Item) : Prop where
  elements : D.network.elements = lines ++ otherElements g regs
  plain : D.network.optimization = none
  buses : D.network.buses = g.buses.length
  busesOf : BusesOf objs g
  inner : InnerOnce g
  wires : List.Forall₂ (IsWires mats objs g) ((declaredLines objs).zip ds) lines
  xfmrs : List.Forall₂ (IsXfmr objs g) (declaredXfmrs objs) g.transformers
  sources : List.Forall₂ (fun (x : (Txt × Obj) × Char) (y : ℕ × Phasor) => FileAt objs g x.1.1 x.2 y.1 ∧ swingVoltage x.1.2 x.2 = some y.2)
    (declaredSources objs) g.slacks
  switches : List.Forall₂ (IsSwitch objs g) (declaredSwitches objs) g.switches
  loads : List.Forall₂ (IsDeclared objs g) (declaredLoads objs) g.loads
  settings : List.Forall₂ (fun d x => IsReg objs g d x ∧ -x.lowerTaps ≤ x.tap ∧ x.tap ≤ x.raiseTaps) (declaredRegs objs) g.regulators
  items : List.Forall₂ (fun x it => x.item = .ok it) g.regulators regs
  fuses : List.Forall₂ (IsFuse objs g) (declaredFuses objs) g.fuses
  caps : List.Forall₂ (IsCap objs g) (declaredCaps objs) g.capacitors

section File

variable {readLine : LineReader M} {schedules : List (Txt × Txt)} {objs : List (Txt × Obj)} {g : Grid M}
  {make : M → List (ℕ × ℕ) → Except String Element} {mats : M → (ℕ → ℕ → ℂ) × (ℕ → ℕ → ℝ)}

/-- What becomes of the lines of a file, with their data. -/
theorem lines_data (hR : Keeps readLine objs) (hm : Makes make mats) (hO : OuterFile objs) (hk : (objs.map Prod.fst).Nodup)
    (h : parseGrid readLine objs schedules = .ok g) {lines : List Element} (hl : g.lines.mapM (lineElement make g) = .ok lines) :
    List.Forall₂ (LineRead readLine objs) (declaredLines objs) g.lineData ∧ List.Forall₂ (IsWires mats objs g) ((declaredLines objs).zip g.lineData) lines := by
  obtain ⟨s, groups, hr⟩ := parseGrid_read hR hO h
  have hF' : List.Forall₂ (fun o l => o ∈ declaredLines objs ∧ IsLine readLine objs o l) (declaredLines objs) g.lines :=
    (List.forall₂_and_left _ _).2 ⟨fun o ho => ho, hr.lines hk⟩
  exact forall₂_zip (f := fun l : DLine M => (l.phases, l.data)) (A := LineRead readLine objs)
    (T := IsWires mats objs g) (fun o l e a b => wires_of hr hO hm a.1 a.2 b) (fun o l a => a.2.2.2) hF' (mapM_forall₂ hl)

theorem feeder_parts (hR : Keeps readLine objs) (hm : Makes make mats) (hf : PlainFeeder objs)
    (h : parseGrid readLine objs schedules = .ok g) {D : DxNet} (hD : g.network make = .ok D) :
    ∃ lines regs, List.Forall₂ (LineRead readLine objs) (declaredLines objs) g.lineData ∧ Parts mats objs g.lineData g D lines regs := by
  obtain ⟨lines, regs, hl, hrg, hel, hopt, hbus⟩ := network_parts hD
  obtain ⟨hds, hwires⟩ := lines_data hR hm hf.outer hf.keys h hl
  refine ⟨lines, regs, hds, hel, hopt, hbus, plain_buses hR hf.outer hf.keys hf.once h, parseGrid_inner h, hwires,
    C60_coils hR hf.outer hf.keys hf.plain h, ?_, C87_switches_partial hR hf.outer hf.keys hf.states h, C85_loads hR hf.outer hf.keys hf.noBase h, ?_,
    mapM_forall₂ hrg, C86_fuses_partial hR hf.outer hf.keys hf.fuseStates h, C91_capacitors_partial hR hf.outer hf.keys h⟩
  · refine ((List.forall₂_and_left _ _).2 ⟨hf.ownSources, C84_sources_partial hR hf.outer hf.keys h⟩).imp fun x y hy => ?_
    exact ⟨hy.2.1, hy.2.2 hy.1⟩
  · refine ((List.forall₂_and_left _ _).2 ⟨hf.taps, C98_regulators_partial hR hf.outer hf.keys hf.plain hf.noStray h⟩).imp fun d x hx => ?_
    obtain ⟨htaps, hx⟩ := hx
    refine ⟨hx, ?_⟩
    obtain ⟨-, -, -, c, hcf, -, ⟨t, ht, htp⟩, ⟨t1, ht1, hu⟩, ⟨t2, ht2, hd⟩, -⟩ := hx
    exact htaps c hcf t _ t1 _ t2 _ ht htp ht1 hu ht2 hd

end File

section Net

variable {objs : List (Txt × Obj)} {g : Grid M} {mats : M → (ℕ → ℕ → ℂ) × (ℕ → ℕ → ℝ)} {ds : List (List Char × M)} {D : DxNet} {lines : List Element}
  {regs : List Item}

/-! ### The circuit with a load factor -/

theorem load_drawsAt (s : ℝ) {d : DeclaredLoad} {x : GLoad} (h : IsDeclared objs g d x) (V : Ref → ℂ) (w : List ℝ) :
    (x.element.factor s s).draws 0 V w = branch (some x.f) x.t (d.currentAt s (V (some x.f) - V x.t)) := by
  obtain ⟨a, rest, -, -, -, hp, hz, hi⟩ := h
  rw [GLoad.element, Element.factor, Element.draws]
  congr 1
  have hS : (⟨(x.p : ℝ) * s, (x.q : ℝ) * s⟩ : ℂ) = s * toComplex (x.p, x.q) := by
    apply Complex.ext <;> simp [toComplex] <;> ring
  have hI : (⟨(x.i.1 : ℝ), (x.i.2 : ℝ)⟩ : ℂ) = toComplex x.i := rfl
  have hZ : complexPair x.z = toComplex x.z := rfl
  simp only [Complex.ofReal_zero, sub_zero, one_mul]
  rw [hS, hI, hZ, hp, hz, hi, DeclaredLoad.currentAt]
  cases d.kind with
  | power => simp [toComplex_zero]
  | impedance => simp [toComplex_zero, div_eq_inv_mul]
  | current => simp [toComplex_zero]

theorem load_flowAt (s : ℝ) {V : Txt → Char → ℂ} {U : Ref → ℂ} (hc : Places objs g V U) {d : DeclaredLoad} {x : GLoad} (h : IsDeclared objs g d x) (w : List ℝ) :
    ∃ l, LoadFlowAt s V d l ∧ Carries objs g l ((x.element.factor s s).draws 0 U w) := by
  rw [load_drawsAt s h]
  obtain ⟨a, rest, hd, h1, h2, -⟩ := h
  have ht := termBus_of h2
  refine ⟨_, ⟨a, rest, hd, rfl⟩, fun r p k hP => ?_⟩
  rw [through, hc.drawn_cons h1.term hP, hc.drawn_cons ht hP, branch, busSum_cons, busSum_cons, hc.volt _ _ _ h1, hc.termVolt ht]
  rfl

theorem load_modelsAt (s : ℝ) {V : Txt → Char → ℂ} {d : DeclaredLoad} {x : GLoad} (h : IsDeclared objs g d x) :
    Models objs g V (LoadFlowAt s V d) (x.element.factor s s) where
  inner k hk := absurd hk (by simp [GLoad.element, Element.factor, Element.inner])
  quiet U w k hk _ := by
    rw [load_drawsAt s h]
    obtain ⟨a, rest, hd, h1, h2, -⟩ := h
    simp only [branch, busSum_cons, busSum_nil, if_neg (quiet_term h1.term hk), if_neg (quiet_term (termBus_of h2) hk), add_zero]
  sound U w hc _ := load_flowAt s hc h w
  complete l hl := by
    refine ⟨[], [], rfl, rfl, fun U hc _ => ⟨(inner_none rfl).2 (fun z hz => absurd hz (by simp [GLoad.element, Element.factor, Element.laws])), ?_⟩⟩
    obtain ⟨l', hl', hcar⟩ := load_flowAt s hc h []
    obtain ⟨a, rest, e, rfl⟩ := hl
    obtain ⟨a', rest', e', rfl⟩ := hl'
    rw [e] at e'
    cases e'
    exact hcar

/-- The laws of all devices of a file, with a load factor. -/
def flowsAt (mats : M → (ℕ → ℕ → ℂ) × (ℕ → ℕ → ℝ)) (objs : List (Txt × Obj)) (ds : List (List Char × M)) (s : ℝ) (V : Txt → Char → ℂ) :
    List (List (Term × ℂ) → Prop) :=
  ((declaredLines objs).zip ds).map (LineFlow mats V) ++ ((declaredXfmrs objs).map (XfmrFlow V) ++ ((declaredSources objs).map (SourceFlow V) ++
    ((declaredSwitches objs).map (SwitchFlow V) ++ ((declaredLoads objs).map (LoadFlowAt s V) ++ ((declaredRegs objs).map (RegFlow V) ++
    ((declaredFuses objs).map (FuseFlow V) ++ (declaredCaps objs).map (CapFlow V)))))))

theorem feederFlowAt_iff (mats : M → (ℕ → ℕ → ℂ) × (ℕ → ℕ → ℝ)) (objs : List (Txt × Obj)) (ds : List (List Char × M)) (s : ℝ) (V : Txt → Char → ℂ) :
    FeederFlowAt mats objs ds s V ↔
      (∀ x ∈ declaredPlaces objs, x.1.2.attr "parent".toList = none → ∀ n, FileRoot objs n x.1.1 → V n x.2 = V x.1.1 x.2) ∧
      ∃ ls, List.Forall₂ (fun F l => F l) (flowsAt mats objs ds s V) ls ∧
        ∀ x ∈ declaredPlaces objs, x.1.2.attr "parent".toList = none → drawnAt objs x.1.1 x.2 ls.flatten = 0 := by
  rw [FeederFlowAt]
  refine ⟨?_, ?_⟩
  · rintro ⟨l1, h1, hv, l2, l3, l4, l5, l6, l7, l8, h2, h3, h4, h5, h6, h7, h8, h⟩
    refine ⟨hv, l1 ++ l2 ++ l3 ++ l4 ++ l5 ++ l6 ++ l7 ++ l8, ?_, h⟩
    simp only [List.append_assoc, flowsAt]
    exact forall₂_join (forall₂_laws h1) (forall₂_join (forall₂_laws h2) (forall₂_join (forall₂_laws h3) (forall₂_join (forall₂_laws h4)
      (forall₂_join (forall₂_laws h5) (forall₂_join (forall₂_laws h6) (forall₂_join (forall₂_laws h7) (forall₂_laws h8)))))))
  · rintro ⟨hv, ls, hls, h⟩
    rw [flowsAt] at hls
    obtain ⟨l1, r1, h1, q1, rfl⟩ := forall₂_append_left.1 hls
    obtain ⟨l2, r2, h2, q2, rfl⟩ := forall₂_append_left.1 q1
    obtain ⟨l3, r3, h3, q3, rfl⟩ := forall₂_append_left.1 q2
    obtain ⟨l4, r4, h4, q4, rfl⟩ := forall₂_append_left.1 q3
    obtain ⟨l5, r5, h5, q5, rfl⟩ := forall₂_append_left.1 q4
    obtain ⟨l6, r6, h6, q6, rfl⟩ := forall₂_append_left.1 q5
    obtain ⟨l7, l8, h7, h8, rfl⟩ := forall₂_append_left.1 q6
    rw [List.forall₂_map_left_iff] at h1 h2 h3 h4 h5 h6 h7 h8
    refine ⟨l1, h1, hv, l2, l3, l4, l5, l6, l7, l8, h2, h3, h4, h5, h6, h7, h8, fun x hx hp => ?_⟩
    simp only [List.append_assoc]
    exact h x hx hp

/-- With the factor one the circuit is that of the file. -/
theorem feederFlowAt_one (mats : M → (ℕ → ℕ → ℂ) × (ℕ → ℕ → ℝ)) (objs : List (Txt × Obj)) (ds : List (List Char × M)) (V : Txt → Char → ℂ) :
    FeederFlowAt mats objs ds 1 V ↔ FeederFlow mats objs ds V := by
  have h : ∀ d, LoadFlowAt 1 V d = LoadFlow V d := fun d => by
    funext l
    have : ∀ U, d.currentAt 1 U = d.current U := fun U => by
      rw [DeclaredLoad.currentAt, DeclaredLoad.current]
      simp only [Complex.ofReal_one, one_mul]
      cases d.kind <;> rfl
    simp only [LoadFlowAt, LoadFlow, this]
  rw [feederFlowAt_iff, feederFlow_iff, flowsAt, flows]
  simp only [show LoadFlowAt 1 V = LoadFlow V from funext h]

theorem item_factor {x : GReg} {it : Item} (h : x.item = .ok it) (a b : ℝ) : it.element.factor a b = it.element := by
  rw [GReg.item] at h
  obtain ⟨r', _, h⟩ := bind_eq_ok h
  cases h
  rfl

theorem Parts.factored (hP : Parts mats objs ds g D lines regs) (s : ℝ) : (D.network.factor s s).elements =
    lines ++ (g.transformers.map GXfmr.element ++ (g.slacks.map (fun s => .slack s.1 s.2.value.1 s.2.value.2) ++
    (g.switches.map (fun s => .switch (some s.f) (some s.t) s.status) ++ (g.loads.map (fun x => x.element.factor s s) ++ (regs.map Item.element ++
    (g.fuses.map (fun x => .fuse (some x.f) (some x.i) (some x.t)) ++ g.capacitors.map fun x => x.item.element)))))) := by
  show D.network.elements.map (Element.factor s s) = _
  rw [hP.elements, otherElements]
  simp only [List.map_append, List.map_map]
  congr 1
  · conv_rhs => rw [← List.map_id lines]
    refine List.map_congr_left fun e he => ?_
    obtain ⟨x, _, a, b, bs, _, _, _, rfl⟩ := forall₂_mem_right hP.wires he
    rfl
  congr 1
  · refine List.map_congr_left fun x _ => ?_
    cases x <;> rfl
  congr 3
  congr 1
  · refine List.map_congr_left fun it hit => ?_
    obtain ⟨x, _, hx⟩ := forall₂_mem_right hP.items hit
    exact item_factor hx s s

theorem factor_inner (a b : ℝ) (e : Element) : (e.factor a b).inner = e.inner := by cases e <;> rfl

theorem Parts.inner_eq (hP : Parts mats objs ds g D lines regs) : D.network.elements.flatMap Element.inner = innerOf g.transformers g.regulators g.fuses := by
  rw [hP.elements, otherElements, innerOf]
  simp only [List.flatMap_append]
  rw [xfmr_inner, regs_inner hP.items, flatMap_inner_nil _ g.slacks, flatMap_inner_nil _ g.switches, flatMap_inner_nil _ g.loads,
    flatMap_inner_nil _ g.capacitors]
  · have hlin : lines.flatMap Element.inner = [] := by
      rw [List.flatMap_eq_nil_iff]
      intro e he
      obtain ⟨x, _, a, b, bs, _, _, _, rfl⟩ := forall₂_mem_right hP.wires he
      rfl
    have hfu : (g.fuses.map fun x => Element.fuse (some x.f) (some x.i) (some x.t)).flatMap Element.inner = g.fuses.map GFuse.i := by
      rw [List.flatMap_map]
      exact (List.map_eq_flatMap).symm
    rw [hlin, hfu]
    simp only [List.nil_append, List.append_nil, List.append_assoc]
  · exact fun x _ => rfl
  · exact fun x _ => rfl
  · exact fun x _ => rfl
  · exact fun x _ => rfl

/-- The equations of the network with a load factor are the circuit of the file with that factor. -/
theorem Parts.circuit {L : Library} (hL : L.Loaded) (hf : PlainFeeder objs) (hP : Parts mats objs ds g D lines regs) (s : ℝ) (V : Txt → Char → ℂ) :
    (∃ v, (∀ name p b, FileAt objs g name p b → V name p = ((D.network.factor s s).assign L).voltages v (some b)) ∧
        ∀ i, networkEq ((D.network.factor s s).assign L).all 0 v i = 0) ↔ FeederFlowAt mats objs ds s V := by
  rw [feederFlowAt_iff]
  refine circuit_iff hL (D.network.factor s s) hP.plain hP.buses hP.busesOf ?_ V ?_
  · have e : (D.network.factor s s).elements.flatMap Element.inner = D.network.elements.flatMap Element.inner := by
      show (D.network.elements.map (Element.factor s s)).flatMap Element.inner = _
      rw [List.flatMap_map]
      simp only [factor_inner]
    rw [e, hP.inner_eq]
    exact hP.inner.1
  rw [hP.factored, flowsAt]
  refine forall₂_join ?_ (forall₂_join ?_ (forall₂_join ?_ (forall₂_join ?_ (forall₂_join ?_ (forall₂_join ?_
    (forall₂_join ?_ ?_)))))) <;> rw [List.forall₂_map_left_iff]
  · exact hP.wires.imp fun x e hx => line_models hx
  · rw [List.forall₂_map_right_iff]
    refine ((List.forall₂_and_left _ _).2 ⟨fun d hd => hd, hP.xfmrs⟩).imp fun d x hx => ?_
    obtain ⟨hd, hx⟩ := hx
    cases d with
    | coil o c p q =>
      obtain ⟨c', rfl, hcoil⟩ := hx
      have := coil_models (V := V) (coil_element hcoil)
      refine ⟨this.inner, this.quiet, fun U w hc ho => ?_, fun l hl => ?_⟩
      · obtain ⟨l, h1, h2⟩ := this.sound U w hc ho
        exact ⟨l, ⟨c', rfl, h1⟩, h2⟩
      · obtain ⟨c'', e, hl⟩ := hl
        cases e
        exact this.complete l hl
    | tap o c =>
      obtain ⟨t1, t2, t3, t4, t5⟩ := hf.centerTaps o c hd
      exact tap_models (tap_element hx t1 t2) t4 t5
  · rw [List.forall₂_map_right_iff]
    exact hP.sources.imp fun x y hy => source_models hy.1 hy.2 (phasor_complex _)
  · rw [List.forall₂_map_right_iff]
    exact hP.switches.imp fun d x hx => switch_models hx
  · rw [List.forall₂_map_right_iff]
    exact hP.loads.imp fun d x hx => load_modelsAt s hx
  · rw [List.forall₂_map_right_iff]
    refine forall₂_trans (fun d x it hx hit => ?_) hP.settings hP.items
    exact reg_models hx.1 hit hx.2
  · rw [List.forall₂_map_right_iff]
    exact hP.fuses.imp fun d x hx => fuse_models hx
  · rw [List.forall₂_map_right_iff]
    exact ((List.forall₂_and_left _ _).2 ⟨hf.caps, hP.caps⟩).imp fun d x hx => cap_models hx.2 hx.1

end Net

end Verif.Glm
