import Verif.Lemmas.GlmFlowNetwork
import Verif.Props.Lines

/-!
# C100, C101: the equations of the network of a GridLAB-D file are the circuit of the file
-/

namespace Verif.Glm

variable {M : Type}

/-! ### C100 -/

theorem FileRead.outerAttr {objs : List (Txt × Obj)} (hO : OuterFile objs) {o : Obj} (ho : o ∈ declaredLines objs) {k : Txt}
    (hk : k ∈ ["from".toList, "to".toList, "parent".toList]) : OuterOf (o.attr k) := by
  obtain ⟨x, hx, rfl⟩ := List.mem_map.1 (List.mem_filter.1 ho).1
  exact fun n hn => (hO x.1 x.2 hx).2 k hk n hn

theorem linePhases_at {readLine : LineReader M} {schedules : List (Txt × Txt)} {objs : List (Txt × Obj)} {s : DState M}
    {groups : List (List (DModel M))} {g : Grid M} (h : FileRead readLine schedules objs s groups g) (hO : OuterFile objs) {o : Obj}
    (ho : o ∈ declaredLines objs) {l : DLine M} (hl : IsLine readLine objs o l) {bs : List (ℕ × ℕ)} (hb : linePhases g l = .ok bs) :
    List.Forall₂ (fun p y => FileAtOf objs g (o.attr "from".toList) p y.1 ∧ FileAtOf objs g (o.attr "to".toList) p y.2) l.phases bs := by
  refine (mapM_forall₂ hb).imp fun p y hy => ?_
  obtain ⟨f, hf, hy⟩ := bind_eq_ok hy
  obtain ⟨t, ht, hy⟩ := bind_eq_ok hy
  cases hy
  have o1 : OuterOf l.frm := by rw [hl.1]; exact FileRead.outerAttr hO ho (by simp)
  have o2 : OuterOf l.to_ := by rw [hl.2.1]; exact FileRead.outerAttr hO ho (by simp)
  have a1 := (h.named.busOf o1 hf).file h.nodes
  have a2 := (h.named.busOf o2 ht).file h.nodes
  rw [hl.1] at a1
  rw [hl.2.1] at a2
  exact ⟨a1, a2⟩

theorem wires_of {readLine : LineReader M} {schedules : List (Txt × Txt)} {objs : List (Txt × Obj)} {s : DState M}
    {groups : List (List (DModel M))} {g : Grid M} (h : FileRead readLine schedules objs s groups g) (hO : OuterFile objs)
    {make : M → List (ℕ × ℕ) → Except String Element} {mats : M → (ℕ → ℕ → ℂ) × (ℕ → ℕ → ℝ)} (hm : Makes make mats) {o : Obj}
    (ho : o ∈ declaredLines objs) {l : DLine M} (hl : IsLine readLine objs o l) {e : Element} (he : lineElement make g l = .ok e) :
    IsWires mats objs g (o, l.phases, l.data) e := by
  rw [lineElement] at he
  split at he
  · rename_i bs hbs
    obtain ⟨hne, rfl⟩ := hm _ _ _ he
    have hF := linePhases_at h hO ho hl hbs
    have : ∃ a b, o.attr "from".toList = some a ∧ o.attr "to".toList = some b := by
      generalize l.phases = ps at hF
      cases hF with
      | nil => exact absurd rfl hne
      | cons hx _ =>
        obtain ⟨⟨a, ha, _⟩, b, hb, _⟩ := hx
        exact ⟨a, b, ha, hb⟩
    obtain ⟨a, b, ha, hb⟩ := this
    refine ⟨a, b, bs, ha, hb, hF.imp fun p y hy => ?_, rfl⟩
    rw [ha, hb] at hy
    obtain ⟨⟨a', ha', h1⟩, b', hb', h2⟩ := hy
    cases ha'
    cases hb'
    exact ⟨h1, h2⟩
  · cases he

theorem forall₂_zip {α β γ δ : Type} {R : α → β → Prop} {S : β → γ → Prop} {T : α × δ → γ → Prop} {A : α → δ → Prop} {f : β → δ}
    (hT : ∀ a b c, R a b → S b c → T (a, f b) c) (hA : ∀ a b, R a b → A a (f b)) {as : List α} {bs : List β} (h : List.Forall₂ R as bs) :
    ∀ {cs : List γ}, List.Forall₂ S bs cs → List.Forall₂ A as (bs.map f) ∧ List.Forall₂ T (as.zip (bs.map f)) cs := by
  induction h with
  | nil => intro cs hc; cases hc; exact ⟨.nil, .nil⟩
  | cons h1 _ ih =>
    intro cs hc
    cases hc with
    | cons h2 hc =>
      obtain ⟨i1, i2⟩ := ih hc
      exact ⟨.cons (hA _ _ h1) i1, .cons (hT _ _ _ h1 h2) i2⟩

/-- The elements of a network after its lines. -/
noncomputable def otherElements (g : Grid M) (regs : List Item) : List Element :=
  g.transformers.map GXfmr.element ++ (g.slacks.map (fun s => .slack s.1 s.2.value.1 s.2.value.2) ++
    (g.switches.map (fun s => .switch (some s.f) (some s.t) s.status) ++ (g.loads.map GLoad.element ++ (regs.map Item.element ++
    (g.fuses.map (fun x => .fuse (some x.f) (some x.i) (some x.t)) ++ g.capacitors.map fun x => x.item.element)))))

theorem network_parts {g : Grid M} {make : M → List (ℕ × ℕ) → Except String Element} {D : DxNet} (hD : g.network make = .ok D) :
    ∃ lines regs, g.lines.mapM (lineElement make g) = .ok lines ∧ g.regulators.mapM GReg.item = .ok regs ∧
      D.network.elements = lines ++ otherElements g regs ∧ D.network.optimization = none ∧ D.network.buses = g.buses.length := by
  rw [Grid.network] at hD
  obtain ⟨lines, hl, hD⟩ := bind_eq_ok hD
  obtain ⟨regs, hrg, hD⟩ := bind_eq_ok hD
  refine ⟨lines, regs, hl, hrg, ?_, ?_, ?_⟩ <;> cases hD
  · simp only [DxNet.network, otherElements, List.map_append, List.map_map, List.append_assoc]
    rw [show Item.element ∘ Item.fixed = id from rfl, List.map_id]
    rfl
  · rfl
  · rfl

section File

variable {readLine : LineReader M} {schedules : List (Txt × Txt)} {objs : List (Txt × Obj)} {g : Grid M}
  {make : M → List (ℕ × ℕ) → Except String Element} {mats : M → (ℕ → ℕ → ℂ) × (ℕ → ℕ → ℝ)}

/-- What becomes of the lines of a file. -/
theorem lines_of (hR : Keeps readLine objs) (hm : Makes make mats) (hO : OuterFile objs) (hk : (objs.map Prod.fst).Nodup)
    (h : parseGrid readLine objs schedules = .ok g) {lines : List Element} (hl : g.lines.mapM (lineElement make g) = .ok lines) :
    ∃ ds, List.Forall₂ (LineRead readLine objs) (declaredLines objs) ds ∧ (∀ d ∈ ds, ∃ ps e, make d.2 ps = .ok e) ∧
      List.Forall₂ (IsWires mats objs g) ((declaredLines objs).zip ds) lines := by
  obtain ⟨s, groups, hr⟩ := parseGrid_read hR hO h
  have hF := hr.lines hk
  have hF' : List.Forall₂ (fun o l => o ∈ declaredLines objs ∧ IsLine readLine objs o l) (declaredLines objs) g.lines :=
    (List.forall₂_and_left _ _).2 ⟨fun o ho => ho, hF⟩
  obtain ⟨h1, h2⟩ := forall₂_zip (f := fun l : DLine M => (l.phases, l.data)) (A := LineRead readLine objs)
    (T := IsWires mats objs g) (fun o l e a b => wires_of hr hO hm a.1 a.2 b) (fun o l a => a.2.2.2) hF' (mapM_forall₂ hl)
  refine ⟨_, h1, fun d hd => ?_, h2⟩
  obtain ⟨l, hl', rfl⟩ := List.mem_map.1 hd
  obtain ⟨e, -, he⟩ := forall₂_mem_left (mapM_forall₂ hl) hl'
  rw [lineElement] at he
  split at he
  · exact ⟨_, _, he⟩
  · cases he

/-- **C100.** The lines of the network are the lines of the file, in its order: each between the phases it has at the two nodes it names, with the
admittances of the data read for it, and there is no other line. -/
theorem C100_lines (hR : Keeps readLine objs) (hm : Makes make mats) (hO : OuterFile objs) (hk : (objs.map Prod.fst).Nodup)
    (h : parseGrid readLine objs schedules = .ok g) {D : DxNet} (hD : g.network make = .ok D) :
    ∃ ds lines rest, List.Forall₂ (LineRead readLine objs) (declaredLines objs) ds ∧
      List.Forall₂ (IsWires mats objs g) ((declaredLines objs).zip ds) lines ∧ D.network.elements = lines ++ rest ∧
      ∀ e ∈ rest, ∀ bs y s, e ≠ .unbalanced bs y s := by
  obtain ⟨lines, regs, hl, hrg, he, -⟩ := network_parts hD
  obtain ⟨ds, h1, -, h2⟩ := lines_of hR hm hO hk h hl
  refine ⟨ds, lines, otherElements g regs, h1, h2, he, ?_⟩
  intro e he bs y s
  simp only [otherElements, List.mem_append, List.mem_map] at he
  rcases he with ⟨x, -, rfl⟩ | ⟨x, -, rfl⟩ | ⟨x, -, rfl⟩ | ⟨x, -, rfl⟩ | ⟨x, hx, rfl⟩ | ⟨x, -, rfl⟩ | ⟨x, -, rfl⟩
  · cases x <;> exact Element.noConfusion
  · exact Element.noConfusion
  · exact Element.noConfusion
  · exact Element.noConfusion
  · obtain ⟨r, _, hr⟩ := forall₂_mem_right (mapM_forall₂ hrg) hx
    rw [GReg.item] at hr
    obtain ⟨r', _, hr⟩ := bind_eq_ok hr
    cases hr
    exact Element.noConfusion
  · exact Element.noConfusion
  · exact Element.noConfusion

/-! ### C101 -/

theorem plain_buses (hR : Keeps readLine objs) (hO : OuterFile objs) (hk : (objs.map Prod.fst).Nodup) (hp : PhasesOnce objs)
    (h : parseGrid readLine objs schedules = .ok g) : BusesOf objs g := by
  obtain ⟨s, groups, hr⟩ := parseGrid_read hR hO h
  have own : ∀ y ∈ declaredPlaces objs, y.1.2.attr "parent".toList = none → FileRoot objs y.1.1 y.1.1 := by
    intro y hy hpar
    obtain ⟨x, hx, hxy⟩ := List.mem_flatMap.1 hy
    obtain ⟨p, _, rfl⟩ := List.mem_map.1 hxy
    obtain ⟨hmem, hpl⟩ := List.mem_filter.1 hx
    refine .own x.1 x.2 hmem ?_ hpar
    rw [isPlace, Bool.or_eq_true, Bool.and_eq_true] at hpl
    exact hpl.imp id And.left
  refine ⟨fun n r r' => fileRoot_unique hk, fun name p b b' => hr.unique hk hp, fun b x hx hv => ?_, fun y hy hpar => ?_⟩
  · have hmem : (x.name, x.phase) ∈ outerBuses g :=
      List.mem_map.2 ⟨x, List.mem_filter.2 ⟨List.mem_of_getElem? hx, by rw [hv]; rfl⟩, rfl⟩
    rw [hr.outerBuses hk] at hmem
    obtain ⟨y, hy, hyx⟩ := List.mem_map.1 hmem
    obtain ⟨hy1, hy2⟩ := List.mem_filter.1 hy
    exact ⟨y, hy1, Option.isNone_iff_eq_none.1 hy2, congrArg Prod.fst hyx, congrArg Prod.snd hyx⟩
  · obtain ⟨b, hb⟩ := hr.places_have hk hy
    exact ⟨b, own y hy hpar, hb⟩

theorem forall₂_append_left {α β : Type} {R : α → β → Prop} {a b : List α} {ls : List β} :
    List.Forall₂ R (a ++ b) ls ↔ ∃ l1 l2, List.Forall₂ R a l1 ∧ List.Forall₂ R b l2 ∧ ls = l1 ++ l2 := by
  constructor
  · intro h
    induction a generalizing ls with
    | nil => exact ⟨[], ls, .nil, h, rfl⟩
    | cons x a ih =>
      cases h with
      | cons hx h =>
        obtain ⟨l1, l2, h1, h2, rfl⟩ := ih h
        exact ⟨_ :: l1, l2, .cons hx h1, h2, rfl⟩
  · rintro ⟨l1, l2, h1, h2, rfl⟩
    exact List.rel_append h1 h2

theorem forall₂_join {α β : Type} {R : α → β → Prop} {a b : List α} {l m : List β} (h : List.Forall₂ R a l) (h' : List.Forall₂ R b m) :
    List.Forall₂ R (a ++ b) (l ++ m) := forall₂_append_left.2 ⟨l, m, h, h', rfl⟩

theorem forall₂_laws {α β : Type} {f : α → β → Prop} {xs : List α} {ls : List β} (h : List.Forall₂ f xs ls) :
    List.Forall₂ (fun F l => F l) (xs.map f) ls := List.forall₂_map_left_iff.2 h

/-- The laws of all devices of a file. -/
def flows (mats : M → (ℕ → ℕ → ℂ) × (ℕ → ℕ → ℝ)) (objs : List (Txt × Obj)) (ds : List (List Char × M)) (V : Txt → Char → ℂ) :
    List (List (Term × ℂ) → Prop) :=
  ((declaredLines objs).zip ds).map (LineFlow mats V) ++ ((declaredXfmrs objs).map (XfmrFlow V) ++ ((declaredSources objs).map (SourceFlow V) ++
    ((declaredSwitches objs).map (SwitchFlow V) ++ ((declaredLoads objs).map (LoadFlow V) ++ ((declaredRegs objs).map (RegFlow V) ++
    ((declaredFuses objs).map (FuseFlow V) ++ (declaredCaps objs).map (CapFlow V)))))))

theorem feederFlow_iff (mats : M → (ℕ → ℕ → ℂ) × (ℕ → ℕ → ℝ)) (objs : List (Txt × Obj)) (ds : List (List Char × M)) (V : Txt → Char → ℂ) :
    FeederFlow mats objs ds V ↔
      (∀ x ∈ declaredPlaces objs, x.1.2.attr "parent".toList = none → ∀ n, FileRoot objs n x.1.1 → V n x.2 = V x.1.1 x.2) ∧
      ∃ ls, List.Forall₂ (fun F l => F l) (flows mats objs ds V) ls ∧
        ∀ x ∈ declaredPlaces objs, x.1.2.attr "parent".toList = none → drawnAt objs x.1.1 x.2 ls.flatten = 0 := by
  rw [FeederFlow]
  refine ⟨?_, ?_⟩
  · rintro ⟨l1, h1, hv, l2, l3, l4, l5, l6, l7, l8, h2, h3, h4, h5, h6, h7, h8, h⟩
    refine ⟨hv, l1 ++ l2 ++ l3 ++ l4 ++ l5 ++ l6 ++ l7 ++ l8, ?_, h⟩
    simp only [List.append_assoc, flows]
    exact forall₂_join (forall₂_laws h1) (forall₂_join (forall₂_laws h2) (forall₂_join (forall₂_laws h3) (forall₂_join (forall₂_laws h4)
      (forall₂_join (forall₂_laws h5) (forall₂_join (forall₂_laws h6) (forall₂_join (forall₂_laws h7) (forall₂_laws h8)))))))
  · rintro ⟨hv, ls, hls, h⟩
    rw [flows] at hls
    obtain ⟨l1, r1, h1, q1, rfl⟩ := forall₂_append_left.1 hls
    obtain ⟨l2, r2, h2, q2, rfl⟩ := forall₂_append_left.1 q1
    obtain ⟨l3, r3, h3, q3, rfl⟩ := forall₂_append_left.1 q2
    obtain ⟨l4, r4, h4, q4, rfl⟩ := forall₂_append_left.1 q3
    obtain ⟨l5, r5, h5, q5, rfl⟩ := forall₂_append_left.1 q4
    obtain ⟨l6, r6, h6, q6, rfl⟩ := forall₂_append_left.1 q5
    obtain ⟨l7, l8, h7, h8, rfl⟩ := forall₂_append_left.1 q6
    rw [List.forall₂_map_left_iff] at h1 h2 h3 h4 h5 h6 h7 h8
    refine ⟨l1, h1, hv, l2, l3, l4, l5, l6, l7, l8, h2, h3, h4, h5, h6, h7, h8, fun x hx hp => ?_⟩
    simp only [List.append_assoc]
    exact h x hx hp

theorem xfmr_inner (ts : List GXfmr) : (ts.map GXfmr.element).flatMap Element.inner = ts.flatMap GXfmr.inner := by
  rw [List.flatMap_map]
  congr 1
  funext t
  cases t <;> rfl

theorem flatMap_inner_nil {α : Type} (f : α → Element) (xs : List α) (h : ∀ x ∈ xs, (f x).inner = []) : (xs.map f).flatMap Element.inner = [] := by
  rw [List.flatMap_eq_nil_iff]
  intro e he
  obtain ⟨x, hx, rfl⟩ := List.mem_map.1 he
  exact h x hx

theorem increment_c {r r' : Reg} {i : ℝ} {m : Bool} (h : r.increment i = .ok (r', m)) : r'.c = r.c := by
  simp only [Reg.increment] at h
  generalize (if r.tap + i ≥ r.raiseTaps then r.raiseTaps else if r.tap + i ≤ -r.lowerTaps then -r.lowerTaps else r.tap + i) = u at h
  cases hk : r.kind with
  | A =>
    simp only [hk] at h
    by_cases hu : 1 + r.step * u = 0
    · rw [if_pos hu] at h
      cases h
    · rw [if_neg hu] at h
      cases h
      rfl
  | B =>
    simp only [hk] at h
    cases h
    rfl

theorem reg_make_c {f c t : Ref} {tap step : ℝ} {kind : RegType} {a b x y : ℝ} {r : Reg} (h : Reg.make f c t tap step kind a b x y = .ok r) : r.c = c := by
  rw [Reg.make] at h
  obtain ⟨⟨r', z⟩, h1, h2⟩ := bind_eq_ok h
  cases h2
  exact increment_c h1

theorem regs_inner {rs : List GReg} {regs : List Item} (h : List.Forall₂ (fun r it => GReg.item r = .ok it) rs regs) :
    (regs.map Item.element).flatMap Element.inner = rs.map GReg.c := by
  induction h with
  | nil => rfl
  | cons h _ ih =>
    rw [List.map_cons, List.flatMap_cons, ih, List.map_cons]
    rw [GReg.item] at h
    obtain ⟨r', hr', h⟩ := bind_eq_ok h
    cases h
    have : r'.c = some _ := (reg_make_c hr')
    simp only [Item.element, this, Element.inner, List.singleton_append]

/-- **C101, partial.** For a plain feeder - one without what is known to be read differently - the equations of the network are the circuit of the
file: voltages of its places belong to a solution of the assembled equations exactly if they are voltages of the circuit the file describes, with its
sources, loads, switches, fuses, capacitors, regulators, transformers and lines under their laws and Kirchhoff's law at every phase of every node. The
matrices of a line are those `mats` gives for what is read for it. Missing: what `PlainFeeder` leaves out, see the theorems whose names end in `_fails`,
and how the data of a line is read. -/
theorem C101_circuit_partial {L : Library} (hL : L.Loaded) (hR : Keeps readLine objs) (hm : Makes make mats) (hf : PlainFeeder objs)
    (h : parseGrid readLine objs schedules = .ok g) {D : DxNet} (hD : g.network make = .ok D) :
    ∃ ds, List.Forall₂ (LineRead readLine objs) (declaredLines objs) ds ∧ (∀ d ∈ ds, ∃ ps e, make d.2 ps = .ok e) ∧ ∀ V,
      (∃ v, (∀ name p b, FileAt objs g name p b → V name p = (D.network.assign L).voltages v (some b)) ∧
        ∀ i, networkEq (D.network.assign L).all 0 v i = 0) ↔ FeederFlow mats objs ds V := by
  obtain ⟨lines, regs, hl, hrg, hel, hopt, hbus⟩ := network_parts hD
  obtain ⟨ds, hds, hmade, hwires⟩ := lines_of hR hm hf.outer hf.keys h hl
  have hB := plain_buses hR hf.outer hf.keys hf.once h
  have hregs := mapM_forall₂ hrg
  have hin : D.network.elements.flatMap Element.inner = innerOf g.transformers g.regulators g.fuses := by
    rw [hel, otherElements, innerOf]
    simp only [List.flatMap_append]
    rw [xfmr_inner, regs_inner hregs, flatMap_inner_nil _ g.slacks, flatMap_inner_nil _ g.switches, flatMap_inner_nil _ g.loads,
      flatMap_inner_nil _ g.capacitors]
    · have hlin : lines.flatMap Element.inner = [] := by
        rw [List.flatMap_eq_nil_iff]
        intro e he
        obtain ⟨x, _, a, b, bs, _, _, _, rfl⟩ := forall₂_mem_right hwires he
        rfl
      have hfu : (g.fuses.map fun x => Element.fuse (some x.f) (some x.i) (some x.t)).flatMap Element.inner = g.fuses.map GFuse.i := by
        rw [List.flatMap_map]
        exact (List.map_eq_flatMap).symm
      rw [hlin, hfu]
      simp only [List.nil_append, List.append_nil, List.append_assoc]
    · exact fun x _ => rfl
    · exact fun x _ => rfl
    · exact fun x _ => rfl
    · exact fun x _ => rfl
  refine ⟨ds, hds, hmade, fun V => ?_⟩
  rw [feederFlow_iff]
  refine circuit_iff hL D.network hopt hbus hB (by rw [hin]; exact (parseGrid_inner h).1) V ?_
  rw [hel, otherElements, flows]
  refine forall₂_join ?_ (forall₂_join ?_ (forall₂_join ?_ (forall₂_join ?_ (forall₂_join ?_ (forall₂_join ?_
    (forall₂_join ?_ ?_)))))) <;> rw [List.forall₂_map_left_iff]
  · exact hwires.imp fun x e hx => line_models hx
  · rw [List.forall₂_map_right_iff]
    refine ((List.forall₂_and_left _ _).2 ⟨fun d hd => hd, C60_coils hR hf.outer hf.keys hf.plain h⟩).imp fun d x hx => ?_
    obtain ⟨hd, hx⟩ := hx
    cases d with
    | coil o c p q =>
      obtain ⟨c', rfl, hcoil⟩ := hx
      have := coil_models (V := V) (coil_element hcoil)
      refine ⟨this.inner, this.quiet, fun U w hc ho => ?_, fun l hl => ?_⟩
      · obtain ⟨l, h1, h2⟩ := this.sound U w hc ho
        exact ⟨l, ⟨c', rfl, h1⟩, h2⟩
      · obtain ⟨c'', e, hl⟩ := hl
        cases e
        exact this.complete l hl
    | tap o c =>
      obtain ⟨t1, t2, t3, t4, t5⟩ := hf.centerTaps o c hd
      exact tap_models (tap_element hx t1 t2) t4 t5
  · rw [List.forall₂_map_right_iff]
    refine ((List.forall₂_and_left _ _).2 ⟨hf.ownSources, C84_sources_partial hR hf.outer hf.keys h⟩).imp fun x y hy => ?_
    exact source_models hy.2.1 (hy.2.2 hy.1) (phasor_complex _)
  · rw [List.forall₂_map_right_iff]
    exact (C87_switches_partial hR hf.outer hf.keys hf.states h).imp fun d x hx => switch_models hx
  · rw [List.forall₂_map_right_iff]
    exact (C85_loads hR hf.outer hf.keys hf.noBase h).imp fun d x hx => load_models hx
  · rw [List.forall₂_map_right_iff]
    refine forall₂_trans (fun d x it hx hit => ?_) ((List.forall₂_and_left _ _).2 ⟨hf.taps, C98_regulators_partial hR hf.outer hf.keys hf.plain hf.noStray h⟩)
      hregs
    obtain ⟨htaps, hx⟩ := hx
    refine reg_models hx hit ?_
    obtain ⟨-, -, -, c, hcf, -, ⟨t, ht, htp⟩, ⟨t1, ht1, hu⟩, ⟨t2, ht2, hd⟩, -⟩ := hx
    exact htaps c hcf t _ t1 _ t2 _ ht htp ht1 hu ht2 hd
  · rw [List.forall₂_map_right_iff]
    exact (C86_fuses_partial hR hf.outer hf.keys hf.fuseStates h).imp fun d x hx => fuse_models hx
  · rw [List.forall₂_map_right_iff]
    exact ((List.forall₂_and_left _ _).2 ⟨hf.caps, C91_capacitors_partial hR hf.outer hf.keys h⟩).imp fun d x hx => cap_models hx.2 hx.1

end File

/-! ### Cases -/

/-- The constructor of lines, on data with an impedance matrix, a shunt matrix and a length, makes lines with the inverse of the matrix. -/
theorem makes_unbalanced {n : M → ℕ} (Z : ∀ d, Matrix (Fin (n d)) (Fin (n d)) ℂ) (S : M → ℕ → ℕ → Option ℂ) (len : M → ℝ) :
    Makes (fun d ps => makeUnbalanced exactInverse (Z d) (S d) (len d) ps)
      fun d => (entryAt ((len d : ℂ) • Z d)⁻¹, fun i j => match S d i j with | some s => ((len d : ℂ) * s).im | none => 0) := by
  intro d ps e h
  obtain ⟨Y, hY, hlen, hn, -, rfl⟩ := makeUnbalanced_ok h
  rw [exactInverse] at hY
  split at hY
  · cases hY
  · cases hY
    refine ⟨?_, rfl⟩
    rintro rfl
    rw [List.length_nil] at hlen
    omega

/-- Regulators that are made. -/
theorem reg_made {x : GReg} (h1 : -x.lowerTaps ≤ x.tap) (h2 : x.tap ≤ x.raiseTaps) (h : 1 + x.step * x.tap ≠ 0) : ∃ it, x.item = .ok it := by
  have h1r : -(x.lowerTaps : ℝ) ≤ x.tap := by exact_mod_cast h1
  have h2r : (x.tap : ℝ) ≤ x.raiseTaps := by exact_mod_cast h2
  have hr : 1 + (x.step : ℝ) * (x.tap : ℝ) ≠ 0 := by exact_mod_cast h
  have hclip : (if (x.tap : ℝ) + 0 ≥ x.raiseTaps then (x.raiseTaps : ℝ) else if (x.tap : ℝ) + 0 ≤ -x.lowerTaps then -(x.lowerTaps : ℝ) else (x.tap : ℝ) + 0) =
      x.tap := by
    rw [add_zero]
    split
    · linarith
    · split
      · linarith
      · rfl
  rw [GReg.item]
  simp only [Reg.make, Reg.increment, hclip]
  cases x.kind with
  | A => exact ⟨_, by rw [if_neg hr]; rfl⟩
  | B => exact ⟨_, rfl⟩

/-- The feeder is plain. -/
theorem feeder_isPlain : PlainFeeder feeder where
  keys := feeder_keys
  outer := feeder_outer
  once := feeder_once
  noBase := feeder_noBase
  states := feeder_states.1
  fuseStates := feeder_states.2
  fusesGood := by decide +kernel
  plain := feeder_plain
  noStray := feeder_noStray
  ownSources := by decide +kernel
  caps := by decide +kernel
  capsWye := by
    have : ∀ d ∈ declaredCaps feeder, ∀ t ∈ d.obj.attr "phases".toList, 'D' ∉ t := by decide +kernel
    exact this
  taps := by
    have : ∀ d ∈ declaredRegs feeder, ∀ c ∈ d.2.1, ∃ tap ∈ [3, -2, 0], (c.attr ("tap_pos_".toList ++ [d.2.2])).map intOf = some (.ok tap) ∧
      (c.attr "raise_taps".toList).map intOf = some (.ok 16) ∧ (c.attr "lower_taps".toList).map intOf = some (.ok 16) := by decide +kernel
    intro d hd c hc t tap t1 up t2 down ht htap ht1 hup ht2 hdown
    obtain ⟨tap', hmem, e1, e2, e3⟩ := this d hd c hc
    rw [ht, Option.map_some, htap] at e1
    rw [ht1, Option.map_some, hup] at e2
    rw [ht2, Option.map_some, hdown] at e3
    cases e1
    cases e2
    cases e3
    simp only [List.mem_cons, List.not_mem_nil, or_false] at hmem
    omega
  noShunts := by
    have : ∀ d ∈ declaredXfmrs feeder, (match d with
      | .coil _ (some c) _ _ => decide (c.attr "shunt_impedance".toList = none)
      | _ => true) = true := by decide +kernel
    exact fun o c p q h => of_decide_eq_true (this _ h)
  centerTaps := by
    have : ∀ d ∈ declaredXfmrs feeder, (match d with
      | .tap _ c => decide ((∀ t ∈ c.attr "secondary_voltage".toList, find "kV".toList t = none) ∧ c.attr "impedance1".toList = none ∧
        c.attr "shunt_impedance".toList = none ∧ c.attr "resistance".toList = none ∧
        ((c.attr "impedance".toList).bind pyComplex ≠ some 0 ∧ (c.attr "impedance".toList).isSome) ∧ (c.attr "primary_voltage".toList).bind volts ≠ some 0)
      | _ => true) = true := by decide +kernel
    intro o c h
    obtain ⟨h1, h2, h3, h4, h5, h6⟩ := of_decide_eq_true (this _ h)
    refine ⟨h1, h2, h3, ?_, h6⟩
    rintro r y (⟨t1, t2, ht1, -⟩ | ⟨-, t, ht, hp⟩ | ⟨-, hn, -⟩) h0
    · rw [h4] at ht1
      cases ht1
    · rw [ht] at h5
      exact h5.1 (by rw [Option.bind_some, hp, h0])
    · rw [hn] at h5
      cases h5.2

/-- The feeder becomes a network, whose equations are the circuit of the feeder. -/
example {L : Library} (hL : L.Loaded) : ∃ g D, parseGrid noLines feeder [] = .ok g ∧ g.network (fun d _ => d.elim) = .ok D ∧
    ∀ V, (∃ v, (∀ name p b, FileAt feeder g name p b → V name p = (D.network.assign L).voltages v (some b)) ∧
      ∀ i, networkEq (D.network.assign L).all 0 v i = 0) ↔ FeederFlow (fun d : Empty => d.elim) feeder [] V := by
  obtain ⟨g, hg, hp⟩ := read_of_check (objs := feeder) (p := fun g => g.lines.length = 0 ∧
    ∀ x ∈ g.regulators, -x.lowerTaps ≤ x.tap ∧ x.tap ≤ x.raiseTaps ∧ 1 + x.step * x.tap ≠ 0) (by decide +kernel)
  obtain ⟨regs, hregs, -⟩ := mapM_except_ok GReg.item g.regulators fun x hx => reg_made (hp.2 x hx).1 (hp.2 x hx).2.1 (hp.2 x hx).2.2
  have hl : g.lines = [] := List.length_eq_zero_iff.1 hp.1
  have hD : ∃ D, g.network (fun d _ => d.elim) = .ok D := by
    rw [Grid.network, hl, hregs]
    exact ⟨_, rfl⟩
  obtain ⟨D, hD⟩ := hD
  refine ⟨g, D, hg, hD, ?_⟩
  obtain ⟨ds, hds, -, h⟩ := C101_circuit_partial hL noLines_keeps (mats := fun d => d.elim) (fun d => d.elim) feeder_isPlain hg hD
  have : ds = [] := by
    have hn : declaredLines feeder = [] := by decide +kernel
    rw [hn] at hds
    cases hds
    rfl
  subst this
  exact h

/-- Lines whose data is their length. -/
def oneLine : LineReader ℚ := fun objs o ph => match (o.attr "length".toList).bind pyFloat with
  | some x => .ok ((ph.phases, x), objs)
  | none => .error .value

theorem oneLine_keeps {objs : List (Txt × Obj)} : Keeps oneLine objs := by
  intro objs o ph d objs' _ h
  rw [oneLine] at h
  split at h
  · cases h
    exact SameObjs.refl objs
  · cases h

/-- A source, a line and a load on two phases. -/
def lineFeeder : List (Txt × Obj) := [
  fileObject "node" [("name", "n1"), ("phases", "AB"), ("bustype", "SWING"), ("nominal_voltage", "2400")],
  fileObject "overhead_line" [("name", "o"), ("phases", "AB"), ("from", "n1"), ("to", "l_1"), ("length", "100")],
  fileObject "load" [("name", "l_1"), ("phases", "AB"), ("nominal_voltage", "2400"), ("constant_power_A", "100+20j")]]

/-- The constructor of its line, with an impedance of one ohm per unit of length in each phase. -/
noncomputable def lineMake : ℚ → List (ℕ × ℕ) → Except String Element := fun d ps => makeUnbalanced exactInverse (1 : Matrix (Fin 2) (Fin 2) ℂ) (fun _ _ => none) d ps

theorem lineFeeder_network : ∃ g D, parseGrid oneLine lineFeeder [] = .ok g ∧ g.network lineMake = .ok D := by
  have : (match parseGrid oneLine lineFeeder [] with
    | .ok g => decide (g.regulators.length = 0 ∧ ∀ l ∈ g.lines, l.data = 100 ∧ (linePhases g l).map List.length = .ok 2)
    | .error _ => false) = true := by decide +kernel
  cases hg : parseGrid oneLine lineFeeder [] with
  | error e => rw [hg] at this; cases this
  | ok g =>
    rw [hg] at this
    obtain ⟨h1, h2⟩ := of_decide_eq_true this
    obtain ⟨ls, hls, -⟩ := mapM_except_ok (lineElement lineMake g) g.lines fun l hl => by
      obtain ⟨e1, e2⟩ := h2 l hl
      rw [lineElement]
      cases hb : linePhases g l with
      | error e => rw [hb] at e2; cases e2
      | ok bs =>
        rw [hb] at e2
        have hlen : bs.length = 2 := Except.ok.inj e2
        simp only [lineMake, e1]
        refine (C18_exact _ _ _ bs (by norm_num) hlen).1.2 ?_
        simp [Matrix.det_fin_two]
    have hr : g.regulators = [] := List.length_eq_zero_iff.1 h1
    refine ⟨g, ?_⟩
    have hD : ∃ D, g.network lineMake = .ok D := by
      rw [Grid.network, hls, hr]
      exact ⟨_, rfl⟩
    obtain ⟨D, hD⟩ := hD
    exact ⟨D, rfl, hD⟩

/-- The line of this file. -/
example : ∃ g D d line rest, parseGrid oneLine lineFeeder [] = .ok g ∧ g.network lineMake = .ok D ∧ D.network.elements = line :: rest ∧
    LineRead oneLine lineFeeder (lineFeeder.map Prod.snd)[1] d ∧
    IsWires (fun d : ℚ => (entryAt (((d : ℝ) : ℂ) • (1 : Matrix (Fin 2) (Fin 2) ℂ))⁻¹, fun _ _ => 0)) lineFeeder g ((lineFeeder.map Prod.snd)[1], d) line := by
  obtain ⟨g, D, hg, hD⟩ := lineFeeder_network
  obtain ⟨ds, lines, rest, h1, h2, h3, -⟩ := C100_lines oneLine_keeps (makes_unbalanced (fun _ : ℚ => (1 : Matrix (Fin 2) (Fin 2) ℂ)) (fun _ _ _ => none) fun d => (d : ℝ))
    (outerFile_of_check (by decide +kernel)) (by decide +kernel) hg hD
  have hn : declaredLines lineFeeder = [(lineFeeder.map Prod.snd)[1]] := by decide +kernel
  rw [hn] at h1 h2
  cases h1 with
  | cons h1 h1' =>
    cases h1'
    cases h2 with
    | cons h2 h2' =>
      cases h2'
      exact ⟨g, D, _, _, rest, hg, hD, h3, h1, h2⟩

end Verif.Glm
