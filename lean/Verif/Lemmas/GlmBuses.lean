import Verif.Lemmas.GlmDevices
import Verif.Spec.GlmBuses

/-!
# The buses of a network that was read from a file
-/

namespace Verif.Glm

variable {M : Type}

/-- The node `n` is the place `x`. -/
def NodeOf (P : List Txt) (x : Txt × Obj) (n : DNode) : Prop :=
  n.name = x.1 ∧ n.parent = x.2.attr "parent".toList ∧ n.phases.filter (· ∈ anglePhases) = placePhases x.2 ∧ (n.source = true ↔ isSwing x.2 = true) ∧
    (n.source = true ∨ x.1 ∉ P → ∀ p v, n.phasor p = .ok v → placeVoltage x.2 p = some v)

theorem isPlace_same {o o' : Obj} (h : SameObj o o') : isPlace o' = isPlace o := by
  rw [isPlace, isPlace, isNodeObj_same h, isLoadObj_same h, h.attr _ parent_notWritten]

theorem phasor_swing {o : Obj} {n : DNode} {m : Option ℚ} (hm : floatAttribute o "nominal_voltage".toList = .ok m)
    (hA : complexAttribute o "voltage_A".toList = .ok n.vA) (hB : complexAttribute o "voltage_B".toList = .ok n.vB)
    (hC : complexAttribute o "voltage_C".toList = .ok n.vC) (hn : n.nominal = m) (p : Char) (v : Phasor) (h : n.phasor p = .ok v) :
    swingVoltage o p = some v := by
  have key : ∀ {k : Txt} {r : Option (ℚ × ℚ)}, complexAttribute o k = .ok r → (o.attr k).bind pyComplex = r := by
    intro k r h
    rcases complexAttribute_ok h with ⟨h1, rfl⟩ | ⟨t, x, h1, h2, rfl⟩
    · rw [h1]; rfl
    · rw [h1]; exact h2
  have hv : (if p ∈ ['A', 'B', 'C'] then (o.attr ("voltage_".toList ++ [p])).bind pyComplex else none) = n.volt p := by
    rw [DNode.volt]
    by_cases h1 : p = 'A'
    · subst h1; rw [if_pos (by decide), if_pos rfl]; exact key hA
    by_cases h2 : p = 'B'
    · subst h2; rw [if_pos (by decide), if_neg (by decide), if_pos rfl]; exact key hB
    by_cases h3 : p = 'C'
    · subst h3; rw [if_pos (by decide), if_neg (by decide), if_neg (by decide), if_pos rfl]; exact key hC
    rw [if_neg (by simp [h1, h2, h3]), if_neg h1, if_neg h2, if_neg h3]
  rw [swingVoltage, hv]
  rw [DNode.phasor] at h
  cases hz : n.volt p with
  | some z => simp only [hz] at h ⊢; cases h; rfl
  | none =>
    simp only [hz] at h ⊢
    cases hq : n.nominal with
    | none => simp only [hq] at h; cases h
    | some q =>
      simp only [hq] at h
      cases h
      rw [hq] at hn
      subst hn
      rcases floatAttribute_ok hm with ⟨_, hc⟩ | ⟨t, x, h1, h2, h3⟩
      · cases hc
      · cases h3
        rw [h1]; simp only [Option.bind_some, h2, Option.map_some]

theorem readNode_voltages {name : Txt} {o : Obj} {ph : Phases} {n : DNode} (h : readNode name o ph = .ok n) (p : Char) (v : Phasor)
    (hv : n.phasor p = .ok v) (hc : o.cls = "node".toList ∨ o.cls = "meter".toList) : placeVoltage o p = some v := by
  rw [placeVoltage, if_pos (by rcases hc with hc | hc <;> (rw [hc]; decide))]
  rw [readNode] at h
  split_ifs at h with h1
  obtain ⟨m, hm, h⟩ := bind_eq_ok h
  obtain ⟨a, ha, h⟩ := bind_eq_ok h
  obtain ⟨b, hb, h⟩ := bind_eq_ok h
  obtain ⟨c, hc, h⟩ := bind_eq_ok h
  have h := Except.ok.inj h
  subst h
  exact phasor_swing hm ha hb hc rfl p v hv

theorem nominalPhasor_place {o : Obj} {n : DNode} (hc : o.cls ∉ ["node", "meter"].map String.toList)
    (hm : floatAttribute o "nominal_voltage".toList = .ok n.nominal) (hA : n.vA = none) (hB : n.vB = none) (hC : n.vC = none) (p : Char) (v : Phasor)
    (h : n.phasor p = .ok v) : placeVoltage o p = some v := by
  have hv : n.volt p = none := by rw [DNode.volt, hA, hB, hC]; split_ifs <;> rfl
  rw [placeVoltage, if_neg hc]
  rw [DNode.phasor, hv] at h
  cases hq : n.nominal with
  | none => simp only [hq] at h; cases h
  | some q =>
    simp only [hq] at h
    cases h
    rw [hq] at hm
    rcases floatAttribute_ok hm with ⟨_, hc⟩ | ⟨t, x, h1, h2, h3⟩
    · cases hc
    · cases h3
      rw [h1]; simp only [Option.bind_some, h2, Option.map_some]

theorem notNodeClass_triplex {o : Obj} (h : o.cls = "triplex_meter".toList) : o.cls ∉ ["node", "meter"].map String.toList := by
  rw [h]; decide

theorem notNodeClass_load {o : Obj} (h : isLoadObj o = true) : o.cls ∉ ["node", "meter"].map String.toList := by
  have := isLoadObj_class h
  intro h
  simp only [List.map_cons, List.map_nil, List.mem_cons, List.not_mem_nil, or_false] at this h
  rcases h with h | h <;> (rw [h] at this; revert this; decide)

theorem notSwing_triplex {o : Obj} (h : o.cls = "triplex_meter".toList) : isSwing o = false := by
  rw [isSwing, decide_eq_false_iff_not, h]
  rintro ⟨h, _⟩
  revert h; decide

theorem notSwing_load {o : Obj} (h : isLoadObj o = true) : isSwing o = false := by
  have := isLoadObj_class h
  rw [isSwing, decide_eq_false_iff_not]
  rintro ⟨h, _⟩
  simp only [List.map_cons, List.map_nil, List.mem_cons, List.not_mem_nil, or_false] at this h
  rcases h with h | h <;> (rw [h] at this; revert this; decide)

theorem nodeObj_notLoad {o : Obj} (h : isNodeObj o = true) : isLoadObj o = false := by
  rw [isNodeObj, decide_eq_true_iff] at h
  rw [isLoadObj, decide_eq_false_iff_not]
  rintro (h' | ⟨h', hp⟩)
  · rcases h with h | ⟨h, _⟩
    · simp only [List.map_cons, List.map_nil, List.mem_cons, List.not_mem_nil, or_false] at h h'
      rcases h with h | h <;> (rw [h] at h'; revert h'; decide)
    · rw [h] at h'; revert h'; decide
  · rcases h with h | ⟨_, hq⟩
    · rw [h'] at h; revert h; decide
    · exact hq hp

theorem anglePhases_eq (l : List Char) : l.filter (fun c => c ∈ anglePhases) = l.filter (fun c => c ∈ ['A', 'B', 'C', '1', '2']) := rfl

theorem letters_angle (t : Txt) : (stripBy (· = '|') (stripBy (· = '"') t)).filter (fun c => c ∈ ['A', 'B', 'C', '1', '2']) =
    (letters t).filter (fun c => c ∈ ['A', 'B', 'C', '1', '2']) := by
  rw [letters, List.filter_filter]
  refine List.filter_congr fun c _ => ?_
  by_cases hc : c ∈ ['A', 'B', 'C', '1', '2']
  · have : c ∉ ['N', 'S', 'D', 'G'] := by
      intro h
      simp only [List.mem_cons, List.not_mem_nil, or_false] at hc h
      rcases hc with rfl | rfl | rfl | rfl | rfl <;> revert h <;> decide
    rw [decide_eq_true hc, decide_eq_true this]; rfl
  · rw [decide_eq_false hc]; rfl

theorem readTriplexMeter_nominal {name : Txt} {o : Obj} {ph : Phases} {n : DNode} (h : readTriplexMeter name o ph = .ok n) :
    floatAttribute o "nominal_voltage".toList = .ok n.nominal ∧ n.vA = none ∧ n.vB = none ∧ n.vC = none := by
  rw [readTriplexMeter] at h
  by_cases h1 : (!ph.isTriplex) = true
  · rw [if_pos h1] at h; cases h
  rw [if_neg h1] at h
  obtain ⟨_, hm, h⟩ := bind_eq_ok h
  obtain ⟨v1, _, h⟩ := bind_eq_ok h
  cases v1 with
  | none => cases h; exact ⟨hm, rfl, rfl, rfl⟩
  | some z =>
    simp only [Option.isSome_some, if_true] at h
    obtain ⟨_, _, h⟩ := bind_eq_ok h
    cases h; exact ⟨hm, rfl, rfl, rfl⟩

theorem readLoad_nominal {schedules : List (Txt × Txt)} {name : Txt} {o : Obj} {l : DLoad × Option DNode} (h : readLoad schedules name o = .ok l)
    {n : DNode} (hn : l.2 = some n) : floatAttribute o "nominal_voltage".toList = .ok n.nominal ∧ n.vA = none ∧ n.vB = none ∧ n.vC = none := by
  rw [readLoad] at h
  obtain ⟨_, hm, h⟩ := bind_eq_ok h
  obtain ⟨_, _, h⟩ := bind_eq_ok h
  obtain ⟨_, _, h⟩ := bind_eq_ok h
  obtain ⟨ls, hls, h⟩ := bind_eq_ok h
  cases hp : o.attr "parent".toList with
  | some q => simp only [hp] at h; cases h; cases hn
  | none => simp only [hp] at h; cases h; cases hn; exact ⟨hm, rfl, rfl, rfl⟩

theorem ReadAs.places {P : List Txt} {readLine : LineReader M} {schedules : List (Txt × Txt)} {objs objs' : List (Txt × Obj)} {name : Txt}
    {o : Obj} {ms : List (DModel M)} (h : ReadAs readLine schedules objs name o ms objs') :
    List.Forall₂ (NodeOf P) (if isPlace o then [(name, o)] else []) (modelNodes ms) := by
  have notPlace : isNodeObj o = false → isLoadObj o = false → isPlace o = false := by
    intro h1 h2; rw [isPlace, h1, h2]; rfl
  have byClass : ∀ c : Txt, o.cls = c → c ∉ ["node", "meter", "triplex_meter"].map String.toList →
      c ∉ ["load", "triplex_load", "triplex_node", "triplex_meter"].map String.toList → isPlace o = false := by
    intro c hc h1 h2
    refine notPlace ?_ (notLoad hc h2)
    by_contra hn
    have := isNodeObj_class (by simpa using hn)
    rw [hc] at this
    exact h1 this
  cases h with
  | config hc =>
    have : isPlace o = false := by
      simp only [sharedConfigObjects, List.map_cons, List.map_nil, List.mem_cons, List.not_mem_nil, or_false] at hc
      rcases hc with hc | hc | hc | hc | hc | hc | hc | hc <;> exact byClass _ hc (by decide) (by decide)
    rw [this]; exact .nil
  | node hc t ph n ht hph hr =>
    have hn : isNodeObj o = true := by
      rw [isNodeObj, decide_eq_true_iff]
      rcases hc with hc | hc <;> (left; rw [hc]; decide)
    have hp : isPlace o = true := by rw [isPlace, hn]; rfl
    rw [hp]
    obtain ⟨h1, h2, h3, h4⟩ := readNode_fields hr
    refine .cons ⟨h1, h2, ?_, ?_, fun _ p v hv => readNode_voltages hr p v hv hc⟩ .nil
    · rw [h3, (objPhases_of ht hph).1, placePhases, if_neg, anglePhases_eq]
      rintro (⟨h, _⟩ | ⟨h, _⟩)
      · rcases hc with hc | hc <;> (rw [hc] at h; revert h; decide)
      · rw [nodeObj_notLoad hn] at h; cases h
    · rw [h4, isSwing, decide_eq_true_iff]
      refine ⟨fun h => ⟨?_, h⟩, fun h => h.2⟩
      rcases hc with hc | hc <;> (rw [hc]; decide)
  | triplexMeter hc hp t ph n ht hph hr =>
    have hn : isNodeObj o = true := by
      rw [isNodeObj, decide_eq_true_iff]
      exact .inr ⟨hc, by rw [hp]; simp⟩
    have hpl : isPlace o = true := by rw [isPlace, hn]; rfl
    rw [hpl]
    obtain ⟨h1, h2, h3, h4⟩ := readTriplexMeter_fields hr
    obtain ⟨h5, h6, h7, h8⟩ := readTriplexMeter_nominal hr
    refine .cons ⟨h1, h2, ?_, ?_, fun _ => ?_⟩ .nil
    · rw [h3, placePhases, if_pos (.inl ⟨hc, by rw [hp]; simp⟩), anglePhases_eq]
    · rw [h4, notSwing_triplex hc]
    · exact nominalPhasor_place (notNodeClass_triplex hc) h5 h6 h7 h8
  | load hc t ph l ht hph hl =>
    obtain ⟨_, _, h3⟩ := readLoad_fields hl
    have hn : isNodeObj o = false := by
      by_contra hn
      have := nodeObj_notLoad (by simpa using hn)
      rw [hc] at this; cases this
    cases hpar : o.attr "parent".toList with
    | some q =>
      simp only [hpar] at h3
      have : isPlace o = false := by rw [isPlace, hn, hc, hpar]; rfl
      rw [this, h3]
      exact .nil
    | none =>
      simp only [hpar] at h3
      obtain ⟨n, hn1, hn2, hn3, hn4, hn5⟩ := h3
      obtain ⟨h6, h7, h8, h9⟩ := readLoad_nominal hl hn1
      have : isPlace o = true := by rw [isPlace, hc, hpar]; simp
      rw [this, hn1]
      refine .cons ⟨hn2, by rw [hn3, hpar], ?_, ?_, fun _ => ?_⟩ .nil
      · rw [hn5, placePhases, List.filter_filter]
        have htx : phaseText o = stripBy (· = '|') (stripBy (· = '"') ((o.attr "phases".toList).getD [])) := rfl
        by_cases hs : 'S' ∈ phaseText o
        · have hsplit : isSplit o = true := by rw [isSplit, decide_eq_true_iff]; exact hs
          rw [if_pos hs, if_pos (.inr ⟨hc, hsplit⟩)]
          decide
        · have hsplit : isSplit o = false := by rw [isSplit, decide_eq_false_iff_not]; exact hs
          rw [if_neg hs, if_neg]
          · rw [objPhases, ← letters_angle, htx]
            refine List.filter_congr fun c _ => ?_
            rw [anglePhases, Bool.and_self]
          · rintro (⟨h, hq⟩ | ⟨_, h⟩)
            · rw [isLoadObj, decide_eq_true_iff] at hc
              rcases hc with hc | ⟨_, hc⟩
              · rw [h] at hc; revert hc; decide
              · exact hq hc
            · rw [hsplit] at h; cases h
      · rw [hn4, notSwing_load hc]
      · exact nominalPhasor_place (notNodeClass_load hc) h6 h7 h8 h9
  | transformer hc => rw [byClass _ hc (by decide) (by decide)]; exact .nil
  | fuse hc => rw [byClass _ hc (by decide) (by decide)]; exact .nil
  | switch hc =>
    have : isPlace o = false := by rcases hc with hc | hc <;> exact byClass _ hc (by decide) (by decide)
    rw [this]; exact .nil
  | line hc =>
    have : isPlace o = false := by rcases hc with hc | hc | hc <;> exact byClass _ hc (by decide) (by decide)
    rw [this]; exact .nil
  | capacitor hc => rw [byClass _ hc (by decide) (by decide)]; exact .nil
  | regulator hc => rw [byClass _ hc (by decide) (by decide)]; exact .nil

theorem NodeOf.core {P : List Txt} {x : Txt × Obj} {n : DNode} (h : NodeOf P x n) : NodeOf P x (n.core P) := by
  obtain ⟨h1, h2, h3, h4, _, _, _, h5⟩ := core_fields P n
  obtain ⟨a1, a2, a3, a4, a5⟩ := h
  refine ⟨h1.trans a1, h4.trans a2, by rw [h3]; exact a3, by rw [h2]; exact a4, fun hs => ?_⟩
  rw [h2] at hs
  rw [h5 (by rw [a1]; exact hs)]
  exact a5 hs

theorem NodeOf.of_core {P : List Txt} {x : Txt × Obj} {n : DNode} (h : NodeOf P x (n.core P)) : NodeOf P x n := by
  obtain ⟨h1, h2, h3, h4, _, _, _, h5⟩ := core_fields P n
  obtain ⟨a1, a2, a3, a4, a5⟩ := h
  refine ⟨h1.symm.trans a1, h4.symm.trans a2, by rw [← h3]; exact a3, by rw [← h2]; exact a4, fun hs => ?_⟩
  have e := h5 (by rw [h1.symm.trans a1]; exact hs)
  rw [e] at a5
  exact a5 hs

theorem isPlace_notLine {o : Obj} (h : isPlace o = true) : o.cls ∉ conductorClasses := by
  rw [isPlace, Bool.or_eq_true, Bool.and_eq_true] at h
  rcases h with h | ⟨h, _⟩
  · have := isNodeObj_class h
    simp only [List.map_cons, List.map_nil, List.mem_cons, List.not_mem_nil, or_false] at this
    intro hc
    rcases this with h | h | h <;> (rw [h] at hc; revert hc; decide)
  · exact isLoadObj_notLine h

theorem flatMap_filter_singleton {α : Type} (q : α → Bool) (l : List α) : (l.flatMap fun x => if q x then [x] else []) = l.filter q := by
  induction l with
  | nil => rfl
  | cons a l ih =>
    rw [List.flatMap_cons, ih]
    by_cases h : q a = true
    · rw [if_pos h, List.filter_cons_of_pos h]; rfl
    · rw [if_neg h, List.filter_cons_of_neg h]; rfl

theorem places_of {readLine : LineReader M} {schedules : List (Txt × Txt)} {objs : List (Txt × Obj)} {models : List (DModel M)}
    {groups : List (List (DModel M))} (hm : models.map (DModel.erase (parentNames objs)) = groups.flatten.map (DModel.erase (parentNames objs)))
    (hg : List.Forall₂ (fun x ms => Gives readLine schedules objs x ms) (objs.map Prod.fst) groups) (hk : (objs.map Prod.fst).Nodup) :
    List.Forall₂ (NodeOf (parentNames objs)) (objs.filter fun x => isPlace x.2) (modelNodes models) := by
  have h1 : List.Forall₂ (NodeOf (parentNames objs)) (objs.flatMap fun x => if isPlace x.2 then [x] else []) ((modelNodes models).map (DNode.core (parentNames objs))) := by
    refine pieces_of hm hg hk (X := fun ms => (modelNodes ms).map (DNode.core (parentNames objs))) rfl (fun m ms => by rw [modelNodes_cons, List.map_append]) (fun m => by
      cases m with
      | node n => simp [DModel.erase, modelNodes, core_core]
      | _ => rfl) fun name o0 o objs1 objs2 ms hmem hso _ hr => ?_
    rw [List.forall₂_map_right_iff]
    by_cases hp : isPlace o0 = true
    · have := hso.other (isPlace_notLine hp)
      subst this
      exact hr.places.imp fun _ _ h => h.core
    · have hp' : isPlace o = false := by rw [isPlace_same hso]; simpa using hp
      have := hr.places (P := parentNames objs)
      rw [hp'] at this
      cases hms : modelNodes ms with
      | nil => rw [if_neg hp]; exact .nil
      | cons n ns => rw [hms] at this; cases this
  rw [flatMap_filter_singleton, List.forall₂_map_right_iff] at h1
  exact h1.imp fun _ _ h => h.of_core

theorem FileRead.places {readLine : LineReader M} {schedules : List (Txt × Txt)} {objs : List (Txt × Obj)} {s : DState M}
    {groups : List (List (DModel M))} {g : Grid M} (h : FileRead readLine schedules objs s groups g) (hk : (objs.map Prod.fst).Nodup) :
    List.Forall₂ (NodeOf (parentNames objs)) (objs.filter fun x => isPlace x.2) (modelNodes s.models) := places_of h.models h.gives hk

/-- The pair `d` of a node and a phase is the declared one. -/
def PairOf (P : List Txt) (x : (Txt × Obj) × Char) (d : DNode × Char) : Prop := NodeOf P x.1 d.1 ∧ d.2 = x.2

theorem FileRead.pairs {readLine : LineReader M} {schedules : List (Txt × Txt)} {objs : List (Txt × Obj)} {s : DState M}
    {groups : List (List (DModel M))} {g : Grid M} (h : FileRead readLine schedules objs s groups g) (hk : (objs.map Prod.fst).Nodup) :
    List.Forall₂ (PairOf (parentNames objs)) (declaredPlaces objs) (nodePhases (modelNodes s.models)) := by
  refine forall₂_flatMap (h.places hk) fun x _ n hn => ?_
  rw [hn.2.2.1]
  exact forall₂_map_map fun p _ => ⟨hn, rfl⟩

theorem forall₂_filter {α β : Type} {R : α → β → Prop} {p : α → Bool} {q : β → Bool} (hpq : ∀ a b, R a b → p a = q b) {as : List α} {bs : List β}
    (h : List.Forall₂ R as bs) : List.Forall₂ R (as.filter p) (bs.filter q) := by
  induction h with
  | nil => exact .nil
  | @cons a b as bs hab _ ih =>
    by_cases hp : p a = true
    · rw [List.filter_cons_of_pos hp, List.filter_cons_of_pos (hpq a b hab ▸ hp)]
      exact .cons hab ih
    · rw [List.filter_cons_of_neg hp, List.filter_cons_of_neg (hpq a b hab ▸ hp)]
      exact ih

theorem forall₂_map_eq {α β γ : Type} {R : α → β → Prop} {f : α → γ} {k : β → γ} (hfk : ∀ a b, R a b → f a = k b) {as : List α} {bs : List β}
    (h : List.Forall₂ R as bs) : as.map f = bs.map k := by
  induction h with
  | nil => rfl
  | cons hab _ ih => rw [List.map_cons, List.map_cons, hfk _ _ hab, ih]

theorem filter_map_pair {α : Type} (b : List PhaseBus) (l : List α) (f : α → Txt × Char)
    (h : b.map (fun x => (x.name, x.phase, x.virtual)) = l.map fun d => ((f d).1, (f d).2, false)) :
    (b.filter fun x => !x.virtual).map (fun x => (x.name, x.phase)) = l.map f := by
  induction b generalizing l with
  | nil =>
    cases l with
    | nil => rfl
    | cons d l => cases h
  | cons x b ih =>
    cases l with
    | nil => cases h
    | cons d l =>
      simp only [List.map_cons, List.cons.injEq, Prod.mk.injEq] at h
      obtain ⟨⟨h1, h2, h3⟩, h⟩ := h
      rw [List.filter_cons_of_pos (by rw [h3]; rfl), List.map_cons, List.map_cons, ih l h, h1, h2]

theorem Ext.outerNominals {g g' : Grid M} (h : Ext g g') : outerNominals g' = outerNominals g := by
  have hsplit : g'.buses = g'.buses.take g.buses.length ++ g'.buses.drop g.buses.length := (List.take_append_drop _ _).symm
  rw [Glm.outerNominals, Glm.outerNominals, hsplit, List.filter_append]
  have h2 : (g'.buses.drop g.buses.length).filter (fun x => !x.virtual) = [] := by
    rw [List.filter_eq_nil_iff]
    intro x hx
    obtain ⟨i, hi⟩ := List.mem_iff_getElem?.1 hx
    rw [List.getElem?_drop] at hi
    rw [h.inner _ x (by omega) hi]
    simp
  rw [h2, List.append_nil]
  have h1 : (g'.buses.take g.buses.length).map (fun x => (x.name, x.phase, x.virtual, x.nominal)) = g.buses.map fun x => (x.name, x.phase, x.virtual, x.nominal) := by
    apply List.ext_getElem?
    intro i
    rw [List.getElem?_map, List.getElem?_map]
    by_cases hi : i < g.buses.length
    · rw [List.getElem?_take_of_lt hi]
      obtain ⟨x', hx', e1, e2, e3, e4⟩ := h.bus i _ (List.getElem?_eq_getElem hi)
      rw [hx', List.getElem?_eq_getElem hi]
      simp only [Option.map_some, e1, e2, e3, e4]
    · rw [List.getElem?_eq_none (by rw [List.length_take]; omega), List.getElem?_eq_none (by omega)]
  generalize g'.buses.take g.buses.length = l at h1
  generalize g.buses = m at h1
  clear h2 hsplit
  induction l generalizing m with
  | nil =>
    cases m with
    | nil => rfl
    | cons d m => cases h1
  | cons x l ih =>
    cases m with
    | nil => cases h1
    | cons y m =>
      simp only [List.map_cons, List.cons.injEq, Prod.mk.injEq] at h1
      obtain ⟨⟨e1, e2, e3, e4⟩, h1⟩ := h1
      cases hy : y.virtual with
      | true => rw [List.filter_cons_of_neg (by rw [e3, hy]; simp), List.filter_cons_of_neg (by rw [hy]; simp)]; exact ih m h1
      | false =>
        rw [List.filter_cons_of_pos (by rw [e3, hy]; rfl), List.filter_cons_of_pos (by rw [hy]; rfl), List.map_cons, List.map_cons, ih m h1, e1, e2, e4]

theorem outerBuses_nominals (g : Grid M) : outerBuses g = (outerNominals g).map fun x => (x.1, x.2.1) := by
  rw [outerBuses, outerNominals, List.map_map]; rfl

theorem Ext.outer {g g' : Grid M} (h : Ext g g') : outerBuses g' = outerBuses g := by
  rw [outerBuses_nominals, outerBuses_nominals, h.outerNominals]

theorem FileRead.outerBuses {readLine : LineReader M} {schedules : List (Txt × Txt)} {objs : List (Txt × Obj)} {s : DState M}
    {groups : List (List (DModel M))} {g : Grid M} (h : FileRead readLine schedules objs s groups g) (hk : (objs.map Prod.fst).Nodup) :
    outerBuses g = ((declaredPlaces objs).filter fun x => (x.1.2.attr "parent".toList).isNone).map fun x => (x.1.1, x.2) := by
  obtain ⟨g0, hg0, e⟩ := h.buses
  have hI := createBuses_inv hg0
  rw [e.outer, Glm.outerBuses, filter_map_pair _ _ (fun d : DNode × Char => (d.1.name, d.2)) hI.buses]
  have hp := forall₂_filter (p := fun x => (x.1.2.attr "parent".toList).isNone) (q := fun d : DNode × Char => decide (d.1.parent = none)) (fun x d hxd => by
    rw [← hxd.1.2.1]
    cases d.1.parent <;> rfl) (h.pairs hk)
  exact (forall₂_map_eq (fun x d hxd => by rw [← hxd.1.1, hxd.2]) hp).symm

theorem FileRead.nominals {readLine : LineReader M} {schedules : List (Txt × Txt)} {objs : List (Txt × Obj)} {s : DState M}
    {groups : List (List (DModel M))} {g : Grid M} (h : FileRead readLine schedules objs s groups g) (hk : (objs.map Prod.fst).Nodup) :
    List.Forall₂ (fun (x : (Txt × Obj) × Char) (b : Txt × Char × Phasor) => b.1 = x.1.1 ∧ b.2.1 = x.2 ∧
      (isSwing x.1.2 = true ∨ x.1.1 ∉ parentNames objs → placeVoltage x.1.2 x.2 = some b.2.2))
      ((declaredPlaces objs).filter fun x => (x.1.2.attr "parent".toList).isNone) (outerNominals g) := by
  obtain ⟨g0, hg0, e⟩ := h.buses
  have hI := createBuses_inv hg0
  have hp := forall₂_filter (p := fun x => (x.1.2.attr "parent".toList).isNone) (q := fun d : DNode × Char => decide (d.1.parent = none)) (fun x d hxd => by
    rw [← hxd.1.2.1]
    cases d.1.parent <;> rfl) (h.pairs hk)
  rw [e.outerNominals, Glm.outerNominals]
  have h1 := hI.buses
  have h2 := hI.nominals
  revert hp h1 h2
  generalize (nodePhases (modelNodes s.models)).filter (fun d => decide (d.1.parent = none)) = ds
  generalize (declaredPlaces objs).filter (fun x => (x.1.2.attr "parent".toList).isNone) = xs
  generalize g0.buses = bs
  intro hp h1 h2
  induction hp generalizing bs with
  | nil => cases h2; exact .nil
  | @cons x d xs ds hxd _ ih =>
    cases h2 with
    | @cons _ b _ bs hd h2 =>
      simp only [List.map_cons, List.cons.injEq, Prod.mk.injEq] at h1
      obtain ⟨⟨e1, e2, e3⟩, h1⟩ := h1
      rw [List.filter_cons_of_pos (by rw [e3]; rfl), List.map_cons]
      refine .cons ⟨e1.trans hxd.1.1, e2.trans hxd.2, fun hs => ?_⟩ (ih bs h1 h2)
      have := hxd.1.2.2.2.2 (hs.imp hxd.1.2.2.2.1.2 id) _ _ hd
      rw [hxd.2] at this
      exact this

theorem FileRead.places_have {readLine : LineReader M} {schedules : List (Txt × Txt)} {objs : List (Txt × Obj)} {s : DState M}
    {groups : List (List (DModel M))} {g : Grid M} (h : FileRead readLine schedules objs s groups g) (hk : (objs.map Prod.fst).Nodup)
    {x : (Txt × Obj) × Char} (hx : x ∈ declaredPlaces objs) : ∃ b, FileAt objs g x.1.1 x.2 b := by
  obtain ⟨g0, hg0, e⟩ := h.buses
  have hI := createBuses_inv hg0
  obtain ⟨d, hd, hxd⟩ := forall₂_mem_left (h.pairs hk) hx
  obtain ⟨b, hb⟩ := hI.have_ d hd
  have := ((hI.named _ _ _ hb).mono e).file h.nodes
  rw [hxd.1.1, hxd.2] at this
  exact ⟨b, this⟩

theorem FileRead.slacks {readLine : LineReader M} {schedules : List (Txt × Txt)} {objs : List (Txt × Obj)} {s : DState M}
    {groups : List (List (DModel M))} {g : Grid M} (h : FileRead readLine schedules objs s groups g) (hk : (objs.map Prod.fst).Nodup) :
    List.Forall₂ (fun (x : (Txt × Obj) × Char) (y : ℕ × Phasor) => FileAt objs g x.1.1 x.2 y.1 ∧
      (x.1.2.attr "parent".toList = none → swingVoltage x.1.2 x.2 = some y.2)) ((declaredPlaces objs).filter fun x => isSwing x.1.2) g.slacks := by
  obtain ⟨g0, hg0, e⟩ := h.buses
  have hI := createBuses_inv hg0
  have hp := forall₂_filter (p := fun x => isSwing x.1.2) (q := fun d : DNode × Char => d.1.source) (fun x d hxd => by
    rw [Bool.eq_iff_iff]; exact hxd.1.2.2.2.1.symm) (h.pairs hk)
  rw [e.slacks]
  -- the pairs on the right are sources
  have hsrc : ∀ d ∈ (nodePhases (modelNodes s.models)).filter (fun d => d.1.source), d.1.source = true := fun d hd => (List.mem_filter.1 hd).2
  have h2 := hI.slacks
  revert hp h2 hsrc
  generalize (nodePhases (modelNodes s.models)).filter (fun d => d.1.source) = ds
  generalize (declaredPlaces objs).filter (fun x => isSwing x.1.2) = xs
  generalize g0.slacks = ys
  intro hp hsrc h2
  induction hp generalizing ys with
  | nil => cases h2; exact .nil
  | @cons x d xs ds hxd _ ih =>
    cases h2 with
    | cons hd h2 =>
      refine .cons ⟨?_, fun hpar => ?_⟩ (ih _ (fun d hd => hsrc d (by simp [hd])) h2)
      · have := (hd.2.mono e).file h.nodes
        rw [hxd.1.1, hxd.2] at this
        exact this
      · have := hd.1 (by rw [hxd.1.2.1, hpar])
        rw [hxd.2] at this
        have hs := hsrc d (by simp)
        have := hxd.1.2.2.2.2 (.inl hs) _ _ this
        have hsw := hxd.1.2.2.2.1.1 hs
        rw [isSwing, decide_eq_true_iff] at hsw
        rw [placeVoltage, if_pos hsw.1] at this
        exact this

/-! ### Only one bus -/

theorem mem_unique {objs : List (Txt × Obj)} (hk : (objs.map Prod.fst).Nodup) {name : Txt} {o o' : Obj} (h : (name, o) ∈ objs) (h' : (name, o') ∈ objs) :
    o = o' := by
  have h1 := lookup_of_mem hk h
  rw [lookup_of_mem hk h'] at h1
  cases h1; rfl

theorem fileRoot_unique {objs : List (Txt × Obj)} (hk : (objs.map Prod.fst).Nodup) {name r r' : Txt} (h : FileRoot objs name r)
    (h' : FileRoot objs name r') : r = r' := by
  induction h with
  | own name o ho hn hp =>
    cases h' with
    | own => rfl
    | child _ o' ho' _ q r hq _ =>
      rw [mem_unique hk ho ho', hq] at hp; cases hp
  | child name o ho hn q r hq _ ih =>
    cases h' with
    | own _ o' ho' _ hp => rw [mem_unique hk ho' ho, hq] at hp; cases hp
    | child _ o' ho' _ q' r' hq' hr' =>
      rw [mem_unique hk ho' ho, hq] at hq'
      cases hq'
      exact ih hr'

theorem nodup_filter_index {α β : Type} {l : List α} {q : α → Bool} {f : α → β} (h : ((l.filter q).map f).Nodup) {i j : ℕ} {x y : α} (hi : l[i]? = some x)
    (hj : l[j]? = some y) (hx : q x = true) (hy : q y = true) (hf : f x = f y) : i = j := by
  induction l generalizing i j with
  | nil => simp at hi
  | cons a l ih =>
    have hmem : ∀ {k : ℕ} {z : α}, l[k]? = some z → q z = true → f z ∈ (l.filter q).map f := fun hk hz =>
      List.mem_map.2 ⟨_, List.mem_filter.2 ⟨List.mem_of_getElem? hk, hz⟩, rfl⟩
    have htail : ((l.filter q).map f).Nodup := by
      by_cases ha : q a = true
      · rw [List.filter_cons_of_pos ha, List.map_cons, List.nodup_cons] at h; exact h.2
      · rw [List.filter_cons_of_neg ha] at h; exact h
    cases i with
    | zero =>
      cases j with
      | zero => rfl
      | succ j =>
        simp only [List.getElem?_cons_zero, Option.some.injEq] at hi
        rw [List.getElem?_cons_succ] at hj
        subst hi
        rw [List.filter_cons_of_pos hx, List.map_cons, List.nodup_cons, hf] at h
        exact absurd (hmem hj hy) h.1
    | succ i =>
      rw [List.getElem?_cons_succ] at hi
      cases j with
      | zero =>
        simp only [List.getElem?_cons_zero, Option.some.injEq] at hj
        subst hj
        rw [List.filter_cons_of_pos hy, List.map_cons, List.nodup_cons, ← hf] at h
        exact absurd (hmem hi hx) h.1
      | succ j =>
        rw [List.getElem?_cons_succ] at hj
        rw [ih htail hi hj]

theorem declaredPlaces_nodup {objs : List (Txt × Obj)} (hk : (objs.map Prod.fst).Nodup) (hp : PhasesOnce objs) (q : (Txt × Obj) × Char → Bool) :
    (((declaredPlaces objs).filter q).map fun x => (x.1.1, x.2)).Nodup := by
  have main : ∀ l : List (Txt × Obj), l.Sublist objs → (((l.filter fun x => isPlace x.2).flatMap fun x => (placePhases x.2).map fun p => (x, p)).map
      fun x : (Txt × Obj) × Char => (x.1.1, x.2)).Nodup := by
    intro l hl
    induction l with
    | nil => exact List.nodup_nil
    | cons x l ih =>
      have hl' : l.Sublist objs := (List.sublist_cons_self x l).trans hl
      by_cases hx : isPlace x.2 = true
      · rw [List.filter_cons_of_pos (p := fun x : Txt × Obj => isPlace x.2) hx, List.flatMap_cons, List.map_append, List.nodup_append]
        refine ⟨?_, ih hl', ?_⟩
        · rw [List.map_map]
          exact (hp x.1 x.2 (hl.subset (by simp)) hx).map fun a b hab => by simpa using hab
        · intro a ha b hb hab
          subst hab
          rw [List.map_map] at ha
          obtain ⟨p, _, rfl⟩ := List.mem_map.1 ha
          obtain ⟨y, hy, hy'⟩ := List.mem_map.1 hb
          obtain ⟨z, hz, hz'⟩ := List.mem_flatMap.1 hy
          obtain ⟨p', _, rfl⟩ := List.mem_map.1 hz'
          simp only [Function.comp, Prod.mk.injEq] at hy'
          have hnd : ((x :: l).map Prod.fst).Nodup := hk.sublist (hl.map _)
          rw [List.map_cons, List.nodup_cons] at hnd
          exact hnd.1 (List.mem_map.2 ⟨z, (List.mem_filter.1 hz).1, hy'.1⟩)
      · rw [List.filter_cons_of_neg (p := fun x : Txt × Obj => isPlace x.2) hx]; exact ih hl'
  have h1 := main objs (List.Sublist.refl _)
  exact h1.sublist (List.filter_sublist.map _)

theorem FileRead.unique {readLine : LineReader M} {schedules : List (Txt × Txt)} {objs : List (Txt × Obj)} {s : DState M}
    {groups : List (List (DModel M))} {g : Grid M} (h : FileRead readLine schedules objs s groups g) (hk : (objs.map Prod.fst).Nodup)
    (hp : PhasesOnce objs) {name : Txt} {p : Char} {b b' : ℕ} (hb : FileAt objs g name p b) (hb' : FileAt objs g name p b') : b = b' := by
  obtain ⟨r, x, h1, h2, h3, h4, h5⟩ := hb
  obtain ⟨r', x', h1', h2', h3', h4', h5'⟩ := hb'
  have hr := fileRoot_unique hk h1 h1'
  subst hr
  have hn : (Glm.outerBuses g).Nodup := by
    rw [h.outerBuses hk]
    exact declaredPlaces_nodup hk hp _
  exact nodup_filter_index hn h2 h2' (by rw [h5]; rfl) (by rw [h5']; rfl) (by rw [h3, h4, h3', h4'])

end Verif.Glm
