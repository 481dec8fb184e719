import Verif.Spec.GlmFile
import Verif.Lemmas.ThreePhase

/-!
# Lemmas on the reading of the objects of a file
-/

namespace Verif.Glm

variable {M : Type}

/-! ### Objects that stay the same -/

theorem SameObj.refl (o : Obj) : SameObj o o := ⟨rfl, fun _ _ => rfl, fun _ => rfl, fun _ => rfl, fun _ => Or.inl rfl⟩

theorem removeNonnum_idem (t : Txt) : removeNonnum (removeNonnum t) = removeNonnum t := by
  rw [removeNonnum, removeNonnum, List.filter_filter]
  simp only [Bool.and_self]

theorem SameObj.trans {a b c : Obj} (h : SameObj a b) (h' : SameObj b c) : SameObj a c := by
  refine ⟨h'.cls.trans h.cls, fun k hk => (h'.attr k hk).trans (h.attr k hk), fun hc => ?_, fun hu => ?_, fun a => ?_⟩
  · rw [h'.other (by rw [h.cls]; exact hc), h.other hc]
  · rw [h'.plain (by rw [h.plain hu]; exact hu), h.plain hu]
  · rcases h.clean a with e | ⟨t, ht, e⟩ <;> rcases h'.clean a with e' | ⟨t', ht', e'⟩
    · exact Or.inl (e'.trans e)
    · exact Or.inr ⟨t', by rw [← e, ht'], e'⟩
    · exact Or.inr ⟨t, ht, by rw [e', e]⟩
    · rw [e] at ht'
      cases ht'
      exact Or.inr ⟨t, ht, by rw [e', removeNonnum_idem]⟩

theorem SameObjs.refl (objs : List (Txt × Obj)) : SameObjs objs objs := by
  intro k
  cases lookup k objs with
  | none => exact .none
  | some o => exact .some (SameObj.refl o)

theorem SameObjs.trans {a b c : List (Txt × Obj)} (h : SameObjs a b) (h' : SameObjs b c) : SameObjs a c := by
  intro k
  have h1 := h k
  have h2 := h' k
  revert h1 h2
  generalize lookup k a = x
  generalize lookup k b = y
  generalize lookup k c = z
  intro h1 h2
  cases h1 with
  | none => cases h2; exact .none
  | some h1 => cases h2 with
    | some h2 => exact .some (h1.trans h2)

theorem SameObjs.to_some {objs objs' : List (Txt × Obj)} (h : SameObjs objs objs') {k : Txt} {o' : Obj} (hl : lookup k objs' = some o') :
    ∃ o, lookup k objs = some o ∧ SameObj o o' := by
  have := h k
  rw [hl] at this
  cases hk : lookup k objs with
  | none => rw [hk] at this; cases this
  | some o => rw [hk] at this; cases this with
    | some h => exact ⟨o, rfl, h⟩

theorem SameObjs.of_some {objs objs' : List (Txt × Obj)} (h : SameObjs objs objs') {k : Txt} {o : Obj} (hl : lookup k objs = some o) :
    ∃ o', lookup k objs' = some o' ∧ SameObj o o' := by
  have := h k
  rw [hl] at this
  cases hk : lookup k objs' with
  | none => rw [hk] at this; cases this
  | some o' => rw [hk] at this; cases this with
    | some h => exact ⟨o', rfl, h⟩

theorem mem_of_lookup {β : Type} {d : List (Txt × β)} {k : Txt} {v : β} (h : lookup k d = some v) : (k, v) ∈ d := by
  induction d with
  | nil => cases h
  | cons a d ih =>
    obtain ⟨k', v'⟩ := a
    rw [lookup] at h
    split_ifs at h with hk
    · cases h; subst hk; exact List.mem_cons_self
    · exact List.mem_cons_of_mem _ (ih h)

/-! ### What each object is read as -/

/-- The models an object is read as. -/
inductive ReadAs (readLine : LineReader M) (schedules : List (Txt × Txt)) (objs : List (Txt × Obj)) (name : Txt) (o : Obj) :
    List (DModel M) → List (Txt × Obj) → Prop
  | config (h : o.cls ∈ sharedConfigObjects) : ReadAs readLine schedules objs name o [] objs
  | node (h : o.cls = "node".toList ∨ o.cls = "meter".toList) (t : Txt) (ph : Phases) (n : DNode) (ht : o.attr "phases".toList = some t)
      (hph : parsePhases t = .ok ph) (hn : readNode name o ph = .ok n) : ReadAs readLine schedules objs name o [.node n] objs
  | triplexMeter (h : o.cls = "triplex_meter".toList) (hp : hasPower o = false) (t : Txt) (ph : Phases) (n : DNode)
      (ht : o.attr "phases".toList = some t) (hph : parsePhases t = .ok ph) (hn : readTriplexMeter name o ph = .ok n) :
      ReadAs readLine schedules objs name o [.node n] objs
  | transformer (h : o.cls = "transformer".toList) (t : Txt) (ph : Phases) (x : DTransformer) (ht : o.attr "phases".toList = some t)
      (hph : parsePhases t = .ok ph) (hx : readTransformer objs name o ph = .ok x) : ReadAs readLine schedules objs name o [.transformer x] objs
  | load (h : isLoadObj o = true) (t : Txt) (ph : Phases) (l : DLoad × Option DNode) (ht : o.attr "phases".toList = some t)
      (hph : parsePhases t = .ok ph) (hl : readLoad schedules name o = .ok l) :
      ReadAs readLine schedules objs name o (.load l.1 :: (l.2.map DModel.node).toList) objs
  | fuse (h : o.cls = "fuse".toList) (t : Txt) (ph : Phases) (ht : o.attr "phases".toList = some t) (hph : parsePhases t = .ok ph) :
      ReadAs readLine schedules objs name o [.device (readFuse o ph)] objs
  | switch (h : o.cls = "switch".toList ∨ o.cls = "recloser".toList) (t : Txt) (ph : Phases) (ht : o.attr "phases".toList = some t)
      (hph : parsePhases t = .ok ph) : ReadAs readLine schedules objs name o [.device (readSwitch o ph)] objs
  | line (h : o.cls = "overhead_line".toList ∨ o.cls = "triplex_line".toList ∨ o.cls = "underground_line".toList) (t : Txt) (ph : Phases)
      (d : List Char × M) (objs' : List (Txt × Obj)) (ht : o.attr "phases".toList = some t) (hph : parsePhases t = .ok ph)
      (hd : readLine objs o ph = .ok (d, objs')) :
      ReadAs readLine schedules objs name o [.line ⟨o.attr "from".toList, o.attr "to".toList, d.1, d.2⟩] objs'
  | capacitor (h : o.cls = "capacitor".toList) (t : Txt) (ph : Phases) (x : DCap) (ht : o.attr "phases".toList = some t)
      (hph : parsePhases t = .ok ph) (hx : readCapacitor name o ph = .ok x) : ReadAs readLine schedules objs name o [.capacitor x] objs
  | regulator (h : o.cls = "regulator".toList) (t : Txt) (ph : Phases) (x : DRegulator) (ht : o.attr "phases".toList = some t)
      (hph : parsePhases t = .ok ph) (hx : readRegulator objs name o ph = .ok x) : ReadAs readLine schedules objs name o [.regulator x] objs

theorem hasPower_iff (o : Obj) : hasPower o = true ↔ ((o.attr "power_12".toList).isSome ∨ (o.attr "power_1".toList).isSome ∨
    (o.attr "power_2".toList).isSome) := by
  simp only [hasPower, List.any_cons, List.any_nil, Bool.or_false, Bool.or_eq_true]
  tauto

theorem objectClass_eq (o : Obj) : objectClass o = if o.cls = "triplex_node".toList ∨ o.cls = "triplex_meter".toList ∧ hasPower o = true
    then "triplex_load".toList else o.cls := by
  rw [objectClass]
  by_cases h : hasPower o = true
  · rw [if_congr (by rw [← hasPower_iff]) rfl rfl]
  · rw [if_congr (by rw [← hasPower_iff]) rfl rfl]

theorem class_other {o : Obj} {c : Txt} (hc : c ≠ "triplex_load".toList) (h : objectClass o = c) : o.cls = c := by
  rw [objectClass_eq] at h
  split_ifs at h with h1
  · exact absurd h.symm hc
  · exact h

theorem class_load {o : Obj} (h : objectClass o = "load".toList ∨ objectClass o = "triplex_load".toList) : isLoadObj o = true := by
  rw [objectClass_eq] at h
  rw [isLoadObj, decide_eq_true_iff]
  by_cases h1 : o.cls = "triplex_node".toList ∨ o.cls = "triplex_meter".toList ∧ hasPower o = true
  · rcases h1 with h1 | h1
    · left; rw [h1]; decide
    · exact .inr h1
  · rw [if_neg h1] at h
    rcases h with h | h <;> (left; rw [h]; decide)

theorem objectModels_readAs {readLine : LineReader M} {schedules : List (Txt × Txt)} {objs : List (Txt × Obj)} {name : Txt} {o : Obj}
    {r : List (DModel M) × List (Txt × Obj)} (h : objectModels readLine schedules objs name o = .ok r) :
    ReadAs readLine schedules objs name o r.1 r.2 := by
  rw [objectModels] at h
  by_cases hc : o.cls ∈ sharedConfigObjects
  · rw [if_pos hc] at h; cases h; exact .config hc
  rw [if_neg hc] at h
  obtain ⟨t, ht, h⟩ := bind_eq_ok h
  obtain ⟨ph, hph, h⟩ := bind_eq_ok h
  replace ht := get_eq_ok ht
  by_cases h1 : objectClass o = "node".toList ∨ objectClass o = "meter".toList
  · rw [if_pos h1] at h
    obtain ⟨n, hn, h⟩ := bind_eq_ok h
    cases h
    exact .node (h1.imp (class_other (by decide)) (class_other (by decide))) t ph n ht hph hn
  rw [if_neg h1] at h
  by_cases h2 : objectClass o = "triplex_meter".toList
  · rw [if_pos h2] at h
    obtain ⟨n, hn, h⟩ := bind_eq_ok h
    cases h
    have hcls := class_other (by decide) h2
    refine .triplexMeter hcls ?_ t ph n ht hph hn
    by_contra hp
    rw [objectClass_eq, if_pos (.inr ⟨hcls, by simpa using hp⟩)] at h2
    exact absurd h2 (by decide)
  rw [if_neg h2] at h
  by_cases h3 : objectClass o = "transformer".toList
  · rw [if_pos h3] at h
    obtain ⟨x, hx, h⟩ := bind_eq_ok h
    cases h
    exact .transformer (class_other (by decide) h3) t ph x ht hph hx
  rw [if_neg h3] at h
  by_cases h4 : objectClass o = "load".toList ∨ objectClass o = "triplex_load".toList
  · rw [if_pos h4] at h
    obtain ⟨l, hl, h⟩ := bind_eq_ok h
    cases h
    exact .load (class_load h4) t ph l ht hph hl
  rw [if_neg h4] at h
  by_cases h5 : objectClass o = "fuse".toList
  · rw [if_pos h5] at h
    cases h
    exact .fuse (class_other (by decide) h5) t ph ht hph
  rw [if_neg h5] at h
  by_cases h6 : objectClass o = "switch".toList ∨ objectClass o = "recloser".toList
  · rw [if_pos h6] at h
    cases h
    exact .switch (h6.imp (class_other (by decide)) (class_other (by decide))) t ph ht hph
  rw [if_neg h6] at h
  by_cases h7 : objectClass o = "overhead_line".toList ∨ objectClass o = "triplex_line".toList ∨ objectClass o = "underground_line".toList
  · rw [if_pos h7] at h
    obtain ⟨⟨d, objs'⟩, hd, h⟩ := bind_eq_ok h
    cases h
    exact .line (h7.imp (class_other (by decide)) (Or.imp (class_other (by decide)) (class_other (by decide)))) t ph d objs' ht hph hd
  rw [if_neg h7] at h
  by_cases h8 : objectClass o = "capacitor".toList
  · rw [if_pos h8] at h
    obtain ⟨x, hx, h⟩ := bind_eq_ok h
    cases h
    exact .capacitor (class_other (by decide) h8) t ph x ht hph hx
  rw [if_neg h8] at h
  by_cases h9 : objectClass o = "regulator".toList
  · rw [if_pos h9] at h
    obtain ⟨x, hx, h⟩ := bind_eq_ok h
    cases h
    exact .regulator (class_other (by decide) h9) t ph x ht hph hx
  rw [if_neg h9] at h
  cases h

theorem ReadAs.same {readLine : LineReader M} {objs0 : List (Txt × Obj)} (hk : Keeps readLine objs0) {schedules : List (Txt × Txt)}
    {objs objs' : List (Txt × Obj)} (hs : SameObjs objs0 objs) {name : Txt} {o : Obj} {ms : List (DModel M)} (h : ReadAs readLine schedules objs name o ms objs') : SameObjs objs objs' := by
  cases h with
  | line _ _ _ _ _ _ _ hd => exact hk _ _ _ _ _ hs hd
  | _ => exact SameObjs.refl _

/-! ### The loop -/

/-- A node without the nominal voltage that a child may have changed: that of a node that is a parent and no source. -/
def DNode.core (P : List Txt) (n : DNode) : DNode := if n.source = true ∨ n.name ∉ P then n else { n with nominal := none }

/-- The same for every model. -/
def DModel.erase (P : List Txt) : DModel M → DModel M
  | .node n => .node (n.core P)
  | m => m

theorem core_fields (P : List Txt) (n : DNode) : (n.core P).name = n.name ∧ (n.core P).source = n.source ∧ (n.core P).phases = n.phases ∧
    (n.core P).parent = n.parent ∧ (n.core P).vA = n.vA ∧ (n.core P).vB = n.vB ∧ (n.core P).vC = n.vC ∧
    (n.source = true ∨ n.name ∉ P → n.core P = n) := by
  rw [DNode.core]
  by_cases h : n.source = true ∨ n.name ∉ P
  · rw [if_pos h]; exact ⟨rfl, rfl, rfl, rfl, rfl, rfl, rfl, fun _ => rfl⟩
  · rw [if_neg h]; exact ⟨rfl, rfl, rfl, rfl, rfl, rfl, rfl, fun h' => absurd h' h⟩

theorem core_core (P : List Txt) (n : DNode) : (n.core P).core P = n.core P := by
  by_cases h : n.source = true ∨ n.name ∉ P
  · rw [(core_fields P n).2.2.2.2.2.2.2 h, (core_fields P n).2.2.2.2.2.2.2 h]
  · have : n.core P = { n with nominal := none } := by rw [DNode.core, if_neg h]
    rw [this, DNode.core, if_neg h]

theorem adoptNominal_erase {P : List Txt} {p : Txt} (hp : p ∈ P) (v : Option ℚ) (ms : List (DModel M)) :
    (adoptNominal p v ms).map (DModel.erase P) = ms.map (DModel.erase P) := by
  induction ms with
  | nil => rfl
  | cons m ms ih =>
    cases m with
    | node n =>
      rw [adoptNominal]
      split_ifs with h
      · rw [List.map_cons, List.map_cons]
        simp [DModel.erase, DNode.core, h.1, h.2, hp]
      · rw [List.map_cons, List.map_cons, ih]
    | _ => simp only [adoptNominal, List.map_cons, ih]

theorem adopt_erase {P : List Txt} (o : Obj) (new ms : List (DModel M)) (hP : ∀ n q, .node n ∈ new → n.parent = some q →
    o.cls = "node".toList ∨ o.cls = "meter".toList → q ∈ P) : (adopt o new ms).map (DModel.erase P) = ms.map (DModel.erase P) := by
  unfold adopt
  split
  · rename_i n
    split_ifs with hc
    · split
      · rfl
      · rename_i q hq
        exact adoptNominal_erase (hP n q (by simp) hq hc) _ _
    · rfl
  · rfl

/-- What the object called `name` of the file gives. -/
def Gives (readLine : LineReader M) (schedules : List (Txt × Txt)) (objs : List (Txt × Obj)) (name : Txt) (ms : List (DModel M)) : Prop :=
  ∃ o objs1 objs2, SameObjs objs objs1 ∧ lookup name objs1 = some o ∧ ReadAs readLine schedules objs1 name o ms objs2

/-! ### Pieces -/

theorem pieces_groups {β : Type} {X : List (DModel M) → List β} (h0 : X [] = []) (hc : ∀ m ms, X (m :: ms) = X [m] ++ X ms)
    (he : ∀ m : DModel M, X [(m.erase (parentNames objs))] = X [m]) {ms : List (DModel M)} {groups : List (List (DModel M))}
    (h : ms.map (DModel.erase (parentNames objs)) = groups.flatten.map (DModel.erase (parentNames objs))) : X ms = groups.flatMap X := by
  have h1 : ∀ l : List (DModel M), X (l.map (DModel.erase (parentNames objs))) = X l := by
    intro l
    induction l with
    | nil => rfl
    | cons m l ih => rw [List.map_cons, hc, ih, he, ← hc]
  have ha : ∀ a b : List (DModel M), X (a ++ b) = X a ++ X b := by
    intro a b
    induction a with
    | nil => rw [h0]; rfl
    | cons m a ih => rw [List.cons_append, hc, ih, hc m a, List.append_assoc]
  have hf : X groups.flatten = groups.flatMap X := by
    clear h
    induction groups with
    | nil => rw [List.flatten_nil, h0]; rfl
    | cons a gs ih => rw [List.flatten_cons, ha, ih, List.flatMap_cons]
  rw [← h1 ms, h, h1, hf]

theorem forall₂_flatMap {α β γ δ : Type} {T : α → β → Prop} {F : α → List γ} {G : β → List δ} {R : γ → δ → Prop}
    {as : List α} {bs : List β} (h : List.Forall₂ T as bs) (hR : ∀ a ∈ as, ∀ b, T a b → List.Forall₂ R (F a) (G b)) :
    List.Forall₂ R (as.flatMap F) (bs.flatMap G) := by
  induction h with
  | nil => exact .nil
  | cons hab _ ih =>
    rw [List.flatMap_cons, List.flatMap_cons]
    exact List.rel_append (hR _ (by simp) _ hab) (ih fun a ha => hR a (by simp [ha]))

theorem Gives.object {readLine : LineReader M} {schedules : List (Txt × Txt)} {objs : List (Txt × Obj)} {name : Txt} {ms : List (DModel M)}
    (h : Gives readLine schedules objs name ms) : ∃ o0 o objs1 objs2, (name, o0) ∈ objs ∧ lookup name objs = some o0 ∧ SameObj o0 o ∧
      SameObjs objs objs1 ∧ ReadAs readLine schedules objs1 name o ms objs2 := by
  obtain ⟨o, objs1, objs2, hs, hl, hr⟩ := h
  obtain ⟨o0, h0, hso⟩ := hs.to_some hl
  exact ⟨o0, o, objs1, objs2, mem_of_lookup h0, h0, hso, hs, hr⟩

/-! ### Nodes -/

theorem readNode_fields {name : Txt} {o : Obj} {ph : Phases} {n : DNode} (h : readNode name o ph = .ok n) :
    n.name = name ∧ n.parent = o.attr "parent".toList ∧ n.phases = ph.phases ∧ (n.source = true ↔ o.attr "bustype".toList = some "SWING".toList) := by
  rw [readNode] at h
  split_ifs at h with h1
  obtain ⟨_, _, h⟩ := bind_eq_ok h
  obtain ⟨_, _, h⟩ := bind_eq_ok h
  obtain ⟨_, _, h⟩ := bind_eq_ok h
  obtain ⟨_, _, h⟩ := bind_eq_ok h
  cases h
  exact ⟨rfl, rfl, rfl, by simp⟩

theorem readTriplexMeter_fields {name : Txt} {o : Obj} {ph : Phases} {n : DNode} (h : readTriplexMeter name o ph = .ok n) :
    n.name = name ∧ n.parent = o.attr "parent".toList ∧ n.phases = ['1', '2'] ∧ n.source = false := by
  rw [readTriplexMeter] at h
  by_cases h1 : (!ph.isTriplex) = true
  · rw [if_pos h1] at h; cases h
  rw [if_neg h1] at h
  obtain ⟨_, _, h⟩ := bind_eq_ok h
  obtain ⟨v1, _, h⟩ := bind_eq_ok h
  cases v1 with
  | none => cases h; exact ⟨rfl, rfl, rfl, rfl⟩
  | some z =>
    simp only [Option.isSome_some, if_true] at h
    obtain ⟨_, _, h⟩ := bind_eq_ok h
    cases h; exact ⟨rfl, rfl, rfl, rfl⟩

theorem readLoad_fields {schedules : List (Txt × Txt)} {name : Txt} {o : Obj} {l : DLoad × Option DNode} (h : readLoad schedules name o = .ok l) :
    l.1.connecting = (o.attr "parent".toList).getD name ∧
      phaseLoads schedules o (!decide ('S' ∈ phaseText o) && decide ('D' ∈ phaseText o)) loadConnections = .ok l.1.loads ∧
      match o.attr "parent".toList with
      | some _ => l.2 = none
      | none => ∃ n, l.2 = some n ∧ n.name = name ∧ n.parent = none ∧ n.source = false ∧
        n.phases = (if 'S' ∈ phaseText o then "12".toList else phaseText o).filter fun c => c ∈ ['A', 'B', 'C', '1', '2'] := by
  rw [readLoad] at h
  obtain ⟨_, _, h⟩ := bind_eq_ok h
  obtain ⟨_, _, h⟩ := bind_eq_ok h
  obtain ⟨_, _, h⟩ := bind_eq_ok h
  obtain ⟨ls, hls, h⟩ := bind_eq_ok h
  cases hp : o.attr "parent".toList with
  | some q => simp only [hp] at h; cases h; exact ⟨rfl, hls, rfl⟩
  | none =>
    simp only [hp] at h; cases h
    refine ⟨rfl, hls, _, rfl, rfl, rfl, rfl, ?_⟩
    simp

/-- The nodes of what an object is read as. -/
theorem ReadAs.nodes {readLine : LineReader M} {schedules : List (Txt × Txt)} {objs objs' : List (Txt × Obj)} {name : Txt}
    {o : Obj} {ms : List (DModel M)} (h : ReadAs readLine schedules objs name o ms objs') {n : DNode} (hn : n ∈ modelNodes ms) :
    n.name = name ∧ n.parent = o.attr "parent".toList ∧ (isNodeObj o = true ∨ isLoadObj o = true ∧ o.attr "parent".toList = none) := by
  cases h with
  | node hc t ph n' _ _ hr =>
    simp only [modelNodes, List.filterMap_cons, List.filterMap_nil, List.mem_singleton] at hn
    subst hn
    obtain ⟨h1, h2, _⟩ := readNode_fields hr
    refine ⟨h1, h2, .inl ?_⟩
    rw [isNodeObj, decide_eq_true_iff]
    rcases hc with hc | hc <;> (left; rw [hc]; decide)
  | triplexMeter hc hp t ph n' _ _ hr =>
    simp only [modelNodes, List.filterMap_cons, List.filterMap_nil, List.mem_singleton] at hn
    subst hn
    obtain ⟨h1, h2, _⟩ := readTriplexMeter_fields hr
    refine ⟨h1, h2, .inl ?_⟩
    rw [isNodeObj, decide_eq_true_iff]
    exact .inr ⟨hc, by simp [hp]⟩
  | load hc t ph l _ _ hr =>
    obtain ⟨_, _, h3⟩ := readLoad_fields hr
    cases hp : o.attr "parent".toList with
    | some q =>
      simp only [hp] at h3
      simp [modelNodes, h3] at hn
    | none =>
      simp only [hp] at h3
      obtain ⟨n', hn', h4, h5, _⟩ := h3
      simp [modelNodes, hn'] at hn
      subst hn
      exact ⟨h4, h5, .inr ⟨hc, rfl⟩⟩
  | _ => simp [modelNodes] at hn

theorem modelNodes_cons (m : DModel M) (ms : List (DModel M)) : modelNodes (m :: ms) = modelNodes [m] ++ modelNodes ms := by
  cases m <;> rfl

theorem parent_notWritten : "parent".toList ∉ writtenAttributes := by decide
theorem from_notWritten : "from".toList ∉ writtenAttributes := by decide
theorem to_notWritten : "to".toList ∉ writtenAttributes := by decide
theorem phases_notWritten : "phases".toList ∉ writtenAttributes := by decide

theorem hasPower_same {o o' : Obj} (h : SameObj o o') : hasPower o' = hasPower o := by
  have : ∀ k : String, k.toList ∉ writtenAttributes → o'.attr k.toList = o.attr k.toList := fun k hk => h.attr _ hk
  simp only [hasPower, List.any_cons, List.any_nil]
  rw [this "power_1" (by decide), this "power_2" (by decide), this "power_12" (by decide)]

theorem isNodeObj_same {o o' : Obj} (h : SameObj o o') : isNodeObj o' = isNodeObj o := by rw [isNodeObj, isNodeObj, h.cls, hasPower_same h]

theorem isLoadObj_same {o o' : Obj} (h : SameObj o o') : isLoadObj o' = isLoadObj o := by rw [isLoadObj, isLoadObj, h.cls, hasPower_same h]

theorem readModels_gives {readLine : LineReader M} {schedules : List (Txt × Txt)} {objs : List (Txt × Obj)} (hk : Keeps readLine objs) {s : DState M}
    (h : readModels readLine objs schedules = .ok s) : SameObjs objs s.objs ∧ ∃ groups : List (List (DModel M)),
      s.models.map (DModel.erase (parentNames objs)) = groups.flatten.map (DModel.erase (parentNames objs)) ∧
      List.Forall₂ (fun x ms => Gives readLine schedules objs x ms) (objs.map Prod.fst) groups := by
  rw [readModels] at h
  obtain ⟨he, news, hn, hF⟩ := collect (readObject readLine schedules) (fun s s' => SameObjs s.objs s'.objs) (fun _ => SameObjs.refl _)
    (fun _ _ _ h h' => h.trans h') (fun s => SameObjs objs s.objs) (fun _ _ h h' => h.trans h') (fun s => s.models.map (DModel.erase (parentNames objs)))
    (fun _ => True) (fun _ name (new : List (DModel M)) => ∃ ms : List (DModel M), new = ms.map (DModel.erase (parentNames objs)) ∧ Gives readLine schedules objs name ms) (fun _ _ _ _ h _ => h)
    (fun s name s' hs _ hst => by
      rw [readObject] at hst
      cases hl : lookup name s.objs with
      | none => simp only [hl] at hst; cases hst
      | some o =>
        simp only [hl] at hst
        obtain ⟨⟨new, objs'⟩, ho, hst⟩ := bind_eq_ok hst
        cases hst
        have hr := objectModels_readAs ho
        refine ⟨hr.same hk hs, new.map (DModel.erase (parentNames objs)), ?_, new, rfl, o, s.objs, objs', hs, hl, hr⟩
        rw [adopt_erase o new _ fun n q hn hq hc => ?_, List.map_append]
        obtain ⟨_, h2, _⟩ := hr.nodes (n := n) (by rw [modelNodes, List.mem_filterMap]; exact ⟨_, hn, rfl⟩)
        obtain ⟨o0, h0, hso⟩ := hs.to_some hl
        rw [parentNames, List.mem_filterMap]
        refine ⟨(name, o0), ?_, by rw [← hq, h2, hso.attr _ parent_notWritten]⟩
        rw [List.mem_filter]
        refine ⟨mem_of_lookup h0, decide_eq_true ?_⟩
        rw [← hso.cls]
        rcases hc with hc | hc <;> (rw [hc]; decide)) _ _ _ (SameObjs.refl objs) (fun _ _ => trivial) h
  refine ⟨he, ?_⟩
  obtain ⟨groups, hg, hG⟩ : ∃ groups : List (List (DModel M)), news = groups.map (List.map (DModel.erase (parentNames objs))) ∧
      List.Forall₂ (fun x ms => Gives readLine schedules objs x ms) (objs.map Prod.fst) groups := by
    clear hn h he
    generalize objs.map Prod.fst = names at hF
    induction hF with
    | nil => exact ⟨[], rfl, .nil⟩
    | cons ha _ ih =>
      obtain ⟨ms, rfl, hms⟩ := ha
      obtain ⟨gs, rfl, hgs⟩ := ih
      exact ⟨ms :: gs, rfl, .cons hms hgs⟩
  refine ⟨groups, ?_, hG⟩
  rw [hn, hg]
  simp [List.map_flatten]

/-- Every node of the store is an object of the file. -/
theorem node_object {readLine : LineReader M} {schedules : List (Txt × Txt)} {objs : List (Txt × Obj)} {ms : List (DModel M)}
    {groups : List (List (DModel M))} (he : ms.map (DModel.erase (parentNames objs)) = groups.flatten.map (DModel.erase (parentNames objs)))
    (hG : List.Forall₂ (fun x ms => Gives readLine schedules objs x ms) (objs.map Prod.fst) groups) {n : DNode} (hn : n ∈ modelNodes ms) :
    ∃ o, (n.name, o) ∈ objs ∧ n.parent = o.attr "parent".toList ∧ (isNodeObj o = true ∨ isLoadObj o = true ∧ o.attr "parent".toList = none) := by
  have hX := pieces_groups (X := fun ms => (modelNodes ms).map fun n => (n.name, n.parent)) rfl
    (fun m ms => by rw [modelNodes_cons, List.map_append]) (fun m => by
      cases m with
      | node n => simp [DModel.erase, modelNodes, (core_fields (parentNames objs) n).1, (core_fields (parentNames objs) n).2.2.2.1]
      | _ => rfl) he
  have hm : (n.name, n.parent) ∈ groups.flatMap fun ms => (modelNodes ms).map fun n => (n.name, n.parent) := by
    rw [← hX]; exact List.mem_map.2 ⟨n, hn, rfl⟩
  rw [List.mem_flatMap] at hm
  obtain ⟨grp, hgrp, hm⟩ := hm
  obtain ⟨n', hn', heq⟩ := List.mem_map.1 hm
  obtain ⟨name, _, hgive⟩ : ∃ name ∈ objs.map Prod.fst, Gives readLine schedules objs name grp := by
    clear he hX
    generalize objs.map Prod.fst = names at hG
    induction hG with
    | nil => cases hgrp
    | cons ha _ ih =>
      rcases List.mem_cons.1 hgrp with rfl | hg
      · exact ⟨_, by simp, ha⟩
      · obtain ⟨x, hx, hx'⟩ := ih hg
        exact ⟨x, by simp [hx], hx'⟩
  obtain ⟨o0, o, objs1, objs2, hmem, _, hso, _, hr⟩ := hgive.object
  obtain ⟨h1, h2, h3⟩ := hr.nodes hn'
  simp only [Prod.mk.injEq] at heq
  refine ⟨o0, by rw [← heq.1, h1]; exact hmem, ?_, ?_⟩
  · rw [← heq.2, h2, hso.attr _ parent_notWritten]
  · rw [isNodeObj_same hso, isLoadObj_same hso, hso.attr _ parent_notWritten] at h3
    exact h3

theorem root_fileRoot {ns : List DNode} {objs : List (Txt × Obj)}
    (hn : ∀ n ∈ ns, ∃ o, (n.name, o) ∈ objs ∧ n.parent = o.attr "parent".toList ∧
      (isNodeObj o = true ∨ isLoadObj o = true ∧ o.attr "parent".toList = none)) {name r : Txt} (h : Root ns name r) : FileRoot objs name r := by
  induction h with
  | self n h hp =>
    obtain ⟨o, ho, hpar, hk⟩ := hn n h
    exact .own _ o ho (hk.imp id And.left) (by rw [← hpar, hp])
  | child n h q r hp _ ih =>
    obtain ⟨o, ho, hpar, hk⟩ := hn n h
    have hq : o.attr "parent".toList = some q := by rw [← hpar, hp]
    refine .child _ o ho ?_ q r hq ih
    rcases hk with hk | ⟨_, hk⟩
    · exact hk
    · rw [hq] at hk; cases hk

theorem forall₂_mem_right {α β : Type} {T : α → β → Prop} {as : List α} {bs : List β} (h : List.Forall₂ T as bs) {b : β} (hb : b ∈ bs) :
    ∃ a ∈ as, T a b := by
  induction h with
  | nil => cases hb
  | cons ha _ ih =>
    rcases List.mem_cons.1 hb with rfl | hg
    · exact ⟨_, by simp, ha⟩
    · obtain ⟨x, hx, hx'⟩ := ih hg
      exact ⟨x, by simp [hx], hx'⟩

theorem forall₂_mem_left {α β : Type} {T : α → β → Prop} {as : List α} {bs : List β} (h : List.Forall₂ T as bs) {a : α} (ha : a ∈ as) :
    ∃ b ∈ bs, T a b := by
  induction h with
  | nil => cases ha
  | cons hab _ ih =>
    rcases List.mem_cons.1 ha with rfl | hg
    · exact ⟨_, by simp, hab⟩
    · obtain ⟨x, hx, hx'⟩ := ih hg
      exact ⟨x, by simp [hx], hx'⟩

theorem At.file {ns : List DNode} {objs : List (Txt × Obj)}
    (hn : ∀ n ∈ ns, ∃ o, (n.name, o) ∈ objs ∧ n.parent = o.attr "parent".toList ∧
      (isNodeObj o = true ∨ isLoadObj o = true ∧ o.attr "parent".toList = none)) {g : Grid M} {name : Txt} {p : Char} {b : ℕ}
    (h : At ns g name p b) : FileAt objs g name p b := by
  obtain ⟨r, x, hr, h⟩ := h
  exact ⟨r, x, root_fileRoot hn hr, h⟩

theorem AtOf.file {ns : List DNode} {objs : List (Txt × Obj)}
    (hn : ∀ n ∈ ns, ∃ o, (n.name, o) ∈ objs ∧ n.parent = o.attr "parent".toList ∧
      (isNodeObj o = true ∨ isLoadObj o = true ∧ o.attr "parent".toList = none)) {g : Grid M} {name : Option Txt} {p : Char} {b : ℕ}
    (h : AtOf ns g name p b) : FileAtOf objs g name p b := by
  obtain ⟨n, h1, h⟩ := h
  exact ⟨n, h1, h.file hn⟩

theorem TermAt.file {ns : List DNode} {objs : List (Txt × Obj)}
    (hn : ∀ n ∈ ns, ∃ o, (n.name, o) ∈ objs ∧ n.parent = o.attr "parent".toList ∧
      (isNodeObj o = true ∨ isLoadObj o = true ∧ o.attr "parent".toList = none)) {g : Grid M} {name : Option Txt} {p : Option Char} {b : Ref}
    (h : TermAt ns g name p b) : FileTerm objs g name p b := by
  cases p with
  | none => exact h
  | some p =>
    obtain ⟨b, h1, h⟩ := h
    exact ⟨b, h1, h.file hn⟩

/-! ### Names -/

theorem parsePhases_phases {t : Txt} {ph : Phases} (h : parsePhases t = .ok ph) :
    ph.phases = (stripBy (· = '|') (stripBy (· = '"') t)).filter (· ∉ ['N', 'S', 'D', 'G']) ∧ ph.phases ≠ [] := by
  simp only [parsePhases, phaseStep_foldl] at h
  split_ifs at h with h1 h2 h3 h4 h5 <;> cases h
  · exact ⟨by simp, fun hc => h2 (by rw [hc]; rfl)⟩
  · exact ⟨by simp, fun hc => h4 (by rw [hc]; rfl)⟩

theorem parsePhases_notN {t : Txt} {ph : Phases} (h : parsePhases t = .ok ph) : 'N' ∉ ph.phases := by
  rw [(parsePhases_phases h).1]
  simp

theorem ReadAs.outer {readLine : LineReader M} {schedules : List (Txt × Txt)} {objs objs1 objs2 objs3 : List (Txt × Obj)} {name : Txt}
    {o0 o : Obj} {ms : List (DModel M)} (hO : OuterFile objs) (hmem : (name, o0) ∈ objs) (hso : SameObj o0 o) (hs : SameObjs objs objs3)
    (h : ReadAs readLine schedules objs1 name o ms objs2) {m : DModel M} (hm : m ∈ ms) : OuterModel objs3 m := by
  obtain ⟨hN, hA⟩ := hO name o0 hmem
  have hft : (∀ n, o.attr "from".toList = some n → Outer n) ∧ ∀ n, o.attr "to".toList = some n → Outer n := by
    rw [hso.attr _ from_notWritten, hso.attr _ to_notWritten]
    exact ⟨hA _ (by simp), hA _ (by simp)⟩
  cases h with
  | config => cases hm
  | node => simp only [List.mem_singleton] at hm; subst hm; trivial
  | triplexMeter => simp only [List.mem_singleton] at hm; subst hm; trivial
  | transformer hc t ph x ht hph hx =>
    simp only [List.mem_singleton] at hm; subst hm
    have : x.frm = o.attr "from".toList ∧ x.to_ = o.attr "to".toList ∧ x.phases = ph.phases := by
      rw [readTransformer] at hx
      split at hx
      · cases hx; exact ⟨rfl, rfl, rfl⟩
      · obtain ⟨_, _, hx⟩ := bind_eq_ok hx
        cases hx; exact ⟨rfl, rfl, rfl⟩
    obtain ⟨h1, h2, h3⟩ := this
    refine ⟨?_, ?_⟩
    · rw [h1, h2]; exact hft
    · rw [h3]; exact parsePhases_notN hph
  | load hc t ph l ht hph hl =>
    rcases List.mem_cons.1 hm with rfl | hm
    · obtain ⟨h1, _, _⟩ := readLoad_fields hl
      show Outer l.1.connecting
      rw [h1]
      cases hp : o.attr "parent".toList with
      | none => exact hN
      | some q =>
        rw [hso.attr _ parent_notWritten] at hp
        exact hA _ (by simp) q hp
    · cases hl2 : l.2 with
      | none => rw [hl2] at hm; cases hm
      | some n =>
        rw [hl2] at hm
        simp only [Option.map_some, Option.toList_some, List.mem_singleton] at hm
        subst hm; trivial
  | fuse => simp only [List.mem_singleton] at hm; subst hm; exact hft
  | switch => simp only [List.mem_singleton] at hm; subst hm; exact hft
  | line => simp only [List.mem_singleton] at hm; subst hm; exact hft
  | capacitor hc t ph x ht hph hx =>
    simp only [List.mem_singleton] at hm; subst hm
    intro o' n hl hpar
    obtain ⟨o1, h1, hso1⟩ := hs.to_some hl
    rw [hso1.attr _ parent_notWritten] at hpar
    exact (hO _ o1 (mem_of_lookup h1)).2 _ (by simp) n hpar
  | regulator hc t ph x ht hph hx =>
    simp only [List.mem_singleton] at hm; subst hm
    have : x.frm = o.attr "from".toList ∧ x.to_ = o.attr "to".toList := by
      rw [readRegulator] at hx
      split at hx
      · cases hx; exact ⟨rfl, rfl⟩
      · obtain ⟨_, _, hx⟩ := bind_eq_ok hx
        obtain ⟨_, _, hx⟩ := bind_eq_ok hx
        obtain ⟨_, _, hx⟩ := bind_eq_ok hx
        obtain ⟨_, _, hx⟩ := bind_eq_ok hx
        obtain ⟨_, _, hx⟩ := bind_eq_ok hx
        obtain ⟨_, _, hx⟩ := bind_eq_ok hx
        obtain ⟨_, _, hx⟩ := bind_eq_ok hx
        cases hx; exact ⟨rfl, rfl⟩
    obtain ⟨h1, h2⟩ := this
    show (∀ n, x.frm = some n → Outer n) ∧ ∀ n, x.to_ = some n → Outer n
    rw [h1, h2]; exact hft

theorem outer_erase {objs : List (Txt × Obj)} {P : List Txt} {m : DModel M} : OuterModel objs (m.erase P) ↔ OuterModel objs m := by cases m <;> rfl

/-- What is known after a file has been read. -/
structure FileRead (readLine : LineReader M) (schedules : List (Txt × Txt)) (objs : List (Txt × Obj)) (s : DState M)
    (groups : List (List (DModel M))) (g : Grid M) : Prop where
  same : SameObjs objs s.objs
  models : s.models.map (DModel.erase (parentNames objs)) = groups.flatten.map (DModel.erase (parentNames objs))
  gives : List.Forall₂ (fun x ms => Gives readLine schedules objs x ms) (objs.map Prod.fst) groups
  nodes : ∀ n ∈ modelNodes s.models, ∃ o, (n.name, o) ∈ objs ∧ n.parent = o.attr "parent".toList ∧
    (isNodeObj o = true ∨ isLoadObj o = true ∧ o.attr "parent".toList = none)
  placed : Placed (modelNodes s.models) s.objs s.models g
  named : Named (modelNodes s.models) g
  buses : ∃ g0, createBuses (modelNodes s.models) (Grid.empty M) = .ok g0 ∧ Ext g0 g

theorem parseGrid_read {readLine : LineReader M} {schedules : List (Txt × Txt)} {objs : List (Txt × Obj)} (hk : Keeps readLine objs)
    (hO : OuterFile objs) {g : Grid M} (h : parseGrid readLine objs schedules = .ok g) : ∃ s groups, FileRead readLine schedules objs s groups g := by
  rw [parseGrid] at h
  obtain ⟨s, hs, h⟩ := bind_eq_ok h
  obtain ⟨hsame, groups, he, hG⟩ := readModels_gives hk hs
  have hout : ∀ m ∈ s.models, OuterModel s.objs m := by
    intro m hm
    have : (m.erase (parentNames objs)) ∈ groups.flatten.map (DModel.erase (parentNames objs)) := by rw [← he]; exact List.mem_map.2 ⟨m, hm, rfl⟩
    obtain ⟨m', hm', heq⟩ := List.mem_map.1 this
    obtain ⟨grp, hgrp, hm'⟩ := List.mem_flatten.1 hm'
    obtain ⟨name, _, hgive⟩ := forall₂_mem_right hG hgrp
    obtain ⟨o0, o, objs1, objs2, hmem, _, hso, _, hr⟩ := hgive.object
    rw [← outer_erase (P := parentNames objs), ← heq, outer_erase]
    exact hr.outer hO hmem hso hsame hm'
  obtain ⟨hp, hn, hb⟩ := buildGrid_placed h hout
  exact ⟨s, groups, hsame, he, hG, fun n hn => node_object he hG hn, hp, hn, hb⟩

/-! ### Loads -/

/-- The phase load `pl` of `l` is the declared load `d`. -/
def Declares (l : DLoad) (d : DeclaredLoad) (pl : PhaseLoad) : Prop :=
  l.connecting = d.node ∧ (pl.phase = none ∨ pl.phase = some d.phases) ∧ (pl.p, pl.q) = (if d.kind = .power then d.value else 0) ∧
    pl.z = (if d.kind = .impedance then d.value else 0) ∧ pl.i = (if d.kind = .current then d.value else 0)

theorem loadComponent_eq {o : Obj} {k : Txt} {make : ℚ × ℚ → PhaseLoad} {l : List PhaseLoad} (h : loadComponent o k make = .ok l) :
    l = match (o.attr k).bind pyComplex with
      | some z => if z = 0 then [] else [make z]
      | none => [] := by
  rw [loadComponent] at h
  obtain ⟨z, hz, h⟩ := bind_eq_ok h
  rw [complexAttribute] at hz
  cases ha : o.attr k with
  | none =>
    simp only [ha] at hz; cases hz
    simp only at h; cases h; rfl
  | some t =>
    simp only [ha] at hz
    obtain ⟨w, hw, hz⟩ := bind_eq_ok hz
    cases hz
    rw [complexOf] at hw
    cases hp : pyComplex t with
    | none => rw [hp] at hw; cases hw
    | some v =>
      rw [hp] at hw; cases hw
      simp only at h; cases h
      simp [hp]

theorem connectionPhase_ending (d : Bool) (c : Txt) : connectionPhase d c = none ∨ connectionPhase d c = some (endingPhases d c) := by
  cases d with
  | false => right; simp only [connectionPhase, endingPhases, Bool.false_eq_true, false_and, if_false]
  | true =>
    simp only [connectionPhase, endingPhases, true_and, if_true]
    by_cases h1 : c = "A".toList
    · right; rw [if_pos h1, if_pos h1]
    by_cases h2 : c = "B".toList
    · right; rw [if_neg h1, if_neg h1, if_pos h2, if_pos h2]
    by_cases h3 : c = "C".toList
    · right; rw [if_neg h1, if_neg h1, if_neg h2, if_neg h2, if_pos h3, if_pos h3]
    left; rw [if_neg h1, if_neg h2, if_neg h3]

/-- The declared load of one attribute. -/
def oneLoad (node phases : Txt) (kind : LoadKind) : Option (ℚ × ℚ) → List DeclaredLoad
  | some z => if z = 0 then [] else [⟨node, phases, kind, z⟩]
  | none => []

/-- The declared loads of one object for one ending. -/
def endingLoads (name : Txt) (o : Obj) (c : Txt) : List DeclaredLoad := loadAttributes.flatMap fun a =>
    oneLoad ((o.attr "parent".toList).getD name) (endingPhases (saysDelta o) c) a.2 ((o.attr (a.1 ++ c)).bind pyComplex)

theorem objectLoads_eq (name : Txt) (o : Obj) : objectLoads name o = loadEndings.flatMap (endingLoads name o) := by
  rw [objectLoads]
  refine List.flatMap_congr fun c _ => ?_
  rw [endingLoads]
  refine List.flatMap_congr fun a _ => ?_
  cases (o.attr (a.1 ++ c)).bind pyComplex <;> rfl

theorem loadComponent_declares {o : Obj} {k c node phases : Txt} {kind : LoadKind} {make : ℚ × ℚ → PhaseLoad} {l' : List PhaseLoad} {l : DLoad}
    (hl : loadComponent o (k ++ c) make = .ok l') (hm : ∀ z, Declares l ⟨node, phases, kind, z⟩ (make z)) :
    List.Forall₂ (Declares l) (oneLoad node phases kind ((o.attr (k ++ c)).bind pyComplex)) l' := by
  rw [loadComponent_eq hl]
  cases (o.attr (k ++ c)).bind pyComplex with
  | none => exact .nil
  | some z =>
    simp only [oneLoad]
    split_ifs
    · exact .nil
    · exact .cons (hm z) .nil

theorem flatMap_five {α β : Type} (f : α → List β) (a b c d e : α) : [a, b, c, d, e].flatMap f = f a ++ (f b ++ (f c ++ (f d ++ f e))) := by
  simp

theorem connectionLoads_declares {schedules : List (Txt × Txt)} {name : Txt} {o : Obj} {l : DLoad} {c : Txt} {ls : List PhaseLoad}
    (hcon : l.connecting = (o.attr "parent".toList).getD name) (hb : o.attr ("base_power_".toList ++ c) = none)
    (h : connectionLoads schedules o (saysDelta o) c = .ok ls) : List.Forall₂ (Declares l) (endingLoads name o c) ls := by
  rw [connectionLoads] at h
  obtain ⟨l1, h1, h⟩ := bind_eq_ok h
  obtain ⟨l2, h2, h⟩ := bind_eq_ok h
  obtain ⟨l3, h3, h⟩ := bind_eq_ok h
  obtain ⟨l4, h4, h⟩ := bind_eq_ok h
  obtain ⟨l5, h5, h⟩ := bind_eq_ok h
  obtain ⟨l6, h6, h⟩ := bind_eq_ok h
  have h := Except.ok.inj h
  subst h
  rw [baseComponent, hb] at h6
  have h6 := Except.ok.inj h6
  subst h6
  have hph := connectionPhase_ending (saysDelta o) c
  rw [List.append_nil, List.append_assoc, List.append_assoc, List.append_assoc]
  have e : endingLoads name o c =
      oneLoad ((o.attr "parent".toList).getD name) (endingPhases (saysDelta o) c) .power ((o.attr ("power_".toList ++ c)).bind pyComplex) ++
      (oneLoad ((o.attr "parent".toList).getD name) (endingPhases (saysDelta o) c) .power ((o.attr ("constant_power_".toList ++ c)).bind pyComplex) ++
      (oneLoad ((o.attr "parent".toList).getD name) (endingPhases (saysDelta o) c) .impedance ((o.attr ("impedance_".toList ++ c)).bind pyComplex) ++
      (oneLoad ((o.attr "parent".toList).getD name) (endingPhases (saysDelta o) c) .impedance
        ((o.attr ("constant_impedance_".toList ++ c)).bind pyComplex) ++
      oneLoad ((o.attr "parent".toList).getD name) (endingPhases (saysDelta o) c) .current
        ((o.attr ("constant_current_".toList ++ c)).bind pyComplex)))) := by
    exact flatMap_five _ _ _ _ _ _
  rw [e]
  exact List.rel_append (loadComponent_declares h1 fun z => ⟨hcon, hph, rfl, rfl, rfl⟩)
    (List.rel_append (loadComponent_declares h2 fun z => ⟨hcon, hph, rfl, rfl, rfl⟩)
    (List.rel_append (loadComponent_declares h3 fun z => ⟨hcon, hph, rfl, rfl, rfl⟩)
    (List.rel_append (loadComponent_declares h4 fun z => ⟨hcon, hph, rfl, rfl, rfl⟩)
      (loadComponent_declares h5 fun z => ⟨hcon, hph, rfl, rfl, rfl⟩))))

theorem phaseLoads_declares {schedules : List (Txt × Txt)} {name : Txt} {o : Obj} {l : DLoad}
    (hcon : l.connecting = (o.attr "parent".toList).getD name) : ∀ (cs : List Txt) (ls : List PhaseLoad),
      (∀ c ∈ cs, o.attr ("base_power_".toList ++ c) = none) → phaseLoads schedules o (saysDelta o) cs = .ok ls →
      List.Forall₂ (Declares l) (cs.flatMap (endingLoads name o)) ls := by
  intro cs
  induction cs with
  | nil => intro ls _ h; cases h; exact .nil
  | cons c cs ih =>
    intro ls hb h
    rw [phaseLoads] at h
    obtain ⟨l1, h1, h⟩ := bind_eq_ok h
    obtain ⟨l2, h2, h⟩ := bind_eq_ok h
    cases h
    rw [List.flatMap_cons]
    exact List.rel_append (connectionLoads_declares hcon (hb c (by simp)) h1) (ih l2 (fun c hc => hb c (by simp [hc])) h2)

theorem phaseText_delta (o : Obj) : (!decide ('S' ∈ phaseText o) && decide ('D' ∈ phaseText o)) = saysDelta o := by
  rw [phaseText, saysDelta]
  cases o.attr "phases".toList with
  | none => decide
  | some t =>
    simp only [Option.getD_some]
    by_cases h1 : 'S' ∈ stripBy (· = '|') (stripBy (· = '"') t) <;> by_cases h2 : 'D' ∈ stripBy (· = '|') (stripBy (· = '"') t) <;> simp [h1, h2]

theorem isLoadObj_class {o : Obj} (h : isLoadObj o = true) : o.cls ∈ ["load", "triplex_load", "triplex_node", "triplex_meter"].map String.toList := by
  rw [isLoadObj, decide_eq_true_iff] at h
  rcases h with h | ⟨h, _⟩
  · exact List.mem_append_left [_] h
  · rw [h]; decide

theorem isLoadObj_notLine {o : Obj} (h : isLoadObj o = true) : o.cls ∉ conductorClasses := by
  have := isLoadObj_class h
  intro hc
  simp only [List.map_cons, List.map_nil, List.mem_cons, List.not_mem_nil, or_false] at this
  rcases this with h | h | h | h <;> (rw [h] at hc; revert hc; decide)

theorem readLoad_declares {schedules : List (Txt × Txt)} {name : Txt} {o : Obj} {l : DLoad × Option DNode}
    (hb : ∀ c ∈ loadEndings, o.attr ("base_power_".toList ++ c) = none) (h : readLoad schedules name o = .ok l) :
    List.Forall₂ (Declares l.1) (objectLoads name o) l.1.loads := by
  obtain ⟨h1, h2, _⟩ := readLoad_fields h
  rw [phaseText_delta] at h2
  rw [objectLoads_eq]
  exact phaseLoads_declares h1 _ _ hb h2

theorem notLoad {o : Obj} {c : Txt} (h : o.cls = c)
    (hc : c ∉ ["load", "triplex_load", "triplex_node", "triplex_meter"].map String.toList) : isLoadObj o = false := by
  by_contra hl
  have := isLoadObj_class (by simpa using hl)
  rw [h] at this
  exact hc this

/-- The load pieces of what an object is read as. -/
theorem ReadAs.loads {readLine : LineReader M} {schedules : List (Txt × Txt)} {objs objs' : List (Txt × Obj)} {name : Txt}
    {o : Obj} {ms : List (DModel M)} (h : ReadAs readLine schedules objs name o ms objs')
    (hb : isLoadObj o = true → ∀ c ∈ loadEndings, o.attr ("base_power_".toList ++ c) = none) :
    List.Forall₂ (fun d (x : DLoad × PhaseLoad) => Declares x.1 d x.2) (if isLoadObj o then objectLoads name o else []) (loadPieces ms) := by
  cases h with
  | load hc t ph l ht hph hl =>
    rw [if_pos hc]
    have := readLoad_declares (hb hc) hl
    have h2 : loadPieces (.load l.1 :: (l.2.map DModel.node).toList : List (DModel M)) = l.1.loads.map fun pl => (l.1, pl) := by
      cases l.2 <;> simp [loadPieces]
    rw [h2, List.forall₂_map_right_iff]
    exact this
  | config hc =>
    have : isLoadObj o = false := by
      by_contra hl
      have h1 := isLoadObj_class (by simpa using hl)
      simp only [List.map_cons, List.map_nil, List.mem_cons, List.not_mem_nil, or_false] at h1
      rcases h1 with h | h | h | h <;> (rw [h] at hc; revert hc; decide)
    rw [this]; exact .nil
  | node hc =>
    have : isLoadObj o = false := by rcases hc with hc | hc <;> exact notLoad hc (by decide)
    rw [this]; exact .nil
  | triplexMeter hc hp =>
    have : isLoadObj o = false := by
      rw [isLoadObj, decide_eq_false_iff_not]
      rintro (h | h)
      · rw [hc] at h; revert h; decide
      · rw [hp] at h; exact absurd h.2 (by simp)
    rw [this]; exact .nil
  | transformer hc => rw [notLoad hc (by decide)]; exact .nil
  | fuse hc => rw [notLoad hc (by decide)]; exact .nil
  | switch hc =>
    have : isLoadObj o = false := by rcases hc with hc | hc <;> exact notLoad hc (by decide)
    rw [this]; exact .nil
  | line hc =>
    have : isLoadObj o = false := by rcases hc with hc | hc | hc <;> exact notLoad hc (by decide)
    rw [this]; exact .nil
  | capacitor hc => rw [notLoad hc (by decide)]; exact .nil
  | regulator hc => rw [notLoad hc (by decide)]; exact .nil

theorem loadPieces_cons (m : DModel M) (ms : List (DModel M)) : loadPieces (m :: ms) = loadPieces [m] ++ loadPieces ms := by simp [loadPieces]

theorem forall₂_trans {α β γ : Type} {R : α → β → Prop} {S : β → γ → Prop} {T : α → γ → Prop} (hT : ∀ a b c, R a b → S b c → T a c) :
    ∀ {as : List α} {bs : List β} {cs : List γ}, List.Forall₂ R as bs → List.Forall₂ S bs cs → List.Forall₂ T as cs := by
  intro as bs cs h
  induction h generalizing cs with
  | nil => intro h'; cases h'; exact .nil
  | cons ha _ ih =>
    intro h'
    cases h' with
    | cons hb h' => exact .cons (hT _ _ _ ha hb) (ih h')

/-- The loads of the network are the declared loads of the file. -/
theorem FileRead.loads {readLine : LineReader M} {schedules : List (Txt × Txt)} {objs : List (Txt × Obj)} {s : DState M}
    {groups : List (List (DModel M))} {g : Grid M} (h : FileRead readLine schedules objs s groups g) (hk : (objs.map Prod.fst).Nodup)
    (hb : NoBasePower objs) : List.Forall₂ (IsDeclared objs g) (declaredLoads objs) g.loads := by
  have h1 : List.Forall₂ (fun d (x : DLoad × PhaseLoad) => Declares x.1 d x.2) (declaredLoads objs) (loadPieces s.models) := by
    rw [pieces_groups (X := loadPieces) rfl loadPieces_cons (fun m => by cases m <;> rfl) h.models, declaredLoads]
    refine forall₂_flatMap (List.forall₂_map_left_iff.1 h.gives) fun x hx ms hg => ?_
    obtain ⟨o0, o, objs1, objs2, hmem, hl, hso, _, hr⟩ := hg.object
    have : o0 = x.2 := by
      have := lookup_of_mem hk (show (x.1, x.2) ∈ objs from hx)
      rw [hl] at this; cases this; rfl
    subst this
    by_cases hc : isLoadObj x.2 = true
    · have := hso.other (isLoadObj_notLine hc)
      subst this
      exact hr.loads fun _ => hb x.1 _ hx hc
    · have hc' : isLoadObj o = false := by rw [isLoadObj_same hso]; simpa using hc
      have := hr.loads fun hc'' => by rw [hc'] at hc''; cases hc''
      rw [hc'] at this
      rw [if_neg hc]
      exact this
  refine forall₂_trans ?_ h1 h.placed.loads
  rintro d ⟨l, pl⟩ x ⟨hcon, hphase, hp, hz, hi⟩ ⟨a, rest, h1, h2, h3, e1, e2, e3, e4, -⟩
  simp only at hcon hphase hp hz hi h1 h2 h3 e1 e2 e3 e4
  refine ⟨a, rest, ?_, ?_, ?_, by rw [e1, e2]; exact hp, by rw [e3]; exact hz, by rw [e4]; exact hi⟩
  · rcases hphase with hp | hp
    · rw [hp] at h1; cases h1
    · rw [hp] at h1; exact Option.some.inj h1
  · rw [← hcon]; exact h2.file h.nodes
  · rw [← hcon]; exact h3.file h.nodes

end Verif.Glm
