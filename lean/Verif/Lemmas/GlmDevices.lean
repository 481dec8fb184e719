import Verif.Lemmas.GlmFile
import Verif.Spec.GlmDevices

/-!
# The devices of a network that was read from a file
-/

namespace Verif.Glm

variable {M : Type}

theorem pieces_of {readLine : LineReader M} {schedules : List (Txt × Txt)} {objs : List (Txt × Obj)} {models : List (DModel M)}
    {groups : List (List (DModel M))} (hm : models.map (DModel.erase (parentNames objs)) = groups.flatten.map (DModel.erase (parentNames objs)))
    (hg : List.Forall₂ (fun x ms => Gives readLine schedules objs x ms) (objs.map Prod.fst) groups) (hk : (objs.map Prod.fst).Nodup)
    {β δ : Type} {X : List (DModel M) → List β} (h0 : X [] = []) (hc : ∀ m ms, X (m :: ms) = X [m] ++ X ms)
    (he : ∀ m : DModel M, X [m.erase (parentNames objs)] = X [m]) {D : Txt × Obj → List δ} {R : δ → β → Prop}
    (hR : ∀ name o0 o objs1 objs2 ms, (name, o0) ∈ objs → SameObj o0 o → SameObjs objs objs1 →
      ReadAs readLine schedules objs1 name o ms objs2 → List.Forall₂ R (D (name, o0)) (X ms)) :
    List.Forall₂ R (objs.flatMap D) (X models) := by
  rw [pieces_groups h0 hc he hm]
  refine forall₂_flatMap (List.forall₂_map_left_iff.1 hg) fun x hx ms hg => ?_
  obtain ⟨o0, o, objs1, objs2, hmem, hl, hso, hsame, hr⟩ := hg.object
  have : o0 = x.2 := by
    have := lookup_of_mem hk (show (x.1, x.2) ∈ objs from hx)
    rw [hl] at this; cases this; rfl
  subst this
  exact hR _ _ _ _ _ _ hmem hso hsame hr

theorem FileRead.pieces {readLine : LineReader M} {schedules : List (Txt × Txt)} {objs : List (Txt × Obj)} {s : DState M}
    {groups : List (List (DModel M))} {g : Grid M} (h : FileRead readLine schedules objs s groups g) (hk : (objs.map Prod.fst).Nodup)
    {β δ : Type} {X : List (DModel M) → List β} (h0 : X [] = []) (hc : ∀ m ms, X (m :: ms) = X [m] ++ X ms)
    (he : ∀ m : DModel M, X [m.erase (parentNames objs)] = X [m]) {D : Txt × Obj → List δ} {R : δ → β → Prop}
    (hR : ∀ name o0 o objs1 objs2 ms, (name, o0) ∈ objs → SameObj o0 o → SameObjs objs objs1 →
      ReadAs readLine schedules objs1 name o ms objs2 → List.Forall₂ R (D (name, o0)) (X ms)) :
    List.Forall₂ R (objs.flatMap D) (X s.models) := pieces_of h.models h.gives hk h0 hc he hR

theorem objPhases_of {o : Obj} {t : Txt} {ph : Phases} (ht : o.attr "phases".toList = some t) (hph : parsePhases t = .ok ph) :
    ph.phases = objPhases o ∧ objPhases o ≠ [] := by
  have := parsePhases_phases hph
  have h1 : ph.phases = objPhases o := by rw [this.1, objPhases, ht]; rfl
  exact ⟨h1, h1 ▸ this.2⟩

theorem objPhases_same {o o' : Obj} (h : SameObj o o') : objPhases o' = objPhases o := by
  rw [objPhases, objPhases, h.attr _ phases_notWritten]

/-! ### Wires -/

theorem filter_mem_sublist {α : Type} [DecidableEq α] : ∀ {l ps : List α}, l.Nodup → ps.Sublist l → l.filter (· ∈ ps) = ps := by
  intro l ps hn hs
  induction hs with
  | slnil => rfl
  | @cons l1 l2 a hs ih =>
    obtain ⟨ha, hn⟩ := List.nodup_cons.1 hn
    rw [List.filter_cons_of_neg (by simpa using fun h => ha (hs.subset h)), ih hn]
  | @cons_cons l1 l2 a hs ih =>
    obtain ⟨ha, hn⟩ := List.nodup_cons.1 hn
    rw [List.filter_cons_of_pos (by simp)]
    congr 1
    rw [← ih hn]
    refine List.filter_congr fun x hx => ?_
    have : x ≠ a := fun h => ha (h ▸ hx)
    rw [ih hn]
    simp [this]

theorem get_of_attr {o : Obj} {k t : Txt} (h : o.attr k = some t) : o.get k = .ok t := by
  rw [Obj.attr] at h
  rw [Obj.get, h]

theorem attributeWire_attr (o : Obj) (suffix : Txt) (opens : List Txt) (p : Char) : attributeWire o suffix opens p =
    match o.attr (phaseKey p suffix) with
    | some t => [⟨p, some (decide (t ∈ opens))⟩]
    | none => [] := by
  rw [attributeWire, Obj.attr, Obj.get, phaseKey]
  cases lookup ("phase_".toList ++ [p] ++ suffix) o.attrs <;> rfl

theorem listedWires_given {o : Obj} {t : Txt} (h : o.attr "status".toList = some t) : ∀ ps : List Char,
    listedWires o ps = ps.map fun p => ⟨p, some (decide (t = "OPEN".toList))⟩ := by
  intro ps
  induction ps with
  | nil => rfl
  | cons p ps ih => rw [listedWires, get_of_attr h]; simp only [ih, List.map_cons]

theorem flatMap_filter_eq {α β : Type} (f : α → List β) (key : β → α) (q : α → Bool) (hf : ∀ a, ∀ b ∈ f a, key b = a) (l : List α) :
    (l.flatMap f).filter (fun b => q (key b)) = (l.filter q).flatMap f := by
  induction l with
  | nil => rfl
  | cons a l ih =>
    rw [List.flatMap_cons, List.filter_append, ih]
    by_cases h : q a = true
    · rw [List.filter_cons_of_pos h, List.flatMap_cons]
      congr 1
      exact List.filter_eq_self.2 fun b hb => by rw [hf a b hb, h]
    · rw [List.filter_cons_of_neg h]
      rw [List.filter_eq_nil_iff.2 fun b hb => by rw [hf a b hb]; exact h, List.nil_append]

theorem attributeWire_phase {o : Obj} {suffix : Txt} {opens : List Txt} {p : Char} {w : PhaseWire} (h : w ∈ attributeWire o suffix opens p) :
    w.phase = p := by
  rw [attributeWire_attr] at h
  cases ha : o.attr (phaseKey p suffix) with
  | none => simp only [ha] at h; exact absurd h List.not_mem_nil
  | some t => simp only [ha, List.mem_singleton] at h; rw [h]

theorem deviceWires_given {o : Obj} {suffix : Txt} (opens : List Txt) (hS : StatesGiven suffix o) (hne : objPhases o ≠ []) :
    (deviceWires o suffix opens (objPhases o)).filter (fun w => w.phase ∈ objPhases o) =
      (objPhases o).map fun p => ⟨p, some (saysOpen o suffix opens p)⟩ := by
  obtain ⟨hsub, hS⟩ := hS
  rw [deviceWires]
  rcases hS with hS | ⟨hS, hst⟩
  · have h1 : (['A', 'B', 'C'].flatMap (attributeWire o suffix opens)).filter (fun w => w.phase ∈ objPhases o) =
        (objPhases o).map fun p => ⟨p, some (saysOpen o suffix opens p)⟩ := by
      have := flatMap_filter_eq (attributeWire o suffix opens) PhaseWire.phase (fun p => decide (p ∈ objPhases o)) (fun p w hw => attributeWire_phase hw)
        ['A', 'B', 'C']
      rw [this, filter_mem_sublist (by decide) hsub]
      rw [← List.flatMap_singleton' (List.map _ _), List.flatMap_map]
      refine List.flatMap_congr fun p hp => ?_
      rw [attributeWire_attr]
      obtain ⟨t, ht⟩ := Option.isSome_iff_exists.1 (hS p hp)
      simp only [saysOpen, ht]
    have h2 : (['A', 'B', 'C'].flatMap (attributeWire o suffix opens)).length ≠ 0 := by
      intro h0
      rw [List.length_eq_zero_iff] at h0
      rw [h0, List.filter_nil] at h1
      exact hne (List.map_eq_nil_iff.1 h1.symm)
    simp only [if_neg h2]
    exact h1
  · have h2 : (['A', 'B', 'C'].flatMap (attributeWire o suffix opens)).length = 0 := by
      rw [List.length_eq_zero_iff, List.flatMap_eq_nil_iff]
      intro p hp
      rw [attributeWire_attr, hS p hp]
    simp only [if_pos h2]
    obtain ⟨t, ht⟩ := Option.isSome_iff_exists.1 hst
    rw [listedWires_given ht, List.filter_eq_self.2]
    · refine List.map_congr_left fun p hp => ?_
      have : o.attr (phaseKey p suffix) = none := hS p (hsub.subset hp)
      simp only [saysOpen, this, ht, Option.some.injEq]
    · intro w hw
      obtain ⟨p, hp, rfl⟩ := List.mem_map.1 hw
      simpa using hp

theorem switchPieces_cons (m : DModel M) (ms : List (DModel M)) : switchPieces (m :: ms) = switchPieces [m] ++ switchPieces ms := by simp [switchPieces]
theorem fusePieces_cons (m : DModel M) (ms : List (DModel M)) : fusePieces (m :: ms) = fusePieces [m] ++ fusePieces ms := by simp [fusePieces]
theorem capPieces_cons (m : DModel M) (ms : List (DModel M)) : capPieces (m :: ms) = capPieces [m] ++ capPieces ms := by simp [capPieces]
theorem regPieces_cons (m : DModel M) (ms : List (DModel M)) : regPieces (m :: ms) = regPieces [m] ++ regPieces ms := by simp [regPieces]
theorem coilPieces_cons (m : DModel M) (ms : List (DModel M)) : coilPieces (m :: ms) = coilPieces [m] ++ coilPieces ms := by simp [coilPieces]

/-- The classes of lines. -/
def drawnClasses : List Txt := ["overhead_line", "triplex_line", "underground_line"].map String.toList

/-- The kind of model an object gives, by its class. -/
inductive KindOf (o : Obj) : List (DModel M) → Prop
  | config (h : o.cls ∈ sharedConfigObjects) : KindOf o []
  | node (h : isNodeObj o = true) (n : DNode) : KindOf o [.node n]
  | transformer (h : o.cls = "transformer".toList) (x : DTransformer) : KindOf o [.transformer x]
  | load (h : isLoadObj o = true) (l : DLoad) (n : Option DNode) : KindOf o (.load l :: (n.map DModel.node).toList)
  | fuse (h : o.cls = "fuse".toList) (d : DDevice) (hd : d.isFuse = true) : KindOf o [.device d]
  | switch (h : isSwitchObj o = true) (d : DDevice) (hd : d.isFuse = false) : KindOf o [.device d]
  | line (h : o.cls ∈ drawnClasses) (l : DLine M) : KindOf o [.line l]
  | capacitor (h : o.cls = "capacitor".toList) (c : DCap) : KindOf o [.capacitor c]
  | regulator (h : o.cls = "regulator".toList) (r : DRegulator) : KindOf o [.regulator r]

theorem ReadAs.kind {readLine : LineReader M} {schedules : List (Txt × Txt)} {objs objs' : List (Txt × Obj)} {name : Txt}
    {o : Obj} {ms : List (DModel M)} (h : ReadAs readLine schedules objs name o ms objs') : KindOf o ms := by
  cases h with
  | config h => exact .config h
  | node h =>
    refine .node ?_ _
    rw [isNodeObj, decide_eq_true_iff]
    rcases h with hc | hc <;> (left; rw [hc]; decide)
  | triplexMeter h hp =>
    refine .node ?_ _
    rw [isNodeObj, decide_eq_true_iff]
    exact .inr ⟨h, by rw [hp]; simp⟩
  | transformer h => exact .transformer h _
  | load h => exact .load h _ _
  | fuse h => exact .fuse h _ rfl
  | switch h =>
    refine .switch ?_ _ rfl
    rw [isSwitchObj, decide_eq_true_iff]
    rcases h with hc | hc <;> (rw [hc]; decide)
  | line h =>
    refine .line ?_ _
    rcases h with hc | hc | hc <;> (rw [hc]; decide)
  | capacitor h => exact .capacitor h _
  | regulator h => exact .regulator h _

/-- All classes that give models. -/
def modelClasses : List Txt := ["node", "meter", "triplex_meter", "triplex_node", "load", "triplex_load", "transformer", "fuse", "switch", "recloser",
  "capacitor", "regulator"].map String.toList ++ drawnClasses ++ sharedConfigObjects

theorem isNodeObj_class {o : Obj} (h : isNodeObj o = true) : o.cls ∈ ["node", "meter", "triplex_meter"].map String.toList := by
  rw [isNodeObj, decide_eq_true_iff] at h
  rcases h with h | ⟨h, _⟩
  · exact List.mem_append_left [_] h
  · rw [h]; decide

/-- If `X` is empty on all models but those of the class `c`, an object of another class gives nothing. -/
theorem KindOf.empty {o : Obj} {ms : List (DModel M)} (h : KindOf o ms) {β : Type} {X : List (DModel M) → List β} (h0 : X [] = [])
    (hc : ∀ m ms, X (m :: ms) = X [m] ++ X ms) (hn : ∀ n, X [.node n] = []) (hl : ∀ l, X [.load l] = []) (hi : ∀ l, X [.line l] = [])
    (ht : o.cls = "transformer".toList → ∀ x, X [.transformer x] = [])
    (hf : o.cls = "fuse".toList → ∀ d : DDevice, d.isFuse = true → X [.device d] = [])
    (hs : isSwitchObj o = true → ∀ d : DDevice, d.isFuse = false → X [.device d] = [])
    (hcap : o.cls = "capacitor".toList → ∀ x, X [.capacitor x] = []) (hr : o.cls = "regulator".toList → ∀ x, X [.regulator x] = []) : X ms = [] := by
  cases h with
  | config => exact h0
  | node => exact hn _
  | transformer h => exact ht h _
  | load _ l n =>
    rw [hc, hl]
    cases n with
    | none => exact h0
    | some n => exact hn n
  | fuse h d hd => exact hf h d hd
  | switch h d hd => exact hs h d hd
  | line => exact hi _
  | capacitor h => exact hcap h _
  | regulator h => exact hr h _

/-! ### Switches -/

theorem attr_from {o o' : Obj} (h : SameObj o o') : o'.attr "from".toList = o.attr "from".toList := h.attr _ from_notWritten
theorem attr_to {o o' : Obj} (h : SameObj o o') : o'.attr "to".toList = o.attr "to".toList := h.attr _ to_notWritten

theorem isSwitchObj_notLine {o : Obj} (h : isSwitchObj o = true) : o.cls ∉ conductorClasses := by
  rw [isSwitchObj, decide_eq_true_iff] at h
  simp only [List.map_cons, List.map_nil, List.mem_cons, List.not_mem_nil, or_false] at h
  intro hc
  rcases h with h | h <;> (rw [h] at hc; revert hc; decide)

theorem isSwitchObj_class {o : Obj} (h : isSwitchObj o = true) : o.cls = "switch".toList ∨ o.cls = "recloser".toList := by
  rw [isSwitchObj, decide_eq_true_iff] at h
  simpa only [List.map_cons, List.map_nil, List.mem_cons, List.not_mem_nil, or_false] using h

theorem ReadAs.ofSwitch {readLine : LineReader M} {schedules : List (Txt × Txt)} {objs objs' : List (Txt × Obj)} {name : Txt}
    {o : Obj} {ms : List (DModel M)} (h : ReadAs readLine schedules objs name o ms objs') (hc : isSwitchObj o = true) :
    ms = [.device (readSwitch o ⟨objPhases o, false, false, false⟩)] ∧ objPhases o ≠ [] := by
  have hcl := isSwitchObj_class hc
  have no : ∀ c : Txt, o.cls = c → c ≠ "switch".toList → c ≠ "recloser".toList → False := by
    intro c h1 h2 h3
    rcases hcl with h | h
    · exact h2 (h1.symm.trans h)
    · exact h3 (h1.symm.trans h)
  cases h with
  | config h => rcases hcl with h' | h' <;> (rw [h'] at h; exact absurd h (by decide))
  | node h => rcases h with h | h <;> exact (no _ h (by decide) (by decide)).elim
  | triplexMeter h => exact (no _ h (by decide) (by decide)).elim
  | transformer h => exact (no _ h (by decide) (by decide)).elim
  | load h =>
    have := isLoadObj_class h
    rcases hcl with h' | h' <;> (rw [h'] at this; exact absurd this (by decide))
  | fuse h => exact (no _ h (by decide) (by decide)).elim
  | switch h t ph ht hph =>
    obtain ⟨h1, h2⟩ := objPhases_of ht hph
    refine ⟨?_, h2⟩
    simp only [readSwitch, h1]
  | line h => rcases h with h | h | h <;> exact (no _ h (by decide) (by decide)).elim
  | capacitor h => exact (no _ h (by decide) (by decide)).elim
  | regulator h => exact (no _ h (by decide) (by decide)).elim

theorem ReadAs.ofFuse {readLine : LineReader M} {schedules : List (Txt × Txt)} {objs objs' : List (Txt × Obj)} {name : Txt}
    {o : Obj} {ms : List (DModel M)} (h : ReadAs readLine schedules objs name o ms objs') (hc : o.cls = "fuse".toList) :
    ms = [.device (readFuse o ⟨objPhases o, false, false, false⟩)] ∧ objPhases o ≠ [] := by
  have no : ∀ c : Txt, o.cls = c → c ≠ "fuse".toList → False := fun c h1 h2 => h2 (h1.symm.trans hc)
  cases h with
  | config h => rw [hc] at h; exact absurd h (by decide)
  | node h => rcases h with h | h <;> exact (no _ h (by decide)).elim
  | triplexMeter h => exact (no _ h (by decide)).elim
  | transformer h => exact (no _ h (by decide)).elim
  | load h =>
    have := isLoadObj_class h
    rw [hc] at this
    exact absurd this (by decide)
  | fuse h t ph ht hph =>
    obtain ⟨h1, h2⟩ := objPhases_of ht hph
    exact ⟨by simp only [readFuse, h1], h2⟩
  | switch h => rcases h with h | h <;> exact (no _ h (by decide)).elim
  | line h => rcases h with h | h | h <;> exact (no _ h (by decide)).elim
  | capacitor h => exact (no _ h (by decide)).elim
  | regulator h => exact (no _ h (by decide)).elim

theorem ReadAs.ofTransformer {readLine : LineReader M} {schedules : List (Txt × Txt)} {objs objs' : List (Txt × Obj)} {name : Txt}
    {o : Obj} {ms : List (DModel M)} (h : ReadAs readLine schedules objs name o ms objs') (hc : o.cls = "transformer".toList) :
    ∃ ph x, ph.phases = objPhases o ∧ objPhases o ≠ [] ∧ readTransformer objs name o ph = .ok x ∧ ms = [.transformer x] := by
  have no : ∀ c : Txt, o.cls = c → c ≠ "transformer".toList → False := fun c h1 h2 => h2 (h1.symm.trans hc)
  cases h with
  | config h => rw [hc] at h; exact absurd h (by decide)
  | node h => rcases h with h | h <;> exact (no _ h (by decide)).elim
  | triplexMeter h => exact (no _ h (by decide)).elim
  | transformer h t ph x ht hph hx =>
    obtain ⟨h1, h2⟩ := objPhases_of ht hph
    exact ⟨ph, x, h1, h2, hx, rfl⟩
  | load h =>
    have := isLoadObj_class h
    rw [hc] at this
    exact absurd this (by decide)
  | fuse h => exact (no _ h (by decide)).elim
  | switch h => rcases h with h | h <;> exact (no _ h (by decide)).elim
  | line h => rcases h with h | h | h <;> exact (no _ h (by decide)).elim
  | capacitor h => exact (no _ h (by decide)).elim
  | regulator h => exact (no _ h (by decide)).elim

theorem ReadAs.ofRegulator {readLine : LineReader M} {schedules : List (Txt × Txt)} {objs objs' : List (Txt × Obj)} {name : Txt}
    {o : Obj} {ms : List (DModel M)} (h : ReadAs readLine schedules objs name o ms objs') (hc : o.cls = "regulator".toList) :
    ∃ ph x, ph.phases = objPhases o ∧ objPhases o ≠ [] ∧ readRegulator objs name o ph = .ok x ∧ ms = [.regulator x] := by
  have no : ∀ c : Txt, o.cls = c → c ≠ "regulator".toList → False := fun c h1 h2 => h2 (h1.symm.trans hc)
  cases h with
  | config h => rw [hc] at h; exact absurd h (by decide)
  | node h => rcases h with h | h <;> exact (no _ h (by decide)).elim
  | triplexMeter h => exact (no _ h (by decide)).elim
  | transformer h => exact (no _ h (by decide)).elim
  | load h =>
    have := isLoadObj_class h
    rw [hc] at this
    exact absurd this (by decide)
  | fuse h => exact (no _ h (by decide)).elim
  | switch h => rcases h with h | h <;> exact (no _ h (by decide)).elim
  | line h => rcases h with h | h | h <;> exact (no _ h (by decide)).elim
  | capacitor h => exact (no _ h (by decide)).elim
  | regulator h t ph x ht hph hx =>
    obtain ⟨h1, h2⟩ := objPhases_of ht hph
    exact ⟨ph, x, h1, h2, hx, rfl⟩

theorem ReadAs.ofCapacitor {readLine : LineReader M} {schedules : List (Txt × Txt)} {objs objs' : List (Txt × Obj)} {name : Txt}
    {o : Obj} {ms : List (DModel M)} (h : ReadAs readLine schedules objs name o ms objs') (hc : o.cls = "capacitor".toList) :
    ∃ ph x, ph.phases = objPhases o ∧ readCapacitor name o ph = .ok x ∧ ms = [.capacitor x] := by
  have no : ∀ c : Txt, o.cls = c → c ≠ "capacitor".toList → False := fun c h1 h2 => h2 (h1.symm.trans hc)
  cases h with
  | config h => rw [hc] at h; exact absurd h (by decide)
  | node h => rcases h with h | h <;> exact (no _ h (by decide)).elim
  | triplexMeter h => exact (no _ h (by decide)).elim
  | transformer h => exact (no _ h (by decide)).elim
  | load h =>
    have := isLoadObj_class h
    rw [hc] at this
    exact absurd this (by decide)
  | fuse h => exact (no _ h (by decide)).elim
  | switch h => rcases h with h | h <;> exact (no _ h (by decide)).elim
  | line h => rcases h with h | h | h <;> exact (no _ h (by decide)).elim
  | capacitor h t ph x ht hph hx => exact ⟨ph, x, (objPhases_of ht hph).1, hx, rfl⟩
  | regulator h => exact (no _ h (by decide)).elim

/-- The wire `x` is the declared switch `d`. -/
def WireOf (d : DeclaredDevice) (x : DDevice × PhaseWire) : Prop :=
  x.1.frm = d.frm ∧ x.1.to_ = d.to_ ∧ x.2.phase = d.phase ∧ (x.2.isOpen = some true ↔ d.isOpen = true)

theorem forall₂_map_map {α β γ : Type} {R : β → γ → Prop} {f : α → β} {k : α → γ} {l : List α} (h : ∀ a ∈ l, R (f a) (k a)) :
    List.Forall₂ R (l.map f) (l.map k) := by
  induction l with
  | nil => exact .nil
  | cons a l ih => exact .cons (h a (by simp)) (ih fun b hb => h b (by simp [hb]))

theorem FileRead.switches {readLine : LineReader M} {schedules : List (Txt × Txt)} {objs : List (Txt × Obj)} {s : DState M}
    {groups : List (List (DModel M))} {g : Grid M} (h : FileRead readLine schedules objs s groups g) (hk : (objs.map Prod.fst).Nodup)
    (hS : ∀ name o, (name, o) ∈ objs → isSwitchObj o = true → StatesGiven "_state".toList o) :
    List.Forall₂ (IsSwitch objs g) (declaredSwitches objs) g.switches := by
  have h1 : List.Forall₂ WireOf (declaredSwitches objs) (switchPieces s.models) := by
    refine h.pieces hk rfl switchPieces_cons (fun m => by cases m <;> rfl) fun name o0 o objs1 objs2 ms hmem hso _ hr => ?_
    by_cases hc : isSwitchObj o0 = true
    · have := hso.other (isSwitchObj_notLine hc)
      subst this
      obtain ⟨rfl, hne⟩ := hr.ofSwitch hc
      have hw := deviceWires_given ["OPEN".toList] (hS name _ hmem hc) hne
      have e : switchPieces [(.device (readSwitch o ⟨objPhases o, false, false, false⟩) : DModel M)] =
          ((deviceWires o "_state".toList ["OPEN".toList] (objPhases o)).filter (fun w => w.phase ∈ objPhases o)).map
            fun w => (readSwitch o ⟨objPhases o, false, false, false⟩, w) := by
        simp only [switchPieces, List.flatMap_cons, List.flatMap_nil, List.append_nil]
        rfl
      rw [e, hw, List.map_map]
      simp only [if_pos hc]
      refine forall₂_map_map fun p _ => ⟨rfl, rfl, rfl, ?_⟩
      simp
    · rw [if_neg hc]
      have hc' : ¬ isSwitchObj o = true := by rw [isSwitchObj, hso.cls]; exact hc
      rw [hr.kind.empty rfl switchPieces_cons (fun _ => rfl) (fun _ => rfl) (fun _ => rfl) (fun _ _ => rfl)
        (fun _ d hd => by simp [switchPieces, hd]) (fun h => absurd h hc') (fun _ _ => rfl) (fun _ _ => rfl)]
      exact .nil
  refine forall₂_trans ?_ h1 h.placed.switches
  rintro d ⟨dev, w⟩ x ⟨h1, h2, h3, h4⟩ ⟨a1, a2, _, a4⟩
  simp only at h1 h2 h3 h4 a1 a2 a4
  rw [h1, h3] at a1
  rw [h2, h3] at a2
  exact ⟨a1.file h.nodes, a2.file h.nodes, a4.trans h4⟩

/-! ### Fuses -/

/-- The wire `x` is the declared fuse `d`. -/
def FuseOf (d : DeclaredDevice × Option Txt) (x : DDevice × PhaseWire) : Prop :=
  x.1.frm = d.1.frm ∧ x.1.to_ = d.1.to_ ∧ x.2.phase = d.1.phase ∧ x.1.limit = d.2.map removeNonnum

theorem FileRead.fuses {readLine : LineReader M} {schedules : List (Txt × Txt)} {objs : List (Txt × Obj)} {s : DState M}
    {groups : List (List (DModel M))} {g : Grid M} (h : FileRead readLine schedules objs s groups g) (hk : (objs.map Prod.fst).Nodup)
    (hS : ∀ name o, (name, o) ∈ objs → isFuseObj o = true → StatesGiven "_status".toList o ∧ NoStrayStates "_status".toList o) :
    List.Forall₂ (IsFuse objs g) (declaredFuses objs) g.fuses := by
  have h1 : List.Forall₂ FuseOf (declaredFuses objs) (fusePieces s.models) := by
    refine h.pieces hk rfl fusePieces_cons (fun m => by cases m <;> rfl) fun name o0 o objs1 objs2 ms hmem hso _ hr => ?_
    by_cases hc : isFuseObj o0 = true
    · have hcl : o0.cls = "fuse".toList := by simpa only [isFuseObj, decide_eq_true_iff] using hc
      have := hso.other (by rw [hcl]; decide)
      subst this
      obtain ⟨rfl, hne⟩ := hr.ofFuse hcl
      obtain ⟨hg, hstray⟩ := hS name _ hmem hc
      have hw := deviceWires_given ["BLOWN".toList, "OPEN".toList] hg hne
      rw [List.filter_eq_self.2] at hw
      · have e : fusePieces [(.device (readFuse o ⟨objPhases o, false, false, false⟩) : DModel M)] =
            (deviceWires o "_status".toList ["BLOWN".toList, "OPEN".toList] (objPhases o)).map
              fun w => (readFuse o ⟨objPhases o, false, false, false⟩, w) := by
          simp only [fusePieces, List.flatMap_cons, List.flatMap_nil, List.append_nil]
          rfl
        rw [e, hw, List.map_map]
        simp only [if_pos hc]
        exact forall₂_map_map fun p _ => ⟨rfl, rfl, rfl, rfl⟩
      · intro w hw
        rw [deviceWires] at hw
        by_cases h0 : (['A', 'B', 'C'].flatMap (attributeWire o "_status".toList ["BLOWN".toList, "OPEN".toList])).length = 0
        · rw [if_pos h0] at hw
          rcases hg.2 with h1 | ⟨_, h2⟩
          · exfalso
            obtain ⟨p, hp⟩ := List.exists_mem_of_ne_nil _ hne
            obtain ⟨t, ht⟩ := Option.isSome_iff_exists.1 (h1 p hp)
            rw [List.length_eq_zero_iff, List.flatMap_eq_nil_iff] at h0
            have := h0 p (hg.1.subset hp)
            rw [attributeWire_attr, ht] at this
            cases this
          · obtain ⟨t, ht⟩ := Option.isSome_iff_exists.1 h2
            rw [listedWires_given ht] at hw
            obtain ⟨p, hp, rfl⟩ := List.mem_map.1 hw
            simpa using hp
        · rw [if_neg h0] at hw
          obtain ⟨p, _, hw⟩ := List.mem_flatMap.1 hw
          have e := attributeWire_phase hw
          rw [decide_eq_true_iff, e]
          by_contra hp
          rw [attributeWire_attr, hstray p hp] at hw
          exact absurd hw List.not_mem_nil
    · rw [if_neg hc]
      have hc' : o.cls ≠ "fuse".toList := by
        rw [hso.cls]
        intro h
        exact hc (by rw [isFuseObj, h]; decide)
      rw [hr.kind.empty rfl fusePieces_cons (fun _ => rfl) (fun _ => rfl) (fun _ => rfl) (fun _ _ => rfl)
        (fun h => absurd h hc') (fun _ d hd => by simp [fusePieces, hd]) (fun _ _ => rfl) (fun _ _ => rfl)]
      exact .nil
  refine forall₂_trans ?_ h1 h.placed.fuses
  rintro d ⟨dev, w⟩ x ⟨h1, h2, h3, h4⟩ ⟨a1, a2, a3, _, a4, t, ht, hl⟩
  simp only at h1 h2 h3 h4 a1 a2 a3 ht hl
  rw [h1, h3] at a1
  rw [h2, h3] at a2
  refine ⟨a1.file h.nodes, a2.file h.nodes, a3, fun _ => a4, ?_⟩
  rw [h4] at ht
  obtain ⟨t', ht', rfl⟩ := Option.map_eq_some_iff.1 ht
  exact ⟨t', ht', hl⟩

/-! ### Capacitors -/

theorem floatOf_ok {t : Txt} {x : ℚ} : floatOf t = .ok x ↔ pyFloat t = some x := by
  rw [floatOf]
  cases pyFloat t <;> simp

theorem complexOf_ok {t : Txt} {x : ℚ × ℚ} : complexOf t = .ok x ↔ pyComplex t = some x := by
  rw [complexOf]
  cases pyComplex t <;> simp

theorem attributeBy_ok {α : Type} {o : Obj} {k : Txt} {f : Txt → Py α} {r : Option α} (h : attributeBy o k f = .ok r) :
    (o.attr k = none ∧ r = none) ∨ ∃ t x, o.attr k = some t ∧ f t = .ok x ∧ r = some x := by
  rw [attributeBy] at h
  cases ha : o.attr k with
  | none => simp only [ha] at h; cases h; exact .inl ⟨rfl, rfl⟩
  | some t =>
    simp only [ha] at h
    obtain ⟨x, hx, h⟩ := bind_eq_ok h
    cases h
    exact .inr ⟨t, x, rfl, hx, rfl⟩

theorem floatAttribute_ok {o : Obj} {k : Txt} {r : Option ℚ} (h : floatAttribute o k = .ok r) :
    (o.attr k = none ∧ r = none) ∨ ∃ t x, o.attr k = some t ∧ pyFloat t = some x ∧ r = some x := by
  have : attributeBy o k floatOf = .ok r := by
    rw [← h, attributeBy, floatAttribute, Obj.get, Obj.attr]
    cases lookup k o.attrs <;> rfl
  rcases attributeBy_ok this with h | ⟨t, x, h1, h2, h3⟩
  · exact .inl h
  · exact .inr ⟨t, x, h1, floatOf_ok.1 h2, h3⟩

theorem complexAttribute_ok {o : Obj} {k : Txt} {r : Option (ℚ × ℚ)} (h : complexAttribute o k = .ok r) :
    (o.attr k = none ∧ r = none) ∨ ∃ t x, o.attr k = some t ∧ pyComplex t = some x ∧ r = some x := by
  have : attributeBy o k complexOf = .ok r := by
    rw [← h, attributeBy, complexAttribute]
  rcases attributeBy_ok this with h | ⟨t, x, h1, h2, h3⟩
  · exact .inl h
  · exact .inr ⟨t, x, h1, complexOf_ok.1 h2, h3⟩

theorem readPhaseCaps_eq {o : Obj} : ∀ {ps : List Char} {cs : List (Char × ℚ)}, readPhaseCaps o ps = .ok cs →
    cs = ps.flatMap fun p => (((o.attr ("capacitor_".toList ++ [p])).bind pyFloat).map fun v => (p, v)).toList := by
  intro ps
  induction ps with
  | nil => intro cs h; cases h; rfl
  | cons p ps ih =>
    intro cs h
    rw [readPhaseCaps] at h
    obtain ⟨c, hc, h⟩ := bind_eq_ok h
    obtain ⟨cs', hcs, h⟩ := bind_eq_ok h
    have h := Except.ok.inj h
    subst h
    rw [List.flatMap_cons, ih hcs]
    congr 1
    rcases floatAttribute_ok hc with ⟨h1, rfl⟩ | ⟨t, x, h1, h2, rfl⟩
    · rw [h1]; rfl
    · rw [h1]; simp only [Option.bind_some, h2]

theorem connectedPhases_eq {o : Obj} {ph : Phases} {l : List Char} (hp : ph.phases = objPhases o) (h : connectedPhases o ph = .ok l) :
    l = capPhases o := by
  rw [connectedPhases] at h
  rw [capPhases]
  cases hc : o.attr "phases_connected".toList with
  | none => simp only [hc] at h; cases h; rw [hp]; rfl
  | some t =>
    simp only [hc] at h
    cases hq : parsePhases t with
    | error e => rw [hq] at h; cases h
    | ok q => rw [hq] at h; cases h; exact (parsePhases_phases hq).1

theorem readLimits_given {o : Obj} {hi lo t1 t2 : Txt} {b l : Option ℚ × Option ℚ} (h : readLimits o hi lo b = .ok l) (h1 : o.attr hi = some t1)
    (h2 : o.attr lo = some t2) : ∃ x y, pyFloat t1 = some x ∧ pyFloat t2 = some y ∧ l = (some x, some y) := by
  rw [readLimits] at h
  obtain ⟨a, ha, h⟩ := bind_eq_ok h
  rcases floatAttribute_ok ha with ⟨h3, _⟩ | ⟨t, x, h3, h4, rfl⟩
  · rw [h1] at h3; cases h3
  rw [h1] at h3; cases h3
  simp only at h
  obtain ⟨a, ha, h⟩ := bind_eq_ok h
  rcases floatAttribute_ok ha with ⟨h3, _⟩ | ⟨t, y, h3, h5, rfl⟩
  · rw [h2] at h3; cases h3
  rw [h2] at h3; cases h3
  simp only at h
  cases h
  exact ⟨x, y, h4, h5, rfl⟩

/-- The phase capacitor `x` is the declared one. -/
def CapOf (objs : List (Txt × Obj)) (d : DeclaredCap) (x : DCap × Char × ℚ) : Prop :=
  lookup x.1.name objs = some d.obj ∧ d.obj.cls = "capacitor".toList ∧ x.2 = (d.phase, d.var) ∧
    ∀ t1 t2, d.obj.attr "voltage_set_high".toList = some t1 → d.obj.attr "voltage_set_low".toList = some t2 →
      ∃ h l, pyFloat t1 = some h ∧ pyFloat t2 = some l ∧ x.1.high = some h ∧ x.1.low = some l

theorem readCapacitor_fields {name : Txt} {o : Obj} {ph : Phases} {c : DCap} (hp : ph.phases = objPhases o) (h : readCapacitor name o ph = .ok c) :
    c.name = name ∧ c.connected = capPhases o ∧
      c.caps = ['A', 'B', 'C'].flatMap (fun p => (((o.attr ("capacitor_".toList ++ [p])).bind pyFloat).map fun v => (p, v)).toList) ∧
      ∀ t1 t2, o.attr "voltage_set_high".toList = some t1 → o.attr "voltage_set_low".toList = some t2 →
        ∃ h l, pyFloat t1 = some h ∧ pyFloat t2 = some l ∧ c.high = some h ∧ c.low = some l := by
  rw [readCapacitor] at h
  obtain ⟨con, hcon, h⟩ := bind_eq_ok h
  obtain ⟨_, _, h⟩ := bind_eq_ok h
  obtain ⟨_, _, h⟩ := bind_eq_ok h
  obtain ⟨l1, _, h⟩ := bind_eq_ok h
  obtain ⟨l2, hl2, h⟩ := bind_eq_ok h
  obtain ⟨caps, hcaps, h⟩ := bind_eq_ok h
  have h := Except.ok.inj h
  subst h
  refine ⟨rfl, connectedPhases_eq hp hcon, readPhaseCaps_eq hcaps, fun t1 t2 h1 h2 => ?_⟩
  obtain ⟨x, y, hx, hy, rfl⟩ := readLimits_given hl2 h1 h2
  exact ⟨x, y, hx, hy, rfl, rfl⟩

theorem FileRead.capacitors {readLine : LineReader M} {schedules : List (Txt × Txt)} {objs : List (Txt × Obj)} {s : DState M}
    {groups : List (List (DModel M))} {g : Grid M} (h : FileRead readLine schedules objs s groups g) (hk : (objs.map Prod.fst).Nodup) :
    List.Forall₂ (IsCap objs g) (declaredCaps objs) g.capacitors := by
  have h1 : List.Forall₂ (CapOf objs) (declaredCaps objs) (capPieces s.models) := by
    refine h.pieces hk rfl capPieces_cons (fun m => by cases m <;> rfl) fun name o0 o objs1 objs2 ms hmem hso _ hr => ?_
    by_cases hc : o0.cls = "capacitor".toList
    · have := hso.other (by rw [hc]; decide)
      subst this
      obtain ⟨ph, c, hph, hread, rfl⟩ := hr.ofCapacitor hc
      obtain ⟨f1, f2, f3, f4⟩ := readCapacitor_fields hph hread
      rw [if_pos hc]
      have e : capPieces [(.capacitor c : DModel M)] = ['A', 'B', 'C'].flatMap fun p =>
          (((((o.attr ("capacitor_".toList ++ [p])).bind pyFloat).map fun v => (p, v)).toList).filter fun pc => pc.1 ∈ capPhases o).map fun pc => (c, pc) := by
        simp only [capPieces, List.flatMap_cons, List.flatMap_nil, List.append_nil, f2, f3, List.filter_append, List.map_append]
      rw [e]
      refine forall₂_flatMap (T := Eq) (by simp) fun p _ q hq => ?_
      subst hq
      cases (o.attr ("capacitor_".toList ++ [p])).bind pyFloat with
      | none => exact .nil
      | some v =>
        simp only [Option.map_some, Option.toList_some]
        by_cases hp : p ∈ capPhases o
        · rw [if_pos hp, List.filter_cons_of_pos (by simpa using hp)]
          refine .cons ⟨?_, hc, rfl, f4⟩ .nil
          simp only [f1]
          exact lookup_of_mem hk hmem
        · rw [if_neg hp, List.filter_cons_of_neg (by simpa using hp)]
          exact .nil
    · rw [if_neg hc]
      rw [hr.kind.empty rfl capPieces_cons (fun _ => rfl) (fun _ => rfl) (fun _ => rfl) (fun _ _ => rfl)
        (fun _ _ _ => rfl) (fun _ _ _ => rfl) (fun h => absurd (hso.cls ▸ h) hc) (fun _ _ => rfl)]
      exact .nil
  refine forall₂_trans ?_ h1 h.placed.capacitors
  rintro d ⟨c, pc⟩ x ⟨h1, h2, h3, h4⟩ ⟨o, t, v, a1, a2, a3, a4, a5, a6, a7, a8, a9, b1, b2, b3, b4, b5, b6⟩
  simp only at h1 h2 h3 h4 a1 a2 a3 a4 a5 a6 a7 a8 a9 b1 b2 b3 b4 b5 b6
  obtain ⟨o', ho', hso⟩ := h.same.of_some h1
  rw [a1] at ho'
  cases ho'
  have := hso.other (by rw [h2]; decide)
  subst this
  rw [h3] at a2 a3 b6
  refine ⟨a2.file h.nodes, a3, ⟨v, a4, floatOf_ok.1 a5⟩, a6, fun hm => ?_, fun t1 t2 hv ht1 ht2 => ?_⟩
  · rw [a9] at hm
    cases hm
    have hmode : x.mode = .manual := by
      cases hx : x.mode with
      | manual => rfl
      | volt => exact absurd (b2 hx) (by decide)
      | var => exact absurd (b3 hx) (by decide)
      | varvolt => exact absurd (b4 hx) (by decide)
    exact ⟨hmode, b6 hmode⟩
  · obtain ⟨hi, lo, e1, e2, e3, e4⟩ := h4 t1 t2 ht1 ht2
    rw [a9] at hv
    cases hv
    have hmode : x.mode = .volt := by
      cases hx : x.mode with
      | manual =>
        rcases b1 hx with hc | ⟨_, hc | hc⟩
        · exact absurd hc (by decide)
        · rw [e3] at hc; cases hc
        · rw [e4] at hc; cases hc
      | volt => rfl
      | var => exact absurd (b3 hx) (by decide)
      | varvolt => exact absurd (b4 hx) (by decide)
    exact ⟨hmode, b5 (by rw [hmode]; decide), hi, lo, e1, e2, a7.trans e3, a8.trans e4⟩

/-! ### Configurations -/

theorem configuration_notWritten : "configuration".toList ∉ writtenAttributes := by decide

theorem configOf_same {objs objs' : List (Txt × Obj)} (h : SameObjs objs objs') {o : Obj} (hp : ∀ c, configOf objs o = some c → c.cls ∉ conductorClasses) :
    configOf objs' o = configOf objs o := by
  rw [configOf, configOf] at *
  cases hk : o.attr "configuration".toList with
  | none => rfl
  | some k =>
    rw [hk] at hp
    simp only [Option.bind_some] at hp ⊢
    cases hl : lookup k objs with
    | none =>
      cases hl' : lookup k objs' with
      | none => rfl
      | some c' =>
        obtain ⟨c, hc, _⟩ := h.to_some hl'
        rw [hl] at hc; cases hc
    | some c =>
      obtain ⟨c', hc', hs⟩ := h.of_some hl
      rw [hc', hs.other (hp c hl)]

/-! ### Regulators -/

theorem settingPhases_eq {α : Type} {config : Obj} {k : Txt} {f : Txt → Py α} {phases : List Char} : ∀ {ps r : List Char},
    (∀ p ∈ ps, p ∉ phases → config.attr (k ++ [p]) = none) → settingPhases config k f phases ps = .ok r → r = phases := by
  intro ps
  induction ps with
  | nil => intro r _ h; cases h; rfl
  | cons p ps ih =>
    intro r hn h
    rw [settingPhases] at h
    obtain ⟨a, ha, h⟩ := bind_eq_ok h
    rcases attributeBy_ok ha with ⟨_, rfl⟩ | ⟨t, x, h1, _, rfl⟩
    · exact ih (fun q hq => hn q (by simp [hq])) h
    · have hp : p ∈ phases := by
        by_contra hc
        have := hn p (by simp) hc
        rw [h1] at this; cases this
      simp only [if_pos hp] at h
      exact ih (fun q hq => hn q (by simp [hq])) h

/-- The regulator phase `x` is the declared one. -/
def RegOf (objs : List (Txt × Obj)) (d : Obj × Option Obj × Char) (x : DRegulator × Char) : Prop :=
  lookup x.1.name objs = some d.1 ∧ d.1.cls = "regulator".toList ∧ d.2.1 = configOf objs d.1 ∧ x.2 = d.2.2 ∧ x.1.frm = d.1.attr "from".toList ∧
    x.1.to_ = d.1.attr "to".toList ∧ (∀ c, configOf objs d.1 = some c → c.cls ∉ conductorClasses) ∧
    ∀ c, configOf objs d.1 = some c → attributeBy c "raise_taps".toList intOf = .ok x.1.high ∧ attributeBy c "lower_taps".toList intOf = .ok x.1.low ∧
      floatAttribute c "regulation".toList = .ok x.1.regulation ∧ x.1.kind = c.attr "Type".toList

theorem regTypeOf_A {t : Option Txt} {k : RegType} (h : regTypeOf t = .ok k) : k = .A ↔ t = some "A".toList := by
  cases t with
  | none => cases h; exact ⟨fun h => (by cases h), fun h => (by cases h)⟩
  | some t =>
    rw [regTypeOf] at h
    by_cases h1 : t = "A".toList
    · simp only [if_pos h1] at h
      cases h
      exact ⟨fun _ => by rw [h1], fun _ => rfl⟩
    · simp only [if_neg h1] at h
      refine ⟨fun hk => ?_, fun hk => absurd (Option.some.inj hk) h1⟩
      subst hk
      split_ifs at h
      cases h

theorem FileRead.regulators {readLine : LineReader M} {schedules : List (Txt × Txt)} {objs : List (Txt × Obj)} {s : DState M}
    {groups : List (List (DModel M))} {g : Grid M} (h : FileRead readLine schedules objs s groups g) (hk : (objs.map Prod.fst).Nodup)
    (hp : PlainConfigurations objs) (hst : NoStraySettings objs) : List.Forall₂ (IsReg objs g) (declaredRegs objs) g.regulators := by
  have h1 : List.Forall₂ (RegOf objs) (declaredRegs objs) (regPieces s.models) := by
    refine h.pieces hk rfl regPieces_cons (fun m => by cases m <;> rfl) fun name o0 o objs1 objs2 ms hmem hso hsame hr => ?_
    by_cases hc : o0.cls = "regulator".toList
    · have := hso.other (by rw [hc]; decide)
      subst this
      obtain ⟨ph, r, hph, hne, hread, rfl⟩ := hr.ofRegulator hc
      have hplain : ∀ c, configOf objs o = some c → c.cls ∉ conductorClasses := fun c => hp name o c hmem (by rw [hc]; decide)
      have hcfg := configOf_same hsame hplain
      simp only [if_pos hc]
      have main : r.name = name ∧ r.phases = objPhases o ∧ r.frm = o.attr "from".toList ∧ r.to_ = o.attr "to".toList ∧
          ∀ c, configOf objs o = some c → attributeBy c "raise_taps".toList intOf = .ok r.high ∧
            attributeBy c "lower_taps".toList intOf = .ok r.low ∧ floatAttribute c "regulation".toList = .ok r.regulation ∧
            r.kind = c.attr "Type".toList := by
        rw [readRegulator] at hread
        change (match configOf objs1 o with | none => _ | some config => _) = _ at hread
        rw [hcfg] at hread
        cases hco : configOf objs o with
        | none =>
          simp only [hco] at hread
          cases hread
          exact ⟨rfl, hph, rfl, rfl, fun c hc => by cases hc⟩
        | some c =>
          simp only [hco] at hread
          obtain ⟨p1, hp1, hread⟩ := bind_eq_ok hread
          obtain ⟨p2, hp2, hread⟩ := bind_eq_ok hread
          obtain ⟨p3, hp3, hread⟩ := bind_eq_ok hread
          obtain ⟨con, _, hread⟩ := bind_eq_ok hread
          obtain ⟨hi, hhi, hread⟩ := bind_eq_ok hread
          obtain ⟨lo, hlo, hread⟩ := bind_eq_ok hread
          obtain ⟨rg, hrg, hread⟩ := bind_eq_ok hread
          have hread := Except.ok.inj hread
          subst hread
          rw [hph] at hp1
          have e1 := settingPhases_eq (fun p hp hn => (hst name o hmem hc c hco p hp hn).1) hp1
          subst e1
          have e2 := settingPhases_eq (fun p hp hn => (hst name o hmem hc c hco p hp hn).2.1) hp2
          subst e2
          have e3 := settingPhases_eq (fun p hp hn => (hst name o hmem hc c hco p hp hn).2.2) hp3
          subst e3
          exact ⟨rfl, rfl, rfl, rfl, fun c' hc' => by cases hc'; exact ⟨hhi, hlo, hrg, rfl⟩⟩
      obtain ⟨m1, m2, m3, m4, m5⟩ := main
      have e : regPieces [(.regulator r : DModel M)] = (objPhases o).map fun p => (r, p) := by
        simp only [regPieces, List.flatMap_cons, List.flatMap_nil, List.append_nil, m2]
      rw [e]
      exact forall₂_map_map fun p _ => ⟨by simp only [m1]; exact lookup_of_mem hk hmem, hc, rfl, rfl, m3, m4, hplain, m5⟩
    · rw [if_neg hc]
      rw [hr.kind.empty rfl regPieces_cons (fun _ => rfl) (fun _ => rfl) (fun _ => rfl) (fun _ _ => rfl)
        (fun _ _ _ => rfl) (fun _ _ _ => rfl) (fun _ _ => rfl) (fun h => absurd (hso.cls ▸ h) hc)]
      exact .nil
  refine forall₂_trans ?_ h1 h.placed.regulators
  rintro d ⟨r, p⟩ x ⟨h1, h2, h3, h4, h5, h6, h7, h8⟩ ⟨a1, a2, a3, o, k, config, t, reg, hi, lo, b1, b2, b3, b4, b5, b6, b7, b8, b9, c1, c2, u1, u2, d1, d2, d3, d4⟩
  simp only at h1 h3 h4 h5 h6 h8 a1 a2 a3 b1 b4 b6 b7 b8
  obtain ⟨o', ho', hso⟩ := h.same.of_some h1
  rw [b1] at ho'
  cases ho'
  have := hso.other (by rw [h2]; decide)
  subst this
  have hcfg : configOf objs d.1 = some config := by
    rw [← configOf_same h.same h7, configOf, b2]
    exact b3
  obtain ⟨e1, e2, e3, e4⟩ := h8 config hcfg
  rw [b7] at e1
  rw [b8] at e2
  rw [b6] at e3
  rw [h5, h4] at a1
  rw [h6, h4] at a2
  rw [h4] at b4
  have f1 : hi = x.raiseTaps := by
    rcases attributeBy_ok e1 with ⟨_, hc⟩ | ⟨t', y, g1, g2, g3⟩
    · cases hc
    · rw [d1] at g1; cases g1; rw [d2] at g2; cases g2; cases g3; rfl
  have f2 : lo = x.lowerTaps := by
    rcases attributeBy_ok e2 with ⟨_, hc⟩ | ⟨t', y, g1, g2, g3⟩
    · cases hc
    · rw [d3] at g1; cases g1; rw [d4] at g2; cases g2; cases g3; rfl
  subst f1 f2
  rcases floatAttribute_ok e3 with ⟨_, hc⟩ | ⟨t', y, g1, g2, g3⟩
  · cases hc
  cases g3
  exact ⟨a1.file h.nodes, a2.file h.nodes, a3, config, h3.trans hcfg, regTypeOf_A (e4 ▸ c2), ⟨t, b4, b5⟩, ⟨u1, d1, d2⟩, ⟨u2, d3, d4⟩, b9, t', reg, g1, g2, c1⟩

/-! ### Transformers -/

theorem around_length (ps : List Char) : (around ps).length = ps.length := by
  cases ps with
  | nil => rfl
  | cons p ps => simp [around]

theorem around_get (ps : List Char) (i : ℕ) (hi : i < (around ps).length) :
    ps[i]? = some ((around ps)[i]).1 ∧ cycleNext ps i = some ((around ps)[i]).2 := by
  have hl := around_length ps
  have hi' : i < ps.length := hl ▸ hi
  simp only [around, List.getElem_zip]
  refine ⟨List.getElem?_eq_getElem hi', ?_⟩
  rw [cycleNext]
  cases ps with
  | nil => exact absurd hi' (by simp)
  | cons p ps =>
    simp only [List.tail_cons, List.length_cons] at hi' ⊢
    by_cases hlast : i = ps.length
    · subst hlast
      simp
    · have hlt : i < ps.length := by omega
      rw [Nat.mod_eq_of_lt (by omega), List.getElem?_cons_succ, List.getElem_append_left hlt, List.getElem?_eq_getElem hlt]

theorem around_forall₂ (ps : List Char) :
    List.Forall₂ (fun (pq : Char × Char) i => ps[i]? = some pq.1 ∧ cycleNext ps i = some pq.2) (around ps) (List.range ps.length) := by
  rw [List.forall₂_iff_get]
  refine ⟨by rw [around_length, List.length_range], fun i h1 h2 => ?_⟩
  simp only [List.get_eq_getElem, List.getElem_range]
  exact around_get ps i h1

theorem voltageOf_ok {t : Txt} {v : ℚ} (h : voltageOf t = .ok v) : volts t = some v := by
  rw [voltageOf] at h
  obtain ⟨x, hx, h⟩ := bind_eq_ok h
  cases h
  rw [volts, floatOf_ok.1 hx]
  rfl

theorem connectType_facts (c : Option Txt) : (connectType c).2 = isCenterTap c ∧
    (decide ((connectType c).1.1 = some 'D'), decide ((connectType c).1.2 = some 'D')) = deltaSides c := by
  cases c with
  | none => decide
  | some t =>
    rw [connectType, isCenterTap, deltaSides]
    simp only [Option.some.injEq]
    by_cases h1 : t = "1".toList ∨ t = "WYE_WYE".toList
    · rw [if_pos h1]
      rcases h1 with rfl | rfl <;> decide
    rw [if_neg h1]
    by_cases h2 : t = "2".toList ∨ t = "DELTA_DELTA".toList
    · rw [if_pos h2, if_pos h2]
      rcases h2 with rfl | rfl <;> decide
    rw [if_neg h2, if_neg h2]
    by_cases h3 : t = "3".toList ∨ t = "DELTA_GWYE".toList
    · rw [if_pos h3, if_pos h3]
      rcases h3 with rfl | rfl <;> decide
    rw [if_neg h3, if_neg h3]
    by_cases h4 : t = "5".toList ∨ t = "SINGLE_PHASE_CENTER_TAPPED".toList
    · rw [if_pos h4]
      exact ⟨(decide_eq_true h4).symm, rfl⟩
    rw [if_neg h4]
    exact ⟨(decide_eq_false h4).symm, rfl⟩

/-- What is known of the impedance read from a configuration. -/
def ImpedanceRead (c : Obj) (ct : Bool) (r : Option ℚ) (xs : List ℚ) : Prop :=
  (∀ t2, c.attr "reactance".toList = some t2 → ∃ y, pyFloat t2 = some y ∧ (ct = false → xs = [y]) ∧
    (ct = true → c.attr "impedance1".toList = none → xs = [8 / 10 * y, 4 / 10 * y, 4 / 10 * y]) ∧
    ((c.attr "resistance".toList = none ∧ r = none) ∨ ∃ t x, c.attr "resistance".toList = some t ∧ pyFloat t = some x ∧ r = some x)) ∧
  (c.attr "reactance".toList = none → ∀ t, c.attr "impedance".toList = some t → ∃ z, pyComplex t = some z ∧ r = some z.1 ∧
    (ct = false → xs = [z.2]) ∧ (ct = true → xs = [8 / 10 * z.2, 4 / 10 * z.2, 4 / 10 * z.2])) ∧
  (c.attr "reactance".toList = none → c.attr "impedance".toList = none → xs = [] ∧
    ((c.attr "resistance".toList = none ∧ r = none) ∨ ∃ t x, c.attr "resistance".toList = some t ∧ pyFloat t = some x ∧ r = some x))

theorem readReactances_facts {c : Obj} {ct : Bool} {x : List ℚ × Option ℚ} (h : readReactances c ct = .ok x) {r : Option ℚ}
    (hr : floatAttribute c "resistance".toList = .ok r) :
    ImpedanceRead c ct (match x.2 with | some r => some r | none => r) x.1 := by
  rw [readReactances] at h
  obtain ⟨a, ha, h⟩ := bind_eq_ok h
  rcases floatAttribute_ok ha with ⟨h1, rfl⟩ | ⟨t, y, h1, h2, rfl⟩
  · simp only at h
    obtain ⟨z, hz, h⟩ := bind_eq_ok h
    rcases complexAttribute_ok hz with ⟨h3, rfl⟩ | ⟨t, z, h3, h4, rfl⟩
    · have h := Except.ok.inj h
      subst h
      refine ⟨fun t2 ht2 => ?_, fun _ t ht => ?_, fun _ _ => ⟨rfl, floatAttribute_ok hr⟩⟩
      · rw [h1] at ht2; cases ht2
      · rw [h3] at ht; cases ht
    · have h := Except.ok.inj h
      subst h
      refine ⟨fun t2 ht2 => ?_, fun _ t' ht => ?_, fun _ hn => ?_⟩
      · rw [h1] at ht2; cases ht2
      · rw [h3] at ht; cases ht
        exact ⟨z, h4, rfl, fun h => by rw [h]; rfl, fun h => by rw [h]; rfl⟩
      · rw [h3] at hn; cases hn
  · have hx2 : x.2 = none ∧ (ct = false → x.1 = [y]) ∧
        (ct = true → c.attr "impedance1".toList = none → x.1 = [8 / 10 * y, 4 / 10 * y, 4 / 10 * y]) := by
      simp only at h
      cases ct with
      | false => 
        simp only [Bool.false_eq_true, if_false] at h
        cases h
        exact ⟨rfl, fun _ => rfl, fun h => by cases h⟩
      | true =>
        simp only [if_true] at h
        obtain ⟨z, hz, h⟩ := bind_eq_ok h
        rcases complexAttribute_ok hz with ⟨h3, rfl⟩ | ⟨t, z, h3, h4, rfl⟩
        · simp only at h
          cases h
          exact ⟨rfl, fun h => (by cases h), fun _ _ => rfl⟩
        · simp only at h
          obtain ⟨w, hw, h⟩ := bind_eq_ok h
          refine ⟨?_, fun h => (by cases h), fun _ hn => ?_⟩
          · rcases complexAttribute_ok hw with ⟨h5, rfl⟩ | ⟨t, w, h5, h6, rfl⟩ <;> (simp only at h; cases h; rfl)
          · rw [h3] at hn; cases hn
    refine ⟨fun t2 ht2 => ?_, fun hn => ?_, fun hn => ?_⟩
    · rw [h1] at ht2; cases ht2
      refine ⟨y, h2, hx2.2.1, hx2.2.2, ?_⟩
      rw [hx2.1]
      exact floatAttribute_ok hr
    · rw [h1] at hn; cases hn
    · rw [h1] at hn; cases hn

theorem ratingOf_ok {t : Txt} {x : ℚ} (h : ratingOf t = .ok x) :
    ∃ k, pyFloat (if (find "kVA".toList t).isSome then removeNonnum t else t) = some k ∧ x = 1000 * k := by
  rw [ratingOf] at h
  obtain ⟨k, hk, h⟩ := bind_eq_ok h
  have h := Except.ok.inj h
  exact ⟨k, floatOf_ok.1 hk, by rw [← h, mul_comm]⟩

theorem phaseRating_read {c : Obj} {p : Char} {r : Option ℚ} (h : attributeBy c ("power".toList ++ [p] ++ "_rating".toList) ratingOf = .ok r) :
    r.getD 0 = 1000 * phaseRating c p := by
  rw [phaseRating]
  rcases attributeBy_ok h with ⟨h1, rfl⟩ | ⟨t, x, h1, h2, rfl⟩
  · rw [h1]
    exact (mul_zero _).symm
  · obtain ⟨k, hk, rfl⟩ := ratingOf_ok h2
    rw [h1, Option.bind_some, hk]
    rfl

theorem readRating_facts {c : Obj} {ct : Bool} {s : Option ℚ} (h : readRating c ct = .ok s) : ∀ s0, s = some s0 → IsRating c s0 := by
  intro s0 hs0
  subst hs0
  have key : (do
      match ← attributeBy c "power_rating".toList fun t => floatOf (removeNonnum t) with
      | some x => .ok (some (x * 1000))
      | none => do
        let rs ← ["powerA_rating".toList, "powerB_rating".toList, "powerC_rating".toList].mapM fun k => attributeBy c k ratingOf
        .ok (if rs.any Option.isSome then some ((rs.map fun r => r.getD 0).sum) else none) : Py (Option ℚ)) = .ok (some s0) → IsRating c s0 := by
    intro h
    obtain ⟨a, ha, h⟩ := bind_eq_ok h
    rcases attributeBy_ok ha with ⟨h1, rfl⟩ | ⟨t', x, h1, h2, rfl⟩
    · simp only at h
      obtain ⟨rs, hrs, h⟩ := bind_eq_ok h
      have h3 := mapM_forall₂ hrs
      cases h3 with
      | cons e1 h3 => cases h3 with
        | cons e2 h3 => cases h3 with
          | cons e3 h3 =>
            cases h3
            have h := Except.ok.inj h
            split_ifs at h
            have h := Option.some.inj h
            refine .inr ⟨h1, ?_⟩
            rw [← h, List.map_cons, List.map_cons, List.map_cons, List.map_nil, List.sum_cons, List.sum_cons, List.sum_cons, List.sum_nil]
            rw [phaseRating_read (p := 'A') e1, phaseRating_read (p := 'B') e2, phaseRating_read (p := 'C') e3]
            ring
    · simp only at h
      cases h
      exact .inl ⟨t', x, h1, floatOf_ok.1 h2, mul_comm _ _⟩
  rw [readRating] at h
  cases ct with
  | false => exact key h
  | true =>
    simp only [if_true] at h
    obtain ⟨_, _, h⟩ := bind_eq_ok h
    exact key h

/-- What is known of the windings read from a configuration. -/
structure ConfigRead (c : Obj) (ct : Bool) (w1 w2 w3 : DWinding) (xs : List ℚ) : Prop where
  tap : ct = isCenterTap (c.attr "connect_type".toList)
  delta : (decide (w1.connection = some 'D'), decide (w2.connection = some 'D')) = deltaSides (c.attr "connect_type".toList)
  v1 : ∀ v, w1.voltage = some v → ∃ t, c.attr "primary_voltage".toList = some t ∧ volts t = some v
  v2 : ∀ v, w2.voltage = some v → ∃ t, c.attr "secondary_voltage".toList = some t ∧ volts t = some v
  v3 : ∀ v, w3.voltage = some v → ∃ t, c.attr "secondary_voltage".toList = some t ∧ pyFloat (removeNonnum t) = some (-v)
  imp : ∃ r : Option ℚ, w1.resistance = r.map (· / 2) ∧ w2.resistance = (r.map fun r => if ct then r else r / 2) ∧ w3.resistance = r ∧
    ImpedanceRead c ct r xs
  power : ∃ s : Option ℚ, w1.power = s ∧ (ct = false → w2.power = s) ∧ ∀ s0, s = some s0 → IsRating c s0

theorem readConfiguration_facts {c : Obj} {x : Bool × DWinding × DWinding × DWinding × List ℚ × Option (ℚ × ℚ)}
    (h : readConfiguration c = .ok x) : ConfigRead c x.1 x.2.1 x.2.2.1 x.2.2.2.1 x.2.2.2.2.1 := by
  rw [readConfiguration] at h
  obtain ⟨_, _, h⟩ := bind_eq_ok h
  obtain ⟨sh, _, h⟩ := bind_eq_ok h
  obtain ⟨v1, hv1, h⟩ := bind_eq_ok h
  obtain ⟨v2, hv2, h⟩ := bind_eq_ok h
  obtain ⟨v3, hv3, h⟩ := bind_eq_ok h
  obtain ⟨r, hr, h⟩ := bind_eq_ok h
  obtain ⟨y, hy, h⟩ := bind_eq_ok h
  obtain ⟨s, hs, h⟩ := bind_eq_ok h
  have h := Except.ok.inj h
  subst h
  obtain ⟨ct, hd⟩ := connectType_facts (c.attr "connect_type".toList)
  refine ⟨ct, hd, fun v hv => ?_, fun v hv => ?_, fun v hv => ?_, ⟨_, rfl, rfl, rfl, readReactances_facts hy hr⟩, s, rfl, fun h => ?_, readRating_facts hs⟩
  · simp only at hv
    subst hv
    rcases attributeBy_ok hv1 with ⟨_, hc⟩ | ⟨t, z, h1, h2, h3⟩
    · cases hc
    · cases h3; exact ⟨t, h1, voltageOf_ok h2⟩
  · simp only at hv
    subst hv
    rcases attributeBy_ok hv2 with ⟨_, hc⟩ | ⟨t, z, h1, h2, h3⟩
    · cases hc
    · cases h3; exact ⟨t, h1, voltageOf_ok h2⟩
  · rcases attributeBy_ok hv3 with ⟨_, rfl⟩ | ⟨t, z, h1, h2, rfl⟩
    · cases hv
    · simp only [Option.map_some, Option.some.injEq] at hv
      subst hv
      exact ⟨t, h1, by rw [neg_neg]; exact floatOf_ok.1 h2⟩
  · simp only at h
    simp only [h, Bool.false_eq_true, if_false, Option.map_id']

/-- The transformer piece `x` is the declared one. -/
def XfmrOf (d : DeclaredXfmr) (x : DTransformer × ℕ) : Prop := match d with
  | .coil o c p q => x.1.centerTap = false ∧ x.1.frm = o.attr "from".toList ∧ x.1.to_ = o.attr "to".toList ∧ x.1.phases[x.2]? = some p ∧
    cycleNext x.1.phases x.2 = some q ∧ match c with
      | none => x.1.w1.voltage = none
      | some c => ConfigRead c false x.1.w1 x.1.w2 x.1.w3 x.1.reactances
  | .tap o c => x.1.centerTap = true ∧ x.1.frm = o.attr "from".toList ∧ x.1.to_ = o.attr "to".toList ∧ x.1.phases = objPhases o ∧
    ConfigRead c true x.1.w1 x.1.w2 x.1.w3 x.1.reactances

theorem XfmrAt.file {ns : List DNode} {objs : List (Txt × Obj)} {g : Grid M}
    (hn : ∀ n ∈ ns, ∃ o, (n.name, o) ∈ objs ∧ n.parent = o.attr "parent".toList ∧
      (isNodeObj o = true ∨ isLoadObj o = true ∧ o.attr "parent".toList = none))
    {d : DeclaredXfmr} {t : DTransformer} {i : ℕ} (hd : XfmrOf d (t, i)) {x : GXfmr} (h : XfmrAt ns g t i x) : IsXfmr objs g d x := by
  cases d with
  | coil o c p q =>
    obtain ⟨h1, h2, h3, h4, h5, h6⟩ := hd
    simp only at h1 h2 h3 h4 h5
    rw [XfmrAt, h1] at h
    simp only [Bool.false_eq_true, if_false] at h
    obtain ⟨p', fp, fn, tp, tn, v1, v2, d1, d2, r, y, s, rfl, a1, a2, a3, a4, a5, a6, a7, a8, a9, b1, b2, b3, b4, b5, b6⟩ := h
    rw [h4] at a1
    cases a1
    cases c with
    | none => simp only at h6; rw [h6] at a6; cases a6
    | some c =>
      simp only at h6
      have hdel := h6.delta
      have e1 : d1 = decide (t.w1.connection = some 'D') := by
        rw [Bool.eq_iff_iff, decide_eq_true_iff]; exact a8
      have e2 : d2 = decide (t.w2.connection = some 'D') := by
        rw [Bool.eq_iff_iff, decide_eq_true_iff]; exact a9
      rw [← e1, ← e2] at hdel
      rw [h5] at a3 a5
      rw [h2] at a2 a3
      rw [h3] at a4 a5
      obtain ⟨r0, _, hr0, _, himp⟩ := h6.imp
      obtain ⟨s0, _, hs0, hpow⟩ := h6.power
      rw [hr0] at b1
      simp only [Bool.false_eq_true, if_false] at b1
      obtain ⟨r1, hr1, hr2⟩ := Option.map_eq_some_iff.1 b1
      have hr3 : r1 = r := by linarith
      subst hr3
      rw [hs0 rfl] at b3
      refine ⟨c, rfl, fp, fn, tp, tn, v1, v2, d1, d2, r1, y, s, rfl, hdel, a2.file hn, a4.file hn, ?_, ?_, h6.v1 v1 a6, h6.v2 v2 a7,
        b5, b4, b6, ?_, hpow s b3⟩
      · rw [if_congr a8 rfl rfl]; exact a3.file hn
      · rw [if_congr a9 rfl rfl]; exact a5.file hn
      · cases hre : c.attr "reactance".toList with
        | some t2 =>
          obtain ⟨y', hy', hx, _, hr⟩ := himp.1 t2 hre
          rw [hx rfl] at b2
          simp only [List.sum_cons, List.sum_nil, add_zero] at b2
          subst b2
          rcases hr with ⟨_, hc⟩ | ⟨t', z, e1, e2, e3⟩
          · rw [hr1] at hc; cases hc
          · rw [hr1] at e3; cases e3
            exact .inl ⟨t', t2, e1, hre, e2, hy'⟩
        | none =>
          cases him : c.attr "impedance".toList with
          | some t =>
            obtain ⟨z, hz, hr, hx, _⟩ := himp.2.1 hre t him
            rw [hx rfl] at b2
            simp only [List.sum_cons, List.sum_nil, add_zero] at b2
            rw [hr1] at hr
            cases hr
            subst b2
            exact .inr (.inl ⟨hre, t, him, hz⟩)
          | none =>
            obtain ⟨hx, hr⟩ := himp.2.2 hre him
            rw [hx] at b2
            rcases hr with ⟨_, hc⟩ | ⟨t', z, e1, e2, e3⟩
            · rw [hr1] at hc; cases hc
            · rw [hr1] at e3; cases e3
              exact .inr (.inr ⟨hre, him, b2.symm, t', e1, e2⟩)
  | tap o c =>
    obtain ⟨h1, h2, h3, h4, h6⟩ := hd
    simp only at h1 h2 h3 h4 h6
    rw [XfmrAt, h1] at h
    simp only [if_true] at h
    obtain ⟨p, f, b0, b1, t1, b2, t2, v0, v1, v2, r0, r1, r2, x0, x1, x2, s, rfl, a1, a2, a3, a4, i0, i1, i2, n1, n2, n3, e0, e1, e2, q0, q1, q2, hpre, hs, hs0, hv⟩ := h
    rw [h4] at a1
    rw [h2] at a2
    rw [h3] at a3 a4
    obtain ⟨r, hr1, hr2, hr3, himp⟩ := h6.imp
    obtain ⟨s0, hss, _, hpow⟩ := h6.power
    obtain ⟨tv, htv, hv1⟩ := h6.v2 v1 e1
    obtain ⟨tv', htv', hv2⟩ := h6.v3 v2 e2
    rw [htv] at htv'
    cases htv'
    refine ⟨p, f, b0, b1, t1, b2, t2, v0, v1, v2, r0, r1, r2, x0, x1, x2, s, rfl, a1, a2.file hn, a3.file hn, a4.file hn, i0, i1, i2, n1, n2, n3,
      h6.v1 v0 e0, ⟨tv, htv, hv1, hv2⟩, hv, hs0, fun hz1 => ?_, hpow s (hss ▸ hs)⟩
    · rw [hr3] at q2
      subst q2
      rw [hr1] at q0
      rw [hr2] at q1
      simp only [Option.map_some, if_true, Option.some.injEq] at q0 q1
      have three : ∀ a b d : ℚ, t.reactances = [a, b, d] → x0 = a ∧ x1 = b ∧ x2 = d := by
        intro a b d h
        rw [h] at hpre
        have := hpre.eq_of_length rfl
        simpa using this
      cases hre : c.attr "reactance".toList with
      | some t2 =>
        obtain ⟨y, hy, _, hx, hr⟩ := himp.1 t2 hre
        obtain ⟨m1, m2, m3⟩ := three _ _ _ (hx rfl hz1)
        refine ⟨r2, y, ?_, q0.symm, q1.symm, rfl, m1, m2, m3⟩
        rcases hr with ⟨_, hc⟩ | ⟨t', z, g1, g2, g3⟩
        · cases hc
        · cases g3; exact .inl ⟨t', t2, g1, hre, g2, hy⟩
      | none =>
        cases him : c.attr "impedance".toList with
        | some ti =>
          obtain ⟨z, hz, hr, _, hx⟩ := himp.2.1 hre ti him
          obtain ⟨m1, m2, m3⟩ := three _ _ _ (hx rfl)
          cases hr
          exact ⟨z.1, z.2, .inr (.inl ⟨hre, ti, him, hz⟩), q0.symm, q1.symm, rfl, m1, m2, m3⟩
        | none =>
          rw [(himp.2.2 hre him).1] at hpre
          exact absurd hpre (by simp)

theorem FileRead.transformers {readLine : LineReader M} {schedules : List (Txt × Txt)} {objs : List (Txt × Obj)} {s : DState M}
    {groups : List (List (DModel M))} {g : Grid M} (h : FileRead readLine schedules objs s groups g) (hk : (objs.map Prod.fst).Nodup)
    (hp : PlainConfigurations objs) : List.Forall₂ (IsXfmr objs g) (declaredXfmrs objs) g.transformers := by
  have h1 : List.Forall₂ XfmrOf (declaredXfmrs objs) (coilPieces s.models) := by
    refine h.pieces hk rfl coilPieces_cons (fun m => by cases m <;> rfl) fun name o0 o objs1 objs2 ms hmem hso hsame hr => ?_
    by_cases hc : o0.cls = "transformer".toList
    · have := hso.other (by rw [hc]; decide)
      subst this
      obtain ⟨ph, t, hph, hne, hread, rfl⟩ := hr.ofTransformer hc
      have hplain : ∀ c, configOf objs o = some c → c.cls ∉ conductorClasses := fun c => hp name o c hmem (by rw [hc]; decide)
      have hcfg := configOf_same hsame hplain
      simp only [if_pos hc]
      rw [readTransformer] at hread
      change (match configOf objs1 o with | none => _ | some config => _) = _ at hread
      rw [hcfg] at hread
      rw [objectXfmrs]
      cases hco : configOf objs o with
      | none =>
        simp only [hco] at hread ⊢
        cases hread
        have e : coilPieces [(.transformer ⟨name, o.attr "from".toList, o.attr "to".toList, ph.phases, false, ⟨none, none, none, none⟩,
            ⟨none, none, none, none⟩, ⟨none, none, none, none⟩, [], none⟩ : DModel M)] = (List.range ph.phases.length).map fun i =>
            (⟨name, o.attr "from".toList, o.attr "to".toList, ph.phases, false, ⟨none, none, none, none⟩,
            ⟨none, none, none, none⟩, ⟨none, none, none, none⟩, [], none⟩, i) := by
          simp [coilPieces]
        rw [e, List.forall₂_map_left_iff, List.forall₂_map_right_iff, hph]
        refine (around_forall₂ (objPhases o)).imp fun pq i hi => ?_
        exact ⟨rfl, rfl, rfl, hi.1, hi.2, rfl⟩
      | some c =>
        simp only [hco] at hread ⊢
        obtain ⟨x, hx, hread⟩ := bind_eq_ok hread
        have hread := Except.ok.inj hread
        have hf := readConfiguration_facts hx
        subst hread
        by_cases htap : isCenterTap (c.attr "connect_type".toList) = true
        · have hct : x.1 = true := hf.tap.trans htap
          rw [if_pos htap]
          simp only [coilPieces, List.flatMap_cons, List.flatMap_nil, List.append_nil, hct, if_true]
          refine .cons ⟨rfl, rfl, rfl, hph, ?_⟩ .nil
          rw [hct] at hf
          exact hf
        · have hct : x.1 = false := by rw [hf.tap]; simpa using htap
          rw [if_neg htap]
          simp only [coilPieces, List.flatMap_cons, List.flatMap_nil, List.append_nil, hct, Bool.false_eq_true, if_false]
          rw [List.forall₂_map_left_iff, List.forall₂_map_right_iff, hph]
          refine (around_forall₂ (objPhases o)).imp fun pq i hi => ?_
          refine ⟨rfl, rfl, rfl, hi.1, hi.2, ?_⟩
          rw [hct] at hf
          exact hf
    · rw [if_neg hc]
      rw [hr.kind.empty rfl coilPieces_cons (fun _ => rfl) (fun _ => rfl) (fun _ => rfl) (fun h => absurd (hso.cls ▸ h) hc)
        (fun _ _ _ => rfl) (fun _ _ _ => rfl) (fun _ _ => rfl) (fun _ _ => rfl)]
      exact .nil
  refine forall₂_trans ?_ h1 h.placed.transformers
  rintro d ⟨t, i⟩ x h1 h2
  exact XfmrAt.file h.nodes h1 h2

end Verif.Glm
