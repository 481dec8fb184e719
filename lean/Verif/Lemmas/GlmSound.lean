import Verif.Lemmas.GlmBuses
import Verif.Spec.GlmSound

/-!
# Sound objects are read
-/

namespace Verif.Glm

variable {M : Type}

/-! ### Attributes -/

theorem NumberIf.read {o : Obj} {k : Txt} (h : NumberIf o k) : floatAttribute o k = .ok ((o.attr k).bind pyFloat) := by
  rw [floatAttribute]
  cases ha : o.attr k with
  | none => rw [Obj.attr] at ha; rw [Obj.get, ha]; rfl
  | some t =>
    obtain ⟨x, hx⟩ := h t ha
    rw [get_of_attr ha]
    simp only [Option.bind_some, hx]
    rw [floatOf_ok.2 hx]
    rfl

theorem ComplexIf.read {o : Obj} {k : Txt} (h : ComplexIf o k) : complexAttribute o k = .ok ((o.attr k).bind pyComplex) := by
  rw [complexAttribute]
  cases ha : o.attr k with
  | none => rfl
  | some t =>
    obtain ⟨x, hx⟩ := h t ha
    simp only [Option.bind_some, hx]
    rw [complexOf_ok.2 hx]
    rfl

theorem attributeBy_read {α : Type} {o : Obj} {k : Txt} {f : Txt → Py α} (h : ∀ t, o.attr k = some t → ∃ x, f t = .ok x) : ∃ r, attributeBy o k f = .ok r := by
  rw [attributeBy]
  cases ha : o.attr k with
  | none => exact ⟨_, rfl⟩
  | some t =>
    obtain ⟨x, hx⟩ := h t ha
    simp only [hx]
    exact ⟨_, rfl⟩

/-! ### Phases -/

theorem PhasesGiven.read {o : Obj} (h : PhasesGiven o) : ∃ t ph, o.attr "phases".toList = some t ∧ parsePhases t = .ok ph ∧ ph.phases = objPhases o ∧ ph.isTriplex = isSplit o := by
  obtain ⟨h1, h2⟩ := h
  cases ht : o.attr "phases".toList with
  | none => rw [objPhases, ht] at h1; exact absurd rfl h1
  | some t =>
    have hl : objPhases o = letters t := by rw [objPhases, ht]; rfl
    have hs : isSplit o = decide ('S' ∈ stripBy (· = '|') (stripBy (· = '"') t)) := by rw [isSplit, ht]; rfl
    rw [hl] at h1 h2
    rw [hs] at h2
    refine ⟨t, ?_⟩
    rw [hl, hs, parsePhases]
    simp only [phaseStep_foldl, List.nil_append, Bool.false_or]
    rw [letters] at h1 h2 ⊢
    generalize stripBy (· = '|') (stripBy (· = '"') t) = u at *
    have hlen : (u.filter (· ∉ ['N', 'S', 'D', 'G'])).length ≠ 0 := fun e => h1 (List.length_eq_zero_iff.1 e)
    by_cases hS : 'S' ∈ u
    · have := h2 (by simpa using hS)
      simp only [hS, decide_true, Bool.not_true, Bool.and_false, Bool.false_eq_true, if_false]
      rw [if_neg hlen, if_neg]
      · exact ⟨_, trivial, rfl, rfl, rfl⟩
      · simp only [this]
        decide
    · simp only [hS, decide_false, Bool.not_false, Bool.and_true]
      by_cases hN : 'N' ∈ u
      · simp only [hN, decide_true, Bool.not_true, Bool.false_eq_true, if_false]
        rw [if_neg hlen, if_neg (by simp)]
        exact ⟨_, trivial, rfl, rfl, rfl⟩
      · simp only [hN, decide_false, Bool.not_false, if_true]
        rw [if_neg hlen, if_neg (by simp)]
        exact ⟨_, trivial, rfl, rfl, rfl⟩

/-! ### Nodes -/

theorem SoundNode.read {o : Obj} (h : SoundNode o) (name : Txt) {ph : Phases} (hp : ph.isTriplex = isSplit o) : ∃ n, readNode name o ph = .ok n := by
  obtain ⟨h1, h2, h3, _⟩ := h
  have eA : complexAttribute o "voltage_A".toList = _ := (h3 'A' (by simp)).read
  have eB : complexAttribute o "voltage_B".toList = _ := (h3 'B' (by simp)).read
  have eC : complexAttribute o "voltage_C".toList = _ := (h3 'C' (by simp)).read
  rw [readNode, hp, h1, if_neg (by simp), h2.read, eA, eB, eC]
  exact ⟨_, rfl⟩

theorem SoundMeter.read {o : Obj} (h : SoundMeter o) (name : Txt) {ph : Phases} (hp : ph.isTriplex = isSplit o) : ∃ n, readTriplexMeter name o ph = .ok n := by
  obtain ⟨h1, h2, h3⟩ := h
  have e1 : complexAttribute o "voltage_1".toList = _ := (h3 '1' (by simp)).read
  have e2 : complexAttribute o "voltage_2".toList = _ := (h3 '2' (by simp)).read
  rw [readTriplexMeter, hp, h1, if_neg (by simp), h2.read, e1, e2]
  simp only [ok_bind']
  split_ifs
  · exact ⟨_, rfl⟩
  · exact ⟨_, rfl⟩

/-! ### Loads -/

theorem loadComponent_read {o : Obj} {k : Txt} (h : ComplexIf o k) (make : ℚ × ℚ → PhaseLoad) : ∃ l, loadComponent o k make = .ok l := by
  rw [loadComponent, h.read, ok_bind']
  cases (o.attr k).bind pyComplex with
  | none => exact ⟨_, rfl⟩
  | some z => exact ⟨_, rfl⟩

theorem phaseLoads_read {schedules : List (Txt × Txt)} {o : Obj} {d : Bool} : ∀ cs : List Txt,
    (∀ c ∈ cs, o.attr ("base_power_".toList ++ c) = none ∧ ∀ a ∈ loadAttributes, ComplexIf o (a.1 ++ c)) → ∃ l, phaseLoads schedules o d cs = .ok l := by
  intro cs
  induction cs with
  | nil => intro _; exact ⟨_, rfl⟩
  | cons c cs ih =>
    intro h
    obtain ⟨l, hl⟩ := ih fun c' hc => h c' (by simp [hc])
    obtain ⟨hb, ha⟩ := h c (by simp)
    have one : ∀ (k : Txt) (x : LoadKind), (k, x) ∈ loadAttributes → ∀ make, ∃ l, loadComponent o (k ++ c) make = .ok l :=
      fun k x hk make => loadComponent_read (ha (k, x) hk) make
    rw [phaseLoads, connectionLoads]
    obtain ⟨a1, e1⟩ := one "power_".toList .power (by decide) fun z => ⟨connectionPhase d c, z.1, z.2, 0, 0⟩
    obtain ⟨a2, e2⟩ := one "constant_power_".toList .power (by decide) fun z => ⟨connectionPhase d c, z.1, z.2, 0, 0⟩
    obtain ⟨a3, e3⟩ := one "impedance_".toList .impedance (by decide) fun z => ⟨connectionPhase d c, 0, 0, z, 0⟩
    obtain ⟨a4, e4⟩ := one "constant_impedance_".toList .impedance (by decide) fun z => ⟨connectionPhase d c, 0, 0, z, 0⟩
    obtain ⟨a5, e5⟩ := one "constant_current_".toList .current (by decide) fun z => ⟨connectionPhase d c, 0, 0, 0, z⟩
    have e6 : baseComponent schedules o c (connectionPhase d c) = .ok [] := by rw [baseComponent, hb]
    simp only [e1, e2, e3, e4, e5, e6, hl, ok_bind']
    exact ⟨_, rfl⟩

theorem SoundLoad.read {objs : List (Txt × Obj)} {name : Txt} {o : Obj} (h : SoundLoad objs name o) (schedules : List (Txt × Txt)) :
    ∃ l, readLoad schedules name o = .ok l := by
  obtain ⟨h1, h2, h3, _⟩ := h
  have e1 : complexAttribute o "voltage_1".toList = _ := (h2 '1' (by simp)).read
  have e2 : complexAttribute o "voltage_2".toList = _ := (h2 '2' (by simp)).read
  obtain ⟨ls, hls⟩ := phaseLoads_read (schedules := schedules) (d := !decide ('S' ∈ phaseText o) && decide ('D' ∈ phaseText o)) loadConnections h3
  rw [readLoad, h1.read, e1, e2]
  simp only [ok_bind', hls]
  cases o.attr "parent".toList with
  | none => exact ⟨_, rfl⟩
  | some q => exact ⟨_, rfl⟩

/-! ### Capacitors -/

theorem readLimits_read {o : Obj} {hi lo : Txt} (h1 : NumberIf o hi) (h2 : NumberIf o lo) (b : Option ℚ × Option ℚ) : ∃ l, readLimits o hi lo b = .ok l := by
  rw [readLimits, h1.read, ok_bind']
  cases (o.attr hi).bind pyFloat with
  | none => exact ⟨_, rfl⟩
  | some x =>
    simp only [h2.read, ok_bind']
    cases (o.attr lo).bind pyFloat with
    | none => exact ⟨_, rfl⟩
    | some x => exact ⟨_, rfl⟩

theorem readPhaseCaps_read {o : Obj} : ∀ ps : List Char, (∀ p ∈ ps, NumberIf o ("capacitor_".toList ++ [p])) → ∃ l, readPhaseCaps o ps = .ok l := by
  intro ps
  induction ps with
  | nil => intro _; exact ⟨_, rfl⟩
  | cons p ps ih =>
    intro h
    obtain ⟨l, hl⟩ := ih fun q hq => h q (by simp [hq])
    rw [readPhaseCaps, (h p (by simp)).read, ok_bind', hl, ok_bind']
    exact ⟨_, rfl⟩

theorem stripBy_subset {f : Char → Bool} {t : Txt} {c : Char} (h : c ∈ stripBy f t) : c ∈ t := by
  rw [stripBy] at h
  simp only [List.mem_reverse] at h
  have h1 := (List.dropWhile_sublist _).subset h
  rw [List.mem_reverse] at h1
  exact (List.dropWhile_sublist _).subset h1

theorem connectedPhases_read {o : Obj} (h : ∀ t, o.attr "phases_connected".toList = some t → letters t ≠ [] ∧ 'S' ∉ t) (ph : Phases) :
    ∃ l, connectedPhases o ph = .ok l := by
  rw [connectedPhases]
  cases hc : o.attr "phases_connected".toList with
  | none => exact ⟨_, rfl⟩
  | some t =>
    obtain ⟨h1, h2⟩ := h t hc
    have hg : PhasesGiven ⟨[], [("phases".toList, t)]⟩ := ⟨h1, fun hs => by
      rw [isSplit, decide_eq_true_iff] at hs
      exact absurd (stripBy_subset (stripBy_subset hs)) h2⟩
    obtain ⟨t', ph', h3, h4, _⟩ := hg.read
    have : t' = t := by
      have : some t = some t' := h3
      cases this; rfl
    subst this
    simp only [h4]
    exact ⟨_, rfl⟩

theorem SoundCap.read {objs : List (Txt × Obj)} {o : Obj} (h : SoundCap objs o) (name : Txt) (ph : Phases) : ∃ c, readCapacitor name o ph = .ok c := by
  obtain ⟨h1, h2, _⟩ := h
  have num : ∀ k : Txt, k ∈ ["nominal_voltage", "time_delay", "VAr_set_high", "VAr_set_low", "voltage_set_high", "voltage_set_low", "capacitor_A", "capacitor_B",
    "capacitor_C"].map String.toList → NumberIf o k := h1
  obtain ⟨con, hcon⟩ := connectedPhases_read h2 ph
  obtain ⟨l1, hl1⟩ := readLimits_read (num "VAr_set_high".toList (by decide)) (num "VAr_set_low".toList (by decide)) (none, none)
  obtain ⟨l2, hl2⟩ := readLimits_read (num "voltage_set_high".toList (by decide)) (num "voltage_set_low".toList (by decide)) l1
  obtain ⟨caps, hcaps⟩ := readPhaseCaps_read (o := o) ['A', 'B', 'C'] fun p hp => by
    simp only [List.mem_cons, List.not_mem_nil, or_false] at hp
    rcases hp with rfl | rfl | rfl
    · exact num "capacitor_A".toList (by decide)
    · exact num "capacitor_B".toList (by decide)
    · exact num "capacitor_C".toList (by decide)
  rw [readCapacitor, hcon, ok_bind', (num "nominal_voltage".toList (by decide)).read, ok_bind', (num "time_delay".toList (by decide)).read, ok_bind', hl1,
    ok_bind', hl2, ok_bind', hcaps, ok_bind']
  exact ⟨_, rfl⟩

/-! ### Regulators -/

theorem settingPhases_read {α : Type} {c : Obj} {k : Txt} {f : Txt → Py α} {phases : List Char} : ∀ ps : List Char,
    (∀ p ∈ ps, ∀ t, c.attr (k ++ [p]) = some t → ∃ x, f t = .ok x) → (∀ p ∈ ps, p ∉ phases → c.attr (k ++ [p]) = none) → settingPhases c k f phases ps = .ok phases := by
  intro ps
  induction ps with
  | nil => intro _ _; rfl
  | cons p ps ih =>
    intro h1 h2
    have := ih (fun q hq => h1 q (by simp [hq])) fun q hq => h2 q (by simp [hq])
    rw [settingPhases]
    cases ha : c.attr (k ++ [p]) with
    | none => simp only [attributeBy, ha, ok_bind']; exact this
    | some t =>
      obtain ⟨x, hx⟩ := h1 p (by simp) t ha
      have hp : p ∈ phases := by
        by_contra hp
        rw [h2 p (by simp) hp] at ha
        cases ha
      simp only [attributeBy, ha, hx, ok_bind', if_pos hp]
      exact this

theorem IntegerIs.read {o : Obj} {k : Txt} {x : ℤ} (h : IntegerIs o k x) : attributeBy o k intOf = .ok (some x) := by
  obtain ⟨t, h1, h2⟩ := h
  rw [attributeBy, h1]
  simp only [h2, ok_bind']

theorem NumberIs.read {o : Obj} {k : Txt} {x : ℚ} (h : NumberIs o k x) : floatAttribute o k = .ok (some x) := by
  obtain ⟨t, h1, h2⟩ := h
  rw [NumberIf.read fun t' ht' => by rw [h1] at ht'; cases ht'; exact ⟨x, h2⟩, h1, Option.bind_some, h2]

theorem SoundReg.read {objs objs' : List (Txt × Obj)} {o : Obj} (h : SoundReg objs o) (hs : SameObjs objs objs') (name : Txt) {ph : Phases} (hp : ph.phases = objPhases o) :
    ∃ c up down reg, configOf objs o = some c ∧ IntegerIs c "raise_taps".toList up ∧ IntegerIs c "lower_taps".toList down ∧ NumberIs c "regulation".toList reg ∧
      readRegulator objs' name o ph = .ok ⟨name, o.attr "from".toList, o.attr "to".toList, objPhases o, some 'Y', c.attr "Type".toList, some up, some down, some reg⟩ := by
  obtain ⟨_, _, c, up, down, reg, center, width, hc, hcl, ⟨t, ht, hty⟩, _, _, hup, hdown, _, _, hreg, _, _, _, _, hstray, hcomp, htap⟩ := h
  refine ⟨c, up, down, reg, hc, hup, hdown, hreg, ?_⟩
  have hc' := configOf_same hs (o := o) fun c' h => by rw [hc] at h; cases h; exact hcl
  rw [hc, configOf] at hc'
  rw [readRegulator, hc', hp]
  have e1 : settingPhases c "tap_pos_".toList intOf (objPhases o) ['A', 'B', 'C'] = .ok (objPhases o) :=
    settingPhases_read _ (fun p hp t ht => by
      by_cases hq : p ∈ objPhases o
      · obtain ⟨tap, ⟨t', h1, h2⟩, _⟩ := htap p hq
        rw [h1] at ht; cases ht
        exact ⟨tap, h2⟩
      · rw [(hstray p hp hq).1] at ht; cases ht) fun p hp hq => (hstray p hp hq).1
  have num : ∀ {k : Txt}, NumberIf c k → ∀ t, c.attr k = some t → ∃ x, floatOf t = .ok x := fun h t ht => by
    obtain ⟨x, hx⟩ := h t ht
    exact ⟨x, floatOf_ok.2 hx⟩
  have e2 : settingPhases c "compensator_r_setting_".toList floatOf (objPhases o) ['A', 'B', 'C'] = .ok (objPhases o) :=
    settingPhases_read _ (fun p hp => num (hcomp p hp).1) fun p hp hq => (hstray p hp hq).2.1
  have e3 : settingPhases c "compensator_x_setting_".toList floatOf (objPhases o) ['A', 'B', 'C'] = .ok (objPhases o) :=
    settingPhases_read _ (fun p hp => num (hcomp p hp).2) fun p hp hq => (hstray p hp hq).2.2
  have e4 : regConnection c = .ok (some 'Y') := by
    rw [regConnection, ht]
    simp only [List.map_cons, List.map_nil, List.mem_cons, List.not_mem_nil, or_false] at hty
    simp only [if_pos hty]
  simp only [e1, e2, e3, e4, hup.read, hdown.read, hreg.read, ok_bind']

end Verif.Glm
