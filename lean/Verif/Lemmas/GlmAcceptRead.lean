import Verif.Lemmas.GlmAccept

/-!
# The objects of a sound file are read as models that are ready
-/

namespace Verif.Glm

variable {M : Type} {objs objs' : List (Txt × Obj)} {make : M → List (ℕ × ℕ) → Except String Element}

/-! ### Transformers -/

theorem volts_read {c : Obj} {k : Txt} {v : ℚ} (h : (c.attr k).bind volts = some v) : ∃ t x, c.attr k = some t ∧ pyFloat (removeNonnum t) = some x ∧
    attributeBy c k voltageOf = .ok (some v) ∧ attributeBy c k (fun t => floatOf (removeNonnum t)) = .ok (some x) := by
  cases ha : c.attr k with
  | none => rw [ha] at h; cases h
  | some t =>
    rw [ha, Option.bind_some, volts, Option.map_eq_some_iff] at h
    obtain ⟨x, hx, rfl⟩ := h
    refine ⟨t, x, rfl, hx, ?_, ?_⟩
    · simp only [attributeBy, ha, voltageOf, floatOf_ok.2 hx, ok_bind']
    · simp only [attributeBy, ha, floatOf_ok.2 hx, ok_bind']

theorem readReactances_read {c : Obj} {ct : Bool} {r x : ℚ} (h : SoundWindings c) (hI : IsImpedance c r x) :
    ∃ y, readReactances c ct = .ok y ∧ (y.2 = some r ∨ y.2 = none ∧ (c.attr "resistance".toList).bind pyFloat = some r) ∧
      (ct = false → y.1.sum = x) ∧
      (ct = true → ((c.attr "reactance".toList).isSome ∨ (c.attr "impedance".toList).isSome) → ∃ x0 x1 x2 xs, y.1 = x0 :: x1 :: x2 :: xs) := by
  obtain ⟨_, _, _, hX, hZ, _⟩ := h
  have z0 : complexAttribute c "impedance".toList = _ := (hZ "impedance".toList (by decide)).read
  have z1 : complexAttribute c "impedance1".toList = _ := (hZ "impedance1".toList (by decide)).read
  have z2 : complexAttribute c "impedance2".toList = _ := (hZ "impedance2".toList (by decide)).read
  rw [readReactances, hX.read, ok_bind']
  rcases hI with ⟨t1, t2, a1, a2, b1, b2⟩ | ⟨a1, t, a2, b⟩ | ⟨a1, a2, rfl, t, a3, b⟩
  · have R : (none : Option ℚ) = some r ∨ (none : Option ℚ) = none ∧ (c.attr "resistance".toList).bind pyFloat = some r := .inr ⟨rfl, by rw [a1, Option.bind_some, b1]⟩
    rw [a2, Option.bind_some, b2]
    cases ct with
    | false => exact ⟨_, rfl, R, fun _ => by simp, fun h => by cases h⟩
    | true =>
      simp only [if_true, z1, ok_bind']
      cases (c.attr "impedance1".toList).bind pyComplex with
      | none => exact ⟨_, rfl, R, fun h => (by cases h), fun _ _ => ⟨_, _, _, _, rfl⟩⟩
      | some w1 =>
        simp only [z2, ok_bind']
        cases (c.attr "impedance2".toList).bind pyComplex with
        | none => exact ⟨_, rfl, R, fun h => (by cases h), fun _ _ => ⟨_, _, _, _, rfl⟩⟩
        | some w2 => exact ⟨_, rfl, R, fun h => (by cases h), fun _ _ => ⟨_, _, _, _, rfl⟩⟩
  · have R : some r = some r ∨ some r = none ∧ (c.attr "resistance".toList).bind pyFloat = some r := .inl rfl
    rw [a1, Option.bind_none, z0, a2, Option.bind_some, b]
    cases ct with
    | false => exact ⟨_, rfl, R, fun _ => by simp, fun h => by cases h⟩
    | true => exact ⟨_, rfl, R, fun h => (by cases h), fun _ _ => ⟨_, _, _, _, rfl⟩⟩
  · rw [a1, Option.bind_none, z0, a2, Option.bind_none]
    refine ⟨_, rfl, .inr ⟨rfl, by rw [a3, Option.bind_some, b]⟩, fun _ => rfl, fun _ h => ?_⟩
    simp at h

theorem readRating_read {c : Obj} {ct : Bool} {s : ℚ} (h : SoundWindings c) (hI : IsRating c s) (hs : s ≠ 0) : readRating c ct = .ok (some s) := by
  obtain ⟨_, _, _, _, _, hP⟩ := h
  have one : ∀ p ∈ ['A', 'B', 'C'], ∃ r, attributeBy c ("power".toList ++ [p] ++ "_rating".toList) ratingOf = .ok r ∧ r.getD 0 = 1000 * phaseRating c p := by
    intro p hp
    obtain ⟨r, hr⟩ := attributeBy_read (o := c) (k := "power".toList ++ [p] ++ "_rating".toList) (f := ratingOf) fun t ht => by
      obtain ⟨x, hx⟩ := hP p hp t ht
      rw [ratingOf, floatOf_ok.2 hx, ok_bind']
      exact ⟨_, rfl⟩
    exact ⟨r, hr, phaseRating_read hr⟩
  obtain ⟨ra, ha, ea⟩ := one 'A' (by simp)
  obtain ⟨rb, hb, eb⟩ := one 'B' (by simp)
  obtain ⟨rc, hc, ec⟩ := one 'C' (by simp)
  have hrs : (["powerA_rating".toList, "powerB_rating".toList, "powerC_rating".toList].mapM fun k => attributeBy c k ratingOf) = .ok [ra, rb, rc] := by
    have ha : attributeBy c "powerA_rating".toList ratingOf = .ok ra := ha
    have hb : attributeBy c "powerB_rating".toList ratingOf = .ok rb := hb
    have hc : attributeBy c "powerC_rating".toList ratingOf = .ok rc := hc
    simp only [List.mapM_cons, List.mapM_nil, ha, hb, hc, ok_bind']
    rfl
  have hsum : ([ra, rb, rc].map fun r => r.getD 0).sum = 1000 * (phaseRating c 'A' + phaseRating c 'B' + phaseRating c 'C') := by
    simp only [List.map_cons, List.map_nil, List.sum_cons, List.sum_nil, ea, eb, ec]
    ring
  rcases hI with ⟨t, k, a1, a2, rfl⟩ | ⟨a1, a2⟩
  · have e : attributeBy c "power_rating".toList (fun t => floatOf (removeNonnum t)) = .ok (some k) := by
      simp only [attributeBy, a1, floatOf_ok.2 a2, ok_bind']
    cases ct <;> simp only [readRating, e, hrs, ok_bind', if_true, Bool.false_eq_true, if_false] <;> rw [mul_comm]
  · have e : attributeBy c "power_rating".toList (fun t => floatOf (removeNonnum t)) = .ok none := by rw [attributeBy, a1]
    have hany : [ra, rb, rc].any Option.isSome = true := by
      by_contra hany
      simp only [List.any_cons, List.any_nil, Bool.or_false, Bool.or_eq_true, not_or, Bool.not_eq_true, Option.isSome_eq_false_iff, Option.isNone_iff_eq_none] at hany
      obtain ⟨rfl, rfl, rfl⟩ := hany
      exact hs (a2.trans (hsum.symm.trans (by simp)))
    cases ct <;> simp only [readRating, e, hrs, ok_bind', if_true, Bool.false_eq_true, if_false, hany, hsum, a2]

theorem SoundXfmr.read {o : Obj} (h : SoundXfmr objs o) (hs : SameObjs objs objs') (name : Txt) {ph : Phases} (hp : ph.phases = objPhases o) (hne : objPhases o ≠ []) :
    ∃ t, readTransformer objs' name o ph = .ok t ∧ XfmrReady objs t := by
  obtain ⟨c, v1, v2, r, x, s, hc, hcl, hW, hv1, hv2, hv10, hv20, hI, hR, hs0, hrest⟩ := h
  have hc' := configOf_same hs (o := o) fun c' h => by rw [hc] at h; cases h; exact hcl
  rw [hc, configOf] at hc'
  obtain ⟨hL, hSh, hres, _, _, _⟩ := id hW
  obtain ⟨y, hy, hyr, hy1, hy3⟩ := readReactances_read (ct := (connectType (c.attr "connect_type".toList)).2) hW hI
  obtain ⟨t1, _, _, _, e1, _⟩ := volts_read hv1
  obtain ⟨t2, w, _, _, e2, e3⟩ := volts_read hv2
  have hrt := readRating_read (ct := (connectType (c.attr "connect_type".toList)).2) hW hR hs0
  obtain ⟨xs, yr⟩ := y
  have hcfg : readConfiguration c = .ok (isCenterTap (c.attr "connect_type".toList), ⟨(connectType (c.attr "connect_type".toList)).1.1, some v1, some (r / 2), some s⟩,
      ⟨(connectType (c.attr "connect_type".toList)).1.2, some v2, some (if isCenterTap (c.attr "connect_type".toList) then r else r / 2),
        some (if isCenterTap (c.attr "connect_type".toList) then s / 2 else s)⟩,
      ⟨none, some (-w), some r, some (if isCenterTap (c.attr "connect_type".toList) then s / 2 else s)⟩, xs, (c.attr "shunt_impedance".toList).bind pyComplex) := by
    simp only [readConfiguration, hL.read, hSh.read, hres.read, e1, e2, e3, hy, hrt, ok_bind']
    rw [(connectType_facts _).1]
    simp only at hyr
    rcases hyr with rfl | ⟨rfl, hyr⟩
    · rfl
    · simp only [hyr]; rfl
  rw [readTransformer, hc']
  simp only [hcfg, ok_bind', hp]
  refine ⟨_, rfl, ?_⟩
  rw [(connectType_facts _).1] at hy1 hy3
  rw [XfmrReady]
  generalize isCenterTap (c.attr "connect_type".toList) = ct at *
  cases ct with
  | true =>
    rw [if_pos rfl] at hrest
    obtain ⟨b1, b2, b3, b4⟩ := hrest
    rw [if_pos rfl]
    obtain ⟨x0, x1, x2, xs', hxs⟩ := hy3 rfl b1
    cases hph : objPhases o with
    | nil => exact absurd hph hne
    | cons p ps =>
      rw [hph] at b2
      exact ⟨p, ps, x0, x1, x2, xs', v1, v2, -w, r / 2, r, r, s, rfl, hxs, rfl, rfl, rfl, rfl, rfl, rfl, rfl, hv10, hv20, hs0, b2 p (by simp), b3, b4⟩
  | false =>
    rw [if_neg Bool.false_ne_true] at hrest
    obtain ⟨b1, b2⟩ := hrest
    rw [if_neg Bool.false_ne_true]
    refine ⟨v1, v2, r / 2, s, rfl, rfl, rfl, rfl, hv10, hv20, hs0, ?_, b2⟩
    rintro ⟨c1, c2⟩
    refine b1 ?_
    have := hy1 rfl
    simp only at c2 this
    rw [← this, c2, show r = 0 by linarith]
    rfl

/-! ### Fuses and switches -/

theorem deviceWires_phase {o : Obj} {suffix : Txt} {opens : List Txt} {ps : List Char} (hn : ∀ p, p ∉ ps → o.attr (phaseKey p suffix) = none) {w : PhaseWire}
    (hw : w ∈ deviceWires o suffix opens ps) : w.phase ∈ ps := by
  rw [deviceWires] at hw
  split_ifs at hw with h
  · clear h hn
    induction ps with
    | nil => cases hw
    | cons p ps ih =>
      rw [listedWires] at hw
      cases hg : o.get "status".toList with
      | error e =>
        rw [hg] at hw
        simp only [List.mem_singleton] at hw
        subst hw; simp
      | ok t =>
        rw [hg] at hw
        simp only [List.mem_cons] at hw
        rcases hw with rfl | hw
        · simp
        · exact List.mem_cons_of_mem _ (ih hw)
  · obtain ⟨p, _, hw⟩ := List.mem_flatMap.1 hw
    by_contra hp
    have h1 := attributeWire_phase hw
    rw [attributeWire_attr, ← h1, hn _ hp] at hw
    cases hw

theorem SoundFuse.ready {o : Obj} (h : SoundFuse objs o) {ph : Phases} (hp : ph.phases = objPhases o) : Ready objs make (.device (readFuse o ph)) := by
  obtain ⟨h1, h2, t, x, h3, h4⟩ := h
  refine ⟨fun _ => ⟨x, ?_⟩, fun w hw _ => ?_⟩
  · rw [fuseLimit, readFuse, h3]
    exact floatOf_ok.2 h4
  · exact h2 w.phase (deviceWires_phase h1 (by rw [readFuse, fuseWires, hp] at hw; exact hw))

theorem SoundSwitch.ready {o : Obj} (h : SoundSwitch objs o) {ph : Phases} (hp : ph.phases = objPhases o) : Ready objs make (.device (readSwitch o ph)) := by
  refine ⟨fun h => (by cases h), fun w hw hf => ?_⟩
  rcases hf with hf | hf
  · cases hf
  · exact h w.phase (by rw [← hp]; exact hf)

/-! ### Capacitors and regulators -/

theorem readPhaseCaps_mem {o : Obj} : ∀ (ps : List Char) (cs : List (Char × ℚ)), readPhaseCaps o ps = .ok cs → ∀ pc ∈ cs, pc.1 ∈ ps := by
  intro ps
  induction ps with
  | nil => intro cs h; cases h; intro pc hpc; cases hpc
  | cons p ps ih =>
    intro cs h
    rw [readPhaseCaps] at h
    obtain ⟨c, _, h⟩ := bind_eq_ok h
    obtain ⟨cs', hcs, h⟩ := bind_eq_ok h
    cases h
    intro pc hpc
    rw [List.mem_append] at hpc
    rcases hpc with hpc | hpc
    · cases c with
      | none => cases hpc
      | some v =>
        simp at hpc
        subst hpc; simp
    · exact List.mem_cons_of_mem _ (ih cs' hcs pc hpc)

theorem SoundCap.ready {name : Txt} {o : Obj} (h : SoundCap objs o) (hl : lookup name objs = some o) (hc : o.cls ∉ conductorClasses) {ph : Phases}
    (hp : ph.phases = objPhases o) : ∃ c, readCapacitor name o ph = .ok c ∧ Ready objs make (.capacitor c) := by
  obtain ⟨c, hr⟩ := h.read name ph
  refine ⟨c, hr, o, ?_, hc, h, fun pc hpc => ?_⟩
  · rw [(readCapacitor_fields hp hr).1]; exact hl
  · obtain ⟨f1, f2, f3, _⟩ := readCapacitor_fields hp hr
    refine ⟨?_, fun hcon => by rw [← f2]; exact hcon⟩
    rw [readCapacitor] at hr
    obtain ⟨_, _, hr⟩ := bind_eq_ok hr
    obtain ⟨_, _, hr⟩ := bind_eq_ok hr
    obtain ⟨_, _, hr⟩ := bind_eq_ok hr
    obtain ⟨_, _, hr⟩ := bind_eq_ok hr
    obtain ⟨_, _, hr⟩ := bind_eq_ok hr
    obtain ⟨caps, hcaps, hr⟩ := bind_eq_ok hr
    cases hr
    exact readPhaseCaps_mem _ _ hcaps pc hpc

theorem SoundReg.ready {name : Txt} {o : Obj} (h : SoundReg objs o) (hs : SameObjs objs objs') (hl : lookup name objs = some o) (hc : o.cls ∉ conductorClasses)
    {ph : Phases} (hp : ph.phases = objPhases o) : ∃ r, readRegulator objs' name o ph = .ok r ∧ Ready objs make (.regulator r) := by
  obtain ⟨c, up, down, reg, h1, h2, h3, h4, h5⟩ := h.read hs name hp
  exact ⟨_, h5, o, c, up, down, reg, hl, hc, h, h1, h2, h3, h4, rfl⟩

/-! ### Loads -/

theorem connectionPhase_some {d : Bool} {c : Txt} (h : d = true → c ∈ ["A", "B", "C"].map String.toList) : connectionPhase d c = some (endingPhases d c) := by
  cases d with
  | false => simp [connectionPhase, endingPhases]
  | true =>
    have := h rfl
    simp only [List.map_cons, List.map_nil, List.mem_cons, List.not_mem_nil, or_false] at this
    rcases this with rfl | rfl | rfl
    · rfl
    · rfl
    · rfl

theorem phaseLoads_phase {schedules : List (Txt × Txt)} {o : Obj} {d : Bool} : ∀ (cs : List Txt) (ls : List PhaseLoad), phaseLoads schedules o d cs = .ok ls →
    (∀ c ∈ cs, o.attr ("base_power_".toList ++ c) = none ∧ ((d = true → c ∈ ["A", "B", "C"].map String.toList) ∨ ∀ a ∈ loadAttributes, o.attr (a.1 ++ c) = none)) →
    ∀ pl ∈ ls, pl.phase ≠ none := by
  intro cs
  induction cs with
  | nil => intro ls h _; cases h; intro pl hpl; cases hpl
  | cons c cs ih =>
    intro ls h hc
    rw [phaseLoads] at h
    obtain ⟨l, hl, h⟩ := bind_eq_ok h
    obtain ⟨ls', hls, h⟩ := bind_eq_ok h
    cases h
    intro pl hpl
    rw [List.mem_append] at hpl
    rcases hpl with hpl | hpl
    · obtain ⟨hb, hd⟩ := hc c (by simp)
      have one : ∀ (k : Txt) (x : LoadKind) (make : ℚ × ℚ → PhaseLoad) (l' : List PhaseLoad), (k, x) ∈ loadAttributes → loadComponent o (k ++ c) make = .ok l' →
          (∀ z, (make z).phase = connectionPhase d c) → ∀ y ∈ l', y.phase ≠ none := by
        intro k x make l' hk hl' hm y hy
        rw [loadComponent_eq hl'] at hy
        rcases hd with hd | hd
        · cases hz : (o.attr (k ++ c)).bind pyComplex with
          | none => rw [hz] at hy; cases hy
          | some z =>
            rw [hz] at hy
            simp only at hy
            split_ifs at hy
            · cases hy
            · rw [List.mem_singleton] at hy
              subst hy
              rw [hm, connectionPhase_some hd]
              simp
        · have := hd (k, x) hk
          simp only at this
          rw [this] at hy
          cases hy
      rw [connectionLoads] at hl
      obtain ⟨l1, e1, hl⟩ := bind_eq_ok hl
      obtain ⟨l2, e2, hl⟩ := bind_eq_ok hl
      obtain ⟨l3, e3, hl⟩ := bind_eq_ok hl
      obtain ⟨l4, e4, hl⟩ := bind_eq_ok hl
      obtain ⟨l5, e5, hl⟩ := bind_eq_ok hl
      obtain ⟨l6, e6, hl⟩ := bind_eq_ok hl
      cases hl
      rw [baseComponent, hb] at e6
      cases e6
      simp only [List.mem_append, List.not_mem_nil, or_false] at hpl
      rcases hpl with (((hpl | hpl) | hpl) | hpl) | hpl
      · exact one _ .power _ _ (by decide) e1 (fun _ => rfl) _ hpl
      · exact one _ .power _ _ (by decide) e2 (fun _ => rfl) _ hpl
      · exact one _ .impedance _ _ (by decide) e3 (fun _ => rfl) _ hpl
      · exact one _ .impedance _ _ (by decide) e4 (fun _ => rfl) _ hpl
      · exact one _ .current _ _ (by decide) e5 (fun _ => rfl) _ hpl
    · exact ih ls' hls (fun c' hc' => hc c' (by simp [hc'])) pl hpl

theorem endingPhases_ne {d : Bool} {c : Txt} (h : c ≠ []) : endingPhases d c ≠ [] := by
  rw [endingPhases]
  split_ifs
  · decide
  · decide
  · decide
  · exact h

theorem objectLoads_phases {name : Txt} {o : Obj} {d : DeclaredLoad} (h : d ∈ objectLoads name o) : d.phases ≠ [] := by
  rw [objectLoads, List.mem_flatMap] at h
  obtain ⟨c, hc, h⟩ := h
  obtain ⟨a, _, h⟩ := List.mem_flatMap.1 h
  have hc0 : c ≠ [] := by
    rintro rfl
    revert hc; decide
  cases hz : (o.attr (a.1 ++ c)).bind pyComplex with
  | none => rw [hz] at h; cases h
  | some z =>
    rw [hz] at h
    simp only at h
    split_ifs at h
    · cases h
    · rw [List.mem_singleton] at h
      subst h
      exact endingPhases_ne hc0

theorem SoundLoad.ready {name : Txt} {o : Obj} (h : SoundLoad objs name o) (schedules : List (Txt × Txt)) : ∃ l, readLoad schedules name o = .ok l ∧ Ready objs make (.load l.1) := by
  obtain ⟨l, hl⟩ := h.read schedules
  refine ⟨l, hl, fun pl hpl => ?_⟩
  obtain ⟨_, _, h3, h4, h5⟩ := h
  have hD := readLoad_declares (fun c hc => (h3 c hc).1) hl
  obtain ⟨d, hd, hdp⟩ := forall₂_mem_right hD hpl
  obtain ⟨a1, a2, _⟩ := hdp
  obtain ⟨_, hls, _⟩ := readLoad_fields hl
  rw [phaseText_delta] at hls
  have hne := phaseLoads_phase _ _ hls (fun c hc => ⟨(h3 c hc).1, by
    by_cases hd : saysDelta o = true
    · by_cases hABC : c ∈ ["A", "B", "C"].map String.toList
      · exact .inl fun _ => hABC
      · exact .inr fun a ha => h4 hd c hc hABC a ha
    · exact .inl fun h => absurd h hd⟩) pl hpl
  have hph := a2.resolve_left hne
  cases hdph : d.phases with
  | nil => exact absurd hdph (objectLoads_phases hd)
  | cons a rest =>
    refine ⟨a, rest, by rw [hph, hdph], fun p hp => ?_⟩
    rw [a1]
    exact h5 d hd p (by rw [hdph]; exact hp)

/-! ### Places -/

theorem volt_place {o : Obj} {n : DNode} (h : ∀ p ∈ ['A', 'B', 'C'], n.volt p = (o.attr ("voltage_".toList ++ [p])).bind pyComplex) (hn : n.nominal = (o.attr "nominal_voltage".toList).bind pyFloat)
    (hc : o.cls ∈ ["node", "meter"].map String.toList) {p : Char} (hp : (placeVoltage o p).isSome) : ∃ v, n.phasor p = .ok v := by
  rw [placeVoltage, if_pos hc, swingVoltage] at hp
  rw [DNode.phasor]
  cases hv : n.volt p with
  | some z => exact ⟨_, rfl⟩
  | none =>
    have : (if p ∈ ['A', 'B', 'C'] then (o.attr ("voltage_".toList ++ [p])).bind pyComplex else none) = none := by
      split_ifs with h1
      · rw [← h p h1, hv]
      · rfl
    rw [this, ← hn] at hp
    cases hq : n.nominal with
    | some q => exact ⟨_, rfl⟩
    | none => rw [hq] at hp; cases hp

theorem nominal_place {o : Obj} {n : DNode} (hm : floatAttribute o "nominal_voltage".toList = .ok n.nominal) (hN : NumberIf o "nominal_voltage".toList)
    (hc : o.cls ∉ ["node", "meter"].map String.toList) {p : Char} (hp : (placeVoltage o p).isSome) : ∃ v, n.phasor p = .ok v := by
  rw [placeVoltage, if_neg hc] at hp
  rw [hN.read] at hm
  have hm := Except.ok.inj hm
  rw [hm] at hp
  rw [DNode.phasor]
  cases hv : n.volt p with
  | some z => exact ⟨_, rfl⟩
  | none =>
    cases hq : n.nominal with
    | some q => exact ⟨_, rfl⟩
    | none => rw [hq] at hp; cases hp

theorem SoundNode.voltages {o : Obj} (h : SoundNode o) {name : Txt} {ph : Phases} {n : DNode} (hr : readNode name o ph = .ok n) :
    (∀ p ∈ ['A', 'B', 'C'], n.volt p = (o.attr ("voltage_".toList ++ [p])).bind pyComplex) ∧ n.nominal = (o.attr "nominal_voltage".toList).bind pyFloat := by
  obtain ⟨_, h2, h3, _⟩ := h
  have eA : complexAttribute o "voltage_A".toList = _ := (h3 'A' (by simp)).read
  have eB : complexAttribute o "voltage_B".toList = _ := (h3 'B' (by simp)).read
  have eC : complexAttribute o "voltage_C".toList = _ := (h3 'C' (by simp)).read
  rw [readNode] at hr
  split_ifs at hr with h1
  rw [h2.read, eA, eB, eC] at hr
  simp only [ok_bind'] at hr
  cases hr
  refine ⟨fun p hp => ?_, rfl⟩
  simp only [List.mem_cons, List.not_mem_nil, or_false] at hp
  rcases hp with rfl | rfl | rfl <;> rfl

/-! ### One object -/

/-- What is read from an object is ready, and so are its nodes; a node or meter keeps its own nominal voltage. -/
structure GoodModels (objs : List (Txt × Obj)) (make : M → List (ℕ × ℕ) → Except String Element) (o : Obj) (ms : List (DModel M)) : Prop where
  ready : ∀ m ∈ ms, Ready objs make m
  phasor : ∀ n ∈ modelNodes ms, ∀ p, (placeVoltage o p).isSome → ∃ v, n.phasor p = .ok v
  nominal : ∀ n ∈ modelNodes ms, o.cls ∈ ["node", "meter"].map String.toList → n.nominal = (o.attr "nominal_voltage".toList).bind pyFloat

theorem GoodModels.single {o : Obj} {m : DModel M} (h : Ready objs make m) (hm : modelNodes [m] = []) : GoodModels objs make o [m] :=
  ⟨fun m' hm' => by rw [List.mem_singleton] at hm'; subst hm'; exact h, fun n hn => (by rw [hm] at hn; cases hn), fun n hn => by rw [hm] at hn; cases hn⟩

theorem deviceClasses_notConductor {o : Obj} (h : o.cls ∈ deviceClasses) : o.cls ∉ conductorClasses := by
  have : ∀ c ∈ deviceClasses, c ∉ conductorClasses := by decide
  exact this _ h

theorem deviceClasses_notShared {o : Obj} (h : o.cls ∈ deviceClasses) : o.cls ∉ sharedConfigObjects := by
  have : ∀ c ∈ deviceClasses, c ∉ sharedConfigObjects := by decide
  exact this _ h

theorem SoundObject.reads {readLine : LineReader M} {schedules : List (Txt × Txt)} {name : Txt} {o : Obj} (h : SoundObject objs name o)
    (hl : lookup name objs = some o) (hd : o.cls ∈ deviceClasses) (hs : SameObjs objs objs')
    (hline : isLineObj o = true → ∀ t ph, o.attr "phases".toList = some t → parsePhases t = .ok ph → ∃ d objs2, readLine objs' o ph = .ok (d, objs2) ∧
      (∀ p ∈ d.1, Joins objs o p) ∧ ∀ ps, ps.length = d.1.length → ∃ e, make d.2 ps = .ok e) :
    ∃ ms objs2, objectModels readLine schedules objs' name o = .ok (ms, objs2) ∧ GoodModels objs make o ms := by
  have hnc := deviceClasses_notConductor hd
  obtain ⟨t, ph, ht, hph, hpp, hpt⟩ := h.phases.read
  have hget : o.get "phases".toList = .ok t := by
    rw [Obj.attr] at ht
    rw [Obj.get, ht]
  rw [objectModels, if_neg (deviceClasses_notShared hd), hget, ok_bind', hph, ok_bind']
  by_cases h1 : objectClass o = "node".toList ∨ objectClass o = "meter".toList
  · rw [if_pos h1]
    have hc : o.cls ∈ ["node", "meter"].map String.toList := by
      rcases h1 with h1 | h1
      · rw [class_other (by decide) h1]; decide
      · rw [class_other (by decide) h1]; decide
    obtain ⟨n, hn⟩ := (h.node hc).read name hpt
    obtain ⟨v1, v2⟩ := (h.node hc).voltages hn
    rw [hn, ok_bind']
    refine ⟨_, _, rfl, ⟨fun m hm => ?_, fun n' hn' p hp => ?_, fun n' hn' _ => ?_⟩⟩
    · rw [List.mem_singleton] at hm; subst hm; trivial
    · rw [show modelNodes [(DModel.node n : DModel M)] = [n] from rfl, List.mem_singleton] at hn'
      subst hn'
      exact volt_place v1 v2 hc hp
    · rw [show modelNodes [(DModel.node n : DModel M)] = [n] from rfl, List.mem_singleton] at hn'
      subst hn'
      exact v2
  rw [if_neg h1]
  by_cases h2 : objectClass o = "triplex_meter".toList
  · rw [if_pos h2]
    have hc := class_other (by decide) h2
    have hp : hasPower o = false := by
      by_contra hp
      rw [objectClass_eq, if_pos (.inr ⟨hc, by simpa using hp⟩)] at h2
      exact absurd h2 (by decide)
    obtain ⟨n, hn⟩ := (h.meter hc hp).read name hpt
    rw [hn, ok_bind']
    refine ⟨_, _, rfl, ⟨fun m hm => ?_, fun n' hn' p hp => ?_, fun n' hn' hc' => ?_⟩⟩
    · rw [List.mem_singleton] at hm; subst hm; trivial
    · rw [show modelNodes [(DModel.node n : DModel M)] = [n] from rfl, List.mem_singleton] at hn'
      subst hn'
      exact nominal_place (readTriplexMeter_nominal hn).1 (h.meter hc (by assumption)).2.1 (notNodeClass_triplex hc) hp
    · exact absurd hc' (notNodeClass_triplex hc)
  rw [if_neg h2]
  by_cases h3 : objectClass o = "transformer".toList
  · rw [if_pos h3]
    obtain ⟨x, hx, hr⟩ := (h.transformer (class_other (by decide) h3)).read hs name hpp h.phases.1
    rw [hx, ok_bind']
    exact ⟨_, _, rfl, .single hr rfl⟩
  rw [if_neg h3]
  by_cases h4 : objectClass o = "load".toList ∨ objectClass o = "triplex_load".toList
  · rw [if_pos h4]
    have hc := class_load h4
    obtain ⟨l, hl', hr⟩ := (h.load hc).ready (make := make) schedules
    rw [hl', ok_bind']
    refine ⟨_, _, rfl, ⟨fun m hm => ?_, fun n' hn' p hp => ?_, fun n' hn' hc' => absurd hc' (notNodeClass_load hc)⟩⟩
    · rw [List.mem_cons] at hm
      rcases hm with rfl | hm
      · exact hr
      · cases h2 : l.2 with
        | none => rw [h2] at hm; cases hm
        | some n => rw [h2] at hm; simp at hm; subst hm; trivial
    · cases h2 : l.2 with
      | none => rw [h2] at hn'; cases hn'
      | some n =>
        rw [h2, show modelNodes (DModel.load l.1 :: ((some n).map (DModel.node (M := M))).toList) = [n] from rfl, List.mem_singleton] at hn'
        subst hn'
        exact nominal_place (readLoad_nominal hl' h2).1 (h.load hc).1 (notNodeClass_load hc) hp
  rw [if_neg h4]
  by_cases h5 : objectClass o = "fuse".toList
  · rw [if_pos h5]
    exact ⟨_, _, rfl, .single ((h.fuse (by rw [isFuseObj, decide_eq_true_iff]; exact class_other (by decide) h5)).ready hpp) rfl⟩
  rw [if_neg h5]
  by_cases h6 : objectClass o = "switch".toList ∨ objectClass o = "recloser".toList
  · rw [if_pos h6]
    have hc : isSwitchObj o = true := by
      rw [isSwitchObj, decide_eq_true_iff]
      rcases h6 with h6 | h6
      · rw [class_other (by decide) h6]; decide
      · rw [class_other (by decide) h6]; decide
    exact ⟨_, _, rfl, .single ((h.switch hc).ready hpp) rfl⟩
  rw [if_neg h6]
  by_cases h7 : objectClass o = "overhead_line".toList ∨ objectClass o = "triplex_line".toList ∨ objectClass o = "underground_line".toList
  · rw [if_pos h7]
    have hc : isLineObj o = true := by
      rw [isLineObj, decide_eq_true_iff]
      rcases h7 with h7 | h7 | h7
      · rw [class_other (by decide) h7]; decide
      · rw [class_other (by decide) h7]; decide
      · rw [class_other (by decide) h7]; decide
    obtain ⟨d, objs2, e1, e2, e3⟩ := hline hc t ph ht hph
    rw [e1, ok_bind']
    exact ⟨_, _, rfl, .single ⟨e2, e3⟩ rfl⟩
  rw [if_neg h7]
  by_cases h8 : objectClass o = "capacitor".toList
  · rw [if_pos h8]
    obtain ⟨c, e1, e2⟩ := (h.capacitor (class_other (by decide) h8)).ready (make := make) hl hnc hpp
    rw [e1, ok_bind']
    exact ⟨_, _, rfl, .single e2 rfl⟩
  rw [if_neg h8]
  by_cases h9 : objectClass o = "regulator".toList
  · rw [if_pos h9]
    obtain ⟨c, e1, e2⟩ := (h.regulator (class_other (by decide) h9)).ready (make := make) hs hl hnc hpp
    rw [e1, ok_bind']
    exact ⟨_, _, rfl, .single e2 rfl⟩
  exfalso
  rw [objectClass_eq] at h1 h2 h3 h4 h5 h6 h7 h8 h9
  by_cases hcl : o.cls = "triplex_node".toList ∨ o.cls = "triplex_meter".toList ∧ hasPower o = true
  · rw [if_pos hcl] at h4; exact h4 (.inr rfl)
  · rw [if_neg hcl] at h1 h2 h3 h4 h5 h6 h7 h8 h9
    have := hd
    simp only [deviceClasses, List.map_cons, List.map_nil, List.mem_cons, List.not_mem_nil, or_false] at this
    rcases this with h | h | h | h | h | h | h | h | h | h | h | h | h | h | h
    exacts [h1 (.inl h), h1 (.inr h), h2 h, hcl (.inl h), h4 (.inl h), h4 (.inr h), h3 h, h5 h, h6 (.inl h), h6 (.inr h), h7 (.inl h), h7 (.inr (.inl h)),
      h7 (.inr (.inr h)), h8 h, h9 h]

/-! ### The loop -/

theorem adoptNominal_ready {q : Txt} {v : Option ℚ} {ms : List (DModel M)} (h : ∀ m ∈ ms, Ready objs make m) : ∀ m ∈ adoptNominal q v ms, Ready objs make m := by
  induction ms with
  | nil => exact h
  | cons a ms ih =>
    have ih := ih fun m hm => h m (by simp [hm])
    have ha := h a (by simp)
    cases a with
    | node n =>
      rw [adoptNominal]
      split_ifs with hc
      · intro m hm
        rw [List.mem_cons] at hm
        rcases hm with rfl | hm
        · trivial
        · exact h m (by simp [hm])
      · intro m hm
        rw [List.mem_cons] at hm
        rcases hm with rfl | hm
        · trivial
        · exact ih m hm
    | _ =>
      intro m hm
      rw [adoptNominal, List.mem_cons] at hm
      · rcases hm with rfl | hm
        · exact ha
        · exact ih m hm
      · intro n hn; cases hn

theorem NodeFine.adopted {n : DNode} (h : NodeFine n) (v : ℚ) : NodeFine { n with nominal := some v } := by
  refine ⟨fun hp p hpp ha => ?_, h.2⟩
  obtain ⟨w, hw⟩ := h.1 hp p hpp ha
  rw [DNode.phasor] at hw ⊢
  have e : ({ n with nominal := some v } : DNode).volt p = n.volt p := rfl
  rw [e]
  cases hv : n.volt p with
  | some z => exact ⟨_, rfl⟩
  | none => exact ⟨_, rfl⟩

theorem adoptNominal_fine {q : Txt} {v : ℚ} {ms : List (DModel M)} (h : ∀ n ∈ modelNodes ms, NodeFine n) : ∀ n ∈ modelNodes (adoptNominal q (some v) ms), NodeFine n := by
  induction ms with
  | nil => exact h
  | cons a ms ih =>
    have ih := ih fun n hn => h n (by rw [modelNodes_cons, List.mem_append]; exact .inr hn)
    have ha : ∀ n ∈ modelNodes [a], NodeFine n := fun n hn => h n (by rw [modelNodes_cons, List.mem_append]; exact .inl hn)
    cases a with
    | node n0 =>
      have hn0 := ha n0 (by simp [modelNodes])
      rw [adoptNominal]
      split_ifs with hc
      · intro n hn
        rw [modelNodes_cons, List.mem_append] at hn
        rcases hn with hn | hn
        · simp only [modelNodes, List.filterMap_cons, List.filterMap_nil, List.mem_singleton] at hn
          subst hn
          exact hn0.adopted v
        · exact h n (by rw [modelNodes_cons, List.mem_append]; exact .inr hn)
      · intro n hn
        rw [modelNodes_cons, List.mem_append] at hn
        rcases hn with hn | hn
        · exact ha n hn
        · exact ih n hn
    | _ =>
      intro n hn
      rw [adoptNominal, modelNodes_cons, List.mem_append] at hn
      · rcases hn with hn | hn
        · exact ha n hn
        · exact ih n hn
      · intro n hn; cases hn

theorem adopt_good {o : Obj} {new ms : List (DModel M)} (hn : ∀ n q, .node n ∈ new → n.parent = some q → o.cls = "node".toList ∨ o.cls = "meter".toList → n.nominal.isSome)
    (hr : ∀ m ∈ ms, Ready objs make m) (hf : ∀ n ∈ modelNodes ms, NodeFine n) :
    (∀ m ∈ adopt o new ms, Ready objs make m) ∧ ∀ n ∈ modelNodes (adopt o new ms), NodeFine n := by
  unfold adopt
  split
  · rename_i n
    split_ifs with hc
    · split
      · exact ⟨hr, hf⟩
      · rename_i q hq
        obtain ⟨v, hv⟩ := Option.isSome_iff_exists.1 (hn n q (by simp) hq hc)
        rw [hv]
        exact ⟨adoptNominal_ready hr, adoptNominal_fine hf⟩
    · exact ⟨hr, hf⟩
  · exact ⟨hr, hf⟩

theorem readModels_accepts {readLine : LineReader M} {schedules : List (Txt × Txt)} (hF : SoundFeeder objs) (hk : Keeps readLine objs)
    (hL : LinesAccepted readLine make objs) : ∃ s, readModels readLine objs schedules = .ok s ∧ (∀ m ∈ s.models, Ready objs make m) ∧
      ∀ n ∈ modelNodes s.models, NodeFine n := by
  obtain ⟨s, h1, _, h2, h3⟩ := foldlM_ok (f := readObject readLine schedules)
    (I := fun s => SameObjs objs s.objs ∧ (∀ m ∈ s.models, Ready objs make m) ∧ ∀ n ∈ modelNodes s.models, NodeFine n) (objs.map Prod.fst) (by
      rintro s ⟨hs, hr, hf⟩ name hname
      obtain ⟨⟨_, o⟩, ho, rfl⟩ := List.mem_map.1 hname
      have hlk := lookup_of_mem hF.keys ho
      obtain ⟨o1, hl1, hso⟩ := hs.of_some hlk
      simp only at hl1 ⊢
      rw [readObject, hl1]
      simp only
      by_cases hd : o.cls ∈ deviceClasses
      · have := hso.other (deviceClasses_notConductor hd)
        subst this
        have hS := hF.objects _ _ ho hd
        obtain ⟨ms, objs2, e, hG⟩ := hS.reads (schedules := schedules) (readLine := readLine) (make := make) hlk hd hs
          fun hl t ph ht hph => hL _ (List.mem_filter.2 ⟨List.mem_map.2 ⟨_, ho, rfl⟩, hl⟩) _ hs t ph ht hph
        rw [e, ok_bind']
        have hA := objectModels_readAs e
        refine ⟨_, rfl, hs.trans (hA.same hk hs), ?_⟩
        have hparent : ∀ n ∈ modelNodes ms, n.parent.isSome → o1.cls ∈ ["node", "meter"].map String.toList → n.nominal.isSome := by
          intro n hn hp hc
          rw [hG.nominal n hn hc]
          obtain ⟨_, hN, _, h4⟩ := hS.node hc
          obtain ⟨t, ht⟩ := Option.isSome_iff_exists.1 (h4 (by rw [← (hA.nodes hn).2.1]; exact hp)).1
          obtain ⟨x, hx⟩ := hN t ht
          rw [ht, Option.bind_some, hx]; rfl
        have hfine : ∀ n ∈ modelNodes ms, NodeFine n := by
          intro n hn
          obtain ⟨x, hx, hNO⟩ := forall₂_mem_right (hA.places (P := [])) hn
          have hpl : isPlace o1 = true := by
            by_contra hc
            rw [if_neg hc] at hx; cases hx
          rw [if_pos hpl, List.mem_singleton] at hx
          subst hx
          obtain ⟨a1, a2, a3, a4, _⟩ := hNO
          simp only at a2 a3 a4
          refine ⟨fun hp p hpp ha => hG.phasor n hn p (hS.voltages hpl (by rw [← a2]; exact hp) p ?_), fun hp => ?_⟩
          · rw [← a3, List.mem_filter]
            exact ⟨hpp, by simpa using ha⟩
          · by_contra hsrc
            have hsw := a4.1 (by simpa using hsrc)
            have hc : o1.cls ∈ ["node", "meter"].map String.toList := by
              rw [isSwing, decide_eq_true_iff] at hsw
              exact hsw.1
            have := ((hS.node hc).2.2.2 (by rw [← a2]; exact hp)).2
            rw [hsw] at this; cases this
        refine adopt_good (fun n q hn hq hc => hparent n (by rw [modelNodes, List.mem_filterMap]; exact ⟨_, hn, rfl⟩) (by rw [hq]; rfl) ?_) ?_ ?_
        · rcases hc with hc | hc <;> (rw [hc]; decide)
        · intro m hm
          rcases List.mem_append.1 hm with hm | hm
          · exact hr m hm
          · exact hG.ready m hm
        · intro n hn
          rw [modelNodes, List.filterMap_append, List.mem_append] at hn
          rcases hn with hn | hn
          · exact hf n hn
          · exact hfine n hn
      · have hc : o1.cls ∈ sharedConfigObjects := by
          rw [hso.cls]
          have := hF.classes _ _ ho
          rw [List.mem_append] at this
          rcases this with h | h
          · have hsub : ∀ c ∈ configClasses, c ∈ sharedConfigObjects := by decide
            exact hsub _ h
          · exact absurd h hd
        rw [objectModels, if_pos hc, ok_bind']
        refine ⟨_, rfl, hs, ?_⟩
        rw [List.append_nil]
        exact ⟨hr, hf⟩) ⟨objs, []⟩ ⟨SameObjs.refl _, fun m hm => (by cases hm), fun n hn => by cases hn⟩
  exact ⟨s, h1, h2, h3⟩

theorem SoundFeeder.accepted {readLine : LineReader M} {schedules : List (Txt × Txt)} (hF : SoundFeeder objs) (hk : Keeps readLine objs)
    (hL : LinesAccepted readLine make objs) : ∃ g net, parseGrid readLine objs schedules = .ok g ∧ g.network make = .ok net := by
  obtain ⟨s, h1, h2, h3⟩ := readModels_accepts (schedules := schedules) hF hk hL
  obtain ⟨hs, groups, he, hG⟩ := readModels_gives hk h1
  obtain ⟨g, net, h4, h5⟩ := buildGrid_ready hF.order hs (places_of he hG hF.keys) h3 h2
  exact ⟨g, net, by rw [parseGrid, h1, ok_bind', h4], h5⟩

end Verif.Glm
