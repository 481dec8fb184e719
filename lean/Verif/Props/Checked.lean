import Verif.Props.HourlyRun
import Verif.Props.Results
import Verif.Spec.Checked

/-!
# C155: when the check of the ratings completes
-/

namespace Verif

variable {L : Library}

theorem anyTest_error (l : List (Except String Bool)) : (∃ e, anyTest l = .error e) ↔ ∃ t ∈ l, ∃ e, t = .error e := by
  induction l with
  | nil => simp [anyTest]
  | cons t l ih =>
    cases t with
    | error e =>
      refine iff_of_true ⟨e, rfl⟩ ⟨_, List.mem_cons_self, e, rfl⟩
    | ok c =>
      have h : (∃ e, anyTest (.ok c :: l) = .error e) ↔ ∃ e, anyTest l = .error e := by
        cases hl : anyTest l with
        | error e => exact iff_of_true ⟨e, by rw [anyTest, hl]; rfl⟩ ⟨e, rfl⟩
        | ok b =>
          refine iff_of_false ?_ ?_
          · rintro ⟨e, he⟩
            rw [anyTest, hl] at he
            cases he
          · rintro ⟨e, he⟩
            cases he
      rw [h, ih]
      constructor
      · rintro ⟨t, ht, e⟩
        exact ⟨t, List.mem_cons_of_mem _ ht, e⟩
      · rintro ⟨t, ht, e, rfl⟩
        rcases List.mem_cons.1 ht with h | ht
        · cases h
        · exact ⟨_, ht, e, rfl⟩

theorem elementTests_error (nodes : List Node) (v : ℕ → ℝ) (e : Element) (ps : List Placed) (r : Rating) : (∃ t ∈ elementTests nodes v e ps r, ∃ m, t = .error m) ↔
    (∃ f t g b bl, e = .line f t g b bl) ∨ ∃ ph y sh, e = .unbalanced ph y sh ∧ r.amps.length < ph.length := by
  cases e with
  | line f t g b bl => exact iff_of_true ⟨_, List.mem_singleton.2 rfl, _, rfl⟩ (.inl ⟨f, t, g, b, bl, rfl⟩)
  | unbalanced ph y sh =>
    constructor
    · rintro ⟨t, ht, m, rfl⟩
      obtain ⟨i, hi, ht⟩ := List.mem_map.1 ht
      rw [List.mem_range] at hi
      refine .inr ⟨ph, y, sh, rfl, ?_⟩
      unfold phaseTest at ht
      simp only at ht
      rcases hA : r.amps[i]? with _ | _ | A
      · exact lt_of_le_of_lt (List.getElem?_eq_none_iff.1 hA) hi
      · rw [hA] at ht; cases ht
      · rw [hA] at ht; cases ht
    · rintro (⟨f, t, g, b, bl, h⟩ | ⟨ph', y', sh', h, hlt⟩)
      · cases h
      · cases h
        refine ⟨_, List.mem_map.2 ⟨r.amps.length, List.mem_range.2 hlt, rfl⟩, "list index out of range", ?_⟩
        unfold phaseTest
        simp only [List.getElem?_eq_none_iff.2 (le_refl r.amps.length)]
  | transformer fp fn tp tn tr ang g s =>
    refine iff_of_false ?_ (by rintro (⟨_, _, _, _, _, h⟩ | ⟨_, _, _, h, -⟩) <;> cases h)
    rintro ⟨t, ht, m, rfl⟩
    unfold elementTests at ht
    simp only at ht
    split at ht <;> simp at ht
  | centerTap f p s1 t1 s2 t2 ratio g0 b0 g1 b1 g2 b2 =>
    refine iff_of_false ?_ (by rintro (⟨_, _, _, _, _, h⟩ | ⟨_, _, _, h, -⟩) <;> cases h)
    rintro ⟨t, ht, m, rfl⟩
    unfold elementTests at ht
    simp only at ht
    split at ht <;> simp at ht
  | _ =>
    refine iff_of_false ?_ (by rintro (⟨_, _, _, _, _, h⟩ | ⟨_, _, _, h, -⟩) <;> cases h)
    rintro ⟨t, ht, m, rfl⟩
    simp [elementTests] at ht

/-- **C155, the check.** For all networks and results, the check of the ratings ends in an exception exactly when it meets a line of a transmission network, a phase of a line
without entry among the ampacities, or a reported bus with nominal voltage zero. Otherwise it answers. (In the code `v` and `v'` are the same values.) -/
theorem C155_raises (N : Network) (infos : List BusInfo) (ratings : List Rating) (success : Bool) (v v' : ℕ → ℝ) (hi : infos.length = N.buses) :
    (∃ e, violatesRatings N infos ratings (N.assign L) v' (Results.make N infos (N.assign L) success v) = .error e) ↔ CheckStops infos ratings N := by
  unfold violatesRatings
  rw [anyTest_error]
  have hl : (N.assign L).parts.length = N.elements.length := placeElements_length _ _ _ _
  have hn : (N.assign L).nodes.length = N.buses := assignBuses_length _ _ _
  have hzip : ∀ e r, (e, r) ∈ N.elements.zip ratings ↔ ∃ ps, ((e, ps), r) ∈ (N.elements.zip (N.assign L).parts).zip ratings := by
    intro e r
    simp only [List.mem_iff_getElem?, List.getElem?_zip_eq_some]
    constructor
    · rintro ⟨k, h1, h2⟩
      obtain ⟨hk, -⟩ := List.getElem?_eq_some_iff.1 h1
      exact ⟨_, k, ⟨h1, List.getElem?_eq_getElem (hl ▸ hk)⟩, h2⟩
    · rintro ⟨ps, k, ⟨h1, -⟩, h2⟩
      exact ⟨k, h1, h2⟩
  have hbus : (∃ t ∈ (busResults infos N.opt (N.assign L).nodes v).map (busTest infos), ∃ e, t = .error e) ↔ ∃ i ∈ infos, i.virtual = false ∧ i.vnom = 0 := by
    constructor
    · rintro ⟨t, ht, e, rfl⟩
      obtain ⟨b, hb, ht⟩ := List.mem_map.1 ht
      obtain ⟨k, i, n, h1, -, h3, rfl⟩ := (mem_busResults infos N.opt _ v b).1 hb
      refine ⟨i, List.mem_of_getElem? h1, h3, ?_⟩
      by_contra h0
      unfold busTest at ht
      rw [show (infos[(BusResult.make k _ _ _).bus]? : Option BusInfo) = some i from h1] at ht
      simp only [if_neg h0] at ht
      cases ht
    · rintro ⟨i, hm, h3, h0⟩
      obtain ⟨k, hk⟩ := List.mem_iff_getElem?.1 hm
      obtain ⟨hlt, -⟩ := List.getElem?_eq_some_iff.1 hk
      have hlt' : k < (N.assign L).nodes.length := by omega
      refine ⟨_, List.mem_map.2 ⟨_, (mem_busResults infos N.opt _ v _).2 ⟨k, i, _, hk, List.getElem?_eq_getElem hlt', h3, rfl⟩, rfl⟩, "ZeroDivisionError", ?_⟩
      unfold busTest
      rw [show (infos[(BusResult.make k _ _ _).bus]? : Option BusInfo) = some i from hk]
      simp only [if_pos h0]
  have happ : ∀ l l' : List (Except String Bool), (∃ t ∈ l ++ l', ∃ e, t = .error e) ↔ (∃ t ∈ l, ∃ e, t = .error e) ∨ ∃ t ∈ l', ∃ e, t = .error e := fun l l' => by
    constructor
    · rintro ⟨t, ht, e⟩
      rcases List.mem_append.1 ht with ht | ht
      exacts [.inl ⟨t, ht, e⟩, .inr ⟨t, ht, e⟩]
    · rintro (⟨t, ht, e⟩ | ⟨t, ht, e⟩)
      exacts [⟨t, List.mem_append_left _ ht, e⟩, ⟨t, List.mem_append_right _ ht, e⟩]
  rw [happ]
  show _ ∨ (∃ t ∈ (busResults infos N.opt (N.assign L).nodes v).map (busTest infos), ∃ e, t = .error e) ↔ _
  rw [hbus, CheckStops, ← or_assoc]
  refine or_congr_left ?_
  constructor
  · rintro ⟨t, ht, m⟩
    obtain ⟨⟨⟨e, ps⟩, r⟩, hx, ht⟩ := List.mem_flatMap.1 ht
    have hz := (hzip e r).2 ⟨ps, hx⟩
    rcases (elementTests_error _ _ _ _ _).1 ⟨t, ht, m⟩ with h | h
    exacts [.inl ⟨_, hz, h⟩, .inr ⟨_, hz, h⟩]
  · intro h
    obtain ⟨⟨e, r⟩, hz, hh⟩ : ∃ x ∈ N.elements.zip ratings, (∃ f t g b bl, x.1 = .line f t g b bl) ∨ ∃ ph y sh, x.1 = .unbalanced ph y sh ∧ x.2.amps.length < ph.length := by
      rcases h with ⟨x, hx, h⟩ | ⟨x, hx, h⟩
      exacts [⟨x, hx, .inl h⟩, ⟨x, hx, .inr h⟩]
    obtain ⟨ps, hps⟩ := (hzip e r).1 hz
    obtain ⟨t, ht, m⟩ := (elementTests_error (N.assign L).nodes v' e ps r).2 hh
    exact ⟨t, List.mem_flatMap.2 ⟨_, hps, ht⟩, m⟩

/-- **C155, the flag.** If nothing stops the check, the result is returned as it is but for the flag. -/
theorem C155_marks (N : Network) (infos : List BusInfo) (ratings : List Rating) (v v' : ℕ → ℝ) (hi : infos.length = N.buses) (hc : ¬ CheckStops infos ratings N) (success : Bool) :
    ∃ b, markViolations N infos ratings (N.assign L) v' (Results.make N infos (N.assign L) success v) =
      .ok { Results.make N infos (N.assign L) success v with violates := b } := by
  unfold markViolations
  split_ifs with hs
  · cases h : violatesRatings N infos ratings (N.assign L) v' (Results.make N infos (N.assign L) success v) with
    | error e => exact absurd ((C155_raises N infos ratings success v v' hi).1 ⟨e, h⟩) hc
    | ok b =>
      refine ⟨b, ?_⟩
      cases b <;> rfl
  · exact ⟨false, rfl⟩

end Verif

namespace Verif.Glm

section Feeder

variable {L : Library} {M : Type} {readLine : LineReader M} {schedules : List (Txt × Txt)} {objs : List (Txt × Obj)} {g : Grid M} {D : DxNet}
  {make : M → List (ℕ × ℕ) → Except String Element} {mats : M → (ℕ → ℕ → ℂ) × (ℕ → ℕ → ℝ)}

theorem mapM_size {α β ε : Type} {f : α → Except ε β} : ∀ {l : List α} {r : List β}, l.mapM f = .ok r → r.length = l.length := by
  intro l
  induction l with
  | nil =>
    intro r h
    rw [List.mapM_nil] at h
    cases h
    rfl
  | cons a l ih =>
    intro r h
    rw [List.mapM_cons] at h
    cases ha : f a with
    | error e => rw [ha] at h; cases h
    | ok y =>
      rw [ha] at h
      cases hl : l.mapM f with
      | error e => rw [hl] at h; cases h
      | ok ys =>
        rw [hl] at h
        cases h
        rw [List.length_cons, List.length_cons, ih hl]

/-- The lines of the network have the phases of the lines of the feeder. -/
theorem network_phases (hM : Makes make mats) (hD : g.network make = .ok D) {ph : List (ℕ × ℕ)} {y : ℕ → ℕ → ℂ} {sh : ℕ → ℕ → ℝ}
    (he : .unbalanced ph y sh ∈ D.network.elements) : ∃ d ∈ g.lineData, ph.length = d.1.length := by
  unfold Grid.network at hD
  cases hl : g.lines.mapM (lineElement make g) with
  | error e => rw [hl] at hD; cases hD
  | ok lines =>
    cases hr : g.regulators.mapM GReg.item with
    | error e => rw [hl, hr] at hD; cases hD
    | ok regs =>
      rw [hl, hr] at hD
      cases hD
      obtain ⟨i, hi, hie⟩ := List.mem_map.1 he
      simp only [List.mem_append] at hi
      rcases hi with ((((((hi | hi) | hi) | hi) | hi) | hi) | hi) | hi
      · obtain ⟨e, hm, rfl⟩ := List.mem_map.1 hi
        obtain rfl : e = .unbalanced ph y sh := hie
        have key : ∀ (ls : List (DLine M)) es, ls.mapM (lineElement make g) = .ok es → ∀ e ∈ es, ∃ l ∈ ls, lineElement make g l = .ok e := by
          intro ls
          induction ls with
          | nil =>
            intro es h e he
            rw [List.mapM_nil] at h
            cases h
            cases he
          | cons l ls ih =>
            intro es h e he
            rw [List.mapM_cons] at h
            cases ha : lineElement make g l with
            | error _ => rw [ha] at h; cases h
            | ok y =>
              rw [ha] at h
              cases hl : ls.mapM (lineElement make g) with
              | error _ => rw [hl] at h; cases h
              | ok ys =>
                rw [hl] at h
                cases h
                rcases List.mem_cons.1 he with rfl | he
                · exact ⟨l, List.mem_cons_self, ha⟩
                · obtain ⟨l', h1, h2⟩ := ih _ hl e he
                  exact ⟨l', List.mem_cons_of_mem _ h1, h2⟩
        obtain ⟨l, hlm, h⟩ := key _ _ hl _ hm
        refine ⟨_, List.mem_map.2 ⟨l, hlm, rfl⟩, ?_⟩
        unfold lineElement at h
        cases hp : linePhases g l with
        | error _ => rw [hp] at h; cases h
        | ok ps =>
          rw [hp] at h
          have := (hM _ _ _ h).2
          cases this
          exact mapM_size hp
      · obtain ⟨x, -, rfl⟩ := List.mem_map.1 hi
        cases x <;> cases hie
      · obtain ⟨x, -, rfl⟩ := List.mem_map.1 hi
        cases hie
      · obtain ⟨x, -, rfl⟩ := List.mem_map.1 hi
        cases hie
      · obtain ⟨x, -, rfl⟩ := List.mem_map.1 hi
        cases hie
      · exfalso
        refine mapM_all (p := fun i : Item => i.element ≠ .unbalanced ph y sh) (fun r i h => ?_) hr i hi hie
        unfold GReg.item at h
        simp only at h
        cases hm : Reg.make (some r.f) (some r.c) (some r.t) r.tap r.step r.kind r.raiseTaps r.lowerTaps (seriesAdmittance (1 / 10000) 0).1
            (seriesAdmittance (1 / 10000) 0).2 with
        | error e => rw [hm] at h; cases h
        | ok x =>
          rw [hm] at h
          cases h
          exact fun h => by cases h
      · obtain ⟨x, -, rfl⟩ := List.mem_map.1 hi
        cases hie
      · obtain ⟨x, -, rfl⟩ := List.mem_map.1 hi
        cases hie

theorem network_plain (hM : Makes make mats) (hD : g.network make = .ok D) :
    D.network.buses = g.buses.length ∧ ∀ e ∈ D.network.elements, ∀ f t c b bl, e ≠ .line f t c b bl := by
  unfold Grid.network at hD
  cases hl : g.lines.mapM (lineElement make g) with
  | error e => rw [hl] at hD; cases hD
  | ok lines =>
    cases hr : g.regulators.mapM GReg.item with
    | error e => rw [hl, hr] at hD; cases hD
    | ok regs =>
      rw [hl, hr] at hD
      cases hD
      refine ⟨rfl, fun e he f t c b bl => ?_⟩
      obtain ⟨i, hi, rfl⟩ := List.mem_map.1 he
      simp only [List.mem_append] at hi
      rcases hi with ((((((hi | hi) | hi) | hi) | hi) | hi) | hi) | hi
      · obtain ⟨e, hm, rfl⟩ := List.mem_map.1 hi
        refine mapM_all (p := fun e => e ≠ .line f t c b bl) (fun l e h => ?_) hl e hm
        unfold lineElement at h
        cases hp : linePhases g l with
        | error _ => rw [hp] at h; cases h
        | ok ps =>
          rw [hp] at h
          rw [(hM _ _ _ h).2]
          exact fun h => by cases h
      · obtain ⟨x, -, rfl⟩ := List.mem_map.1 hi
        cases x <;> exact fun h => by cases h
      · obtain ⟨x, -, rfl⟩ := List.mem_map.1 hi
        exact fun h => by cases h
      · obtain ⟨x, -, rfl⟩ := List.mem_map.1 hi
        exact fun h => by cases h
      · obtain ⟨x, -, rfl⟩ := List.mem_map.1 hi
        exact fun h => by cases h
      · refine mapM_all (p := fun i : Item => i.element ≠ .line f t c b bl) (fun r i h => ?_) hr i hi
        unfold GReg.item at h
        simp only at h
        cases hm : Reg.make (some r.f) (some r.c) (some r.t) r.tap r.step r.kind r.raiseTaps r.lowerTaps (seriesAdmittance (1 / 10000) 0).1
            (seriesAdmittance (1 / 10000) 0).2 with
        | error e => rw [hm] at h; cases h
        | ok x =>
          rw [hm] at h
          cases h
          exact fun h => by cases h
      · obtain ⟨x, -, rfl⟩ := List.mem_map.1 hi
        exact fun h => by cases h
      · obtain ⟨x, -, rfl⟩ := List.mem_map.1 hi
        exact fun h => by cases h

/-- **C155, partial: feeders.** Read a feeder whose places have a voltage that is not zero, none but sources being parents, and give every phase of its lines an entry among the
ampacities (`C133_lines`: the reader does). Then the check of the ratings raises nothing, at every load factor and for all values of the unknowns: the result is returned with
its flag. Missing: places that are parents (their buses may have the voltage of a child, C99) and places of zero voltage (`C155_zero_fails`). -/
theorem C155_feeder_partial (hR : Keeps readLine objs) (hO : OuterFile objs) (hk : (objs.map Prod.fst).Nodup) (hM : Makes make mats)
    (h : parseGrid readLine objs schedules = .ok g) (hD : g.network make = .ok D) (hown : ∀ x ∈ ownPlaces objs, isSwing x.1.2 = true ∨ x.1.1 ∉ parentNames objs)
    (hv : ∀ x ∈ ownPlaces objs, ∀ u, placeVoltage x.1.2 x.2 = some u → u.magnitude ≠ 0) {ratings : List Rating}
    (hamps : ∀ x ∈ D.network.elements.zip ratings, ∀ ph y sh, x.1 = .unbalanced ph y sh → ph.length ≤ x.2.amps.length) (s : ℝ) (v v' : ℕ → ℝ) (success : Bool) :
    ∃ b, markViolations (D.factor s s).network ((g.pf D).buses.map fun b => ⟨b.virtual, b.vnom⟩) ratings ((D.factor s s).network.assign L) v'
        (Results.make (D.factor s s).network ((g.pf D).buses.map fun b => ⟨b.virtual, b.vnom⟩) ((D.factor s s).network.assign L) success v) =
      .ok { Results.make (D.factor s s).network ((g.pf D).buses.map fun b => ⟨b.virtual, b.vnom⟩) ((D.factor s s).network.assign L) success v with violates := b } := by
  obtain ⟨hb, hnl⟩ := network_plain hM hD
  refine C155_marks _ _ _ _ _ ?_ ?_ _
  · show _ = D.network.buses
    rw [hb]
    simp [Grid.pf]
  · have hzip : ∀ x ∈ (D.factor s s).network.elements.zip ratings, ∃ e, (e, x.2) ∈ D.network.elements.zip ratings ∧ x.1 = e.factor s s := fun x hx => by
      rw [DxNet.factor_network] at hx
      obtain ⟨k, hk⟩ := List.mem_iff_getElem?.1 hx
      rw [List.getElem?_zip_eq_some] at hk
      obtain ⟨h1, h2⟩ := hk
      rw [Network.factor, List.getElem?_map] at h1
      obtain ⟨e, he, h1⟩ := Option.map_eq_some_iff.1 h1
      exact ⟨e, List.mem_iff_getElem?.2 ⟨k, List.getElem?_zip_eq_some.2 ⟨he, h2⟩⟩, h1.symm⟩
    rintro (⟨x, hx, f, t, c, b, bl, e1⟩ | ⟨x, hx, ph, y, sh, e1, e2⟩ | ⟨i, hi, h1, h2⟩)
    · obtain ⟨e, he, e3⟩ := hzip x hx
      have hne := hnl e (List.of_mem_zip he).1
      rw [e1] at e3
      cases e <;> first | exact hne _ _ _ _ _ rfl | cases e3
    · obtain ⟨e, he, e3⟩ := hzip x hx
      rw [e1] at e3
      have : e = .unbalanced ph y sh := by cases e <;> cases e3; rfl
      exact absurd e2 (not_lt.2 (hamps _ he ph y sh this))
    · obtain ⟨z, hz, rfl⟩ := List.mem_map.1 hi
      obtain ⟨b, hb, rfl⟩ := List.mem_map.1 hz
      have hmem : (b.name, b.phase, b.nominal) ∈ outerNominals g := by
        rw [outerNominals]
        refine List.mem_map.2 ⟨b, List.mem_filter.2 ⟨hb, ?_⟩, rfl⟩
        rw [show b.virtual = false from h1]
        rfl
      obtain ⟨x, hx, -, -, e3⟩ := forall₂_mem_right (C99_nominal_partial hR hO hk h) hmem
      exact hv x hx _ (e3 (hown x hx)) h2

end Feeder

/-! ### Cases -/

theorem chargedFeeder_volts : ∀ x ∈ ownPlaces chargedFeeder, ∀ u, placeVoltage x.1.2 x.2 = some u → u.magnitude ≠ 0 := fun x hx u hu => by
  rw [(chargedFeeder_names x (mem_ownPlaces.1 hx).1).2.2.1] at hu
  cases hu
  norm_num [Phasor.magnitude]

/-- The day of C154 with the check of the ratings, the two lines rated 600 A and not at all: all hours are solved, checked and returned. -/
example {L : Library} (hL : L.Loaded) : ∃ g D, parseGrid lineReader chargedFeeder [] = .ok g ∧ g.network lineMade = .ok D ∧ ∀ mark : Results → Except String Results,
    (∀ s v, ∃ v', mark (feederResults L g D s v) = markViolations (D.factor s s).network ((g.pf D).buses.map fun b => ⟨b.virtual, b.vnom⟩)
      [⟨[some 600, some 600, none], none⟩, ⟨[none, none, none], none⟩] ((D.factor s s).network.assign L) v' (feederResults L g D s v)) →
    ∃ s > 0, ∃ islands voltageIslands res st,
      tsExecute (feederSeries L ⟨1 / 100000, 20, true, false, false, true, true⟩ (fun G => idealSolve (G.net.network.assign L).size) islands voltageIslands mark g
        (fun _ => ([], [])) [⟨"cl_1A".toList, fun _ : ℤ => some (s * ‖toComplex (100, 20)‖)⟩] 0 24 none none none) 1
        ⟨D.factor 1 1, modifyLoadFactor (g.loads.map GLoad.named) 1 1, [], []⟩ = some (.ok (.hours res), st) ∧
      res.length = 24 ∧ ∀ x ∈ res, x.2.success = true ∧ x.2.buses.length = 6 := by
  obtain ⟨g, D, V0, hg, hD, h0, -⟩ := C149_total_partial hL [] chargedFeeder_supply
  refine ⟨g, D, hg, hD, fun mark hmark => ?_⟩
  have hph : ∀ x ∈ D.network.elements, ∀ ph y sh, x = .unbalanced ph y sh → ph.length ≤ 3 := fun x hx ph y sh e => by
    subst e
    obtain ⟨d, hd, hl⟩ := network_phases lineMade_makes hD hx
    have hm := List.mem_map_of_mem (f := Prod.fst) hd
    rw [(read_charged chargedFeeder_supply.charged hg hD).2.1, chargedFeeder_wired] at hm
    rw [hl]
    rcases List.mem_cons.1 hm with e | e
    · rw [e]; decide
    · rw [List.mem_singleton.1 e]; decide
  obtain ⟨s0, hs0, h⟩ := C154_hours_partial hL chargedFeeder_supply.charged hg hD chargedFeeder_places chargedFeeder_joined chargedFeeder_own
    (fun x hx y hy _ => chargedFeeder_alike x hx y hy) chargedFeeder_rated h0 (chargedFeeder_live h0).1 (chargedFeeder_live h0).2 1 (1 / 100000) one_pos (by norm_num)
  have hi : ∀ G : PFNet, ∃ cs, IsIslands G.graph cs := fun G => islands_exist G.buses G.connected
  have hv : ∀ G : PFNet, ∃ vs, IsEdgeIslands (G.graph.plainEdges G.connected) vs := fun G => edgeIslands_exist _
  choose islands hi using hi
  choose vis hv using hv
  obtain ⟨res, st, e1, e2, -, e3⟩ := h (fun _ => s0) 0 24 _ (chargedFeeder_columns _ 0 24) (fun _ _ _ => ⟨hs0, le_rfl⟩) ⟨1 / 100000, 20, true, false, false, true, true⟩
    le_rfl (by norm_num) (fun _ => chargedFeeder_manual) islands vis (fun s => hi _) (fun s => hv _) mark (fun s v => by
      obtain ⟨v', hm⟩ := hmark s v
      rw [hm]
      refine C155_feeder_partial (lineReader_keeps chargedFeeder_supply.charged.conductors) chargedFeeder_supply.charged.plain.outer chargedFeeder_supply.charged.plain.keys
        lineMade_makes hg hD chargedFeeder_own chargedFeeder_volts (fun x hx ph y sh hxe => ?_) s v v' true
      obtain ⟨hx1, hx2⟩ := List.of_mem_zip hx
      have := hph _ hx1 ph y sh hxe
      rcases List.mem_cons.1 hx2 with e | e
      · rw [e]; exact this
      · rw [List.mem_singleton.1 e]; exact this) (fun _ => ([], [])) none none none (Or.inl rfl) 1 0 one_pos
  refine ⟨s0, hs0, islands, vis, res, st, e1, e2, fun x hx => ?_⟩
  obtain ⟨f1, V, -, f3⟩ := e3 x hx
  exact ⟨f1, f3.length_eq.trans chargedFeeder_length⟩

/-- A source and a node without voltage, joined by a switch. -/
def zeroFeeder : List (Txt × Obj) := [
  fileObject "node" [("name", "n1"), ("phases", "A"), ("bustype", "SWING"), ("nominal_voltage", "2400")],
  fileObject "node" [("name", "n2"), ("phases", "A"), ("nominal_voltage", "0")],
  fileObject "switch" [("name", "s1"), ("phases", "A"), ("from", "n1"), ("to", "n2"), ("phase_A_state", "CLOSED")]]

/-- **C155 fails.** A node whose nominal voltage is given as zero is read and built, but whatever the solver finds, the check of the ratings divides by this voltage and ends the
time series in an exception. -/
theorem C155_zero_fails : ∃ g : Grid Empty, parseGrid noLines zeroFeeder [] = .ok g ∧ ∃ D, g.network (fun d _ => d.elim) = .ok D ∧
    ∀ (L : Library) (ratings : List Rating) (v : ℕ → ℝ), ∃ e, violatesRatings D.network ((g.pf D).buses.map fun b => ⟨b.virtual, b.vnom⟩) ratings (D.network.assign L) v
      (Results.make D.network ((g.pf D).buses.map fun b => ⟨b.virtual, b.vnom⟩) (D.network.assign L) true v) = .error e := by
  obtain ⟨g, hg, h1, h2⟩ := read_of_check (objs := zeroFeeder)
    (p := fun g => (g.lines.length = 0 ∧ g.regulators.length = 0) ∧ ∃ b ∈ g.buses, b.virtual = false ∧ b.nominal = .nominal 0 'A') (by decide +kernel)
  have e1 : g.lines = [] := List.length_eq_zero_iff.1 h1.1
  have e2 : g.regulators = [] := List.length_eq_zero_iff.1 h1.2
  obtain ⟨b, hb, h2, h3⟩ := h2
  have hM : Makes (fun (d : Empty) (_ : List (ℕ × ℕ)) => (d.elim : Except String Element)) (fun d => d.elim) := fun d => d.elim
  obtain ⟨D, hD⟩ : ∃ D, g.network (fun (d : Empty) _ => d.elim) = .ok D := by
    unfold Grid.network
    rw [e1, e2]
    exact ⟨_, rfl⟩
  refine ⟨g, hg, D, hD, fun L ratings v => (C155_raises _ _ _ _ _ _ ?_).2 (.inr (.inr ⟨_, List.mem_map.2 ⟨_, List.mem_map.2 ⟨b, hb, rfl⟩, rfl⟩, h2, ?_⟩))⟩
  · rw [(network_plain hM hD).1]
    simp [Grid.pf]
  · show b.nominal.magnitude = 0
    rw [h3]
    exact Rat.cast_zero

end Verif.Glm
