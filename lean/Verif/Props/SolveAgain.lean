import Verif.Props.DeviceControl

/-!
# C159: solving a network again gives the same answer
-/

namespace Verif

/-- Specification: at these values nothing prompts the device at position `k` of the network: no fuse carries more than its limit, and a capacitor is operated by hand or sees a voltage
within its limits. -/
def Item.CalmAt (a : Assignment) (v : ℕ → ℝ) (k : ℕ) : Item → Prop
  | .fixed _ => True
  | .fuse F => ‖a.sensor k v‖ ≤ F.limit
  | .cap c => c.mode = .manual ∨ c.mode = .volt ∧ c.low ≤ ‖a.volt c.f v‖ ∧ ‖a.volt c.f v‖ ≤ c.high
  | .reg _ => True

/-- Specification: nothing prompts any device of the network. -/
def DxNet.CalmAt (L : Library) (D : DxNet) (v : ℕ → ℝ) : Prop := ∀ (k : ℕ) (i : Item), D.items[k]? = some i → i.CalmAt (D.network.assign L) v k

theorem item_calm {a : Assignment} {v : ℕ → ℝ} {k : ℕ} {i : Item} (h : i.CalmAt a v k) : i.adjust a v k = .ok (i, false) := by
  cases i with
  | fixed e => rfl
  | fuse F =>
    have h : ‖a.sensor k v‖ ≤ F.limit := h
    have : F.adjust (a.sensor k v) = (F, false) := by
      unfold Fuse.adjust
      split_ifs with h1 h2
      · rfl
      · exact absurd h2 (not_lt.2 h)
      · rfl
    rw [Item.adjust, this]
  | cap c =>
    have : c.adjust (a.volt c.f v) = .ok (c, false) := by
      unfold Cap.adjust
      rcases h with h | ⟨h, hl, hh⟩
      · rw [h]
      · rw [h]
        simp only
        rw [if_neg (fun x => absurd x.1 (not_lt.2 hl)), if_neg (fun x => absurd x.1 (not_lt.2 hh))]
    rw [Item.adjust, this]
    rfl
  | reg r => rfl

theorem adjustItems_calm {a : Assignment} {v : ℕ → ℝ} : ∀ (is : List Item) (k : ℕ), (∀ (j : ℕ) (i : Item), is[j]? = some i → i.CalmAt a v (k + j)) → adjustItems a v k is = .ok (is, false)
  | [], _, _ => rfl
  | i :: is, k, h => by
    rw [adjustItems, item_calm (k := k) (h 0 i rfl), adjustItems_calm is (k + 1) fun j x hx => by
      have := h (j + 1) x hx
      rwa [show k + 1 + j = k + (j + 1) by omega]]
    rfl

theorem adjust_calm {L : Library} {D : DxNet} {v : ℕ → ℝ} (h : D.threePhase = true → D.CalmAt L v) : D.adjust L v = .ok (D, false) := by
  unfold DxNet.adjust
  split_ifs with ht
  · rw [adjustItems_calm D.items 0 fun j i hi => by rw [Nat.zero_add]; exact h ht j i hi]
    rfl
  · rfl

/-- Specification: the network is solved `n` times, each time with the devices as the time before left them; the results in order and the devices at the end. -/
inductive SolvedTimes (L : Library) (C : NRContext) (txStepping control : Bool) (vInit : ℕ → ℝ) : ℕ → DxNet → List (HomotopyResult Stamper) → DxNet → Prop
  | none (D : DxNet) : SolvedTimes L C txStepping control vInit 0 D [] D
  | more {n : ℕ} {D D' E : DxNet} {r : HomotopyResult Stamper} {rs : List (HomotopyResult Stamper)} : (D.run L C txStepping control vInit).out = .ok (r, D') →
      SolvedTimes L C txStepping control vInit n D' rs E → SolvedTimes L C txStepping control vInit (n + 1) D (r :: rs) E

/-- One more solve. -/
theorem run_again {L : Library} {C : NRContext} {txStepping control : Bool} {vInit : ℕ → ℝ} {D D' : DxNet} {r : HomotopyResult Stamper}
    (h : (D.run L C txStepping control vInit).out = .ok (r, D')) (hc : control = true → D'.threePhase = true → D'.CalmAt L vInit) :
    (D'.run L C txStepping control vInit).out = .ok (r, D') ∧ (D'.run L C txStepping control vInit).calls.length = 1 := by
  obtain ⟨_, h2, h3⟩ := C26_device_loop (DxNet.ops L C txStepping) control vInit D
  have hlast : (DxNet.ops L C txStepping).solve D' vInit = .ok r ∧ (r.success = true → control = true → D'.adjust L r.v = .ok (D', false)) := by
    rcases h3 with ⟨e, _, _, _, h4⟩ | ⟨c, hl, he, _⟩
    · exact absurd (h.symm.trans h4) (by simp)
    · have hm := h2.made c (List.mem_of_getLast? hl)
      have hout : (deviceRun (DxNet.ops L C txStepping) control vInit D).out = .ok (r, D') := h
      rw [hout] at he
      cases he with
      | failed _ h1 h2 => exact ⟨hm ▸ h1, fun hs => absurd (h2.symm.trans hs) (by simp)⟩
      | uncontrolled _ h1 h2 h3 => exact ⟨hm ▸ h1, fun _ hs => absurd (h3.symm.trans hs) (by simp)⟩
      | settled _ _ h1 h2 h3 h4 =>
        have := adjust_false L c.devices D' r.v h4
        subst this
        exact ⟨hm ▸ h1, fun _ _ => h4⟩
  have hloop : deviceLoop (DxNet.ops L C txStepping) control vInit maxDeviceIterations D' [] = ⟨[⟨D', .ok r⟩], .ok (r, D')⟩ := by
    rw [maxDeviceIterations, deviceLoop, hlast.1]
    by_cases hs : r.success = true
    · cases control with
      | false =>
        change (if r.success = false then _ else _) = _
        rw [if_neg (by rw [hs]; simp)]
        rfl
      | true =>
        change (if r.success = false then _ else _) = _
        rw [if_neg (by rw [hs]; simp)]
        have := hlast.2 hs rfl
        rw [if_neg (by simp), show (DxNet.ops L C txStepping).adjust D' ((DxNet.ops L C txStepping).volts r) = _ from this]
        rfl
    · change (if r.success = false then _ else _) = _
      rw [if_pos (by simpa using hs)]
      rfl
  have hrun : D'.run L C txStepping control vInit = ⟨[⟨D', .ok r⟩], .ok (r, D')⟩ := by
    unfold DxNet.run deviceRun
    cases control with
    | false => exact hloop
    | true =>
      rw [if_pos rfl]
      rw [show (DxNet.ops L C txStepping).adjust D' vInit = _ from adjust_calm (hc rfl)]
      exact hloop
  rw [hrun]
  exact ⟨rfl, rfl⟩

/-- **C159, partial: solving again.** A network that was solved, with or without success, is solved again and again from the same start, with the devices as they were left: every time the
result is the same, the devices stay as they are, and nothing else is possible. Missing: devices that the start values prompt, which are set back before each run. -/
theorem C159_again_partial {L : Library} {C : NRContext} {txStepping control : Bool} {vInit : ℕ → ℝ} {D D' : DxNet} {r : HomotopyResult Stamper}
    (h : (D.run L C txStepping control vInit).out = .ok (r, D')) (hc : control = true → D'.threePhase = true → D'.CalmAt L vInit) (n : ℕ) :
    SolvedTimes L C txStepping control vInit n D' (List.replicate n r) D' ∧
      ∀ rs E, SolvedTimes L C txStepping control vInit n D' rs E → rs = List.replicate n r ∧ E = D' := by
  have h1 := (run_again h hc).1
  induction n with
  | zero =>
    refine ⟨.none _, fun rs E hrs => ?_⟩
    cases hrs
    exact ⟨rfl, rfl⟩
  | succ n ih =>
    refine ⟨.more h1 ih.1, fun rs E hrs => ?_⟩
    cases hrs with
    | more h2 h3 =>
      rw [h1] at h2
      simp only [Except.ok.injEq, Prod.mk.injEq] at h2
      obtain ⟨rfl, rfl⟩ := h2
      obtain ⟨rfl, rfl⟩ := ih.2 _ _ h3
      exact ⟨rfl, rfl⟩

/-- **C159: one solve is enough.** Solving again calls the solver once, however many adjustments the first run made. -/
theorem C159_once_partial {L : Library} {C : NRContext} {txStepping control : Bool} {vInit : ℕ → ℝ} {D D' : DxNet} {r : HomotopyResult Stamper}
    (h : (D.run L C txStepping control vInit).out = .ok (r, D')) (hc : control = true → D'.threePhase = true → D'.CalmAt L vInit) :
    (D'.run L C txStepping control vInit).calls.length = 1 := (run_again h hc).2

/-- **C159 for transmission networks and without control.** Where no device is adjusted, solving again and again gives the same result without further conditions, and the network stays
as it was given. -/
theorem C159_untouched {L : Library} {C : NRContext} {txStepping control : Bool} {vInit : ℕ → ℝ} {D D' : DxNet} {r : HomotopyResult Stamper} (hu : control = false ∨ D.threePhase = false)
    (h : (D.run L C txStepping control vInit).out = .ok (r, D')) (n : ℕ) : D' = D ∧ SolvedTimes L C txStepping control vInit n D (List.replicate n r) D ∧
      ∀ rs E, SolvedTimes L C txStepping control vInit n D rs E → rs = List.replicate n r ∧ E = D := by
  have hD : D' = D := by
    obtain ⟨_, h2, h3⟩ := C26_device_loop (DxNet.ops L C txStepping) control vInit D
    have hout : (deviceRun (DxNet.ops L C txStepping) control vInit D).out = .ok (r, D') := h
    rcases hu with hu | hu
    · subst hu
      have hrun : DxNet.run L C txStepping false vInit D = deviceLoop (DxNet.ops L C txStepping) false vInit maxDeviceIterations D [] := rfl
      rw [hrun, maxDeviceIterations, deviceLoop] at h
      split at h
      · cases h
      · simp only at h
        split_ifs at h
        · cases h
          rfl
        · cases h
          rfl
    · have hP : ∀ d v d' m, (DxNet.ops L C txStepping).adjust d v = .ok (d', m) → d = D → d' = D := by
        rintro d v d' m hd rfl
        change d.adjust L v = _ at hd
        rw [DxNet.adjust, if_neg (by rw [hu]; simp)] at hd
        cases hd
        rfl
      rcases h3 with ⟨e, _, _, _, h4⟩ | ⟨c, hl, he, _⟩
      · exact absurd (h.symm.trans h4) (by simp)
      · have hc := chain_invariant (· = D) rfl hP c (List.mem_of_getLast? hl)
        rw [hout] at he
        cases he with
        | failed _ _ _ => exact hc
        | uncontrolled _ _ _ _ => exact hc
        | settled _ _ _ _ _ h4 => exact hP _ _ _ _ h4 hc
  subst hD
  exact ⟨rfl, C159_again_partial h (fun h1 h2 => by
    rcases hu with hu | hu
    · rw [hu] at h1
      cases h1
    · rw [hu] at h2
      cases h2) n⟩

/-! ### Devices that the start values prompt -/

/-- Specification: the values prompt the device to a definite state, or it never changes: every capacitor is operated by hand or sees a voltage outside its limits, and no fuse carries more than its limit. -/
def Item.PromptedAt (a : Assignment) (v : ℕ → ℝ) (k : ℕ) : Item → Prop
  | .fixed _ => True
  | .fuse F => ‖a.sensor k v‖ ≤ F.limit
  | .cap c => c.mode = .manual ∨ c.mode = .volt ∧ c.low ≤ c.high ∧ (c.high < ‖a.volt c.f v‖ ∨ ‖a.volt c.f v‖ < c.low)
  | .reg _ => True

/-- The same item but for the switch of a capacitor and the state of a fuse. -/
inductive SwitchedFrom : Item → Item → Prop
  | fixed (e : Element) : SwitchedFrom (.fixed e) (.fixed e)
  | cap (c : Cap) (s : CapSwitch) : (c.mode = .manual → s = c.switch) → SwitchedFrom (.cap c) (.cap { c with switch := s })
  | reg (r : Reg) : SwitchedFrom (.reg r) (.reg r)
  | fuse (F : Fuse) : SwitchedFrom (.fuse F) (.fuse F)
  | blown (F : Fuse) : SwitchedFrom (.fuse F) (.fuse { F with status := .blown })

theorem switched_self (i : Item) : SwitchedFrom i i := by
  cases i with
  | fixed e => exact .fixed e
  | fuse F => exact .fuse F
  | cap c => exact .cap c c.switch fun _ => rfl
  | reg r => exact .reg r

theorem cap_switched {c c' : Cap} {V : ℂ} {m : Bool} (h : c.adjust V = .ok (c', m)) : ∃ s, c' = { c with switch := s } ∧ (c.mode = .manual → s = c.switch) := by
  unfold Cap.adjust at h
  cases hm : c.mode with
  | manual =>
    simp only [hm, Except.ok.injEq, Prod.mk.injEq] at h
    exact ⟨c.switch, by rw [← h.1, ← hm], fun _ => rfl⟩
  | volt =>
    simp only [hm, Except.ok.injEq] at h
    split_ifs at h <;> cases h <;> exact ⟨_, by rw [← hm], fun h => by cases h⟩
  | var => simp [hm] at h
  | varvolt => simp [hm] at h

theorem item_switched {a : Assignment} {v : ℕ → ℝ} {k : ℕ} {i j j' : Item} {m : Bool} (hs : SwitchedFrom i j) (h : j.adjust a v k = .ok (j', m)) : SwitchedFrom i j' := by
  cases hs with
  | fixed e =>
    cases h
    exact .fixed e
  | reg r =>
    cases h
    exact .reg r
  | fuse F =>
    cases h
    unfold Fuse.adjust
    split_ifs
    · exact .fuse F
    · exact .blown F
    · exact .fuse F
  | blown F =>
    cases h
    unfold Fuse.adjust
    rw [if_pos rfl]
    exact .blown F
  | cap c s hs =>
    rw [Item.adjust] at h
    cases hc : ({ c with switch := s } : Cap).adjust (a.volt ({ c with switch := s } : Cap).f v) with
    | error e =>
      rw [hc] at h
      cases h
    | ok p =>
      obtain ⟨c', m'⟩ := p
      rw [hc] at h
      cases h
      obtain ⟨s', rfl, h2⟩ := cap_switched hc
      exact .cap c s' fun hm => (h2 hm).trans (hs hm)

theorem adjustItems_switched {a : Assignment} {v : ℕ → ℝ} {is js : List Item} (hs : List.Forall₂ SwitchedFrom is js) : ∀ (k : ℕ) (js' : List Item) (m : Bool),
    adjustItems a v k js = .ok (js', m) → List.Forall₂ SwitchedFrom is js' := by
  induction hs with
  | nil =>
    intro k js' m h
    cases h
    exact .nil
  | @cons i j is js h1 _ ih =>
    intro k js' m h
    rw [adjustItems] at h
    cases hp : j.adjust a v k with
    | error e =>
      rw [hp] at h
      cases h
    | ok p =>
      rw [hp] at h
      cases hq : adjustItems a v (k + 1) js with
      | error e =>
        simp only [bind, Except.bind, hq] at h
        cases h
      | ok q =>
        simp only [bind, Except.bind, hq] at h
        cases h
        exact .cons (item_switched h1 (show j.adjust a v k = .ok (p.1, p.2) from hp)) (ih (k + 1) q.1 q.2 hq)

/-- Neither switches of capacitors nor states of fuses enter the places of the fuses. -/
theorem place_switched (L : Library) (opt : Bool) (nodes : List Node) {is js : List Item} (hs : List.Forall₂ SwitchedFrom is js) : ∀ n,
    (placeElements L opt nodes n (js.map Item.element)).2 = (placeElements L opt nodes n (is.map Item.element)).2 ∧
    ∀ (k : ℕ) (F : Fuse), is[k]? = some (.fuse F) →
      (placeElements L opt nodes n (js.map Item.element)).1.getD k [] = (placeElements L opt nodes n (is.map Item.element)).1.getD k [] := by
  induction hs with
  | nil => exact fun n => ⟨rfl, fun k F h => by simp at h⟩
  | @cons i j is js h1 _ ih =>
    intro n
    have hsame : (j.element.place L opt nodes n).2 = (i.element.place L opt nodes n).2 ∧ ((∃ F, i = .fuse F) → j.element = i.element) := by
      cases h1 with
      | fixed e => exact ⟨rfl, fun _ => rfl⟩
      | reg r => exact ⟨rfl, fun _ => rfl⟩
      | fuse F => exact ⟨rfl, fun _ => rfl⟩
      | blown F => exact ⟨rfl, fun _ => rfl⟩
      | cap c s _ =>
        refine ⟨?_, fun ⟨F, h⟩ => by cases h⟩
        have : ∀ s, ((Item.cap { c with switch := s }).element.place L opt nodes n).2 = n := fun s => by cases s <;> rfl
        exact (this s).trans (this c.switch).symm
    have hn := hsame.1
    obtain ⟨i1, i2⟩ := ih (i.element.place L opt nodes n).2
    simp only [List.map_cons, placeElements, hn]
    refine ⟨i1, fun k F hk => ?_⟩
    cases k with
    | zero =>
      rw [List.getElem?_cons_zero, Option.some.injEq] at hk
      rw [hsame.2 ⟨F, hk⟩]
      rfl
    | succ k => exact i2 k F hk

theorem item_prompted {a a' : Assignment} {v : ℕ → ℝ} (ha : a'.nodes = a.nodes) (k : ℕ) {i j : Item} (hs : SwitchedFrom i j) (hb : j.refuses = false)
    (hk : (∃ F, i = .fuse F) → a'.sensor k v = a.sensor k v) (h : i.PromptedAt a v k) :
    ∃ x m m', i.adjust a v k = .ok (x, m) ∧ j.adjust a' v k = .ok (x, m') := by
  cases hs with
  | fixed e => exact ⟨_, _, _, rfl, rfl⟩
  | reg r => exact ⟨_, _, _, rfl, rfl⟩
  | fuse F =>
    have h : ‖a.sensor k v‖ ≤ F.limit := h
    exact ⟨_, _, _, item_calm (i := .fuse F) h, item_calm (i := .fuse F) (show ‖a'.sensor k v‖ ≤ F.limit by rw [hk ⟨F, rfl⟩]; exact h)⟩
  | blown F => exact absurd hb (by simp [Item.refuses])
  | cap c s hs =>
    have hv : a'.volt c.f v = a.volt c.f v := by unfold Assignment.volt; rw [ha]
    rcases h with h | ⟨h, hb, h1⟩
    · rw [hs h]
      have : ∀ V, c.adjust V = .ok (c, false) := fun V => by
        unfold Cap.adjust
        rw [h]
      exact ⟨.cap c, false, false, by rw [Item.adjust, this]; rfl, by rw [Item.adjust, this]; rfl⟩
    · rcases h1 with h1 | h1
      · have key : ∀ s, ∃ m, ({ c with switch := s } : Cap).adjust (a.volt c.f v) = .ok ({ c with switch := .closed }, m) := fun s => by
          have hl : ¬ ‖a.volt c.f v‖ < c.low := not_lt.2 (hb.trans h1.le)
          unfold Cap.adjust
          simp only [h]
          cases s with
          | opened => exact ⟨true, by rw [if_neg fun x => hl x.1, if_pos ⟨h1, rfl⟩]⟩
          | closed => exact ⟨false, by rw [if_neg fun x => hl x.1, if_neg fun x => by cases x.2]⟩
        obtain ⟨m, h2⟩ := key c.switch
        obtain ⟨m', h3⟩ := key s
        refine ⟨.cap { c with switch := .closed }, m, m', ?_, ?_⟩
        · rw [Item.adjust, show c.adjust (a.volt c.f v) = _ from h2]
          rfl
        · rw [Item.adjust]
          change (({ c with switch := s } : Cap).adjust (a'.volt c.f v) >>= _) = _
          rw [hv, h3]
          rfl
      · have key : ∀ s, ∃ m, ({ c with switch := s } : Cap).adjust (a.volt c.f v) = .ok ({ c with switch := .opened }, m) := fun s => by
          have hl : ¬ ‖a.volt c.f v‖ > c.high := not_lt.2 (h1.le.trans hb)
          unfold Cap.adjust
          simp only [h, hl, false_and, if_false, h1, true_and]
          cases s with
          | opened => exact ⟨false, by rw [if_neg fun x => by cases x]⟩
          | closed => exact ⟨true, by rw [if_pos rfl]⟩
        obtain ⟨m, h2⟩ := key c.switch
        obtain ⟨m', h3⟩ := key s
        refine ⟨.cap { c with switch := .opened }, m, m', ?_, ?_⟩
        · rw [Item.adjust, show c.adjust (a.volt c.f v) = _ from h2]
          rfl
        · rw [Item.adjust]
          change (({ c with switch := s } : Cap).adjust (a'.volt c.f v) >>= _) = _
          rw [hv, h3]
          rfl

theorem adjustItems_prompted {a a' : Assignment} {v : ℕ → ℝ} (ha : a'.nodes = a.nodes) {is js : List Item} (hs : List.Forall₂ SwitchedFrom is js) :
    ∀ k : ℕ, (∀ j ∈ js, j.refuses = false) → (∀ (n : ℕ) (F : Fuse), is[n]? = some (.fuse F) → a'.sensor (k + n) v = a.sensor (k + n) v) →
      (∀ (n : ℕ) (i : Item), is[n]? = some i → i.PromptedAt a v (k + n)) → ∃ xs m m', adjustItems a v k is = .ok (xs, m) ∧ adjustItems a' v k js = .ok (xs, m') := by
  induction hs with
  | nil => exact fun k _ _ _ => ⟨_, _, _, rfl, rfl⟩
  | @cons i j is js h1 _ ih =>
    intro k hb hk h
    obtain ⟨x, m, m', h2, h3⟩ := item_prompted ha k h1 (hb j List.mem_cons_self) (fun ⟨F, hF⟩ => hk 0 F (by rw [hF]; rfl)) (h 0 i rfl)
    obtain ⟨xs, n, n', h4, h5⟩ := ih (k + 1) (fun j hj => hb j (List.mem_cons_of_mem _ hj)) (fun n F hF => by
      rw [show k + 1 + n = k + (n + 1) by omega]
      exact hk (n + 1) F hF) fun n i hi => by
      rw [show k + 1 + n = k + (n + 1) by omega]
      exact h (n + 1) i hi
    refine ⟨x :: xs, m || n, m' || n', ?_, ?_⟩
    · rw [adjustItems, h2]
      simp only [bind, Except.bind, h4]
    · rw [adjustItems, h3]
      simp only [bind, Except.bind, h5]

/-- **C159, partial: devices set back at the start.** If the start values prompt every capacitor of a feeder and no fuse, solving again goes through the very same solves to the same
result, whatever the run before left. Missing: feeders where some capacitors are prompted and others are not. -/
theorem C159_prompted_partial {L : Library} {C : NRContext} {txStepping control : Bool} {vInit : ℕ → ℝ} {D D' : DxNet} {r : HomotopyResult Stamper} (ht : D.threePhase = true)
    (hp : ∀ (k : ℕ) (i : Item), D.items[k]? = some i → i.PromptedAt (D.network.assign L) vInit k) (h : (D.run L C txStepping control vInit).out = .ok (r, D')) :
    D'.run L C txStepping control vInit = D.run L C txStepping control vInit := by
  let P : DxNet → Prop := fun E => E.buses = D.buses ∧ E.optimization = D.optimization ∧ E.threePhase = D.threePhase ∧ List.Forall₂ SwitchedFrom D.items E.items
  have h0 : P D := ⟨rfl, rfl, rfl, List.forall₂_same.2 fun i _ => switched_self i⟩
  have hP : ∀ d v d' m, (DxNet.ops L C txStepping).adjust d v = .ok (d', m) → P d → P d' := by
    intro d v d' m hd ⟨p1, p2, p3, p4⟩
    change d.adjust L v = _ at hd
    rw [DxNet.adjust, if_pos (p3.trans ht)] at hd
    cases hq : adjustItems (d.network.assign L) v 0 d.items with
    | error e =>
      rw [hq] at hd
      cases hd
    | ok q =>
      rw [hq] at hd
      cases hd
      exact ⟨p1, p2, p3, adjustItems_switched p4 0 q.1 q.2 hq⟩
  obtain ⟨_, h2, h3⟩ := C26_device_loop (DxNet.ops L C txStepping) control vInit D
  have hout : (deviceRun (DxNet.ops L C txStepping) control vInit D).out = .ok (r, D') := h
  have hblown := C28_no_blown_fuse_partial C txStepping control vInit D D' r h
  have hD' : P D' ∧ (control = false → D' = D) ∧ ∀ i ∈ D'.items, i.refuses = false := by
    rcases h3 with ⟨e, _, _, _, h4⟩ | ⟨c, hl, he, hfirst⟩
    · exact absurd (h.symm.trans h4) (by simp)
    · have hm := List.mem_of_getLast? hl
      have hc := chain_invariant P h0 hP c hm
      have hcon : control = false → c.devices = D := fun hcf => by
        have hlen : (deviceRun (DxNet.ops L C txStepping) control vInit D).calls.length = 1 := by
          rcases hn : (deviceRun (DxNet.ops L C txStepping) control vInit D).calls with _ | ⟨x, _ | ⟨y, l⟩⟩
          · rw [hn] at hl
            cases hl
          · rfl
          · have := (h2.next 0 x y (by rw [hn]; rfl) (by rw [hn]; rfl)).1
            rw [hcf] at this
            cases this
        obtain ⟨x, hx⟩ := List.length_eq_one_iff.1 hlen
        rw [hx] at hl
        cases hl
        exact (hfirst _ (by rw [hx]; rfl)).1 hcf
      rw [hout] at he
      cases he with
      | failed _ _ _ => exact ⟨hc, hcon, hblown c hm⟩
      | uncontrolled _ _ _ _ => exact ⟨hc, hcon, hblown c hm⟩
      | settled _ _ _ _ h3 h4 =>
        have := adjust_false L c.devices D' r.v h4
        exact ⟨this ▸ hc, fun hcf => absurd (h3.symm.trans hcf) (by simp), this ▸ hblown c hm⟩
  obtain ⟨⟨p1, p2, p3, p4⟩, hcf, hgood⟩ := hD'
  cases hc : control with
  | false => rw [hcf hc]
  | true =>
    have hopt : D'.network.opt = D.network.opt := by unfold Network.opt DxNet.network; rw [p2]
    have ha : (D'.network.assign L).nodes = (D.network.assign L).nodes := by
      change (assignBuses D'.network.opt D'.buses 0).1 = (assignBuses D.network.opt D.buses 0).1
      rw [hopt, p1]
    have hsens : ∀ (n : ℕ) (F : Fuse), D.items[n]? = some (.fuse F) → (D'.network.assign L).sensor (0 + n) vInit = (D.network.assign L).sensor (0 + n) vInit := fun n F hF => by
      rw [Nat.zero_add]
      have : (D'.network.assign L).parts.getD n [] = (D.network.assign L).parts.getD n [] := by
        change (placeElements L D'.network.opt (assignBuses D'.network.opt D'.buses 0).1 (assignBuses D'.network.opt D'.buses 0).2 (D'.items.map Item.element)).1.getD n [] = _
        rw [hopt, p1]
        exact (place_switched L _ _ p4 _).2 n F hF
      unfold Assignment.sensor
      rw [this]
    obtain ⟨xs, m, m', e1, e2⟩ := adjustItems_prompted ha p4 0 hgood hsens fun n i hi => by rw [Nat.zero_add]; exact hp n i hi
    have f1 : (DxNet.ops L C txStepping).adjust D vInit = .ok ({ D with items := xs }, m) := by
      change D.adjust L vInit = _
      rw [DxNet.adjust, if_pos ht, e1]
      rfl
    have f2 : (DxNet.ops L C txStepping).adjust D' vInit = .ok ({ D with items := xs }, m') := by
      change D'.adjust L vInit = _
      rw [DxNet.adjust, if_pos (p3.trans ht), e2]
      have : ({ D' with items := xs } : DxNet) = { D with items := xs } := by
        cases D
        cases D'
        simp only at p1 p2 p3
        subst p1 p2 p3
        rfl
      rw [← this]
      rfl
    unfold DxNet.run deviceRun
    rw [if_pos rfl, if_pos rfl, f1, f2]

/-! ### A case -/

/-- The network with a fuse that carries its current, started with no current. -/
theorem strongDx_calm {L : Library} (hL : L.Loaded) : strongDx.CalmAt L fun _ => 0 := fun k i h => by
  match k with
  | 0 =>
    cases h
    trivial
  | 1 =>
    cases h
    change ‖(strongDx.network.assign L).sensor 1 fun _ => 0‖ ≤ 2
    rw [show (strongDx.network.assign L).sensor 1 (fun _ => 0) = ⟨0, 0⟩ from fuseDx_sensor hL _, show (⟨0, 0⟩ : ℂ) = 0 from rfl, norm_zero]
    norm_num
  | 2 =>
    cases h
    trivial
  | k + 3 => simp [strongDx] at h

/-- It is solved seven more times with the same success. -/
example {L : Library} (hL : L.Loaded) : ∃ r : HomotopyResult Stamper, r.success = true ∧
    SolvedTimes L (plainCtx 10) true true (fun _ => 0) 7 strongDx (List.replicate 7 r) strongDx ∧ (strongDx.run L (plainCtx 10) true true fun _ => 0).calls.length = 1 := by
  obtain ⟨r, hs, h⟩ := strongDx_run hL
  exact ⟨r, hs, (C159_again_partial h (fun _ _ => strongDx_calm hL) 7).1, C159_once_partial h fun _ _ => strongDx_calm hL⟩

/-- The same circuit with its fuse and a capacitor at the shunt, closed or not, with limits 1/2 and 2. -/
noncomputable def cappedDx (s : CapSwitch) : DxNet :=
  ⟨3, [.fixed (.slack 0 (1 + 1 / 20000) (-1 / 20000)), .fuse ⟨some 0, some 1, some 2, 2, .good⟩, .fixed (.shunt 2 1 0), .cap ⟨some 2, none, 1, .volt, 2, 1 / 2, s⟩], none, true⟩

theorem cappedDx_volt {L : Library} (s : CapSwitch) (v : ℕ → ℝ) : ((cappedDx s).network.assign L).volt (some 2) v = ⟨v 4, v 5⟩ := rfl

theorem cappedDx_sensor {L : Library} (hL : L.Loaded) (s : CapSwitch) (v : ℕ → ℝ) : ((cappedDx s).network.assign L).sensor 1 v = ⟨v 8, v 9⟩ := by
  cases s
  · exact fuseDx_sensor hL v
  · exact fuseDx_sensor hL v

/-- Started at zero, the capacitor is opened, and stays so where the circuit settles. -/
theorem cappedDx_run {L : Library} (hL : L.Loaded) : ∃ r : HomotopyResult Stamper, r.success = true ∧
    ((cappedDx .closed).run L (plainCtx 10) true true fun _ => 0).out = .ok (r, cappedDx .opened) := by
  obtain ⟨m, r, hm, hr, hs, hv⟩ := fuseNet_solve hL fun _ => 0
  have hsize : ((cappedDx .opened).network.assign L).size = (fuseNet.assign L).size := rfl
  have hall : ((cappedDx .opened).network.assign L).all = (fuseNet.assign L).all := rfl
  have hsol : (cappedDx .opened).solve L (plainCtx 10) true (fun _ => 0) = .ok r := by
    unfold DxNet.solve
    have h1 : (cappedDx .opened).items.any Item.refuses = false := rfl
    have h2 : (cappedDx .opened).network.opt = false := rfl
    rw [h1, h2, hall, hsize, hm, if_neg (by simp)]
    rw [fuseNet_size hL] at hr ⊢
    exact hr
  have h0 : (cappedDx .closed).adjust L (fun _ => 0) = .ok (cappedDx .opened, true) := by
    have hc : (Cap.mk (some 2) none 1 .volt 2 (1 / 2) .closed).adjust ⟨0, 0⟩ = .ok (⟨some 2, none, 1, .volt, 2, 1 / 2, .opened⟩, true) := by
      rw [show (⟨0, 0⟩ : ℂ) = 0 from rfl]
      unfold Cap.adjust
      simp only [norm_zero, show ((0 : ℝ) > 2) = False from eq_false (by norm_num), false_and, if_false]
      rw [if_pos ⟨by norm_num, trivial⟩]
    unfold DxNet.adjust
    rw [if_pos (show (cappedDx .closed).threePhase = true from rfl)]
    have hi : (Item.cap ⟨some 2, none, 1, .volt, 2, 1 / 2, .closed⟩).adjust ((cappedDx .closed).network.assign L) (fun _ => 0) (0 + 1 + 1 + 1) =
        .ok (.cap ⟨some 2, none, 1, .volt, 2, 1 / 2, .opened⟩, true) := by
      rw [Item.adjust]
      simp only
      rw [cappedDx_volt, hc]
      rfl
    have hf : (Item.fuse ⟨some 0, some 1, some 2, 2, .good⟩).adjust ((cappedDx .closed).network.assign L) (fun _ => 0) (0 + 1) = .ok (.fuse ⟨some 0, some 1, some 2, 2, .good⟩, false) :=
      item_calm (by
        change ‖((cappedDx .closed).network.assign L).sensor 1 fun _ => 0‖ ≤ 2
        rw [cappedDx_sensor hL, show (⟨0, 0⟩ : ℂ) = 0 from rfl, norm_zero]
        norm_num)
    generalize (cappedDx .closed).network.assign L = A at hi hf ⊢
    simp only [cappedDx, adjustItems]
    rw [hf, hi]
    rfl
  have h1 : (cappedDx .opened).adjust L r.v = .ok (cappedDx .opened, false) := adjust_calm fun _ k i h => by
    match k with
    | 0 | 2 =>
      cases h
      trivial
    | 1 =>
      cases h
      change ‖((cappedDx .opened).network.assign L).sensor 1 r.v‖ ≤ 2
      rw [cappedDx_sensor hL, hv 8 (by omega), hv 9 (by omega), show (⟨fuseNetSol 8, fuseNetSol 9⟩ : ℂ) = 1 from rfl, norm_one]
      norm_num
    | 3 =>
      cases h
      refine Or.inr ⟨rfl, ?_⟩
      simp only
      rw [cappedDx_volt, hv 4 (by omega), hv 5 (by omega), show (⟨fuseNetSol 4, fuseNetSol 5⟩ : ℂ) = 1 from rfl, norm_one]
      norm_num
    | k + 4 => simp [cappedDx] at h
  refine ⟨r, hs, ?_⟩
  unfold DxNet.run deviceRun maxDeviceIterations
  rw [if_pos rfl, show (DxNet.ops L (plainCtx 10) true).adjust (cappedDx .closed) (fun _ => 0) = _ from h0]
  simp only [deviceLoop]
  rw [show (DxNet.ops L (plainCtx 10) true).solve (cappedDx .opened) (fun _ => 0) = _ from hsol]
  simp only [show (DxNet.ops L (plainCtx 10) true).success r = true from hs, show (DxNet.ops L (plainCtx 10) true).volts r = r.v from rfl]
  rw [show (DxNet.ops L (plainCtx 10) true).adjust (cappedDx .opened) r.v = _ from h1]
  simp

/-- Solving it again, now with the capacitor open, gives the same result. -/
example {L : Library} (hL : L.Loaded) : ∃ r : HomotopyResult Stamper, r.success = true ∧ ((cappedDx .opened).run L (plainCtx 10) true true fun _ => 0).out = .ok (r, cappedDx .opened) := by
  obtain ⟨r, hs, h⟩ := cappedDx_run hL
  refine ⟨r, hs, ?_⟩
  rw [C159_prompted_partial rfl (fun k i hi => ?_) h]
  · exact h
  · match k with
    | 0 | 2 =>
      cases hi
      trivial
    | 1 =>
      cases hi
      change ‖((cappedDx .closed).network.assign L).sensor 1 fun _ => 0‖ ≤ 2
      rw [cappedDx_sensor hL, show (⟨0, 0⟩ : ℂ) = 0 from rfl, norm_zero]
      norm_num
    | 3 =>
      cases hi
      refine Or.inr ⟨rfl, by norm_num, Or.inr ?_⟩
      change ‖((cappedDx .closed).network.assign L).volt (some 2) fun _ => 0‖ < 1 / 2
      rw [cappedDx_volt, show (⟨0, 0⟩ : ℂ) = 0 from rfl, norm_zero]
      norm_num
    | k + 4 => simp [cappedDx] at hi

/-- Without control the network with a fuse is solved three times alike. -/
example {L : Library} (hL : L.Loaded) : ∃ r : HomotopyResult Stamper, r.success = true ∧ SolvedTimes L (plainCtx 10) true false (fun _ => 0) 3 strongDx (List.replicate 3 r) strongDx := by
  obtain ⟨m, r, hm, hr, hs, hv⟩ := fuseNet_solve hL fun _ => 0
  have hsol : strongDx.solve L (plainCtx 10) true (fun _ => 0) = .ok r := by
    unfold DxNet.solve
    rw [show strongDx.items.any Item.refuses = false from rfl, show strongDx.network.opt = false from rfl, show strongDx.network = fuseNet from rfl, hm, if_neg (by simp)]
    rw [fuseNet_size hL] at hr ⊢
    exact hr
  have h : (strongDx.run L (plainCtx 10) true false fun _ => 0).out = .ok (r, strongDx) := by
    unfold DxNet.run deviceRun maxDeviceIterations
    rw [if_neg (by simp), deviceLoop, show (DxNet.ops L (plainCtx 10) true).solve strongDx (fun _ => 0) = _ from hsol]
    simp only [show (DxNet.ops L (plainCtx 10) true).success r = true from hs]
    rfl
  exact ⟨r, hs, (C159_untouched (.inl rfl) h 3).2.1⟩

end Verif
