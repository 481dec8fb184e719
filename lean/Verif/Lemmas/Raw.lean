import Verif.Spec.Raw

/-! # Lemmas on the RAW parser -/

namespace Verif.Raw

theorem mapPy_ok {α β : Type} (f : α → Py β) : ∀ (l : List α) (r : List β),
    mapPy f l = .ok r ↔ List.Forall₂ (fun a b => f a = .ok b) l r := by
  intro l
  induction l with
  | nil => intro r; cases r <;> simp [mapPy]
  | cons a as ih =>
    intro r
    rw [mapPy]
    cases hf : f a with
    | error e => cases r <;> simp [hf]
    | ok b =>
      cases hm : mapPy f as with
      | error e =>
        cases r with
        | nil => simp
        | cons c cs =>
          simp only [List.forall₂_cons, reduceCtorEq, false_iff, not_and]
          intro _ h
          rw [(ih cs).2 h] at hm
          cases hm
      | ok bs =>
        cases r with
        | nil => simp
        | cons c cs =>
          have := ih cs
          rw [hm] at this
          simp only [Except.ok.injEq, List.cons.injEq, List.forall₂_cons, hf] at this ⊢
          rw [this]

/-- Success of a loop keeps an invariant. -/
theorem foldPy_inv {α σ : Type} {f : σ → α → Py σ} {P : σ → Prop} : ∀ {l : List α} {s s' : σ},
    (∀ a ∈ l, ∀ s s', f s a = .ok s' → P s → P s') → foldPy f s l = .ok s' → P s → P s' := by
  intro l
  induction l with
  | nil => intro s s' _ h hp; simp only [foldPy, Except.ok.injEq] at h; exact h ▸ hp
  | cons a as ih =>
    intro s s' hs h hp
    rw [foldPy] at h
    cases hf : f s a with
    | error e => rw [hf] at h; cases h
    | ok t =>
      rw [hf] at h
      exact ih (fun b hb => hs b (List.mem_cons_of_mem _ hb)) h (hs a (List.mem_cons_self ..) _ _ hf hp)

/-- Success of a loop over an appended list splits. -/
theorem foldPy_append {α σ : Type} {f : σ → α → Py σ} : ∀ {l m : List α} {s s' : σ},
    foldPy f s (l ++ m) = .ok s' ↔ ∃ t, foldPy f s l = .ok t ∧ foldPy f t m = .ok s' := by
  intro l
  induction l with
  | nil => intro m s s'; simp [foldPy]
  | cons a as ih =>
    intro m s s'
    rw [List.cons_append, foldPy, foldPy]
    cases hf : f s a with
    | error e => simp
    | ok t => simpa using ih

theorem mem_online {c : Case} {i : ℤ} : i ∈ c.online ↔ c.Energised i := by
  simp only [Case.online, Case.Energised, List.mem_map, List.mem_filter, decide_eq_true_eq]
  exact ⟨fun ⟨b, ⟨h, h2⟩, h3⟩ => ⟨b, h, h3, h2⟩, fun ⟨b, h, h3, h2⟩ => ⟨b, ⟨h, h2⟩, h3⟩⟩

theorem mem_offline {c : Case} {i : ℤ} : i ∈ c.offline ↔ c.HasType i 4 := by
  simp only [Case.offline, Case.HasType, List.mem_map, List.mem_filter, decide_eq_true_eq]
  exact ⟨fun ⟨b, ⟨h, h2⟩, h3⟩ => ⟨b, h, h3, h2⟩, fun ⟨b, h, h3, h2⟩ => ⟨b, ⟨h, h2⟩, h3⟩⟩

theorem mem_pvList {c : Case} {i : ℤ} : i ∈ c.pvList ↔ c.HasType i 2 := by
  simp only [Case.pvList, Case.HasType, List.mem_map, List.mem_filter, decide_eq_true_eq]
  exact ⟨fun ⟨b, ⟨h, h2⟩, h3⟩ => ⟨b, h, h3, h2⟩, fun ⟨b, h, h3, h2⟩ => ⟨b, ⟨h, h2⟩, h3⟩⟩

theorem mem_slackBuses {c : Case} {i : ℤ} : i ∈ c.slackBuses ↔ c.HasType i 3 := by
  simp only [Case.slackBuses, Case.HasType, List.mem_map, List.mem_filter, decide_eq_true_eq]
  exact ⟨fun ⟨b, ⟨h, h2⟩, h3⟩ => ⟨b, h, h3, h2⟩, fun ⟨b, h, h3, h2⟩ => ⟨b, ⟨h, h2⟩, h3⟩⟩

theorem bus_ok {c : Case} {i k : ℤ} : c.bus i = .ok k ↔ k = i ∧ c.Energised i := by
  rw [Case.bus, ← mem_online]
  split
  · rename_i h; simp [h, eq_comm]
  · rename_i h; simp [h]

theorem busRec_ok {c : Case} {i : ℤ} {b : BusRec} (h : c.busRec i = .ok b) : b ∈ c.buses ∧ b.i = i := by
  rw [Case.busRec] at h
  cases hf : c.buses.find? fun b => b.i = i with
  | none => rw [hf] at h; cases h
  | some x =>
    rw [hf] at h
    cases h
    exact ⟨List.mem_of_find?_eq_some hf, by simpa using List.find?_some hf⟩

theorem busRec_of_energised {c : Case} {i : ℤ} (h : ∃ b ∈ c.buses, b.i = i) : ∃ b, c.busRec i = .ok b := by
  obtain ⟨b, hb, hi⟩ := h
  rw [Case.busRec]
  cases hf : c.buses.find? fun b => b.i = i with
  | none => exact absurd hi (by simpa using List.find?_eq_none.1 hf b hb)
  | some x => exact ⟨x, rfl⟩

/-- Distinct numbers: a bus has one record. -/
theorem Case.DistinctBuses.eq {c : Case} (h : c.DistinctBuses) {a b : BusRec} (ha : a ∈ c.buses) (hb : b ∈ c.buses)
    (hi : a.i = b.i) : a = b := List.inj_on_of_nodup_map h ha hb hi

theorem Case.DistinctBuses.type {c : Case} (h : c.DistinctBuses) {i s t : ℤ} (hs : c.HasType i s) (ht : c.HasType i t) :
    s = t := by
  obtain ⟨a, ha, hai, rfl⟩ := hs
  obtain ⟨b, hb, hbi, rfl⟩ := ht
  rw [h.eq ha hb (hai.trans hbi.symm)]

theorem Case.DistinctBuses.not_off {c : Case} (h : c.DistinctBuses) {i : ℤ} (he : c.Energised i) : i ∉ c.offline := by
  rw [mem_offline]
  rintro ⟨b, hb, hbi, h4⟩
  obtain ⟨a, ha, hai, h4'⟩ := he
  exact h4' (by rw [h.eq ha hb (hai.trans hbi.symm), h4])

theorem HasType.energised {c : Case} {i t : ℤ} (h : c.HasType i t) (ht : t ≠ 4) : c.Energised i :=
  let ⟨b, hb, hi, h'⟩ := h
  ⟨b, hb, hi, h' ▸ ht⟩

theorem Case.Energised.type_ne {c : Case} (hd : c.DistinctBuses) {i : ℤ} (h : c.Energised i) : ¬ c.HasType i 4 :=
  fun h4 => hd.not_off h (mem_offline.2 h4)

/-! ### The whole parser -/

theorem parseRaw_ok {c : Case} {o : Out} : parseRaw c = .ok o ↔ ∃ g sw fs ls bs x2 top x3,
    foldPy (genStep c) ⟨[], [], []⟩ c.generators = .ok g ∧
    foldPy (switchedStep c) (g.gens, []) c.switched = .ok sw ∧
    mapPy (fixedIntegrate c) (c.fixed.filter (fixedIn c)) = .ok fs ∧
    mapPy (loadIntegrate c) (c.loads.filter (loadIn c)) = .ok ls ∧
    mapPy (branchIntegrate c) (c.branches.filter (branchIn c)) = .ok bs ∧
    mapPy (twoIntegrate c) (c.two.filter (twoIn c)) = .ok x2 ∧
    largest c.online = .ok top ∧
    mapPy (threeIntegrate c) (c.three.filter threeIn) = .ok x3 ∧
    o = { buses := c.online ++ starBuses (1000000 + top) x3, slack := g.slack, generators := sw.1, loads := g.loads ++ ls
          shunts := sw.2 ++ fs, branches := bs, xfmrs := x2.filterMap id ++ x3.flatten } := by
  unfold parseRaw
  cases h1 : foldPy (genStep c) ⟨[], [], []⟩ c.generators with
  | error e => simp
  | ok g =>
  cases h2 : foldPy (switchedStep c) (g.gens, []) c.switched with
  | error e => simp [h2]
  | ok sw =>
  cases h3 : mapPy (fixedIntegrate c) (c.fixed.filter (fixedIn c)) with
  | error e => simp [h2]
  | ok fs =>
  cases h4 : mapPy (loadIntegrate c) (c.loads.filter (loadIn c)) with
  | error e => simp [h2]
  | ok ls =>
  cases h5 : mapPy (branchIntegrate c) (c.branches.filter (branchIn c)) with
  | error e => simp [h2]
  | ok bs =>
  cases h6 : mapPy (twoIntegrate c) (c.two.filter (twoIn c)) with
  | error e => simp [h2]
  | ok x2 =>
  cases h7 : largest c.online with
  | error e => simp [h2]
  | ok top =>
  cases h8 : mapPy (threeIntegrate c) (c.three.filter threeIn) with
  | error e => simp [h2]
  | ok x3 =>
    simp only [h2, Except.ok.injEq]
    constructor
    · intro h; exact ⟨g, sw, fs, ls, bs, x2, top, x3, rfl, h2, rfl, rfl, rfl, rfl, rfl, rfl, h.symm⟩
    · rintro ⟨g', sw', fs', ls', bs', x2', top', x3', rfl, h2', rfl, rfl, rfl, rfl, rfl, rfl, h⟩
      rw [h2] at h2'
      cases h2'
      exact h.symm

/-! ### Generators -/

theorem almostEqual_iff (a b : ℝ) : almostEqual a b = true ↔ |b - a| < 1 / 1000000 := by simp [almostEqual]

theorem windLimits_keeps {g h : GenRec} (hw : windLimits g = .ok h) :
    h.i = g.i ∧ h.pg = g.pg ∧ h.vs = g.vs ∧ h.stat = g.stat ∧ h.wmod = g.wmod ∧ h.wpf = g.wpf ∧
    (g.wmod ≠ 3 → h = g) := by
  unfold windLimits at hw
  split at hw
  · split at hw
    · cases hw
    · cases hw; exact ⟨rfl, rfl, rfl, rfl, rfl, rfl, fun _ => rfl⟩
  · split at hw
    · split at hw
      · cases hw
      · rename_i h3 _ _ _
        simp only [Except.ok.injEq] at hw
        subst hw
        exact ⟨rfl, rfl, rfl, rfl, rfl, rfl, fun h => absurd h3 h⟩
    · cases hw; exact ⟨rfl, rfl, rfl, rfl, rfl, rfl, fun _ => rfl⟩

theorem genData_keeps {g h : GenRec} (hg : genData g = .ok h) :
    h.i = g.i ∧ h.pg = g.pg ∧ h.vs = g.vs ∧ h.stat = g.stat ∧ h.wmod = g.wmod ∧ h.wpf = g.wpf ∧
    (g.wmod ≠ 3 → h.qt = g.qt ∧ h.qb = g.qb) := by
  unfold genData at hg
  split at hg
  · cases hg
  · rename_i k hk
    have := windLimits_keeps hk
    simp only [Except.ok.injEq] at hg
    subst hg
    split
    · refine ⟨this.1, this.2.1, this.2.2.1, this.2.2.2.1, this.2.2.2.2.1, this.2.2.2.2.2.1, fun h => ?_⟩
      have := this.2.2.2.2.2.2 h
      subst this
      exact ⟨rfl, rfl⟩
    · refine ⟨this.1, this.2.1, this.2.2.1, this.2.2.2.1, this.2.2.2.2.1, this.2.2.2.2.2.1, fun h => ?_⟩
      have := this.2.2.2.2.2.2 h
      subst this
      exact ⟨rfl, rfl⟩

theorem genData_plain {g : GenRec} (h2 : g.wmod ≠ 2) (h3 : g.wmod ≠ 3) :
    genData g = .ok (if almostEqual g.qb g.qt then { g with qg := g.qt } else g) := by
  simp [genData, windLimits, h2, h3]

theorem genLoad_ok {c : Case} {g : GenRec} {l : LoadAt} : genLoad c g = .ok l ↔
    c.Energised g.i ∧ l = ⟨g.i, { P := -g.pg / 100, Q := -g.qg / 100, Z := 0, IP := 0, IQ := 0 }⟩ := by
  unfold genLoad
  cases hb : c.bus g.i with
  | error e =>
    simp only [reduceCtorEq, false_iff, not_and]
    intro he
    have := bus_ok.2 ⟨rfl, he⟩
    rw [hb] at this
    cases this
  | ok b =>
    obtain ⟨rfl, he⟩ := bus_ok.1 hb
    simp [he, eq_comm]

theorem genIntegrate_ok {c : Case} {g : GenRec} {x : GenAt} : genIntegrate c g = .ok x ↔
    c.Energised g.i ∧ x = ⟨g.i, Generator.make (g.pg / 100) g.vs (g.qt / 100) (g.qb / 100) (g.qg / 100)⟩ := by
  unfold genIntegrate
  cases hb : c.bus g.i with
  | error e =>
    simp only [reduceCtorEq, false_iff, not_and]
    intro he
    have := bus_ok.2 ⟨rfl, he⟩
    rw [hb] at this
    cases this
  | ok b =>
    obtain ⟨rfl, he⟩ := bus_ok.1 hb
    simp [he, eq_comm]

/-- What a successful step on a generator away from the swing buses does. -/
theorem pvStep_cases {c : Case} {s s' : GenState} {gen : GenRec} (h : pvStep c s gen = .ok s') :
    ∃ g, genData gen = .ok g ∧
    ((¬(c.HasType gen.i 2 ∧ gen.stat = 1) ∧ s' = s) ∨
     (c.HasType gen.i 2 ∧ gen.stat = 1 ∧ |g.qb - g.qt| < 1 / 1000000 ∧ gen.wmod ≠ 2 ∧
        s' = { s with loads := s.loads ++ [⟨gen.i, { P := -gen.pg / 100, Q := -g.qg / 100, Z := 0, IP := 0, IQ := 0 }⟩] }) ∨
     (c.HasType gen.i 2 ∧ gen.stat = 1 ∧ gen.pg = 0 ∧ g.qt = 0 ∧ g.qb = 0 ∧ gen.wmod = 2 ∧ s' = s) ∨
     (c.HasType gen.i 2 ∧ gen.stat = 1 ∧ controlling s.gens gen.i = false ∧
        (gen.wmod ≠ 2 → 1 / 1000000 ≤ |g.qb - g.qt|) ∧
        s' = { s with gens := s.gens ++
          [⟨gen.i, Generator.make (gen.pg / 100) gen.vs (g.qt / 100) (g.qb / 100) (g.qg / 100)⟩] })) := by
  unfold pvStep at h
  split at h
  · cases h
  · rename_i g hg
    refine ⟨g, hg, ?_⟩
    obtain ⟨hi, hp, hv, hst, hw, hf, hq⟩ := genData_keeps hg
    rw [hi, hst] at h
    split at h
    · rename_i hin
      rw [mem_pvList] at hin
      split at h
      · rename_i ha
        rw [almostEqual_iff] at ha
        split at h
        · cases h
        · rename_i l hl
          obtain ⟨he, rfl⟩ := genLoad_ok.1 hl
          cases h
          right; left
          exact ⟨hin.1, hin.2, ha.1, ha.2, by rw [hi, hp]⟩
      · rename_i ha
        rw [almostEqual_iff] at ha
        split at h
        · rename_i hz
          right; right; left
          cases h
          refine ⟨hin.1, hin.2, by rw [← hp]; exact hz.1, hz.2.1, hz.2.2, ?_, rfl⟩
          by_contra h2
          exact ha ⟨by rw [hz.2.1, hz.2.2]; norm_num, h2⟩
        · split at h
          · cases h
          · rename_i hcon
            split at h
            · cases h
            · rename_i x hx
              obtain ⟨he, rfl⟩ := genIntegrate_ok.1 hx
              cases h
              right; right; right
              refine ⟨hin.1, hin.2, by simpa using hcon, ?_, by rw [hi, hp, hv]⟩
              intro h2
              by_contra hlt
              exact ha ⟨lt_of_not_ge hlt, h2⟩
    · rename_i hin
      rw [mem_pvList] at hin
      left
      cases h
      exact ⟨hin, rfl⟩

/-- What a successful step on a generator at a swing bus does. -/
theorem slackStep_cases {c : Case} {s s' : GenState} {g : GenRec} (h : slackStep c s g = .ok s') :
    s' = s ∨ (g.stat = 1 ∧ g.i ∉ c.offline ∧ (
      (∃ p, s' = { s with slack := s.slack.map fun x => if x.bus = g.i then { x with Pinit := x.Pinit + p } else x }) ∨
      (∃ b ∈ c.buses, b.i = g.i ∧ c.Energised g.i ∧
        s' = { s with slack := s.slack ++ [⟨g.i, g.vs, b.va * Real.pi / 180, g.pg / 100, g.qg / 100⟩] }))) := by
  unfold slackStep at h
  split at h
  · cases h
  · rename_i b hb
    obtain ⟨hb1, hb2⟩ := busRec_ok hb
    split at h
    · rename_i hin
      right
      refine ⟨hin.2, hin.1, ?_⟩
      split at h
      · split at h
        · cases h
        · rename_i l hl
          left
          unfold addPinit at hl
          split at hl
          · cases hl
          · rename_i p _
            cases hl
            cases h
            exact ⟨p, rfl⟩
      · split at h
        · cases h
        · rename_i k hk
          obtain ⟨rfl, he⟩ := bus_ok.1 hk
          cases h
          right
          exact ⟨b, hb1, hb2, he, rfl⟩
    · left; cases h; rfl

/-- What a successful step on a switched shunt does. -/
theorem switchedStep_cases {c : Case} {s s' : List GenAt × List ShuntAt} {r : SwitchedRec}
    (h : switchedStep c s r = .ok s') :
    (¬(r.i ∉ c.offline ∧ r.stat = 1) ∧ s' = s) ∨
    (r.i ∉ c.offline ∧ r.stat = 1 ∧ c.Energised r.i ∧
      ((r.modsw = 2 ∧ controlling s.1 r.i = false ∧
        ∃ g, genData (continuousGen r) = .ok g ∧ s' = (s.1 ++
          [⟨r.i, Generator.make (0 / 100) ((r.vswhi + r.vswlo) / 2) (g.qt / 100) (g.qb / 100) (g.qg / 100)⟩], s.2)) ∨
       (r.modsw ≠ 2 ∧ s' = (s.1, s.2 ++ [⟨r.i, 0 / 100, r.binit / 100⟩])))) := by
  unfold switchedStep at h
  split at h
  · rename_i hin
    right
    refine ⟨hin.1, hin.2, ?_⟩
    split at h
    · rename_i hm
      split at h
      · cases h
      · rename_i hcon
        split at h
        · cases h
        · rename_i g hg
          obtain ⟨hi, hp, hv, -⟩ := genData_keeps hg
          have hi : g.i = r.i := hi
          have hp : g.pg = 0 := hp
          have hv : g.vs = (r.vswhi + r.vswlo) / 2 := hv
          split at h
          · cases h
          · rename_i x hx
            obtain ⟨he, rfl⟩ := genIntegrate_ok.1 hx
            cases h
            rw [hi] at he
            refine ⟨he, Or.inl ⟨hm, by simpa using hcon, g, hg, by rw [hi, hp, hv]⟩⟩
    · rename_i hm
      split at h
      · cases h
      · rename_i b hb
        obtain ⟨rfl, he⟩ := bus_ok.1 hb
        cases h
        exact ⟨he, Or.inr ⟨hm, rfl⟩⟩
  · rename_i hin; left; cases h; exact ⟨hin, rfl⟩

theorem fixedIntegrate_ok {c : Case} {r : FixedRec} {s : ShuntAt} : fixedIntegrate c r = .ok s ↔
    c.Energised r.i ∧ s = ⟨r.i, r.gl / 100, r.bl / 100⟩ := by
  unfold fixedIntegrate
  cases hb : c.bus r.i with
  | error e =>
    simp only [reduceCtorEq, false_iff, not_and]
    intro he
    have := bus_ok.2 ⟨rfl, he⟩
    rw [hb] at this
    cases this
  | ok b =>
    obtain ⟨rfl, he⟩ := bus_ok.1 hb
    simp [he, eq_comm]

theorem loadIntegrate_ok {c : Case} {r : LoadRec} {l : LoadAt} : loadIntegrate c r = .ok l ↔
    c.Energised r.i ∧ l = ⟨r.i, { P := r.pl / 100, Q := r.ql / 100, Z := 0, IP := r.ip, IQ := r.iq }⟩ := by
  unfold loadIntegrate
  cases hb : c.bus r.i with
  | error e =>
    simp only [reduceCtorEq, false_iff, not_and]
    intro he
    have := bus_ok.2 ⟨rfl, he⟩
    rw [hb] at this
    cases this
  | ok b =>
    obtain ⟨rfl, he⟩ := bus_ok.1 hb
    simp [he, eq_comm]

theorem branchIntegrate_ok {c : Case} {r : BranchRec} {l : LineAt} : branchIntegrate c r = .ok l ↔
    c.Energised r.i ∧ c.Energised r.j ∧ r.x ^ 2 + r.r ^ 2 ≠ 0 ∧ (r.gi = 0 ∧ r.bi = 0 ∧ r.gj = 0 ∧ r.bj = 0) ∧
    l = ⟨r.i, r.j, r.r / (r.x ^ 2 + r.r ^ 2), -r.x / (r.x ^ 2 + r.r ^ 2), r.b / 2⟩ := by
  unfold branchIntegrate
  cases hb : c.bus r.i with
  | error e =>
    simp only [reduceCtorEq, false_iff, not_and]
    intro he
    have := bus_ok.2 ⟨rfl, he⟩
    rw [hb] at this
    cases this
  | ok f =>
    obtain ⟨rfl, he⟩ := bus_ok.1 hb
    cases hb' : c.bus r.j with
    | error e =>
      simp only [reduceCtorEq, false_iff, not_and]
      intro _ he
      have := bus_ok.2 ⟨rfl, he⟩
      rw [hb'] at this
      cases this
    | ok t =>
      obtain ⟨rfl, he'⟩ := bus_ok.1 hb'
      unfold makeLine
      by_cases hz : r.x ^ 2 + r.r ^ 2 = 0
      · simp [hz]
      · by_cases hs : r.gi = 0 ∧ r.bi = 0 ∧ r.gj = 0 ∧ r.bj = 0
        · simp [hz, hs, he, he', eq_comm]
        · have : r.gi ≠ 0 ∨ r.bi ≠ 0 ∨ r.gj ≠ 0 ∨ r.bj ≠ 0 := by
            by_contra hc
            push Not at hc
            exact hs hc
          simp [hz, hs, this]

/-! ### Transformers -/

theorem makeXfmr_ok {f t : ℤ} {r x tr ang gsh bsh : ℝ} {o : XfmrAt} : makeXfmr f t r x tr ang gsh bsh = .ok o ↔
    r ^ 2 + x ^ 2 ≠ 0 ∧
    o = ⟨f, t, r, x, tr, ang * Real.pi / 180, r / (r ^ 2 + x ^ 2), -x / (r ^ 2 + x ^ 2), gsh, bsh⟩ := by
  unfold makeXfmr
  by_cases hz : r ^ 2 + x ^ 2 = 0
  · simp [hz]
  · simp [hz, eq_comm]

/-- What `TwoWindingXfmrs.__init__` computed. -/
theorem twoData_ok {c : Case} {r : TwoRec} {d : ℝ × (ℝ × ℝ) × (ℝ × ℝ)} (h : twoData c r = .ok d) :
    c.sbase ≠ 0 ∧ ∃ bi bj ti tj, c.busRec r.i = .ok bi ∧ c.busRec r.j = .ok bj ∧
    turnsOf r.cw r.w1.windv (if 0 < r.w1.nomv then r.w1.nomv else bi.baskv) bi.baskv = .ok ti ∧
    turnsOf r.cw r.windv2 (if 0 < r.nomv2 then r.nomv2 else bj.baskv) bj.baskv = .ok tj ∧
    tj ≠ 0 ∧ d.1 = ti / tj ∧ impedanceOf r.cz r.z12 c.sbase (tj * tj) = .ok d.2.1 ∧
    magnetizing r.cm r.mag1 r.mag2 r.z12.sbase c.sbase = .ok d.2.2 := by
  unfold twoData at h
  split at h
  · cases h
  rename_i hs
  split at h
  · cases h
  rename_i bi hbi
  split at h
  · cases h
  rename_i bj hbj
  split at h
  · cases h
  rename_i ti hti
  split at h
  · cases h
  rename_i tj htj
  split at h
  · cases h
  rename_i tr htr
  split at h
  · cases h
  split at h
  · cases h
  rename_i z hz
  split at h
  · cases h
  rename_i m hm
  cases h
  refine ⟨hs, bi, bj, ti, tj, hbi, hbj, hti, htj, ?_, ?_, hz, hm⟩
  · rintro rfl; simp [pyDiv] at htr
  · unfold pyDiv at htr
    split at htr
    · cases htr
    · cases htr; rfl

theorem twoIntegrate_some {c : Case} {r : TwoRec} {x : XfmrAt} : twoIntegrate c r = .ok (some x) ↔
    ∃ d, twoData c r = .ok d ∧ r.stat ≠ 0 ∧ c.Energised r.i ∧ c.Energised r.j ∧
      makeXfmr r.i r.j d.2.1.1 d.2.1.2 d.1 r.w1.ang d.2.2.1 d.2.2.2 = .ok x := by
  unfold twoIntegrate
  cases hd : twoData c r with
  | error e => simp
  | ok d =>
    by_cases hs : r.stat = 0
    · simp [hs]
    cases hb : c.bus r.i with
    | error e =>
      simp only [hs, if_false, reduceCtorEq, false_iff]
      rintro ⟨d', -, -, he, -⟩
      have := bus_ok.2 ⟨rfl, he⟩
      rw [hb] at this
      cases this
    | ok f =>
      obtain ⟨rfl, he⟩ := bus_ok.1 hb
      cases hb' : c.bus r.j with
      | error e =>
        simp only [hs, if_false, reduceCtorEq, false_iff]
        rintro ⟨d', -, -, -, he, -⟩
        have := bus_ok.2 ⟨rfl, he⟩
        rw [hb'] at this
        cases this
      | ok t =>
        obtain ⟨rfl, he'⟩ := bus_ok.1 hb'
        cases hx : makeXfmr r.i r.j d.2.1.1 d.2.1.2 d.1 r.w1.ang d.2.2.1 d.2.2.2 with
        | error e => simp [hs, hx]
        | ok x' => simp [hs, hx, he, he']

theorem twoIntegrate_none {c : Case} {r : TwoRec} (h : twoIntegrate c r = .ok none) : r.stat = 0 := by
  unfold twoIntegrate at h
  split at h
  · cases h
  split at h
  · assumption
  split at h
  · cases h
  split at h
  · cases h
  split at h
  · cases h
  · cases h

end Verif.Raw
