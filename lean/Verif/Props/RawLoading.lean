import Verif.Props.RawTransformers

/-!
# C75, C76, C78: system base, wind machines, and which cases load
-/

namespace Verif.Raw

/-! ### C75: one base -/

open Classical in
/-- **C75, what does hold.** In a case whose system base is 100 MVA the loaded loads, fixed shunts and machine outputs are in
per unit of the system base, the base the transformer impedances are converted to (C51, C77). Missing from the full claim:
other system bases, see `C75_base_fails`. -/
theorem C75_base_partial {c : Case} {o : Out} (hd : c.DistinctBuses) (hb : c.sbase = 100) (h : parseRaw c = .ok o) :
    (∃ own ls, o.loads = own ++ ls ∧
      List.Forall₂ (fun (r : LoadRec) (l : LoadAt) => l.bus = r.i ∧ l.l.P = r.pl / c.sbase ∧ l.l.Q = r.ql / c.sbase)
        (c.loads.filter fun r => r.Served c) ls) ∧
    (∃ own fs, o.shunts = own ++ fs ∧
      List.Forall₂ (fun (r : FixedRec) (s : ShuntAt) => s.bus = r.i ∧ s.G = r.gl / c.sbase ∧ s.B = r.bl / c.sbase)
        (c.fixed.filter fun r => r.Served c) fs) ∧
    ∀ k, total o.generators (fun x => x.bus = k) (fun x => -x.g.P) - total o.loads (fun x => x.bus = k) (fun x => x.l.P) =
      total c.generators (fun g => g.i = k ∧ g.stat = 1 ∧ c.HasType k 2) (fun g => g.pg / c.sbase) -
      total c.loads (fun r => r.i = k ∧ r.Served c) (fun r => r.pl / c.sbase) := by
  rw [hb]
  obtain ⟨own, ls, h1, -, h2⟩ := C48_loads_once hd h
  obtain ⟨own', fs, h3, -, h4⟩ := C48_shunts_once hd h
  exact ⟨⟨own, ls, h1, h2⟩, ⟨own', fs, h3, h4⟩, fun k => C47_injection_partial hd h k⟩

/-- **C75 fails**: with a system base of 50 MVA a load of 50 MW, one per unit, is loaded as one half. -/
theorem C75_base_fails : ∃ o l, parseRaw { oneLoad ⟨1, 1, 50, 0, 0, 0, 0, 0⟩ with sbase := 50 } = .ok o ∧ o.loads = [l] ∧
    l.l.P = 1 / 2 ∧ l.l.P ≠ 50 / 50 := by
  refine ⟨⟨[1], [], [], [⟨1, { P := 50 / 100, Q := 0 / 100, Z := 0, IP := 0, IQ := 0 }⟩], [], [], []⟩, _, ?_, rfl, ?_, ?_⟩
  · simp [oneLoad, parseRaw, foldPy, mapPy, loadIn, loadIntegrate, Case.offline, Case.online, Case.bus, largest, starBuses]
  · norm_num
  · norm_num

/-! ### C76: wind machines -/

theorem pySign_mul (p q : ℝ) (hq : 0 ≤ q) : 0 ≤ pySign p * q * p ∧ |pySign p * q| = (if p = 0 then 0 else q) := by
  unfold pySign
  rcases lt_trichotomy p 0 with h | rfl | h
  · rw [if_pos h, if_neg h.ne]
    refine ⟨by nlinarith, by rw [abs_mul]; simp [abs_of_nonneg hq]⟩
  · simp
  · rw [if_neg (not_lt.2 h.le), if_neg h.ne', if_neg h.ne']
    refine ⟨by nlinarith, by rw [one_mul, abs_of_nonneg hq]⟩

/-- What a machine of wind mode 3 is given as limits. -/
theorem windLimits_three {g h : GenRec} (hw : windLimits g = .ok h) (h3 : g.wmod = 3) :
    ∃ q, h.qt = q ∧ h.qb = q ∧ IsReactive g.pg g.wpf |q| ∧ (0 < g.wpf → 0 ≤ q * g.pg) ∧ (g.wpf < 0 → q * g.pg ≤ 0) := by
  unfold windLimits at hw
  rw [if_neg (by omega), if_pos h3] at hw
  split at hw
  · cases hw
  rename_i q hq
  cases hw
  unfold windQ pyDiv at hq
  split at hq
  · cases hq
  rename_i q' hq'
  split at hq'
  · cases hq'
  rename_i hf
  cases hq'
  unfold pySqrt at hq
  split at hq
  · cases hq
  rename_i hneg
  cases hq
  have hpos : 0 ≤ (g.pg / g.wpf) ^ 2 - g.pg ^ 2 := not_lt.1 hneg
  have hsq := Real.sq_sqrt hpos
  set s := Real.sqrt ((g.pg / g.wpf) ^ 2 - g.pg ^ 2) with hs
  have hs0 : 0 ≤ s := Real.sqrt_nonneg _
  have hz : g.pg = 0 → s = 0 := by
    intro h
    rw [h] at hsq
    simpa using hsq
  obtain ⟨a, b⟩ := pySign_mul g.pg s hs0
  have hab : |pySign g.pg * s| = s := by
    rw [b]
    split
    · rename_i h; exact (hz h).symm
    · rfl
  have hreact : IsReactive g.pg g.wpf s := by
    refine ⟨hs0, ?_⟩
    rw [hsq]
    field_simp
    ring
  refine ⟨_, rfl, rfl, ?_, ?_, ?_⟩
  · split
    · rw [hab]; exact hreact
    · rw [neg_mul, abs_neg, hab]; exact hreact
  · intro hp
    rw [if_pos hp]
    exact a
  · intro hp
    rw [if_neg (not_lt.2 hp.le)]
    linarith

theorem genStep_loads_mono {c : Case} {s s' : GenState} {g : GenRec} (h : genStep c s g = .ok s') :
    ∀ x ∈ s.loads, x ∈ s'.loads := by
  unfold genStep at h
  split at h
  · rcases slackStep_cases h with rfl | ⟨-, -, ⟨p, rfl⟩ | ⟨b, -, -, -, rfl⟩⟩ <;> exact fun x hx => hx
  · obtain ⟨g', hg', hc⟩ := pvStep_cases h
    rcases hc with ⟨-, rfl⟩ | ⟨-, -, -, -, rfl⟩ | ⟨-, -, -, -, -, -, rfl⟩ | ⟨-, -, -, -, rfl⟩
    · exact fun x hx => hx
    · exact fun x hx => List.mem_append_left _ hx
    · exact fun x hx => hx
    · exact fun x hx => hx

/-- A property some step establishes and every step keeps holds at the end of the loop. -/
theorem foldPy_reach {α σ : Type} {f : σ → α → Py σ} {P : σ → Prop} {l : List α} {s s' : σ} {a : α} (ha : a ∈ l)
    (hest : ∀ s s', f s a = .ok s' → P s') (hkeep : ∀ b ∈ l, ∀ s s', f s b = .ok s' → P s → P s')
    (h : foldPy f s l = .ok s') : P s' := by
  obtain ⟨l1, l2, rfl⟩ := List.append_of_mem ha
  obtain ⟨t, -, h2⟩ := foldPy_append.1 h
  rw [foldPy] at h2
  cases hf : f t a with
  | error e => rw [hf] at h2; cases h2
  | ok u =>
    rw [hf] at h2
    exact foldPy_inv (fun b hb => hkeep b (by simp [hb])) h2 (hest _ _ hf)

/-- **C76, mode 3.** A machine in service at a generator bus whose reactive power is fixed by its power factor (wind mode 3)
is loaded as a load of minus its active power and minus the reactive power of that power factor, with the sign of the active
power when the power factor is positive and the opposite sign when it is negative. -/
theorem C76_fixed_power_factor_partial {c : Case} {o : Out} (hd : c.DistinctBuses) (h : parseRaw c = .ok o) {g : GenRec}
    (hg : g ∈ c.generators) (h3 : g.wmod = 3) (hst : g.stat = 1) (ht : c.HasType g.i 2) :
    ∃ l ∈ o.loads, l.bus = g.i ∧ l.l.P = -g.pg / 100 ∧ l.l.Z = 0 ∧ l.l.IP = 0 ∧ l.l.IQ = 0 ∧
      ∃ q, l.l.Q = -q / 100 ∧ IsReactive g.pg g.wpf |q| ∧ (0 < g.wpf → 0 ≤ q * g.pg) ∧ (g.wpf < 0 → q * g.pg ≤ 0) := by
  obtain ⟨gs, sw, fs, ls, bs, x2, top, x3, h1, -, -, -, -, -, -, -, rfl⟩ := parseRaw_ok.1 h
  suffices hs : ∃ l ∈ gs.loads, l.bus = g.i ∧ l.l.P = -g.pg / 100 ∧ l.l.Z = 0 ∧ l.l.IP = 0 ∧ l.l.IQ = 0 ∧
      ∃ q, l.l.Q = -q / 100 ∧ IsReactive g.pg g.wpf |q| ∧ (0 < g.wpf → 0 ≤ q * g.pg) ∧ (g.wpf < 0 → q * g.pg ≤ 0) by
    obtain ⟨l, hl, hrest⟩ := hs
    exact ⟨l, List.mem_append_left _ hl, hrest⟩
  refine foldPy_reach (P := fun s : GenState => ∃ l ∈ s.loads, l.bus = g.i ∧ l.l.P = -g.pg / 100 ∧ l.l.Z = 0 ∧ l.l.IP = 0 ∧
    l.l.IQ = 0 ∧ ∃ q, l.l.Q = -q / 100 ∧ IsReactive g.pg g.wpf |q| ∧ (0 < g.wpf → 0 ≤ q * g.pg) ∧
      (g.wpf < 0 → q * g.pg ≤ 0)) hg ?_ ?_ h1
  · intro s s' hstep
    have hns : g.i ∉ c.slackBuses := fun hs => by
      have := hd.type (mem_slackBuses.1 hs) ht
      omega
    unfold genStep at hstep
    rw [if_neg hns] at hstep
    obtain ⟨g', hg', hc⟩ := pvStep_cases hstep
    have hdata := hg'
    unfold genData at hdata
    split at hdata
    · cases hdata
    rename_i k hk
    obtain ⟨q, e1, e2, hq⟩ := windLimits_three hk h3
    have hae : almostEqual k.qb k.qt = true := by
      rw [almostEqual_iff, e1, e2]; norm_num
    rw [if_pos hae] at hdata
    cases hdata
    rcases hc with ⟨hno, -⟩ | ⟨-, -, -, -, rfl⟩ | ⟨-, -, -, -, -, h2, -⟩ | ⟨-, -, -, hr, -⟩
    · exact absurd ⟨ht, hst⟩ hno
    · exact ⟨_, List.mem_append_right _ (List.mem_singleton.2 rfl), rfl, rfl, rfl, rfl, rfl, q, by simp [e1], hq⟩
    · omega
    · have := hr (by omega)
      simp only [e1, e2] at this
      norm_num at this
  · rintro b - s s' hstep ⟨l, hl, hrest⟩
    exact ⟨l, genStep_loads_mono hstep l hl, hrest⟩

/-- A swing bus and a machine of wind mode `m` with 80 MW, power factor 0.8 and recorded limits of 10 Mvar. -/
noncomputable def windCase (m : ℤ) : Case where
  sbase := 100
  buses := [⟨1, 3, 1, 0, 138⟩, ⟨2, 2, 1, 0, 138⟩]
  generators := [⟨2, 80, 0, 10, -10, 1, 1, m, 8 / 10⟩]
  switched := []
  fixed := []
  loads := []
  branches := []
  two := []
  three := []

theorem windCase_q (m : ℤ) : windQ ⟨2, 80, 0, 10, -10, 1, 1, m, 8 / 10⟩ = .ok 60 := by
  have : Real.sqrt ((80 / (8 / 10)) ^ 2 - 80 ^ 2) = 60 := by
    rw [show ((80 : ℝ) / (8 / 10)) ^ 2 - 80 ^ 2 = 60 ^ 2 by norm_num]
    exact Real.sqrt_sq (by norm_num)
  simp only [windQ, pyDiv, pySqrt]
  norm_num
  have h2 : Real.sqrt 3600 = 60 := by
    rw [show (3600 : ℝ) = 60 ^ 2 by norm_num]
    exact Real.sqrt_sq (by norm_num)
  exact h2

/-- **C76 fails** for machines whose limits follow from the power factor (wind mode 2): the reactive power at 80 MW and power
factor 0.8 is 60 Mvar, but the generator keeps the recorded limits of 10 Mvar. -/
theorem C76_limits_fails : IsReactive 80 (8 / 10) 60 ∧
    ∃ o x, parseRaw (windCase 2) = .ok o ∧ o.generators = [x] ∧ -x.g.Qmax = 10 / 100 ∧ -x.g.Qmax ≠ 60 / 100 := by
  refine ⟨⟨by norm_num, by norm_num⟩, ?_⟩
  have hg : genData ⟨2, 80, 0, 10, -10, 1, 1, 2, 8 / 10⟩ = .ok ⟨2, 80, 0, 10, -10, 1, 1, 2, 8 / 10⟩ := by
    have hne : almostEqual (-10) 10 = false := by
      unfold almostEqual
      norm_num
    simp only [genData, windLimits, windCase_q, if_true, hne]
    simp
  have hs : (windCase 2).slackBuses = [1] := by simp [windCase, Case.slackBuses]
  have hp : (windCase 2).pvList = [2] := by simp [windCase, Case.pvList]
  have hn : (windCase 2).online = [1, 2] := by simp [windCase, Case.online]
  have hstep : genStep (windCase 2) ⟨[], [], []⟩ ⟨2, 80, 0, 10, -10, 1, 1, 2, 8 / 10⟩ = .ok
      ⟨[], [⟨2, Generator.make (80 / 100) 1 (10 / 100) (-10 / 100) (0 / 100)⟩], []⟩ := by
    simp [genStep, hs, pvStep, hg, hp, controlling, genIntegrate, Case.bus, hn]
  refine ⟨⟨[1, 2], [], [⟨2, Generator.make (80 / 100) 1 (10 / 100) (-10 / 100) (0 / 100)⟩], [], [], [], []⟩, _, ?_, rfl, ?_, ?_⟩
  · have hgen : (windCase 2).generators = [⟨2, 80, 0, 10, -10, 1, 1, 2, 8 / 10⟩] := rfl
    have h1 : (windCase 2).switched = [] := rfl
    have h2 : (windCase 2).fixed = [] := rfl
    have h3 : (windCase 2).loads = [] := rfl
    have h4 : (windCase 2).branches = [] := rfl
    have h5 : (windCase 2).two = [] := rfl
    have h6 : (windCase 2).three = [] := rfl
    simp [parseRaw, hgen, foldPy, hstep, h1, h2, h3, h4, h5, h6, mapPy, hn, largest, starBuses]
  · simp [Generator.make]
  · norm_num [Generator.make]

/-- The hypotheses of `C76_fixed_power_factor_partial` at a machine of 80 MW and power factor 0.8: 60 Mvar. -/
example : ∃ o l, parseRaw (windCase 3) = .ok o ∧ l ∈ o.loads ∧ l.bus = 2 ∧ l.l.Q = -60 / 100 := by
  have hg : genData ⟨2, 80, 0, 10, -10, 1, 1, 3, 8 / 10⟩ = .ok ⟨2, 80, 60, 60, 60, 1, 1, 3, 8 / 10⟩ := by
    have hne : almostEqual 60 60 = true := by
      unfold almostEqual
      norm_num
    have hp : pySign 80 = 1 := by norm_num [pySign]
    simp only [genData, windLimits, windCase_q, hp]
    norm_num [hne]
  have hs : (windCase 3).slackBuses = [1] := by simp [windCase, Case.slackBuses]
  have hp : (windCase 3).pvList = [2] := by simp [windCase, Case.pvList]
  have hn : (windCase 3).online = [1, 2] := by simp [windCase, Case.online]
  have hae : almostEqual 60 60 = true := by
    unfold almostEqual
    norm_num
  have hstep : genStep (windCase 3) ⟨[], [], []⟩ ⟨2, 80, 0, 10, -10, 1, 1, 3, 8 / 10⟩ = .ok
      ⟨[], [], [⟨2, { P := -80 / 100, Q := -60 / 100, Z := 0, IP := 0, IQ := 0 }⟩]⟩ := by
    simp [genStep, hs, pvStep, hg, hp, hae, genLoad, Case.bus, hn]
  have hgen : (windCase 3).generators = [⟨2, 80, 0, 10, -10, 1, 1, 3, 8 / 10⟩] := rfl
  have h1 : (windCase 3).switched = [] := rfl
  have h2 : (windCase 3).fixed = [] := rfl
  have h3 : (windCase 3).loads = [] := rfl
  have h4 : (windCase 3).branches = [] := rfl
  have h5 : (windCase 3).two = [] := rfl
  have h6 : (windCase 3).three = [] := rfl
  have ho : ∃ o, parseRaw (windCase 3) = .ok o := by
    simp [parseRaw, hgen, foldPy, hstep, h1, h2, h3, h4, h5, h6, mapPy, hn, largest]
  obtain ⟨o, ho⟩ := ho
  obtain ⟨l, hl, hb, -, -, -, -, q, hq, ⟨hr0, hr⟩, hpos, -⟩ := C76_fixed_power_factor_partial (c := windCase 3)
    (by simp [Case.DistinctBuses, windCase]) ho (g := ⟨2, 80, 0, 10, -10, 1, 1, 3, 8 / 10⟩) (by simp [hgen]) rfl rfl
    ⟨⟨2, 2, 1, 0, 138⟩, by simp [windCase], rfl, rfl⟩
  refine ⟨o, l, ho, hl, hb, ?_⟩
  have h0 : 0 ≤ q := by
    have := hpos (by norm_num)
    simp only at this
    linarith
  rw [abs_of_nonneg h0] at hr
  simp only at hr
  have : q = 60 := by nlinarith
  rw [hq, this]

end Verif.Raw
