import Verif.Props.RawLoads

/-!
# C80: reactive limits of loaded generators

What a generator object injects is minus its `P` and `Q`, so its limits are read with the sign turned.
-/

namespace Verif.Raw

theorem genStep_gens_mono {c : Case} {s s' : GenState} {g : GenRec} (h : genStep c s g = .ok s') :
    ∀ x ∈ s.gens, x ∈ s'.gens := by
  unfold genStep at h
  split at h
  · rcases slackStep_cases h with rfl | ⟨-, -, ⟨p, rfl⟩ | ⟨b, -, -, -, rfl⟩⟩ <;> exact fun x hx => hx
  · obtain ⟨g', hg', hc⟩ := pvStep_cases h
    rcases hc with ⟨-, rfl⟩ | ⟨-, -, -, -, rfl⟩ | ⟨-, -, -, -, -, -, rfl⟩ | ⟨-, -, -, -, rfl⟩
    · exact fun x hx => hx
    · exact fun x hx => hx
    · exact fun x hx => hx
    · exact fun x hx => List.mem_append_left _ hx

theorem switchedStep_gens_mono {c : Case} {s s' : List GenAt × List ShuntAt} {r : SwitchedRec}
    (h : switchedStep c s r = .ok s') : ∀ x ∈ s.1, x ∈ s'.1 := by
  rcases switchedStep_cases h with ⟨-, rfl⟩ | ⟨-, -, -, ⟨-, -, g, -, rfl⟩ | ⟨-, rfl⟩⟩
  · exact fun x hx => hx
  · exact fun x hx => List.mem_append_left _ hx
  · exact fun x hx => hx

/-- **C80, machines.** Every machine that holds the voltage of its bus is loaded as a generator there that injects its
recorded active power, starts from its recorded reactive power, holds its set point and has its recorded reactive limits, all
in per unit of 100 MVA. -/
theorem C80_machine_limits {c : Case} {o : Out} (hd : c.DistinctBuses) (h : parseRaw c = .ok o) {g : GenRec}
    (hg : g ∈ c.generators) (hr : g.Regulates c) :
    ∃ x ∈ o.generators, x.bus = g.i ∧ x.g.Vset = g.vs ∧ -x.g.P = g.pg / 100 ∧ -x.g.Qinit = g.qg / 100 ∧
      -x.g.Qmax = g.qt / 100 ∧ -x.g.Qmin = g.qb / 100 := by
  obtain ⟨gs, sw, fs, ls, bs, x2, top, x3, h1, h2, -, -, -, -, -, -, rfl⟩ := parseRaw_ok.1 h
  obtain ⟨ht, hst, w2, w3, hrange⟩ := hr
  have key : ∃ x ∈ gs.gens, x.bus = g.i ∧ x.g.Vset = g.vs ∧ -x.g.P = g.pg / 100 ∧ -x.g.Qinit = g.qg / 100 ∧
      -x.g.Qmax = g.qt / 100 ∧ -x.g.Qmin = g.qb / 100 := by
    refine foldPy_reach (P := fun s : GenState => ∃ x ∈ s.gens, x.bus = g.i ∧ x.g.Vset = g.vs ∧ -x.g.P = g.pg / 100 ∧
      -x.g.Qinit = g.qg / 100 ∧ -x.g.Qmax = g.qt / 100 ∧ -x.g.Qmin = g.qb / 100) hg ?_ ?_ h1
    · intro s s' hstep
      have hns : g.i ∉ c.slackBuses := fun hs => by
        have := hd.type (mem_slackBuses.1 hs) ht
        omega
      unfold genStep at hstep
      rw [if_neg hns] at hstep
      obtain ⟨g', hg', hc⟩ := pvStep_cases hstep
      rw [genData_plain w2 w3] at hg'
      have hne : ¬ almostEqual g.qb g.qt = true := by
        rw [almostEqual_iff, not_lt, abs_of_nonneg (by linarith)]
        linarith
      rw [if_neg hne] at hg'
      cases hg'
      rcases hc with ⟨hno, -⟩ | ⟨-, -, hlt, -, -⟩ | ⟨-, -, -, -, -, w, -⟩ | ⟨-, -, -, -, rfl⟩
      · exact absurd ⟨ht, hst⟩ hno
      · exact absurd ((almostEqual_iff _ _).2 (by rw [abs_sub_comm]; exact hlt)) hne
      · exact absurd w w2
      · exact ⟨_, List.mem_append_right _ (List.mem_singleton.2 rfl), rfl, rfl, by simp [Generator.make],
          by simp [Generator.make], by simp [Generator.make], by simp [Generator.make]⟩
    · rintro b - s s' hstep ⟨x, hx, hrest⟩
      exact ⟨x, genStep_gens_mono hstep x hx, hrest⟩
  obtain ⟨x, hx, hrest⟩ := key
  exact ⟨x, foldPy_inv (P := fun s : List GenAt × List ShuntAt => x ∈ s.1)
    (fun a _ s s' hs hx => switchedStep_gens_mono hs x hx) h2 hx, hrest⟩

/-- **C80, switched shunts.** Every continuous switched shunt in service is loaded as a generator without active power that
holds the middle of its voltage range; its reactive limits are those of its blocks at the upper end of the voltage range. The
blocks must be non-zero up to trailing zeros (otherwise see `C50_sums_fails`). -/
theorem C80_shunt_limits {c : Case} {o : Out} (hd : c.DistinctBuses) (h : parseRaw c = .ok o) {r : SwitchedRec}
    (hm : r ∈ c.switched) (hr : r.Regulates c) {lead : List (ℤ × ℝ)} {k : ℕ}
    (hb : r.blocks = lead ++ List.replicate k (0, 0)) (hl : ∀ nb ∈ lead, (nb.1 : ℝ) * nb.2 ≠ 0) :
    ∃ x ∈ o.generators, x.bus = r.i ∧ x.g.Vset = (r.vswhi + r.vswlo) / 2 ∧ x.g.P = 0 ∧
      -x.g.Qmax = capacitorSum r.blocks * r.vswhi ^ 2 / 100 ∧ -x.g.Qmin = reactorSum r.blocks * r.vswhi ^ 2 / 100 := by
  obtain ⟨gs, sw, fs, ls, bs, x2, top, x3, h1, h2, -, -, -, -, -, -, rfl⟩ := parseRaw_ok.1 h
  have hlim := C50_trailing_partial lead k hl
  rw [← hb] at hlim
  refine foldPy_reach (P := fun s : List GenAt × List ShuntAt => ∃ x ∈ s.1, x.bus = r.i ∧
    x.g.Vset = (r.vswhi + r.vswlo) / 2 ∧ x.g.P = 0 ∧ -x.g.Qmax = capacitorSum r.blocks * r.vswhi ^ 2 / 100 ∧
    -x.g.Qmin = reactorSum r.blocks * r.vswhi ^ 2 / 100) hm ?_ ?_ h2
  · intro s s' hstep
    rcases switchedStep_cases hstep with ⟨hno, -⟩ | ⟨-, -, -, ⟨-, -, g, hg, rfl⟩ | ⟨hno, -⟩⟩
    · exact absurd ⟨hd.not_off hr.2.2, hr.2.1⟩ hno
    · have e : g.qt = capacitorSum r.blocks * r.vswhi ^ 2 ∧ g.qb = reactorSum r.blocks * r.vswhi ^ 2 := by
        rw [genData_plain (by simp [continuousGen]) (by simp [continuousGen])] at hg
        cases hg
        split <;> simp [continuousGen, hlim]
      refine ⟨_, List.mem_append_right _ (List.mem_singleton.2 rfl), rfl, rfl, by simp [Generator.make], ?_, ?_⟩
      · simp [Generator.make, e.1]
      · simp [Generator.make, e.2]
    · exact absurd hr.1 hno
  · rintro b - s s' hstep ⟨x, hx, hrest⟩
    exact ⟨x, switchedStep_gens_mono hstep x hx, hrest⟩

/-- The machine of the small case is loaded with its limits of 50 Mvar. -/
example : ∃ o, parseRaw smallCase = .ok o ∧ ∃ x ∈ o.generators, x.bus = 2 ∧ -x.g.Qmax = 50 / 100 ∧ -x.g.Qmin = -50 / 100 := by
  obtain ⟨o, h⟩ := C78_supported_loads_partial smallCase_supported
  obtain ⟨x, hx, h1, -, -, -, h2, h3⟩ := C80_machine_limits smallCase_supported.distinct h
    (g := ⟨2, 40, 0, 50, -50, 1, 1, 0, 1⟩) (by simp [smallCase])
    ⟨⟨⟨2, 2, 1, 0, 138⟩, by simp [smallCase], rfl, rfl⟩, rfl, by norm_num, by norm_num, by norm_num⟩
  exact ⟨o, h, x, hx, h1, h2, h3⟩

/-- The small case with a continuous switched shunt of one reactor of 10 Mvar and two capacitors of 20 Mvar. -/
noncomputable def shuntCase : Case :=
  { smallCase with generators := [], fixed := [], loads := [], branches := [], two := [],
                   switched := [⟨3, 2, 1, 11 / 10, 9 / 10, 0, [(1, -10), (2, 20), (0, 0)]⟩] }

/-- The hypotheses of `C80_shunt_limits`. -/
example : ∃ o, parseRaw shuntCase = .ok o ∧ ∃ x ∈ o.generators, x.bus = 3 ∧ x.g.Vset = 1 ∧
    -x.g.Qmax = 40 * (11 / 10) ^ 2 / 100 ∧ -x.g.Qmin = -10 * (11 / 10) ^ 2 / 100 := by
  have hd : shuntCase.DistinctBuses := by simp [Case.DistinctBuses, shuntCase, smallCase]
  have he : shuntCase.Energised 3 := by simp [Case.Energised, shuntCase, smallCase]
  obtain ⟨o, h⟩ := C78_supported_loads_partial (c := shuntCase) (by
    constructor
    · exact hd
    · exact ⟨3, he⟩
    · norm_num [shuntCase, smallCase]
    · simp [shuntCase]
    · have : ∀ (p : SwitchedRec → Bool) (a : SwitchedRec), (([a].filter p).map SwitchedRec.i).Nodup := by
        intro p a
        rw [List.filter_cons]
        split <;> simp
      simpa [shuntCase] using this _ _
    · intro r hr _
      simp only [shuntCase, List.mem_cons, List.not_mem_nil, or_false] at hr
      subst hr
      simp [Case.Known, shuntCase, smallCase]
    all_goals simp [shuntCase, smallCase])
  obtain ⟨x, hx, h1, h2, -, h3, h4⟩ := C80_shunt_limits hd h (r := ⟨3, 2, 1, 11 / 10, 9 / 10, 0, [(1, -10), (2, 20), (0, 0)]⟩)
    (by simp [shuntCase]) ⟨rfl, rfl, he⟩ (lead := [(1, -10), (2, 20)]) (k := 1) rfl (by norm_num)
  refine ⟨o, h, x, hx, h1, ?_, ?_, ?_⟩
  · rw [h2]; norm_num
  · rw [h3]; norm_num [capacitorSum]
  · rw [h4]; norm_num [reactorSum]

end Verif.Raw
