import Verif.Spec.RawPowerFlow
import Verif.Props.RawLoads

/-!
# What the loops over machines and switched shunts leave behind
-/

namespace Verif.Raw

/-- A step on a machine at a swing bus, told apart by whether the bus has a source already. -/
theorem slackStep_full {c : Case} (hd : c.DistinctBuses) {s s' : GenState} {g : GenRec} (h3 : c.HasType g.i 3)
    (h : slackStep c s g = .ok s') :
    (g.stat ≠ 1 ∧ s' = s) ∨
    (g.stat = 1 ∧ g.i ∈ s.slack.map SlackAt.bus ∧ ∃ p,
      s' = { s with slack := s.slack.map fun x => if x.bus = g.i then { x with Pinit := x.Pinit + p } else x }) ∨
    (g.stat = 1 ∧ g.i ∉ s.slack.map SlackAt.bus ∧ ∃ b ∈ c.buses, b.i = g.i ∧
      s' = { s with slack := s.slack ++ [⟨g.i, g.vs, b.va * Real.pi / 180, g.pg / 100, g.qg / 100⟩] }) := by
  have hoff : g.i ∉ c.offline := hd.not_off (HasType.energised h3 (by norm_num))
  have hany : (s.slack.any fun x => x.bus = g.i) = true ↔ g.i ∈ s.slack.map SlackAt.bus := by
    simp [List.any_eq_true]
  unfold slackStep at h
  split at h
  · cases h
  · rename_i b hb
    obtain ⟨hb1, hb2⟩ := busRec_ok hb
    split at h
    · rename_i hin
      right
      split at h
      · rename_i ha
        left
        refine ⟨hin.2, hany.1 ha, ?_⟩
        split at h
        · cases h
        · rename_i l hl
          unfold addPinit at hl
          split at hl
          · cases hl
          · rename_i p _
            cases hl
            cases h
            exact ⟨p, rfl⟩
      · rename_i ha
        right
        refine ⟨hin.2, fun hm => ha (hany.2 hm), ?_⟩
        split at h
        · cases h
        · rename_i k hk
          obtain ⟨rfl, he⟩ := bus_ok.1 hk
          cases h
          exact ⟨b, hb1, hb2, rfl⟩
    · rename_i hin
      left
      cases h
      exact ⟨fun hst => hin ⟨hoff, hst⟩, rfl⟩

/-- The swing sources: one per swing bus with a machine in service, with the set point of the first such machine. -/
theorem slack_inv {c : Case} (hd : c.DistinctBuses) : ∀ (l : List GenRec) {s : GenState},
    foldPy (genStep c) ⟨[], [], []⟩ l = .ok s →
    (s.slack.map SlackAt.bus).Nodup ∧
    (∀ x ∈ s.slack, c.HasType x.bus 3 ∧ ∃ g, l.find? (fun g => g.i = x.bus ∧ g.stat = 1) = some g ∧
      ∃ b ∈ c.buses, b.i = x.bus ∧ x.Vset = g.vs ∧ x.ang = b.va * Real.pi / 180) ∧
    ∀ g ∈ l, g.stat = 1 → c.HasType g.i 3 → g.i ∈ s.slack.map SlackAt.bus := by
  intro l
  induction l using List.reverseRecOn with
  | nil => intro s h; simp only [foldPy, Except.ok.injEq] at h; subst h; simp
  | append_singleton l a ih =>
    intro s' h
    obtain ⟨s, h1, h2⟩ := foldPy_append.1 h
    obtain ⟨i1, i2, i3⟩ := ih h1
    have hstep : genStep c s a = .ok s' := by
      rw [foldPy] at h2
      cases hf : genStep c s a with
      | error e => rw [hf] at h2; cases h2
      | ok t => rw [hf] at h2; simpa [foldPy] using h2
    have ext : ∀ x ∈ s.slack, c.HasType x.bus 3 ∧ ∃ g, (l ++ [a]).find? (fun g => g.i = x.bus ∧ g.stat = 1) = some g ∧
        ∃ b ∈ c.buses, b.i = x.bus ∧ x.Vset = g.vs ∧ x.ang = b.va * Real.pi / 180 := by
      intro x hx
      obtain ⟨ht, g, hg, hb⟩ := i2 x hx
      exact ⟨ht, g, by rw [List.find?_append, hg]; rfl, hb⟩
    unfold genStep at hstep
    split at hstep
    · rename_i hsl
      have h3 := mem_slackBuses.1 hsl
      rcases slackStep_full hd h3 hstep with ⟨hst, rfl⟩ | ⟨hst, hin, p, rfl⟩ | ⟨hst, hin, b, hb, hbi, rfl⟩
      · refine ⟨i1, ext, fun g hg hg1 hg3 => ?_⟩
        rcases List.mem_append.1 hg with hg | hg
        · exact i3 g hg hg1 hg3
        · rw [List.mem_singleton.1 hg] at hg1
          exact absurd hg1 hst
      · have hm : (s.slack.map fun x => if x.bus = a.i then { x with Pinit := x.Pinit + p } else x).map SlackAt.bus =
            s.slack.map SlackAt.bus := by
          rw [List.map_map]
          refine List.map_congr_left fun x _ => ?_
          simp only [Function.comp]
          split <;> rfl
        refine ⟨by rw [hm]; exact i1, ?_, fun g hg hg1 hg3 => ?_⟩
        · intro x hx
          obtain ⟨y, hy, rfl⟩ := List.mem_map.1 hx
          have := ext y hy
          split <;> exact this
        · rw [hm]
          rcases List.mem_append.1 hg with hg | hg
          · exact i3 g hg hg1 hg3
          · rw [List.mem_singleton.1 hg]; exact hin
      · refine ⟨?_, ?_, fun g hg hg1 hg3 => ?_⟩
        · rw [List.map_append, List.nodup_append']
          refine ⟨i1, by simp, ?_⟩
          intro x hx hx'
          rw [List.map_singleton, List.mem_singleton] at hx'
          rw [hx'] at hx
          exact hin hx
        · intro x hx
          rcases List.mem_append.1 hx with hx | hx
          · exact ext x hx
          · rw [List.mem_singleton.1 hx]
            refine ⟨h3, a, ?_, b, hb, hbi, rfl, rfl⟩
            have hnone : l.find? (fun g => decide (g.i = a.i ∧ g.stat = 1)) = none := by
              rw [List.find?_eq_none]
              intro g hg hc
              simp only [decide_eq_true_eq] at hc
              exact hin (hc.1 ▸ i3 g hg hc.2 (hc.1 ▸ h3))
            simp only
            rw [List.find?_append, hnone]
            simp [hst]
        · rw [List.map_append, List.mem_append]
          rcases List.mem_append.1 hg with hg | hg
          · exact Or.inl (i3 g hg hg1 hg3)
          · rw [List.mem_singleton.1 hg]; exact Or.inr (by simp)
    · rename_i hsl
      have hs : s'.slack = s.slack := by
        obtain ⟨g', -, hc⟩ := pvStep_cases hstep
        rcases hc with ⟨-, rfl⟩ | ⟨-, -, -, -, rfl⟩ | ⟨-, -, -, -, -, -, rfl⟩ | ⟨-, -, -, -, rfl⟩ <;> rfl
      rw [hs]
      refine ⟨i1, ext, fun g hg hg1 hg3 => ?_⟩
      rcases List.mem_append.1 hg with hg | hg
      · exact i3 g hg hg1 hg3
      · rw [List.mem_singleton.1 hg] at hg3
        exact absurd (mem_slackBuses.2 hg3) hsl

/-- The generators: one per bus, each of a machine that holds the voltage of its bus. -/
theorem gens_inv {c : Case} (hd : c.DistinctBuses)
    (hm : ∀ g ∈ c.generators, g.wmod ≠ 2 ∧ g.wmod ≠ 3 ∧ g.qb ≤ g.qt) {s : GenState}
    (h : foldPy (genStep c) ⟨[], [], []⟩ c.generators = .ok s) :
    (s.gens.map GenAt.bus).Nodup ∧
    (∀ x ∈ s.gens, ∃ g ∈ c.generators, g.Regulates c ∧ x.bus = g.i ∧ x.g.Vset = g.vs) ∧
    (∀ g ∈ c.generators, g.Regulates c → ∃ x ∈ s.gens, x.bus = g.i ∧ x.g.Vset = g.vs) ∧
    ∀ x ∈ s.loads, x.l.Z = 0 ∧ x.l.IP = 0 ∧ x.l.IQ = 0 := by
  have h1 := foldPy_inv (P := fun s : GenState => (s.gens.map GenAt.bus).Nodup ∧
    (∀ x ∈ s.gens, ∃ g ∈ c.generators, g.Regulates c ∧ x.bus = g.i ∧ x.g.Vset = g.vs) ∧
    ∀ x ∈ s.loads, x.l.Z = 0 ∧ x.l.IP = 0 ∧ x.l.IQ = 0) (by
      intro a ha s s' hs ⟨i1, i2, i3⟩
      unfold genStep at hs
      split at hs
      · rcases slackStep_cases hs with rfl | ⟨-, -, ⟨p, rfl⟩ | ⟨b, -, -, -, rfl⟩⟩ <;> exact ⟨i1, i2, i3⟩
      · obtain ⟨g', hg', hc⟩ := pvStep_cases hs
        obtain ⟨w2, w3, hq⟩ := hm a ha
        rcases hc with ⟨-, rfl⟩ | ⟨-, -, -, -, rfl⟩ | ⟨-, -, -, -, -, -, rfl⟩ | ⟨ht, hst, hcon, hrange, rfl⟩
        · exact ⟨i1, i2, i3⟩
        · refine ⟨i1, i2, fun x hx => ?_⟩
          rcases List.mem_append.1 hx with hx | hx
          · exact i3 x hx
          · rw [List.mem_singleton.1 hx]; exact ⟨rfl, rfl, rfl⟩
        · exact ⟨i1, i2, i3⟩
        · have hk := (genData_keeps hg').2.2.2.2.2.2 w3
          have hr := hrange w2
          rw [hk.1, hk.2, abs_of_nonpos (by linarith)] at hr
          refine ⟨?_, fun x hx => ?_, i3⟩
          · rw [List.map_append, List.nodup_append']
            refine ⟨i1, by simp, ?_⟩
            intro x hx hx'
            rw [List.map_singleton, List.mem_singleton] at hx'
            rw [hx'] at hx
            exact controlling_false.1 hcon hx
          · rcases List.mem_append.1 hx with hx | hx
            · exact i2 x hx
            · rw [List.mem_singleton.1 hx]
              exact ⟨a, ha, ⟨ht, hst, w2, w3, by linarith⟩, rfl, rfl⟩) h (by simp)
  refine ⟨h1.1, h1.2.1, fun g hg hr => ?_, h1.2.2⟩
  refine foldPy_reach (P := fun s : GenState => ∃ x ∈ s.gens, x.bus = g.i ∧ x.g.Vset = g.vs) hg ?_ ?_ h
  · intro s s' hs
    rw [(genStep_regulates hd hr hs).2]
    exact ⟨_, List.mem_append_right _ (List.mem_singleton.2 rfl), rfl, rfl⟩
  · intro b _ s s' hs ⟨x, hx, he⟩
    obtain ⟨m, e⟩ := genStep_mono hs
    exact ⟨x, e ▸ List.mem_append_left _ hx, he⟩

/-- The generators after the loop over the switched shunts. -/
theorem switched_inv {c : Case} (hd : c.DistinctBuses) {gens : List GenAt} {sw : List GenAt × List ShuntAt}
    (hn : (gens.map GenAt.bus).Nodup) (h : foldPy (switchedStep c) (gens, []) c.switched = .ok sw) :
    (sw.1.map GenAt.bus).Nodup ∧ (∀ x ∈ gens, x ∈ sw.1) ∧
    (∀ x ∈ sw.1, x ∈ gens ∨ ∃ r ∈ c.switched, r.Regulates c ∧ x.bus = r.i ∧ x.g.Vset = (r.vswhi + r.vswlo) / 2) ∧
    ∀ r ∈ c.switched, r.Regulates c → ∃ x ∈ sw.1, x.bus = r.i ∧ x.g.Vset = (r.vswhi + r.vswlo) / 2 := by
  have h1 := foldPy_inv (P := fun s : List GenAt × List ShuntAt => (s.1.map GenAt.bus).Nodup ∧ (∀ x ∈ gens, x ∈ s.1) ∧
    ∀ x ∈ s.1, x ∈ gens ∨ ∃ r ∈ c.switched, r.Regulates c ∧ x.bus = r.i ∧ x.g.Vset = (r.vswhi + r.vswlo) / 2) (by
      intro a ha s s' hs ⟨i1, i2, i3⟩
      rcases switchedStep_cases hs with ⟨-, rfl⟩ | ⟨-, hst, he, ⟨hm, hcon, g, -, rfl⟩ | ⟨-, rfl⟩⟩
      · exact ⟨i1, i2, i3⟩
      · refine ⟨?_, fun x hx => List.mem_append_left _ (i2 x hx), fun x hx => ?_⟩
        · rw [List.map_append, List.nodup_append']
          refine ⟨i1, by simp, ?_⟩
          intro x hx hx'
          rw [List.map_singleton, List.mem_singleton] at hx'
          rw [hx'] at hx
          exact controlling_false.1 hcon hx
        · rcases List.mem_append.1 hx with hx | hx
          · exact i3 x hx
          · rw [List.mem_singleton.1 hx]
            exact Or.inr ⟨a, ha, ⟨hm, hst, he⟩, rfl, rfl⟩
      · exact ⟨i1, i2, i3⟩) h ⟨hn, fun x hx => hx, fun x hx => Or.inl hx⟩
  refine ⟨h1.1, h1.2.1, h1.2.2, fun r hr hreg => ?_⟩
  refine foldPy_reach (P := fun s : List GenAt × List ShuntAt =>
    ∃ x ∈ s.1, x.bus = r.i ∧ x.g.Vset = (r.vswhi + r.vswlo) / 2) hr ?_ ?_ h
  · intro s s' hs
    rcases switchedStep_cases hs with ⟨hno, -⟩ | ⟨-, -, -, ⟨-, -, g, -, rfl⟩ | ⟨hm, -⟩⟩
    · exact absurd ⟨hd.not_off hreg.2.2, hreg.2.1⟩ hno
    · exact ⟨_, List.mem_append_right _ (List.mem_singleton.2 rfl), rfl, rfl⟩
    · exact absurd hreg.1 hm
  · intro b _ s s' hs ⟨x, hx, he⟩
    rcases switchedStep_cases hs with ⟨-, rfl⟩ | ⟨-, -, -, ⟨-, -, g, -, rfl⟩ | ⟨-, rfl⟩⟩
    · exact ⟨x, hx, he⟩
    · exact ⟨x, List.mem_append_left _ hx, he⟩
    · exact ⟨x, hx, he⟩

open Classical in
/-- Reactive power of the machines loaded as loads. -/
theorem gens_reactive {c : Case} (hd : c.DistinctBuses)
    (hm : ∀ g ∈ c.generators, g.wmod ≠ 2 ∧ g.wmod ≠ 3 ∧ g.qb ≤ g.qt) {s : GenState}
    (h : foldPy (genStep c) ⟨[], [], []⟩ c.generators = .ok s) {k : ℤ} (hk : ∀ g ∈ c.generators, g.i = k → ¬ g.Regulates c) :
    total s.loads (fun x => x.bus = k) (fun x => -x.l.Q) =
      total c.generators (fun g => g.i = k ∧ g.stat = 1 ∧ c.HasType k 2) (fun g => g.qt / 100) := by
  have e := foldPy_sum (Φ := fun s : GenState => total s.loads (fun x => x.bus = k) (fun x => -x.l.Q))
    (v := fun g => if g.i = k ∧ g.stat = 1 ∧ c.HasType k 2 then g.qt / 100 else 0) (by
      intro a ha s s' hs
      obtain ⟨w2, w3, hq⟩ := hm a ha
      unfold genStep at hs
      split at hs
      · rename_i hsl
        have hno : ¬(a.i = k ∧ a.stat = 1 ∧ c.HasType k 2) := by
          rintro ⟨rfl, -, h2⟩
          have := hd.type (mem_slackBuses.1 hsl) h2
          norm_num at this
        rw [if_neg hno, add_zero]
        rcases slackStep_cases hs with rfl | ⟨-, -, ⟨p, rfl⟩ | ⟨b, -, -, -, rfl⟩⟩ <;> rfl
      · obtain ⟨g', hg', hc⟩ := pvStep_cases hs
        have hk' := (genData_keeps hg').2.2.2.2.2.2 w3
        rcases hc with ⟨hn, rfl⟩ | ⟨ht, hst, hr, -, rfl⟩ | ⟨-, -, -, -, -, h2, -⟩ | ⟨ht, hst, -, hr, rfl⟩
        · rw [if_neg, add_zero]
          rintro ⟨rfl, h1, h2⟩
          exact hn ⟨h2, h1⟩
        · rw [total_append, total_single]
          by_cases hak : a.i = k
          · have hqg : g'.qg = a.qt := by
              rw [hk'.1, hk'.2] at hr
              rw [genData_plain w2 w3, (almostEqual_iff _ _).2 (by rw [abs_sub_comm]; exact hr)] at hg'
              cases hg'
              rfl
            rw [if_pos hak, if_pos ⟨hak, hst, hak ▸ ht⟩]
            simp only [hqg]
            ring
          · rw [if_neg hak, if_neg (fun h => hak h.1)]
        · exact absurd h2 w2
        · by_cases hak : a.i = k
          · have hr' := hr w2
            rw [hk'.1, hk'.2, abs_of_nonpos (by linarith)] at hr'
            exact absurd ⟨ht, hst, w2, w3, by linarith⟩ (hk a ha hak)
          · rw [if_neg (fun h => hak h.1), add_zero]) h
  rw [e, total_eq c.generators]
  simp [total_nil]

open Classical in
/-- Susceptance of the switched shunts that stay where they are. -/
theorem switched_shunts {c : Case} (hd : c.DistinctBuses) {gens : List GenAt} {sw : List GenAt × List ShuntAt}
    (h : foldPy (switchedStep c) (gens, []) c.switched = .ok sw) (k : ℤ) :
    total sw.2 (fun x => x.bus = k) ShuntAt.G = 0 ∧
    total sw.2 (fun x => x.bus = k) ShuntAt.B = total c.switched (fun r => r.i = k ∧ r.Fixed c) (fun r => r.binit / 100) := by
  have e1 := foldPy_sum (Φ := fun s : List GenAt × List ShuntAt => total s.2 (fun x => x.bus = k) ShuntAt.G)
    (v := fun _ => 0) (by
      intro a _ s s' hs
      rcases switchedStep_cases hs with ⟨-, rfl⟩ | ⟨-, -, -, ⟨-, -, g, -, rfl⟩ | ⟨-, rfl⟩⟩
      · simp
      · simp
      · rw [total_append, total_single]; simp) h
  have e2 := foldPy_sum (Φ := fun s : List GenAt × List ShuntAt => total s.2 (fun x => x.bus = k) ShuntAt.B)
    (v := fun r => if r.i = k ∧ r.Fixed c then r.binit / 100 else 0) (by
      intro a _ s s' hs
      rcases switchedStep_cases hs with ⟨hn, rfl⟩ | ⟨-, hst, he, ⟨hm, -, g, -, rfl⟩ | ⟨hm, rfl⟩⟩
      · rw [if_neg, add_zero]
        rintro ⟨-, h1, h2, h3⟩
        exact hn ⟨hd.not_off h3, h2⟩
      · rw [if_neg, add_zero]
        rintro ⟨-, h1, -⟩
        exact h1 hm
      · rw [total_append, total_single]
        by_cases hak : a.i = k
        · rw [if_pos hak, if_pos ⟨hak, hm, hst, he⟩]
        · rw [if_neg hak, if_neg (fun h => hak h.1)]) h
  refine ⟨by rw [e1]; simp [total_nil], ?_⟩
  rw [e2, total_eq c.switched]
  simp [total_nil]

end Verif.Raw
