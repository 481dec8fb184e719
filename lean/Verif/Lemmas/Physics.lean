import Verif.Lemmas.Segment
import Verif.Model.Components
import Verif.Spec.Circuit

/-! Explicit rows of the library parts. -/

namespace Verif

open Ex Devices

/-- Rows of a two-terminal segment without own equations. -/
theorem rows_plain {n : ℕ} {a : TwoTerminalArgs} {s : Segment} {kr ki : Ex} (h : twoTerminal n a = .ok s)
    (hr : a.kclRFrom = some kr) (hi : a.kclIFrom = some ki) (hrt : a.kclRTo = none)
    (ho : a.objective = none) {x : Sym}
    (h1 : kr.has x = false) (h2 : ki.has x = false) (h5 : ∀ e ∈ a.equalities, e.has x = false) (env : Env) :
    eval env (s.derivative x) =
      (if x = .LrFrom then eval env kr else 0) + (if x = .LiFrom then eval env ki else 0)
      + (if x = .LrTo then -eval env kr else 0) + (if x = .LiTo then -eval env ki else 0)
      + ((List.range a.equalities.length).map fun k =>
          if x = .lam (n + k) then eval env (a.equalities.getD k (num 0)) else 0).sum := by
  obtain ⟨kr', ki', hr', hi', _, _, rfl⟩ := twoTerminal_ok h
  rw [hr] at hr'; rw [hi] at hi'
  obtain rfl : kr = kr' := by injection hr'
  obtain rfl : ki = ki' := by injection hi'
  have hto : a.toSide kr ki = (kr, ki) := by simp [TwoTerminalArgs.toSide, hrt]
  unfold Segment.derivative
  simp only [hto]
  exact eval_diff_twoTerminal env x _ kr ki kr ki n _ (by simp [ho]) h1 h2 h1 h2 h5

theorem seg_constants {n : ℕ} {a : TwoTerminalArgs} {s : Segment} (h : twoTerminal n a = .ok s) :
    s.constants = a.constants := by
  obtain ⟨_, _, _, _, _, _, rfl⟩ := twoTerminal_ok h; rfl

theorem seg_duals {n : ℕ} {a : TwoTerminalArgs} {s : Segment} (h : twoTerminal n a = .ok s) :
    s.duals = [.LrFrom, .LiFrom, .LrTo, .LiTo] ++ equalityDuals n a.equalities := by
  obtain ⟨_, _, _, _, _, _, rfl⟩ := twoTerminal_ok h; rfl

theorem seg_primals {n : ℕ} {a : TwoTerminalArgs} {s : Segment} (h : twoTerminal n a = .ok s) :
    s.primals = a.vars := by
  obtain ⟨_, _, _, _, _, _, rfl⟩ := twoTerminal_ok h; rfl

variable {L : Library}

/-! #### admittance parts -/

theorem line_rows (hL : L.Loaded) (g b z t : ℝ) (v : Env) :
    let p : Part := ⟨L.line, [g, b, z]⟩
    let G := g * (1 + 20 * t)
    let B := b * (1 + 20 * t)
    p.row t v .LrFrom = G * (v .VrFrom - v .VrTo) - B * (v .ViFrom - v .ViTo) ∧
    p.row t v .LiFrom = G * (v .ViFrom - v .ViTo) + B * (v .VrFrom - v .VrTo) ∧
    p.row t v .LrTo = -(G * (v .VrFrom - v .VrTo) - B * (v .ViFrom - v .ViTo)) ∧
    p.row t v .LiTo = -(G * (v .ViFrom - v .ViTo) + B * (v .VrFrom - v .VrTo)) := by
  obtain ⟨n, h⟩ := hL.line
  have hc := seg_constants h
  have hrow : ∀ x, (admittanceKclR lineG lineB).has x = false → (admittanceKclI lineG lineB).has x = false →
      ∀ env, eval env (L.line.derivative x) = _ := fun x h1 h2 env =>
    rows_plain h rfl rfl rfl rfl h1 h2 (by simp [lineArgs]) env
  simp only [Part.row]
  refine ⟨?_, ?_, ?_, ?_⟩ <;>
  · rw [hrow _ rfl rfl]
    simp [admittanceKclR, admittanceKclI, lineG, lineB, Part.env, hc, lineArgs]
    ring

theorem shunt_rows (hL : L.Loaded) (g b z t : ℝ) (v : Env) :
    let p : Part := ⟨L.shunt, [g, b, z]⟩
    let G := g * (1 - t)
    let B := b * (1 - t)
    p.row t v .LrFrom = G * (v .VrFrom - v .VrTo) - B * (v .ViFrom - v .ViTo) ∧
    p.row t v .LiFrom = G * (v .ViFrom - v .ViTo) + B * (v .VrFrom - v .VrTo) ∧
    p.row t v .LrTo = -(G * (v .VrFrom - v .VrTo) - B * (v .ViFrom - v .ViTo)) ∧
    p.row t v .LiTo = -(G * (v .ViFrom - v .ViTo) + B * (v .VrFrom - v .VrTo)) := by
  obtain ⟨n, h⟩ := hL.shunt
  have hc := seg_constants h
  have hrow : ∀ x, (admittanceKclR shuntG shuntB).has x = false → (admittanceKclI shuntG shuntB).has x = false →
      ∀ env, eval env (L.shunt.derivative x) = _ := fun x h1 h2 env =>
    rows_plain h rfl rfl rfl rfl h1 h2 (by simp [shuntArgs]) env
  simp only [Part.row]
  refine ⟨?_, ?_, ?_, ?_⟩ <;>
  · rw [hrow _ rfl rfl]
    simp [admittanceKclR, admittanceKclI, shuntG, shuntB, Part.env, hc, shuntArgs]
    ring

/-! #### constant power, constant current -/

/-- The two constant power formulas. -/
noncomputable def pqR (P Q vr vi : ℝ) : ℝ := (P * vr + Q * vi) / (vr ^ 2 + vi ^ 2)
noncomputable def pqI (P Q vr vi : ℝ) : ℝ := (P * vi - Q * vr) / (vr ^ 2 + vi ^ 2)

theorem pq_rows (hL : L.Loaded) (P Q t : ℝ) (v : Env) :
    let p : Part := ⟨L.pq, [P, Q]⟩
    let vr := v .VrFrom - v .VrTo
    let vi := v .ViFrom - v .ViTo
    p.row t v .LrFrom = pqR P Q vr vi ∧ p.row t v .LiFrom = pqI P Q vr vi ∧
    p.row t v .LrTo = -pqR P Q vr vi ∧ p.row t v .LiTo = -pqI P Q vr vi := by
  obtain ⟨n, h⟩ := hL.pq
  have hc := seg_constants h
  have hrow : ∀ x, pqKclR.has x = false → pqKclI.has x = false →
      ∀ env, eval env (L.pq.derivative x) = _ := fun x h1 h2 env =>
    rows_plain h rfl rfl rfl rfl h1 h2 (by simp [pqArgs]) env
  simp only [Part.row]
  refine ⟨?_, ?_, ?_, ?_⟩ <;>
  · rw [hrow _ rfl rfl]
    simp [pqKclR, pqKclI, Vr, Vi, Part.env, hc, pqArgs, pqR, pqI, zpow_ofNat]

theorem ic_rows (hL : L.Loaded) (a b t : ℝ) (v : Env) :
    let p : Part := ⟨L.ic, [a, b]⟩
    p.row t v .LrFrom = a ∧ p.row t v .LiFrom = b ∧ p.row t v .LrTo = -a ∧ p.row t v .LiTo = -b := by
  obtain ⟨n, h⟩ := hL.ic
  have hc := seg_constants h
  have hrow : ∀ x, (Ex.sym .IP).has x = false → (Ex.sym .IQ).has x = false →
      ∀ env, eval env (L.ic.derivative x) = _ := fun x h1 h2 env =>
    rows_plain h rfl rfl rfl rfl h1 h2 (by simp [icArgs]) env
  simp only [Part.row]
  refine ⟨?_, ?_, ?_, ?_⟩ <;>
  · rw [hrow _ rfl rfl]
    simp [Part.env, hc, icArgs]

/-! #### devices with own equations -/

theorem gen_rows (hL : L.Loaded) (P V t : ℝ) (v : Env) :
    let p : Part := ⟨L.gen, [P, V]⟩
    let vr := v .VrFrom - v .VrTo
    let vi := v .ViFrom - v .ViTo
    p.row t v .LrFrom = pqR P (v .Q) vr vi ∧ p.row t v .LiFrom = pqI P (v .Q) vr vi ∧
    p.row t v .LrTo = -pqR P (v .Q) vr vi ∧ p.row t v .LiTo = -pqI P (v .Q) vr vi ∧
    ∃ d, p.seg.duals.drop 4 = [d] ∧ p.row t v d = V ^ 2 - vr ^ 2 - vi ^ 2 := by
  obtain ⟨n, h⟩ := hL.gen
  have hc := seg_constants h
  have hrow : ∀ x, pqKclR.has x = false → pqKclI.has x = false → genFQ.has x = false →
      ∀ env, eval env (L.gen.derivative x) = _ := fun x h1 h2 h3 env =>
    rows_plain h rfl rfl rfl rfl h1 h2 (by simpa [genArgs] using h3) env
  simp only [Part.row]
  refine ⟨?_, ?_, ?_, ?_, .lam n, ?_, ?_⟩
  rotate_left 4
  · simp [seg_duals h, equalityDuals, genArgs]
  · rw [hrow _ rfl rfl rfl]
    simp [Vr, Vi, Part.env, hc, genArgs, genFQ, zpow_ofNat]
  all_goals
    rw [hrow _ rfl rfl rfl]
    simp [pqKclR, pqKclI, Vr, Vi, Part.env, hc, genArgs, pqR, pqI, zpow_ofNat, terminals]

theorem slack_rows (hL : L.Loaded) (a b t : ℝ) (v : Env) :
    let p : Part := ⟨L.slack, [a, b]⟩
    p.row t v .LrFrom = v .ISr ∧ p.row t v .LiFrom = v .ISi ∧ p.row t v .LrTo = -v .ISr ∧ p.row t v .LiTo = -v .ISi ∧
    ∃ d e, p.seg.duals.drop 4 = [d, e] ∧ p.row t v d = v .VrFrom - v .VrTo - a ∧
      p.row t v e = v .ViFrom - v .ViTo - b := by
  obtain ⟨n, h⟩ := hL.slack
  have hc := seg_constants h
  have hrow : ∀ x, (Ex.sym .ISr).has x = false → (Ex.sym .ISi).has x = false →
      (∀ e ∈ slackArgs.equalities, e.has x = false) →
      ∀ env, eval env (L.slack.derivative x) = _ := fun x h1 h2 h3 env =>
    rows_plain h rfl rfl rfl rfl h1 h2 h3 env
  have hall : ∀ x, (Vr - Ex.sym .Vrset).has x = false → (Vi - Ex.sym .Viset).has x = false →
      ∀ e ∈ slackArgs.equalities, e.has x = false := by
    intro x h1 h2 e he
    simp [slackArgs] at he
    rcases he with rfl | rfl
    · exact h1
    · exact h2
  simp only [Part.row]
  refine ⟨?_, ?_, ?_, ?_, .lam n, .lam (n + 1), ?_, ?_, ?_⟩
  rotate_left 4
  · simp [seg_duals h, equalityDuals, slackArgs]; rfl
  · rw [hrow _ rfl rfl (hall _ rfl rfl)]
    simp [Vr, Vi, Part.env, hc, slackArgs, List.range_succ]
  · rw [hrow _ rfl rfl (hall _ rfl rfl)]
    simp [Vr, Vi, Part.env, hc, slackArgs, List.range_succ]
  all_goals
    rw [hrow _ rfl rfl (hall _ rfl rfl)]
    simp [Part.env, hc, slackArgs]

theorem vs_rows (hL : L.Loaded) (a b t : ℝ) (v : Env) :
    let p : Part := ⟨L.vs, [a, b]⟩
    p.row t v .LrFrom = v .Ir ∧ p.row t v .LiFrom = v .Ii ∧ p.row t v .LrTo = -v .Ir ∧ p.row t v .LiTo = -v .Ii ∧
    ∃ d e, p.seg.duals.drop 4 = [d, e] ∧ p.row t v d = a - (v .VrFrom - v .VrTo) ∧
      p.row t v e = b - (v .ViFrom - v .ViTo) := by
  obtain ⟨n, h⟩ := hL.vs
  have hc := seg_constants h
  have hrow : ∀ x, (Ex.sym .Ir).has x = false → (Ex.sym .Ii).has x = false →
      (∀ e ∈ vsArgs.equalities, e.has x = false) →
      ∀ env, eval env (L.vs.derivative x) = _ := fun x h1 h2 h3 env =>
    rows_plain h rfl rfl rfl rfl h1 h2 h3 env
  have hall : ∀ x, (Ex.sym .VrSet - (Ex.sym .VrFrom - Ex.sym .VrTo)).has x = false →
      (Ex.sym .ViSet - (Ex.sym .ViFrom - Ex.sym .ViTo)).has x = false →
      ∀ e ∈ vsArgs.equalities, e.has x = false := by
    intro x h1 h2 e he
    simp [vsArgs] at he
    rcases he with rfl | rfl
    · exact h1
    · exact h2
  simp only [Part.row]
  refine ⟨?_, ?_, ?_, ?_, .lam n, .lam (n + 1), ?_, ?_, ?_⟩
  rotate_left 4
  · simp [seg_duals h, equalityDuals, vsArgs]; rfl
  · rw [hrow _ rfl rfl (hall _ rfl rfl)]
    simp [Part.env, hc, vsArgs, List.range_succ]
  · rw [hrow _ rfl rfl (hall _ rfl rfl)]
    simp [Part.env, hc, vsArgs, List.range_succ]
  all_goals
    rw [hrow _ rfl rfl (hall _ rfl rfl)]
    simp [Part.env, hc, vsArgs]

/-- The import-time constructors all succeed, for any start of the multiplier counter. -/
theorem library_exists : ∃ L : Library, L.Loaded := by
  have ok : ∀ (a : TwoTerminalArgs), (∃ s, twoTerminal 0 a = .ok s) → ∃ s, ∃ n, twoTerminal n a = .ok s :=
    fun a ⟨s, h⟩ => ⟨s, 0, h⟩
  obtain ⟨s1, h1⟩ := ok lineArgs ⟨_, rfl⟩
  obtain ⟨s2, h2⟩ := ok shuntArgs ⟨_, rfl⟩
  obtain ⟨s3, h3⟩ := ok pqArgs ⟨_, rfl⟩
  obtain ⟨s4, h4⟩ := ok icArgs ⟨_, rfl⟩
  obtain ⟨s5, h5⟩ := ok genArgs ⟨_, rfl⟩
  obtain ⟨s6, h6⟩ := ok slackArgs ⟨_, rfl⟩
  obtain ⟨s7, h7⟩ := ok vsArgs ⟨_, rfl⟩
  exact ⟨⟨s1, s2, s3, s4, s5, s6, s7⟩, ⟨h1, h2, h3, h4, h5, h6, h7⟩⟩

end Verif
