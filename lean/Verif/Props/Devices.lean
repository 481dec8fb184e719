import Verif.Lemmas.Physics
import Mathlib.Analysis.Complex.Trigonometric

/-!
# C09 - C17, C20, C31: what the devices do at every operating point
-/

namespace Verif

open Ex Circuit Devices ComplexConjugate

/-! ### C09 -/

/-- **C09.** Any two-terminal definition accepted by the constructor without separate to-side equations, whose
symbols are not the four bus multipliers, takes from the from-bus exactly what it gives to the to-bus, at every
point: the two real balance rows cancel and so do the two imaginary ones; and each equals the declared equation. -/
theorem C09_two_terminal_conserves_current (n : ℕ) (a : TwoTerminalArgs) (s : Segment)
    (h : twoTerminal n a = .ok s) (hto : a.kclRTo = none ∨ a.kclITo = none)
    (hdis : ∀ d ∈ [Sym.LrFrom, .LiFrom, .LrTo, .LiTo], d ∉ a.constants ++ a.vars)
    (v : Env) :
    (∃ kr ki, a.kclRFrom = some kr ∧ a.kclIFrom = some ki ∧
      eval v (s.derivative .LrFrom) = eval v kr ∧ eval v (s.derivative .LiFrom) = eval v ki) ∧
    eval v (s.derivative .LrFrom) + eval v (s.derivative .LrTo) = 0 ∧
    eval v (s.derivative .LiFrom) + eval v (s.derivative .LiTo) = 0 := by
  obtain ⟨kr, ki, hr, hi, hck, -, rfl⟩ := twoTerminal_ok h
  have hts : a.toSide kr ki = (kr, ki) := by
    unfold TwoTerminalArgs.toSide; rcases hto with hto | hto
    · simp [hto]
    · cases hh : a.kclRTo <;> simp [hto]
  have hno : ∀ d ∈ [Sym.LrFrom, .LiFrom, .LrTo, .LiTo],
      ∀ e ∈ a.objective.toList ++ [kr, kr, (a.toSide kr ki).1, (a.toSide kr ki).2] ++ a.equalities,
      e.has d = false := by
    intro d hd e he
    by_contra hh
    exact hdis d hd (checkMissing_none.1 (hck e he) d (by simpa using hh))
  have key : ∀ d ∈ [Sym.LrFrom, .LiFrom, .LrTo, .LiTo],
      eval v (diff d (twoTerminalLagrange a.objective kr ki kr ki n a.equalities)) =
      (if d = .LrFrom then eval v kr else 0) + (if d = .LiFrom then eval v ki else 0)
      + (if d = .LrTo then -eval v kr else 0) + (if d = .LiTo then -eval v ki else 0) := by
    intro d hd
    have hn := hno d hd
    rw [hts] at hn
    rw [eval_diff_twoTerminal v d a.objective kr ki kr ki n a.equalities
      (fun o ho => hn o (by simp [Option.mem_def.1 ho])) (hn kr (by simp)) (hn ki (by simp))
      (hn kr (by simp)) (hn ki (by simp)) (fun e he => hn e (by simp [he]))]
    have : ((List.range a.equalities.length).map fun k =>
        if d = .lam (n + k) then eval v (a.equalities.getD k (num 0)) else 0).sum = 0 := by
      apply List.sum_eq_zero
      intro z hz
      obtain ⟨k, _, rfl⟩ := List.mem_map.1 hz
      simp at hd
      rcases hd with rfl | rfl | rfl | rfl <;> simp
    rw [this, add_zero]
  simp only [Segment.derivative, hts]
  rw [key .LrFrom (by simp), key .LiFrom (by simp), key .LrTo (by simp), key .LiTo (by simp)]
  exact ⟨⟨kr, ki, hr, hi, by simp, by simp⟩, by simp, by simp⟩

example : ∃ s, twoTerminal 0 genArgs = .ok s ∧
    ∀ d ∈ [Sym.LrFrom, .LiFrom, .LrTo, .LiTo], d ∉ genArgs.constants ++ genArgs.vars :=
  ⟨_, rfl, by decide⟩

variable {L : Library} (hL : L.Loaded)
include hL

/-! ### C10, C11 loads -/

/-- **C10.** The constant power part of a load absorbs exactly `P + jQ` at every non-zero terminal voltage and every
homotopy factor. -/
theorem C10_constant_power_load (P Q t : ℝ) (v : Env) (hv : across v ≠ 0) :
    power (across v) (fromCurrent ⟨L.pq, [P, Q]⟩ t v) = ⟨P, Q⟩ := by
  obtain ⟨h1, h2, -, -⟩ := pq_rows hL P Q t v
  have hne : (v .VrFrom - v .VrTo) ^ 2 + (v .ViFrom - v .ViTo) ^ 2 ≠ 0 := by
    intro h0
    apply hv
    have ha : v .VrFrom - v .VrTo = 0 := by nlinarith [sq_nonneg (v .VrFrom - v .VrTo), sq_nonneg (v .ViFrom - v .ViTo)]
    have hb : v .ViFrom - v .ViTo = 0 := by nlinarith [sq_nonneg (v .VrFrom - v .VrTo), sq_nonneg (v .ViFrom - v .ViTo)]
    apply Complex.ext <;> simp [across, ha, hb]
  apply Complex.ext
  · simp only [power, fromCurrent, across, h1, h2, Complex.mul_re, Complex.conj_re, Complex.conj_im, pqR, pqI]
    field_simp; ring
  · simp only [power, fromCurrent, across, h1, h2, Complex.mul_im, Complex.conj_re, Complex.conj_im, pqR, pqI]
    field_simp; ring

omit hL in
/-- Total current drawn by a load: the sum over the parts it stamps. -/
noncomputable def loadCurrent (L : Library) (l : Load) (t : ℝ) (v : Env) : ℂ :=
  ((l.parts L).map fun p => fromCurrent p t v).sum

/-- **C11.** With the homotopy factor at 0, a load draws the sum of a constant power current, a constant current
`IP + jIQ` and an impedance current `V/Z` (each absent when its parameters are zero), for every non-zero voltage. -/
theorem C11_load_current (l : Load) (v : Env) (hv : across v ≠ 0) :
    loadCurrent L l 0 v =
      conj ((⟨l.P, l.Q⟩ : ℂ) / across v) + ⟨l.IP, l.IQ⟩ + (if l.Z = 0 then 0 else across v / l.Z) := by
  have hpq : fromCurrent ⟨L.pq, [l.P, l.Q]⟩ 0 v = conj ((⟨l.P, l.Q⟩ : ℂ) / across v) := by
    have h10 := C10_constant_power_load hL l.P l.Q 0 v hv
    rw [← h10, power, mul_comm, mul_div_assoc, div_self hv, mul_one, Complex.conj_conj]
  have hic : fromCurrent ⟨L.ic, [l.IP, l.IQ]⟩ 0 v = ⟨l.IP, l.IQ⟩ := by
    obtain ⟨h1, h2, -, -⟩ := ic_rows hL l.IP l.IQ 0 v
    apply Complex.ext <;> simp [fromCurrent, h1, h2]
  have hz : l.Z ≠ 0 → fromCurrent ⟨L.shunt, [l.GB.1, l.GB.2, 0]⟩ 0 v = across v / l.Z := by
    intro hne
    obtain ⟨h1, h2, -, -⟩ := shunt_rows hL l.GB.1 l.GB.2 0 0 v
    have hn : l.Z.re ^ 2 + l.Z.im ^ 2 ≠ 0 := by
      intro h0; apply hne
      apply Complex.ext <;> simp <;> nlinarith [sq_nonneg l.Z.re, sq_nonneg l.Z.im]
    rw [eq_div_iff hne]
    apply Complex.ext
    · simp only [fromCurrent, h1, h2, Complex.mul_re, across]
      simp only [Load.GB, hne, ne_eq, not_false_eq_true, if_true]
      field_simp; ring
    · simp only [fromCurrent, h1, h2, Complex.mul_im, across]
      simp only [Load.GB, hne, ne_eq, not_false_eq_true, if_true]
      field_simp; ring
  unfold loadCurrent Load.parts
  have e1 : (((if l.P = 0 ∧ l.Q = 0 then [] else [(⟨L.pq, [l.P, l.Q]⟩ : Part)]).map fun p => fromCurrent p 0 v).sum) =
      conj ((⟨l.P, l.Q⟩ : ℂ) / across v) := by
    split_ifs with h
    · have : (⟨l.P, l.Q⟩ : ℂ) = 0 := by apply Complex.ext <;> simp [h.1, h.2]
      simp [this]
    · simp [hpq]
  have e2 : (((if l.IP = 0 ∧ l.IQ = 0 then [] else [(⟨L.ic, [l.IP, l.IQ]⟩ : Part)]).map fun p => fromCurrent p 0 v).sum) =
      ⟨l.IP, l.IQ⟩ := by
    split_ifs with h
    · have : (⟨l.IP, l.IQ⟩ : ℂ) = 0 := by apply Complex.ext <;> simp [h.1, h.2]
      simp [this]
    · simp [hic]
  have e3 : (((if l.Z = 0 then [] else [(⟨L.shunt, [l.GB.1, l.GB.2, 0]⟩ : Part)]).map fun p => fromCurrent p 0 v).sum) =
      if l.Z = 0 then 0 else across v / l.Z := by
    split_ifs with h
    · simp
    · simp [hz h]
  rw [List.map_append, List.map_append, List.sum_append, List.sum_append, e1, e2, e3]

omit hL in
example : across (fun s => if s = .VrFrom then 120 else 0) ≠ 0 := by
  intro h
  have := congrArg Complex.re h
  simp [across] at this

/-! ### C12 generator -/

/-- **C12.** For a generator scheduled at `P` with set point `Vset`, at every solution of its own equation with
`Vset ≠ 0`: the voltage magnitude is `|Vset|`, the real power delivered to the bus is `P` and the reactive power
delivered is minus the solved unknown. -/
theorem C12_pv_generator (P Vset Qmax Qmin Qinit t : ℝ) (v : Env) (hV : Vset ≠ 0)
    (hsol : OwnEquationsHold ((Generator.make P Vset Qmax Qmin Qinit).part L) t v) :
    (v .VrFrom - v .VrTo) ^ 2 + (v .ViFrom - v .ViTo) ^ 2 = Vset ^ 2 ∧
    -(power (across v) (fromCurrent ((Generator.make P Vset Qmax Qmin Qinit).part L) t v)) = ⟨P, -v .Q⟩ := by
  obtain ⟨h1, h2, -, -, d, hd, h3⟩ := gen_rows hL (-P) Vset t v
  have h0 : (v .VrFrom - v .VrTo) ^ 2 + (v .ViFrom - v .ViTo) ^ 2 = Vset ^ 2 := by
    have := hsol d (by simp [Generator.part, Generator.make, hd])
    simp only [Generator.part, Generator.make] at this
    rw [h3] at this; linarith
  refine ⟨h0, ?_⟩
  have hne : (v .VrFrom - v .VrTo) ^ 2 + (v .ViFrom - v .ViTo) ^ 2 ≠ 0 := by
    rw [h0]; exact pow_ne_zero 2 hV
  apply Complex.ext
  · simp only [power, fromCurrent, across, Generator.part, Generator.make, h1, h2, Complex.neg_re, Complex.mul_re,
      Complex.conj_re, Complex.conj_im, pqR, pqI]
    field_simp; ring
  · simp only [power, fromCurrent, across, Generator.part, Generator.make, h1, h2, Complex.neg_im, Complex.mul_im,
      Complex.conj_re, Complex.conj_im, pqR, pqI]
    field_simp; ring

example : ∃ v : Env, OwnEquationsHold ((Generator.make 5 1 0 0 0).part L) 0 v := by
  refine ⟨fun s => if s = .VrFrom then 1 else 0, ?_⟩
  obtain ⟨-, -, -, -, d, hd, h3⟩ := gen_rows hL (-5) 1 0 (fun s => if s = .VrFrom then 1 else 0)
  intro e he
  have he' : e ∈ ([d] : List Sym) := by rw [← hd]; exact he
  simp at he'
  subst he'
  simp only [Generator.part, Generator.make]
  rw [h3]; simp

/-! ### C13 sources and switches -/

/-- **C13, slack.** At every solution the slack bus voltage is `Vset` at angle `ang`. -/
theorem C13_slack_pins_voltage (Vset ang t : ℝ) (v : Env)
    (hsol : OwnEquationsHold (slackPart L Vset ang) t v) :
    across v = Vset * Complex.exp (ang * Complex.I) := by
  obtain ⟨-, -, -, -, d, e, hde, h1, h2⟩ := slack_rows hL (Vset * Real.cos ang) (Vset * Real.sin ang) t v
  have e1 := hsol d (by simp [slackPart, hde])
  have e2 := hsol e (by simp [slackPart, hde])
  simp only [slackPart] at e1 e2
  rw [h1] at e1; rw [h2] at e2
  rw [Complex.exp_mul_I]
  apply Complex.ext
  · simp [across, Complex.cos_ofReal_re, Complex.sin_ofReal_re]
    linarith
  · simp [across, Complex.cos_ofReal_re, Complex.sin_ofReal_re]
    linarith

/-- **C13, voltage source.** At every solution the terminal difference is the set value, and the current entering at
the from side is the current leaving at the to side. -/
theorem C13_voltage_source (a b t : ℝ) (v : Env) (hsol : OwnEquationsHold (vsPart L a b) t v) :
    across v = ⟨a, b⟩ ∧ fromCurrent (vsPart L a b) t v = ⟨v .Ir, v .Ii⟩ ∧
    toCurrent (vsPart L a b) t v = -⟨v .Ir, v .Ii⟩ := by
  obtain ⟨h1, h2, h3, h4, d, e, hde, h5, h6⟩ := vs_rows hL a b t v
  have e1 := hsol d (by simp [vsPart, hde])
  have e2 := hsol e (by simp [vsPart, hde])
  simp only [vsPart] at e1 e2
  rw [h5] at e1; rw [h6] at e2
  refine ⟨?_, ?_, ?_⟩
  · apply Complex.ext <;> simp [across] <;> linarith
  · apply Complex.ext <;> simp [fromCurrent, vsPart, h1, h2]
  · apply Complex.ext <;> simp [toCurrent, vsPart, h3, h4]

/-- **C13, switch.** A closed switch forces equal voltages at its ends; an open one stamps nothing. -/
theorem C13_switch (st : SwitchStatus) (t : ℝ) (v : Env)
    (hsol : ∀ p ∈ switchParts L st, OwnEquationsHold p t v) :
    (st = .closed → across v = 0) ∧ (st = .opened → switchParts L st = []) := by
  refine ⟨?_, ?_⟩
  · rintro rfl
    exact (C13_voltage_source hL 0 0 t v (hsol _ (by simp [switchParts]))).1.trans (by apply Complex.ext <;> simp)
  · rintro rfl; rfl

omit hL in
/-- **C13, capacitor.** An open capacitor stamps nothing, a closed one exactly one shunt. -/
theorem C13_open_capacitor (B : ℝ) : capParts L .opened B = [] ∧ (capParts L .closed B).length = 1 := ⟨rfl, rfl⟩

/-! ### C16 lines -/

/-- **C16.** A line with `r + jx ≠ 0` carries series current `(V_from - V_to)/(r + jx)`, charging current `j b/2 V` at
each end, and for `r ≥ 0` its series branch never generates real power. -/
theorem C16_line_pi_model (r x b : ℝ) (hrx : x ^ 2 + r ^ 2 ≠ 0) :
    ∃ c, lineConsts r x b = .ok c ∧
    (∀ v : Env, fromCurrent (lineParts L c).1 0 v = across v / (⟨r, x⟩ : ℂ) ∧
      toCurrent (lineParts L c).1 0 v = -(across v / (⟨r, x⟩ : ℂ)) ∧
      fromCurrent (lineParts L c).2.1 0 v = Complex.I * (b / 2) * across v ∧
      fromCurrent (lineParts L c).2.2 0 v = Complex.I * (b / 2) * across v ∧
      (0 ≤ r → 0 ≤ (power (across v) (fromCurrent (lineParts L c).1 0 v)).re)) := by
  refine ⟨(r / (x ^ 2 + r ^ 2), -x / (x ^ 2 + r ^ 2), b / 2), by simp [lineConsts, hrx], fun v => ?_⟩
  obtain ⟨h1, h2, h3, h4⟩ := line_rows hL (r / (x ^ 2 + r ^ 2)) (-x / (x ^ 2 + r ^ 2)) 0 0 v
  obtain ⟨k1, k2, -, -⟩ := shunt_rows hL 0 (b / 2) 0 0 v
  have hz : (⟨r, x⟩ : ℂ) ≠ 0 := by
    intro h; apply hrx
    have ha := congrArg Complex.re h
    have hb := congrArg Complex.im h
    simp at ha hb; rw [ha, hb]; norm_num
  refine ⟨?_, ?_, ?_, ?_, ?_⟩
  · rw [eq_div_iff hz]
    apply Complex.ext
    · simp only [lineParts, fromCurrent, h1, h2, Complex.mul_re, across]
      field_simp; ring
    · simp only [lineParts, fromCurrent, h1, h2, Complex.mul_im, across]
      field_simp; ring
  · rw [← neg_div, eq_div_iff hz]
    apply Complex.ext
    · simp only [lineParts, toCurrent, h3, h4, Complex.mul_re, across, Complex.neg_re]
      field_simp; ring
    · simp only [lineParts, toCurrent, h3, h4, Complex.mul_im, across, Complex.neg_im]
      field_simp; ring
  · apply Complex.ext <;> simp [lineParts, fromCurrent, k1, k2, across]
  · apply Complex.ext <;> simp [lineParts, fromCurrent, k1, k2, across]
  · intro hr
    have hpos : 0 < x ^ 2 + r ^ 2 := lt_of_le_of_ne (by positivity) (Ne.symm hrx)
    have : (power (across v) (fromCurrent (lineParts L (r / (x ^ 2 + r ^ 2), -x / (x ^ 2 + r ^ 2), b / 2)).1 0 v)).re
        = r / (x ^ 2 + r ^ 2) * ((v .VrFrom - v .VrTo) ^ 2 + (v .ViFrom - v .ViTo) ^ 2) := by
      simp only [power, lineParts, fromCurrent, h1, h2, Complex.mul_re, across, Complex.conj_re, Complex.conj_im]
      ring
    rw [this]
    positivity

/-! ### C31 capacitor -/

/-- **C31.** With nominal voltage `Vn ≠ 0`, a closed capacitor of rating `var` supplies `var * |V|² / Vn²` reactive power
and no real power; at `|V| = |Vn|` exactly `var`. -/
theorem C31_capacitor_supplies_rated_vars (var Vn : ℝ) (hVn : Vn ≠ 0) :
    ∃ B, capB var Vn = .ok B ∧ ∀ p ∈ capParts L .closed B, ∀ v : Env,
      -(power (across v) (fromCurrent p 0 v)) = ⟨0, var * Complex.normSq (across v) / Vn ^ 2⟩ ∧
      (Complex.normSq (across v) = Vn ^ 2 → -(power (across v) (fromCurrent p 0 v)) = ⟨0, var⟩) := by
  have h2 : Vn ^ 2 ≠ 0 := pow_ne_zero 2 hVn
  have h3 : Vn * Vn ≠ 0 := mul_ne_zero hVn hVn
  refine ⟨var / (Vn * Vn), by simp [capB, hVn], ?_⟩
  intro p hp v
  simp [capParts] at hp; subst hp
  obtain ⟨k1, k2, -, -⟩ := shunt_rows hL 0 (var / (Vn * Vn)) 0 0 v
  have key : -(power (across v) (fromCurrent ⟨L.shunt, [0, var / (Vn * Vn), 0]⟩ 0 v)) =
      ⟨0, var * Complex.normSq (across v) / Vn ^ 2⟩ := by
    apply Complex.ext
    · simp only [power, fromCurrent, k1, k2, across, Complex.neg_re, Complex.mul_re, Complex.conj_re, Complex.conj_im]
      ring
    · simp only [power, fromCurrent, k1, k2, across, Complex.neg_im, Complex.mul_im, Complex.conj_re, Complex.conj_im,
        Complex.normSq_apply]
      field_simp; ring
  refine ⟨key, fun hn => ?_⟩
  rw [key, hn, mul_div_assoc, div_self h2, mul_one]

omit hL in
/-- A capacitor with nominal voltage 0 is rejected. -/
theorem C31_zero_nominal_rejected (var : ℝ) : ∃ m, capB var 0 = .error m := ⟨_, by simp [capB]; rfl⟩

end Verif

namespace Verif

open Ex Circuit Devices ComplexConjugate

/-! ### Examples -/

/-- Current leaves the generator at one terminal as it enters at the other. -/
example (v : Env) : ∃ s, twoTerminal 0 genArgs = .ok s ∧ eval v (s.derivative .LrFrom) + eval v (s.derivative .LrTo) = 0 :=
  ⟨_, rfl, (C09_two_terminal_conserves_current 0 genArgs _ rfl (Or.inl rfl) (by decide) v).2.1⟩

theorem across_line_volts : across (fun s => if s = .VrFrom then 120 else 0) = 120 := by
  apply Complex.ext <;> simp [across]

/-- A load of 500 W and 200 var at 120 V. -/
example {L : Library} (hL : L.Loaded) :
    power 120 (fromCurrent ⟨L.pq, [500, 200]⟩ 0 fun s => if s = .VrFrom then 120 else 0) = ⟨500, 200⟩ := by
  have h := C10_constant_power_load hL 500 200 0 (fun s => if s = .VrFrom then 120 else 0) (by rw [across_line_volts]; norm_num)
  rwa [across_line_volts] at h

/-- A load of 2400 W with a constant current of 3 A and an impedance of 60 ohms: 25 A at 120 V. -/
example {L : Library} (hL : L.Loaded) :
    loadCurrent L ⟨2400, 0, 60, 3, 0⟩ 0 (fun s => if s = .VrFrom then 120 else 0) = 25 := by
  rw [C11_load_current hL _ _ (by rw [across_line_volts]; norm_num), across_line_volts]
  rw [show (⟨2400, 0⟩ : ℂ) = 2400 from Complex.ext rfl rfl, show (⟨3, 0⟩ : ℂ) = 3 from Complex.ext rfl rfl]
  rw [show (2400 / 120 : ℂ) = ((20 : ℝ) : ℂ) by norm_num, Complex.conj_ofReal]
  norm_num

/-- A generator of 5 W at one volt delivers 5 W. -/
example {L : Library} (hL : L.Loaded) (v : Env) (h : OwnEquationsHold ((Generator.make 5 1 0 0 0).part L) 0 v) :
    (-(power (across v) (fromCurrent ((Generator.make 5 1 0 0 0).part L) 0 v))).re = 5 := by
  rw [(C12_pv_generator hL 5 1 0 0 0 0 v (by norm_num) h).2]

/-- A slack at one volt: its own equations hold when its bus is at one volt. -/
theorem slack_at_one {L : Library} (hL : L.Loaded) : OwnEquationsHold (slackPart L 1 0) 0 (fun s => if s = .VrFrom then 1 else 0) := by
  obtain ⟨-, -, -, -, d, d', hd, h1, h2⟩ := slack_rows hL (1 * Real.cos 0) (1 * Real.sin 0) 0 (fun s => if s = .VrFrom then 1 else 0)
  intro e he
  have he' : e ∈ ([d, d'] : List Sym) := by rw [← hd]; exact he
  simp at he'
  unfold slackPart
  rcases he' with rfl | rfl
  · rw [h1]; simp
  · rw [h2]; simp

example {L : Library} (hL : L.Loaded) : across (fun s => if s = .VrFrom then 1 else 0) = (1 : ℝ) * Complex.exp ((0 : ℝ) * Complex.I) :=
  C13_slack_pins_voltage hL 1 0 0 _ (slack_at_one hL)

/-- A source of three volts: its own equations hold when its terminals differ by three volts, whatever the current. -/
theorem source_of_three {L : Library} (hL : L.Loaded) :
    OwnEquationsHold (vsPart L 3 0) 0 (fun s => if s = .VrFrom then 4 else if s = .VrTo then 1 else if s = .Ir then 7 else 0) := by
  obtain ⟨-, -, -, -, d, d', hd, h1, h2⟩ :=
    vs_rows hL 3 0 0 (fun s => if s = .VrFrom then 4 else if s = .VrTo then 1 else if s = .Ir then 7 else 0)
  intro e he
  have he' : e ∈ ([d, d'] : List Sym) := by rw [← hd]; exact he
  simp at he'
  unfold vsPart
  rcases he' with rfl | rfl
  · rw [h1]; simp; try norm_num
  · rw [h2]; simp

example {L : Library} (hL : L.Loaded) :
    fromCurrent (vsPart L 3 0) 0 (fun s => if s = .VrFrom then 4 else if s = .VrTo then 1 else if s = .Ir then 7 else 0) = ⟨7, 0⟩ :=
  (C13_voltage_source hL 3 0 0 _ (source_of_three hL)).2.1

/-- A closed switch between two buses at five volts. -/
example {L : Library} (hL : L.Loaded) : across (fun s => if s = .VrFrom then 5 else if s = .VrTo then 5 else 0) = 0 :=
  (C13_switch hL .closed 0 _ (by
    intro p hp
    simp [switchParts] at hp
    subst hp
    obtain ⟨-, -, -, -, d, d', hd, h1, h2⟩ := vs_rows hL 0 0 0 (fun s => if s = .VrFrom then 5 else if s = .VrTo then 5 else 0)
    intro e he
    have he' : e ∈ ([d, d'] : List Sym) := by rw [← hd]; exact he
    simp at he'
    unfold vsPart
    rcases he' with rfl | rfl
    · rw [h1]; simp; try norm_num
    · rw [h2]; simp)).1 rfl

example {L : Library} : (capParts L .closed 7).length = 1 := (C13_open_capacitor 7).2

/-- A line of `3 + 4j` ohms and no charging. -/
example {L : Library} (hL : L.Loaded) : ∃ c, lineConsts 3 4 0 = .ok c ∧
    fromCurrent (lineParts L c).1 0 (fun s => if s = .VrFrom then 120 else 0) = 120 / (⟨3, 4⟩ : ℂ) := by
  obtain ⟨c, hc, h⟩ := C16_line_pi_model hL 3 4 0 (by norm_num)
  refine ⟨c, hc, ?_⟩
  rw [(h _).1, across_line_volts]

/-- A capacitor of 600 var at 120 V nominal supplies 600 var at 120 V. -/
example {L : Library} (hL : L.Loaded) : ∃ B, capB 600 120 = .ok B ∧ ∀ p ∈ capParts L .closed B,
    -(power 120 (fromCurrent p 0 fun s => if s = .VrFrom then 120 else 0)) = ⟨0, 600⟩ := by
  obtain ⟨B, hB, h⟩ := C31_capacitor_supplies_rated_vars hL 600 120 (by norm_num)
  refine ⟨B, hB, fun p hp => ?_⟩
  have := (h p hp fun s => if s = .VrFrom then 120 else 0).2 (by rw [across_line_volts]; norm_num [Complex.normSq_apply])
  rwa [across_line_volts] at this

example : ∃ m, capB 600 0 = .error m := C31_zero_nominal_rejected 600

end Verif
