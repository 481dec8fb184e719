import Verif.Lemmas.Transformer
import Verif.Lemmas.Diff
import Mathlib.Analysis.Complex.Trigonometric

/-!
# C14, C15, C17: transformers and the homotopy deformation; C66: zero-impedance center-tap windings
-/

namespace Verif

open Ex Circuit Devices ComplexConjugate

/-! ### C14 -/

/-- The two voltage equations of the ideal transformer hold. -/
def XfmrSolved (p : Part) (t : ℝ) (v : Env) : Prop := p.row t v .LirPrim = 0 ∧ p.row t v .LiiPrim = 0

/-- Voltage across the primary winding. -/
noncomputable def vPri (v : Env) : ℂ := ⟨v .VrPriPos - v .VrPriNeg, v .ViPriPos - v .ViPriNeg⟩
/-- Voltage across the internal secondary winding. -/
noncomputable def vSec (v : Env) : ℂ := ⟨v .VrSecPos - v .VrSecNeg, v .ViSecPos - v .ViSecNeg⟩
/-- Current drawn from the positive primary terminal. -/
noncomputable def iPri (p : Part) (t : ℝ) (v : Env) : ℂ := ⟨p.row t v .LrPriPos, p.row t v .LiPriPos⟩
/-- Current drawn from the positive secondary terminal. -/
noncomputable def iSec (p : Part) (t : ℝ) (v : Env) : ℂ := ⟨p.row t v .LrSecPos, p.row t v .LiSecPos⟩
/-- Current drawn from the negative primary terminal. -/
noncomputable def iPriNeg (p : Part) (t : ℝ) (v : Env) : ℂ := ⟨p.row t v .LrPriNeg, p.row t v .LiPriNeg⟩
/-- Current drawn from the negative secondary terminal. -/
noncomputable def iSecNeg (p : Part) (t : ℝ) (v : Env) : ℂ := ⟨p.row t v .LrSecNeg, p.row t v .LiSecNeg⟩

/-- **C14.** At every solution of the ideal transformer with ratio `tr`, angle `ang` (radians) and homotopy factor `t`:
the winding voltages are related by the scaled complex ratio, the complex power absorbed by both windings together
is zero, and each winding returns on its negative terminal the current it takes at its positive one. -/
theorem C14_ideal_transformer (tr ang t : ℝ) (v : Env) (h : XfmrSolved ⟨xfmr, [tr, ang, 0]⟩ t v) :
    let p : Part := ⟨xfmr, [tr, ang, 0]⟩
    vPri v = ((tr + (1 - tr) * t : ℝ) : ℂ) * Complex.exp (((ang * (1 - t) : ℝ) : ℂ) * Complex.I) * vSec v ∧
    power (vPri v) (iPri p t v) + power (vSec v) (iSec p t v) = 0 ∧
    iPri p t v = ⟨v .IrPrim, v .IiPrim⟩ ∧
    iPri p t v + iPriNeg p t v = 0 ∧ iSec p t v + iSecNeg p t v = 0 := by
  obtain ⟨h1, h2, h3, h4, h5, h6, h7, h8, h9, h10⟩ := xfmr_rows tr ang 0 t v
  obtain ⟨e1, e2⟩ := h
  rw [h5] at e1; rw [h6] at e2
  have ha : ang * (1 - t) = xAng t ang := by unfold xAng; ring
  refine ⟨?_, ?_, ?_, ?_, ?_⟩
  · rw [Complex.exp_mul_I, ha]
    apply Complex.ext
    · simp [vPri, vSec, Complex.cos_ofReal_re, Complex.sin_ofReal_re, xTr] at e1 e2 ⊢
      linarith
    · simp [vPri, vSec, Complex.cos_ofReal_re, Complex.sin_ofReal_re, xTr] at e1 e2 ⊢
      linarith
  · have f1 : v .VrPriPos - v .VrPriNeg = xTr t tr * Real.cos (xAng t ang) * (v .VrSecPos - v .VrSecNeg)
        - xTr t tr * Real.sin (xAng t ang) * (v .ViSecPos - v .ViSecNeg) := by linarith
    have f2 : v .ViPriPos - v .ViPriNeg = xTr t tr * Real.cos (xAng t ang) * (v .ViSecPos - v .ViSecNeg)
        + xTr t tr * Real.sin (xAng t ang) * (v .VrSecPos - v .VrSecNeg) := by linarith
    apply Complex.ext
    · simp only [power, vPri, vSec, iPri, iSec, h1, h2, h7, h8, Complex.add_re, Complex.mul_re, Complex.conj_re,
        Complex.conj_im, f1, f2, Complex.zero_re]
      ring
    · simp only [power, vPri, vSec, iPri, iSec, h1, h2, h7, h8, Complex.add_im, Complex.mul_im, Complex.conj_re,
        Complex.conj_im, f1, f2, Complex.zero_im]
      ring
  · apply Complex.ext <;> simp only [iPri, h1, h2]
  · apply Complex.ext <;> simp [iPri, iPriNeg, h1, h2, h3, h4]
  · apply Complex.ext
    · simp only [iSec, iSecNeg, h7, h9, Complex.add_re, Complex.zero_re]; ring
    · simp only [iSec, iSecNeg, h8, h10, Complex.add_im, Complex.zero_im]; ring

/-- A solved operating point of a 2:1 transformer with current flowing. -/
example : XfmrSolved ⟨xfmr, [2, 0, 0]⟩ 0 (fun s => if s = .VrPriPos then 2 else if s = .VrSecPos then 1
    else if s = .IrPrim then 5 else 0) := by
  obtain ⟨-, -, -, -, h5, h6, -⟩ := xfmr_rows 2 0 0 0 (fun s => if s = .VrPriPos then 2 else if s = .VrSecPos then 1
    else if s = .IrPrim then 5 else 0)
  constructor
  · rw [h5]; simp [xTr, xAng]
  · rw [h6]; simp [xTr, xAng]

/-- **C14, parameters.** A transformer built from `ang` degrees passes the angle in radians and its series branch is
`1/(r+jx)`; `r = x = 0` is rejected. -/
theorem C14_transformer_parts {L : Library} (hL : L.Loaded) (r x tr ang : ℝ) :
    (r ^ 2 + x ^ 2 = 0 → ∃ m, xfmrParts L r x tr ang = .error m) ∧
    (r ^ 2 + x ^ 2 ≠ 0 → ∃ loss, xfmrParts L r x tr ang = .ok (⟨xfmr, [tr, ang * Real.pi / 180, 0]⟩, loss) ∧
      ∀ v : Env, fromCurrent loss 0 v * ⟨r, x⟩ = across v) := by
  refine ⟨fun h => ⟨_, by simp [xfmrParts, h]; rfl⟩, fun h => ⟨_, by simp [xfmrParts, h]; rfl, fun v => ?_⟩⟩
  obtain ⟨h1, h2, -, -⟩ := line_rows hL (r / (r ^ 2 + x ^ 2)) (-x / (r ^ 2 + x ^ 2)) 0 0 v
  apply Complex.ext
  · simp only [fromCurrent, h1, h2, across, Complex.mul_re]; field_simp; ring
  · simp only [fromCurrent, h1, h2, across, Complex.mul_im]; field_simp; ring

/-! ### C15 -/

/-- Primary voltage (to the implicit neutral). -/
noncomputable def ctV0 (v : Env) : ℂ := ⟨v .VrPri, v .ViPri⟩
/-- First secondary voltage. -/
noncomputable def ctV1 (v : Env) : ℂ := ⟨v .VrL1, v .ViL1⟩
/-- Second secondary voltage. -/
noncomputable def ctV2 (v : Env) : ℂ := ⟨v .VrL2, v .ViL2⟩
/-- Current drawn from the primary node. -/
noncomputable def ctI0 (p : Part) (t : ℝ) (v : Env) : ℂ := ⟨p.row t v .LrPri, p.row t v .LiPri⟩
/-- Current drawn from the first secondary node. -/
noncomputable def ctI1 (p : Part) (t : ℝ) (v : Env) : ℂ := ⟨p.row t v .LrL1, p.row t v .LiL1⟩
/-- Current drawn from the second secondary node. -/
noncomputable def ctI2 (p : Part) (t : ℝ) (v : Env) : ℂ := ⟨p.row t v .LrL2, p.row t v .LiL2⟩

/-- The four voltage equations of the center-tap transformer hold. -/
def CtSolved (p : Part) (t : ℝ) (v : Env) : Prop :=
  p.row t v .LirL1 = 0 ∧ p.row t v .LiiL1 = 0 ∧ p.row t v .LirL2 = 0 ∧ p.row t v .LiiL2 = 0

/-- **C15.** With non-zero scaled ratio, at every solution the secondaries are `±V_pri / ratio` and no complex power
is lost or created. -/
theorem C15_center_tap (tr t : ℝ) (v : Env) (htr : tr + (1 - tr) * t ≠ 0) (h : CtSolved (ctPart tr) t v) :
    ctV1 v * ((tr + (1 - tr) * t : ℝ) : ℂ) = ctV0 v ∧ ctV2 v * ((tr + (1 - tr) * t : ℝ) : ℂ) = -ctV0 v ∧
    power (ctV0 v) (ctI0 (ctPart tr) t v) + power (ctV1 v) (ctI1 (ctPart tr) t v)
      + power (ctV2 v) (ctI2 (ctPart tr) t v) = 0 := by
  obtain ⟨h1, h2, h3, h4, h5, h6, h7, h8, h9, h10⟩ := ct_rows tr 0 t v
  obtain ⟨e1, e2, e3, e4⟩ := h
  unfold ctPart at *
  rw [h3] at e1; rw [h4] at e2; rw [h7] at e3; rw [h8] at e4
  have hx : xTr t tr ≠ 0 := htr
  have f1 : v .VrL1 = 1 / xTr t tr * v .VrPri := by linarith
  have f2 : v .ViL1 = 1 / xTr t tr * v .ViPri := by linarith
  have f3 : v .VrL2 = -(1 / xTr t tr * v .VrPri) := by linarith
  have f4 : v .ViL2 = -(1 / xTr t tr * v .ViPri) := by linarith
  have hX : tr + (1 - tr) * t = xTr t tr := rfl
  rw [hX]
  refine ⟨?_, ?_, ?_⟩
  · apply Complex.ext
    · simp only [ctV1, ctV0, f1, f2, Complex.mul_re, Complex.ofReal_re, Complex.ofReal_im]; field_simp; ring
    · simp only [ctV1, ctV0, f1, f2, Complex.mul_im, Complex.ofReal_re, Complex.ofReal_im]; field_simp; ring
  · apply Complex.ext
    · simp only [ctV2, ctV0, f3, f4, Complex.mul_re, Complex.ofReal_re, Complex.ofReal_im, Complex.neg_re]
      field_simp; ring
    · simp only [ctV2, ctV0, f3, f4, Complex.mul_im, Complex.ofReal_re, Complex.ofReal_im, Complex.neg_im]
      field_simp; ring
  · apply Complex.ext
    · simp only [power, ctV0, ctV1, ctV2, ctI0, ctI1, ctI2, h1, h2, h5, h6, h9, h10, f1, f2, f3, f4, Complex.add_re,
        Complex.mul_re, Complex.conj_re, Complex.conj_im, Complex.zero_re]
      ring
    · simp only [power, ctV0, ctV1, ctV2, ctI0, ctI1, ctI2, h1, h2, h5, h6, h9, h10, f1, f2, f3, f4, Complex.add_im,
        Complex.mul_im, Complex.conj_re, Complex.conj_im, Complex.zero_im]
      ring

/-- A solved operating point of a 60:1 center-tap transformer. -/
example : CtSolved (ctPart 60) 0 (fun s => if s = .VrPri then 7200 else if s = .VrL1 then 120
    else if s = .VrL2 then -120 else if s = .IrL1 then 3 else 0) := by
  obtain ⟨-, -, h3, h4, -, -, h7, h8, -⟩ := ct_rows 60 0 0 (fun s => if s = .VrPri then 7200 else if s = .VrL1 then 120
    else if s = .VrL2 then -120 else if s = .IrL1 then 3 else 0)
  unfold CtSolved ctPart
  rw [h3, h4, h7, h8]
  simp [xTr]
  norm_num

/-! ### C66 -/

/-- **C66, disagreement.** A center-tap winding specified with zero impedance becomes an open circuit, not a short: the
admittance stamped is zero, so no current flows whatever the voltage across it. -/
theorem C66_zero_impedance_winding_fails {L : Library} (hL : L.Loaded) (vnom rating : ℝ) (hr : rating ≠ 0) :
    ∃ g b, ctWinding 0 0 vnom rating = .ok (g, b) ∧
      ∀ (t : ℝ) (v : Env), fromCurrent ⟨L.line, [g, b, 0]⟩ t v = 0 := by
  refine ⟨0, 0, by simp [ctWinding, hr], fun t v => ?_⟩
  obtain ⟨h1, h2, -, -⟩ := line_rows hL 0 0 0 t v
  apply Complex.ext <;> simp [fromCurrent, h1, h2]

/-- **C66, what holds.** A winding with non-zero per-unit impedance carries the current `V / Z` with `Z` in ohms. -/
theorem C66_winding_current_partial {L : Library} (hL : L.Loaded) (res rea vnom rating : ℝ) (hr : rating ≠ 0)
    (hz : (⟨res * vnom ^ 2 / rating, rea * vnom ^ 2 / rating⟩ : ℂ) ≠ 0) :
    ∃ g b, ctWinding res rea vnom rating = .ok (g, b) ∧ ∀ v : Env,
      fromCurrent ⟨L.line, [g, b, 0]⟩ 0 v * ⟨res * vnom ^ 2 / rating, rea * vnom ^ 2 / rating⟩ = across v := by
  set r := res * vnom ^ 2 / rating with hrd
  set x := rea * vnom ^ 2 / rating with hxd
  have h0 : ¬(r = 0 ∧ x = 0) := by
    rintro ⟨a, b⟩; apply hz; apply Complex.ext <;> simp [a, b]
  have hn : r ^ 2 + x ^ 2 ≠ 0 := by
    intro hh; apply h0
    constructor <;> nlinarith [sq_nonneg r, sq_nonneg x]
  refine ⟨r / (r ^ 2 + x ^ 2), -x / (r ^ 2 + x ^ 2), ?_, fun v => ?_⟩
  · simp only [ctWinding, hr, if_false, ← hrd, ← hxd, h0, not_false_eq_true, if_true]
  obtain ⟨h1, h2, -, -⟩ := line_rows hL (r / (r ^ 2 + x ^ 2)) (-x / (r ^ 2 + x ^ 2)) 0 0 v
  apply Complex.ext
  · simp only [fromCurrent, h1, h2, across, Complex.mul_re]; field_simp; ring
  · simp only [fromCurrent, h1, h2, across, Complex.mul_im]; field_simp; ring

example : (⟨(0.01 : ℝ) * 120 ^ 2 / 25000, 0.02 * 120 ^ 2 / 25000⟩ : ℂ) ≠ 0 := by
  intro h; have := congrArg Complex.re h; norm_num at this

/-! ### C17 -/

/-- **C17, no dependence.** A part whose segment does not declare the homotopy factor (loads' constant power and
constant current parts, generators, slacks, sources) is the same at every factor. -/
theorem C17_undeformed_parts (p : Part) (h : Sym.txFactor ∉ p.seg.constants) (t u : ℝ) (v : Env) (d : Sym) :
    p.row t v d = p.row u v d := by
  have : p.env t v = p.env u v := by
    funext s
    unfold Part.env
    split_ifs with h1 h2
    · subst h2; exact absurd h1 h
    · rfl
    · rfl
  unfold Part.row; rw [this]

/-- **C17, branches.** At factor 1 every shunt carries nothing and every series branch 21 times its current at
factor 0; in between the scaling is `1 + 20t` and `1 - t`. -/
theorem C17_branch_scaling {L : Library} (hL : L.Loaded) (g b t : ℝ) (v : Env) :
    fromCurrent ⟨L.line, [g, b, 0]⟩ t v = ((1 + 20 * t : ℝ) : ℂ) * fromCurrent ⟨L.line, [g, b, 0]⟩ 0 v ∧
    fromCurrent ⟨L.line, [g, b, 0]⟩ 1 v = 21 * fromCurrent ⟨L.line, [g, b, 0]⟩ 0 v ∧
    fromCurrent ⟨L.shunt, [g, b, 0]⟩ t v = ((1 - t : ℝ) : ℂ) * fromCurrent ⟨L.shunt, [g, b, 0]⟩ 0 v ∧
    fromCurrent ⟨L.shunt, [g, b, 0]⟩ 1 v = 0 := by
  obtain ⟨a1, a2, -, -⟩ := line_rows hL g b 0 t v
  obtain ⟨b1, b2, -, -⟩ := line_rows hL g b 0 0 v
  obtain ⟨c1, c2, -, -⟩ := line_rows hL g b 0 1 v
  obtain ⟨d1, d2, -, -⟩ := shunt_rows hL g b 0 t v
  obtain ⟨e1, e2, -, -⟩ := shunt_rows hL g b 0 0 v
  obtain ⟨f1, f2, -, -⟩ := shunt_rows hL g b 0 1 v
  refine ⟨?_, ?_, ?_, ?_⟩
  · apply Complex.ext
    · simp only [fromCurrent, a1, a2, b1, b2, Complex.mul_re, Complex.ofReal_re, Complex.ofReal_im]; ring
    · simp only [fromCurrent, a1, a2, b1, b2, Complex.mul_im, Complex.ofReal_re, Complex.ofReal_im]; ring
  · apply Complex.ext
    · simp [fromCurrent, c1, c2, b1, b2]; ring
    · simp [fromCurrent, c1, c2, b1, b2]; ring
  · apply Complex.ext
    · simp only [fromCurrent, d1, d2, e1, e2, Complex.mul_re, Complex.ofReal_re, Complex.ofReal_im]; ring
    · simp only [fromCurrent, d1, d2, e1, e2, Complex.mul_im, Complex.ofReal_re, Complex.ofReal_im]; ring
  · apply Complex.ext <;> simp [fromCurrent, f1, f2]

/-- **C17, transformers.** At factor 0 the ratio is the transformer's own, at factor 1 windings have equal voltage; the
center-tap becomes a 1:1:1 device. -/
theorem C17_transformer_endpoints (tr ang : ℝ) (v : Env) :
    (XfmrSolved ⟨xfmr, [tr, ang, 0]⟩ 0 v → vPri v = (tr : ℂ) * Complex.exp ((ang : ℂ) * Complex.I) * vSec v) ∧
    (XfmrSolved ⟨xfmr, [tr, ang, 0]⟩ 1 v → vPri v = vSec v) ∧
    (CtSolved (ctPart tr) 1 v → ctV1 v = ctV0 v ∧ ctV2 v = -ctV0 v) := by
  refine ⟨fun h => ?_, fun h => ?_, fun h => ?_⟩
  · have := (C14_ideal_transformer tr ang 0 v h).1; simpa using this
  · have := (C14_ideal_transformer tr ang 1 v h).1; simpa using this
  · have h2 := C15_center_tap tr 1 v (by norm_num) h
    have : tr + (1 - tr) * 1 = 1 := by ring
    rw [this] at h2
    exact ⟨by simpa using h2.1, by simpa using h2.2.1⟩

/-- **C17, continuity.** Every row of every part is continuous in the homotopy factor wherever the expression has no
division by zero. -/
theorem C17_continuous_in_factor (p : Part) (d : Sym) (v : Env) (t : ℝ)
    (hdef : Defined (p.env t v) (p.seg.derivative d)) : ContinuousAt (fun u => p.row u v d) t := by
  by_cases h : Sym.txFactor ∈ p.seg.constants
  · have hupd : ∀ u, p.env u v = upd (p.env t v) .txFactor u := by
      intro u; funext s
      unfold Part.env upd
      by_cases hs : s = .txFactor
      · subst hs; simp [h]
      · simp [hs]
    have ht : (p.env t v) .txFactor = t := by simp [Part.env, h]
    have hd := hasDerivAt_eval (env := p.env t v) .txFactor hdef
    rw [ht] at hd
    have := hd.continuousAt
    unfold Part.row
    simpa only [← hupd] using this
  · have : (fun u => p.row u v d) = fun _ => p.row t v d := by
      funext u; exact C17_undeformed_parts p h u t v d
    rw [this]; exact continuousAt_const

/-- With a positive ratio the center-tap segment is free of division by zero along the whole homotopy; with a negative
ratio there is a factor in (0,1) where it divides by zero. -/
theorem C17_center_tap_ratio_sign (tr : ℝ) :
    (0 < tr → ∀ t ∈ Set.Icc (0 : ℝ) 1, tr + (1 - tr) * t ≠ 0) ∧
    (tr < 0 → ∃ t ∈ Set.Ioo (0 : ℝ) 1, tr + (1 - tr) * t = 0) := by
  constructor
  · rintro h t ⟨h0, h1⟩
    rcases eq_or_lt_of_le h0 with rfl | h0
    · simpa using h.ne'
    · have : 0 < tr * (1 - t) + t := by
        have : 0 ≤ tr * (1 - t) := mul_nonneg h.le (by linarith)
        linarith
      intro hz; nlinarith
  · intro h
    have hp : 0 < 1 - tr := by linarith
    refine ⟨-tr / (1 - tr), ⟨by apply div_pos <;> linarith, by rw [div_lt_one hp]; linarith⟩, ?_⟩
    field_simp; ring

/-- The hypothesis of continuity holds for the series branch at every point. -/
example {L : Library} (hL : L.Loaded) (t : ℝ) (v : Env) (d : Sym) :
    Defined ((⟨L.line, [1, -10, 0]⟩ : Part).env t v) (L.line.derivative d) := by
  obtain ⟨n, h⟩ := hL.line
  refine defined_diff d (defined_twoTerminal h rfl rfl rfl rfl ?_ ?_ (by simp [lineArgs]))
  · simp [admittanceKclR, lineG, lineB, defined_hadd, defined_hmul, defined_hsub, Defined]
  · simp [admittanceKclI, lineG, lineB, defined_hadd, defined_hmul, defined_hsub, Defined]

/-! ### Examples -/

/-- A transformer of ratio two with 2 V, 1 V and 5 A: its own equations hold and it neither makes nor loses power. -/
theorem xfmr_two_to_one : XfmrSolved ⟨xfmr, [2, 0, 0]⟩ 0 (fun s => if s = .VrPriPos then 2 else if s = .VrSecPos then 1
    else if s = .IrPrim then 5 else 0) := by
  obtain ⟨-, -, -, -, h5, h6, -⟩ := xfmr_rows 2 0 0 0 (fun s => if s = .VrPriPos then 2 else if s = .VrSecPos then 1
    else if s = .IrPrim then 5 else 0)
  constructor
  · rw [h5]; simp [xTr, xAng]
  · rw [h6]; simp [xTr, xAng]

example := C14_ideal_transformer 2 0 0 _ xfmr_two_to_one

/-- A transformer of `3 + 4j` ohms, ratio 2 and 30 degrees; one without impedance. -/
example {L : Library} (hL : L.Loaded) : (∃ loss, xfmrParts L 3 4 2 30 = .ok (⟨xfmr, [2, 30 * Real.pi / 180, 0]⟩, loss)) ∧
    ∃ m, xfmrParts L 0 0 2 30 = .error m := by
  obtain ⟨loss, h, _⟩ := (C14_transformer_parts hL 3 4 2 30).2 (by norm_num)
  exact ⟨⟨loss, h⟩, (C14_transformer_parts hL 0 0 2 30).1 (by norm_num)⟩

/-- The constant power part of a load is the same at every factor. -/
example {L : Library} (hL : L.Loaded) (v : Env) (d : Sym) : (⟨L.pq, [5, 1]⟩ : Part).row 0 v d = (⟨L.pq, [5, 1]⟩ : Part).row 1 v d := by
  obtain ⟨n, h⟩ := hL.pq
  exact C17_undeformed_parts _ (by rw [seg_constants h]; decide) 0 1 v d

/-- Half way, a line carries eleven times its current. -/
example {L : Library} (hL : L.Loaded) (v : Env) :
    fromCurrent ⟨L.line, [1, -10, 0]⟩ (1 / 2) v = 11 * fromCurrent ⟨L.line, [1, -10, 0]⟩ 0 v := by
  rw [(C17_branch_scaling hL 1 (-10) (1 / 2) v).1]
  norm_num

example : vPri (fun s => if s = .VrPriPos then 2 else if s = .VrSecPos then 1 else if s = .IrPrim then 5 else 0) =
    ((2 : ℝ) : ℂ) * Complex.exp (((0 : ℝ) : ℂ) * Complex.I) *
      vSec (fun s => if s = .VrPriPos then 2 else if s = .VrSecPos then 1 else if s = .IrPrim then 5 else 0) :=
  (C17_transformer_endpoints 2 0 _).1 xfmr_two_to_one

/-- The equations of a line are continuous in the factor. -/
example {L : Library} (hL : L.Loaded) (t : ℝ) (v : Env) (d : Sym) :
    ContinuousAt (fun u => (⟨L.line, [1, -10, 0]⟩ : Part).row u v d) t := by
  refine C17_continuous_in_factor _ d v t ?_
  obtain ⟨n, h⟩ := hL.line
  refine defined_diff d (defined_twoTerminal h rfl rfl rfl rfl ?_ ?_ (by simp [lineArgs]))
  · simp [admittanceKclR, lineG, lineB, defined_hadd, defined_hmul, defined_hsub, Defined]
  · simp [admittanceKclI, lineG, lineB, defined_hadd, defined_hmul, defined_hsub, Defined]

example : ∃ t ∈ Set.Ioo (0 : ℝ) 1, (-60 : ℝ) + (1 - -60) * t = 0 := (C17_center_tap_ratio_sign (-60)).2 (by norm_num)

end Verif
