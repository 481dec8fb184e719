import Verif.Lemmas.Physics

/-! Explicit rows of the transformer segments. -/

namespace Verif

open Ex Devices

theorem eval_diff_dot (env : Env) (x : Sym) (ds : List Sym) (es : List Ex) (h : ∀ e ∈ es, e.has x = false) :
    eval env (diff x (dot ds es)) = ((ds.zip es).map fun p => if x = p.1 then eval env p.2 else 0).sum := by
  induction ds generalizing es with
  | nil => simp [dot, diff]
  | cons d ds ih =>
    cases es with
    | nil => simp [dot, diff]
    | cons e es =>
      rw [dot, eval_diff_hadd, eval_diff_dual env x d e (h e (by simp)), ih es fun e he => h e (by simp [he])]
      simp

theorem xfmr_no_dual : ∀ x ∈ xfmrDuals, ∀ e ∈ xfmrEqns, e.has x = false := by decide

theorem ct_no_dual : ∀ x ∈ ctDuals, ∀ e ∈ ctEqns, e.has x = false := by decide

/-- The homotopy-scaled ratio and angle. -/
noncomputable def xTr (t tr : ℝ) : ℝ := tr + (1 - tr) * t
noncomputable def xAng (t ang : ℝ) : ℝ := ang - ang * t

theorem xfmr_rows (tr ang z t : ℝ) (v : Env) :
    let p : Part := ⟨xfmr, [tr, ang, z]⟩
    let c := xTr t tr * Real.cos (xAng t ang)
    let s := xTr t tr * Real.sin (xAng t ang)
    p.row t v .LrPriPos = v .IrPrim ∧ p.row t v .LiPriPos = v .IiPrim ∧
    p.row t v .LrPriNeg = -v .IrPrim ∧ p.row t v .LiPriNeg = -v .IiPrim ∧
    p.row t v .LirPrim = (v .VrPriPos - v .VrPriNeg) - c * (v .VrSecPos - v .VrSecNeg) + s * (v .ViSecPos - v .ViSecNeg) ∧
    p.row t v .LiiPrim = (v .ViPriPos - v .ViPriNeg) - c * (v .ViSecPos - v .ViSecNeg) - s * (v .VrSecPos - v .VrSecNeg) ∧
    p.row t v .LrSecPos = -c * v .IrPrim - s * v .IiPrim ∧ p.row t v .LiSecPos = -c * v .IiPrim + s * v .IrPrim ∧
    p.row t v .LrSecNeg = -(-c * v .IrPrim - s * v .IiPrim) ∧
    p.row t v .LiSecNeg = -(-c * v .IiPrim + s * v .IrPrim) := by
  have key : ∀ x ∈ xfmrDuals, ∀ env, eval env (diff x xfmr.lagrange) = _ := fun x hx env =>
    eval_diff_dot env x xfmrDuals xfmrEqns (xfmr_no_dual x hx)
  simp only [Part.row, Segment.derivative]
  refine ⟨?_, ?_, ?_, ?_, ?_, ?_, ?_, ?_, ?_, ?_⟩ <;>
  · rw [key _ (by decide)]
    simp [xfmrDuals, xfmrEqns, Part.env, xfmr, secR, secI, trCos, trSin, scaledTr, scaledAngle, xTr, xAng]

theorem ct_rows (tr z t : ℝ) (v : Env) :
    let p : Part := ⟨centerTap, [tr, z]⟩
    let k := 1 / xTr t tr
    p.row t v .LrPri = k * (-v .IrL1 + v .IrL2) ∧ p.row t v .LiPri = k * (-v .IiL1 + v .IiL2) ∧
    p.row t v .LirL1 = v .VrL1 - k * v .VrPri ∧ p.row t v .LiiL1 = v .ViL1 - k * v .ViPri ∧
    p.row t v .LrL1 = v .IrL1 ∧ p.row t v .LiL1 = v .IiL1 ∧
    p.row t v .LirL2 = v .VrL2 + k * v .VrPri ∧ p.row t v .LiiL2 = v .ViL2 + k * v .ViPri ∧
    p.row t v .LrL2 = v .IrL2 ∧ p.row t v .LiL2 = v .IiL2 := by
  have key : ∀ x ∈ ctDuals, ∀ env, eval env (diff x centerTap.lagrange) = _ := fun x hx env =>
    eval_diff_dot env x ctDuals ctEqns (ct_no_dual x hx)
  simp only [Part.row, Segment.derivative]
  refine ⟨?_, ?_, ?_, ?_, ?_, ?_, ?_, ?_, ?_, ?_⟩ <;>
  · rw [key _ (by decide)]
    simp [ctDuals, ctEqns, Part.env, centerTap, scaledTr, xTr]

end Verif
