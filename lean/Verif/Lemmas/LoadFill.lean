import Verif.Lemmas.Converge
import Verif.Lemmas.Linear
import Verif.Lemmas.Physics
import Verif.Lemmas.KirchhoffNetwork
import Verif.Lemmas.Realize
import Verif.Lemmas.NetworkBelow

/-! # When no stamp of a constant power device is zero -/

namespace Verif

open Ex Devices

variable {L : Library}

theorem pqR_deriv {P Q σ τ z : ℝ} {a b : ℝ → ℝ} (ha : HasDerivAt a σ z) (hb : HasDerivAt b τ z) (h : a z ^ 2 + b z ^ 2 ≠ 0) :
    HasDerivAt (fun s => pqR P Q (a s) (b s))
      (-(σ * (P * (a z ^ 2 - b z ^ 2) + 2 * Q * a z * b z) - τ * (Q * (a z ^ 2 - b z ^ 2) - 2 * P * a z * b z)) / (a z ^ 2 + b z ^ 2) ^ 2) z := by
  unfold pqR
  refine (((ha.const_mul P).add (hb.const_mul Q)).div ((ha.pow 2).add (hb.pow 2)) h).congr_deriv ?_
  simp
  congr 1; ring

theorem pqI_deriv {P Q σ τ z : ℝ} {a b : ℝ → ℝ} (ha : HasDerivAt a σ z) (hb : HasDerivAt b τ z) (h : a z ^ 2 + b z ^ 2 ≠ 0) :
    HasDerivAt (fun s => pqI P Q (a s) (b s))
      ((σ * (Q * (a z ^ 2 - b z ^ 2) - 2 * P * a z * b z) + τ * (P * (a z ^ 2 - b z ^ 2) + 2 * Q * a z * b z)) / (a z ^ 2 + b z ^ 2) ^ 2) z := by
  unfold pqI
  refine (((hb.const_mul P).sub (ha.const_mul Q)).div ((ha.pow 2).add (hb.pow 2)) h).congr_deriv ?_
  simp
  congr 1; ring

theorem pq_diff_ne (hL : L.Loaded) {env : Env} {x y : Sym} (hx : x ∈ [Sym.LrFrom, .LiFrom, .LrTo, .LiTo]) (hy : y ∈ terminals)
    (hd : Defined env (L.pq.derivative x)) {a b : ℝ} (ha : env .VrFrom - env .VrTo = a) (hb : env .ViFrom - env .ViTo = b)
    (h0 : a ^ 2 + b ^ 2 ≠ 0) (h1 : env .P * (a ^ 2 - b ^ 2) + 2 * env .Q * a * b ≠ 0)
    (h2 : env .Q * (a ^ 2 - b ^ 2) - 2 * env .P * a * b ≠ 0) :
    eval env (diff y (L.pq.derivative x)) ≠ 0 := by
  obtain ⟨n, h⟩ := hL.pq
  have hder := hasDerivAt_eval y hd
  have hrow : ∀ e, eval e (L.pq.derivative x) = (if x = .LrFrom then eval e pqKclR else 0) + (if x = .LiFrom then eval e pqKclI else 0)
      + (if x = .LrTo then -eval e pqKclR else 0) + (if x = .LiTo then -eval e pqKclI else 0) := fun e => by
    have := rows_plain h (x := x) rfl rfl rfl rfl (by simp at hx; rcases hx with rfl | rfl | rfl | rfl <;> rfl)
      (by simp at hx; rcases hx with rfl | rfl | rfl | rfl <;> rfl) (by simp [pqArgs]) e
    simpa [pqArgs] using this
  have hR : ∀ e, eval e pqKclR = pqR (e .P) (e .Q) (e .VrFrom - e .VrTo) (e .ViFrom - e .ViTo) := fun e => by
    simp [pqKclR, Vr, Vi, pqR, zpow_ofNat]
  have hI : ∀ e, eval e pqKclI = pqI (e .P) (e .Q) (e .VrFrom - e .VrTo) (e .ViFrom - e .ViTo) := fun e => by
    simp [pqKclI, Vr, Vi, pqI, zpow_ofNat]
  simp only [hrow, hR, hI] at hder
  have hi := hasDerivAt_id' (env y)
  have hpos : (a ^ 2 + b ^ 2) ^ 2 ≠ 0 := pow_ne_zero _ h0
  have key : ∃ σ τ : ℝ, ((σ ≠ 0 ∧ τ = 0) ∨ (σ = 0 ∧ τ ≠ 0)) ∧
      HasDerivAt (fun t => upd env y t .VrFrom - upd env y t .VrTo) σ (env y) ∧
      HasDerivAt (fun t => upd env y t .ViFrom - upd env y t .ViTo) τ (env y) := by
    simp [terminals] at hy
    rcases hy with rfl | rfl | rfl | rfl
    · exact ⟨1, 0, by simp, hi.sub_const (env .VrTo), hasDerivAt_const _ (env .ViFrom - env .ViTo)⟩
    · exact ⟨0, 1, by simp, hasDerivAt_const _ (env .VrFrom - env .VrTo), hi.sub_const (env .ViTo)⟩
    · exact ⟨-1, 0, by simp, hi.const_sub (env .VrFrom), hasDerivAt_const _ (env .ViFrom - env .ViTo)⟩
    · exact ⟨0, -1, by simp, hasDerivAt_const _ (env .VrFrom - env .VrTo), hi.const_sub (env .ViFrom)⟩
  obtain ⟨σ, τ, hst, hσ, hτ⟩ := key
  have hz : ∀ s, upd env y (env y) s = env s := fun s => by
    unfold upd; rw [Function.update_eq_self]
  have hP : ∀ t, upd env y t .P = env .P := fun t => by
    simp [terminals] at hy; rcases hy with rfl | rfl | rfl | rfl <;> rfl
  have hQ : ∀ t, upd env y t .Q = env .Q := fun t => by
    simp [terminals] at hy; rcases hy with rfl | rfl | rfl | rfl <;> rfl
  have d1 := pqR_deriv (P := env .P) (Q := env .Q) hσ hτ (by simp only [hz, ha, hb]; exact h0)
  have d2 := pqI_deriv (P := env .P) (Q := env .Q) hσ hτ (by simp only [hz, ha, hb]; exact h0)
  simp only [hz, ha, hb] at d1 d2
  have n1 : -(σ * (env .P * (a ^ 2 - b ^ 2) + 2 * env .Q * a * b) - τ * (env .Q * (a ^ 2 - b ^ 2) - 2 * env .P * a * b)) / (a ^ 2 + b ^ 2) ^ 2 ≠ 0 := by
    refine div_ne_zero ?_ hpos
    rcases hst with ⟨e1, e2⟩ | ⟨e1, e2⟩
    · rw [e2]; simpa using ⟨e1, h1⟩
    · rw [e1]; simpa using ⟨e2, h2⟩
  have n2 : (σ * (env .Q * (a ^ 2 - b ^ 2) - 2 * env .P * a * b) + τ * (env .P * (a ^ 2 - b ^ 2) + 2 * env .Q * a * b)) / (a ^ 2 + b ^ 2) ^ 2 ≠ 0 := by
    refine div_ne_zero ?_ hpos
    rcases hst with ⟨e1, e2⟩ | ⟨e1, e2⟩
    · rw [e2]; simpa using ⟨e1, h2⟩
    · rw [e1]; simpa using ⟨e2, h1⟩
  simp only [hP, hQ] at hder
  simp at hx
  rcases hx with rfl | rfl | rfl | rfl
  · simp at hder; rw [hder.unique d1]; exact n1
  · simp at hder; rw [hder.unique d2]; exact n2
  · simp at hder; rw [hder.unique d1.fun_neg]; exact neg_ne_zero.2 n1
  · simp at hder; rw [hder.unique d2.fun_neg]; exact neg_ne_zero.2 n2

theorem filled_of_linear {p : Placed} (h : p.LinearStamps) (t : ℝ) (v : ℕ → ℝ) : p.Filled t v :=
  fun s hs h1 h2 => absurd (h s hs h1).1 h2

theorem load_filled (hL : L.Loaded) {f u : Node} {n : ℕ} {P Q t : ℝ} {v : ℕ → ℝ} (hf : f.lr = none ∧ f.li = none)
    (hu : u.lr = none ∧ u.li = none)
    (hr : Placed.Regular ⟨(twoTerminalDetails L.pq f u n false).1, [P, Q]⟩ t v)
    (h1 : ((⟨P, Q⟩ : ℂ) * (starRingEnd ℂ (f.volt v - u.volt v)) ^ 2).re ≠ 0)
    (h2 : ((⟨P, Q⟩ : ℂ) * (starRingEnd ℂ (f.volt v - u.volt v)) ^ 2).im ≠ 0) :
    Placed.Filled ⟨(twoTerminalDetails L.pq f u n false).1, [P, Q]⟩ t v := by
  intro s hs _ hc
  left
  obtain ⟨c, hc⟩ := Option.ne_none_iff_exists'.1 hc
  obtain ⟨x, hx, y, hy, _, hyc, hval⟩ := stamp_value hs hc
  obtain ⟨q1, q2, q3⟩ := pq_shape hL
  obtain ⟨s1, s2, s3, s4, _, _, _⟩ := twoTerminalDetails_spec (own := []) (lams := []) f u n false q1 q2 (by simp) (by simp)
  rw [hval t v hr]
  have hx' : x ∈ [Sym.LrFrom, .LiFrom, .LrTo, .LiTo] := by
    unfold Details.firstOrder at hx
    simp only [s1, s3, q2] at hx
    simpa using hx
  have hy' : y ∈ terminals := by
    unfold Segment.vars at hy
    simp only [s1, q1, q2, List.append_nil] at hy
    rcases List.mem_append.1 hy with hy | hy
    · exact hy
    · exfalso
      simp at hy
      rcases hy with rfl | rfl | rfl | rfl
      · simp [s4 .LrFrom _ rfl, hf.1] at hyc
      · simp [s4 .LiFrom _ rfl, hf.2] at hyc
      · simp [s4 .LrTo _ rfl, hu.1] at hyc
      · simp [s4 .LiTo _ rfl, hu.2] at hyc
  have key : ∀ s ∈ terminals, ∀ i, terminalDict f u s = some i →
      Placed.env ⟨(twoTerminalDetails L.pq f u n false).1, [P, Q]⟩ t v s = readIdx v i := by
    intro s hs i hi
    rw [env_const (by simp only [s1, q3]; simp [terminals] at hs; rcases hs with rfl | rfl | rfl | rfl <;> decide), ← s4 s i hi]
    refine if_pos ?_
    simp only [s1]
    unfold Segment.vars; rw [q1]
    exact List.mem_append_left _ (List.mem_append_left _ hs)
  have hP : Placed.env ⟨(twoTerminalDetails L.pq f u n false).1, [P, Q]⟩ t v .P = P := by
    simp [Placed.env, Placed.part, Part.env, s1, q3]
  have hQ : Placed.env ⟨(twoTerminalDetails L.pq f u n false).1, [P, Q]⟩ t v .Q = Q := by
    simp [Placed.env, Placed.part, Part.env, s1, q3]
  have e1 := key .VrFrom (by simp [terminals]) f.vr rfl
  have e2 := key .VrTo (by simp [terminals]) u.vr rfl
  have e3 := key .ViFrom (by simp [terminals]) f.vi rfl
  have e4 := key .ViTo (by simp [terminals]) u.vi rfl
  have hV : f.volt v - u.volt v = ⟨readIdx v f.vr - readIdx v u.vr, readIdx v f.vi - readIdx v u.vi⟩ := rfl
  rw [hV] at h1 h2
  have hd := hr.defined
  have hdx := defined_diff x hd
  have hseg : (twoTerminalDetails L.pq f u n false).1.seg = L.pq := s1
  show eval _ (diff y ((twoTerminalDetails L.pq f u n false).1.seg.derivative x)) ≠ 0
  have hdx' : Defined (Placed.env ⟨(twoTerminalDetails L.pq f u n false).1, [P, Q]⟩ t v) (L.pq.derivative x) := by
    have := hdx; simp only [s1] at this; exact this
  rw [hseg]
  have h1' : P * ((readIdx v f.vr - readIdx v u.vr) ^ 2 - (readIdx v f.vi - readIdx v u.vi) ^ 2)
      + 2 * Q * (readIdx v f.vr - readIdx v u.vr) * (readIdx v f.vi - readIdx v u.vi) ≠ 0 := by
    intro h; apply h1; simp [pow_two]; linarith
  have h2' : Q * ((readIdx v f.vr - readIdx v u.vr) ^ 2 - (readIdx v f.vi - readIdx v u.vi) ^ 2)
      - 2 * P * (readIdx v f.vr - readIdx v u.vr) * (readIdx v f.vi - readIdx v u.vi) ≠ 0 := by
    intro h; apply h2; simp [pow_two]; linarith
  refine pq_diff_ne hL hx' hy' hdx' (by rw [e1, e2]) (by rw [e3, e4]) ?_ (by rw [hP, hQ]; exact h1') (by rw [hP, hQ]; exact h2')
  intro h0
  have ha : readIdx v f.vr - readIdx v u.vr = 0 := by nlinarith [sq_nonneg (readIdx v f.vr - readIdx v u.vr), sq_nonneg (readIdx v f.vi - readIdx v u.vi)]
  have hb : readIdx v f.vi - readIdx v u.vi = 0 := by nlinarith [sq_nonneg (readIdx v f.vr - readIdx v u.vr), sq_nonneg (readIdx v f.vi - readIdx v u.vi)]
  rw [ha, hb] at h1'; simp at h1'

/-! ### Generators -/

theorem gen_diff (hL : L.Loaded) {m : ℕ} (hm : L.gen.duals = [.LrFrom, .LiFrom, .LrTo, .LiTo] ++ [.lam m]) {env : Env} {x y : Sym}
    (hx : x ∈ [Sym.LrFrom, .LiFrom, .lam m]) (hy : y ∈ [Sym.VrFrom, .ViFrom, .Q])
    (hd : Defined env (L.gen.derivative x)) :
    let a := env .VrFrom - env .VrTo
    let b := env .ViFrom - env .ViTo
    (x = .lam m ∧ y = .Q → eval env (diff y (L.gen.derivative x)) = 0) ∧
    (¬ (x = .lam m ∧ y = .Q) → a ≠ 0 → b ≠ 0 → env .P * (a ^ 2 - b ^ 2) + 2 * env .Q * a * b ≠ 0 →
      env .Q * (a ^ 2 - b ^ 2) - 2 * env .P * a * b ≠ 0 → eval env (diff y (L.gen.derivative x)) ≠ 0) := by
  intro a b
  obtain ⟨k, h⟩ := hL.gen
  have hk : k = m := by
    have := seg_duals h
    rw [hm] at this
    simpa [equalityDuals, genArgs] using this.symm
  subst hk
  have hder := hasDerivAt_eval y hd
  have hrow : ∀ e, eval e (L.gen.derivative x) = (if x = .LrFrom then pqR (e .P) (e .Q) (e .VrFrom - e .VrTo) (e .ViFrom - e .ViTo) else 0)
      + (if x = .LiFrom then pqI (e .P) (e .Q) (e .VrFrom - e .VrTo) (e .ViFrom - e .ViTo) else 0)
      + (if x = .lam k then e .Vset ^ 2 - (e .VrFrom - e .VrTo) ^ 2 - (e .ViFrom - e .ViTo) ^ 2 else 0) := fun e => by
    have := rows_plain h (x := x) rfl rfl rfl rfl (by simp at hx; rcases hx with rfl | rfl | rfl <;> rfl)
      (by simp at hx; rcases hx with rfl | rfl | rfl <;> rfl)
      (by simp [genArgs]; simp at hx; rcases hx with rfl | rfl | rfl <;> rfl) e
    rw [this]
    simp at hx
    rcases hx with rfl | rfl | rfl
    · simp [genArgs, pqKclR, Vr, Vi, pqR, zpow_ofNat]
    · simp [genArgs, pqKclI, Vr, Vi, pqI, zpow_ofNat]
    · simp [genArgs, genFQ, Vr, Vi, zpow_ofNat]
  simp only [hrow] at hder
  have hi := hasDerivAt_id' (env y)
  have hz : ∀ s, upd env y (env y) s = env s := fun s => by unfold upd; rw [Function.update_eq_self]
  refine ⟨?_, fun hxy ha hb h1 h2 => ?_⟩
  · rintro ⟨rfl, rfl⟩
    simp at hder
    exact hder.unique (hasDerivAt_const _ (env .Vset ^ 2 - (env .VrFrom - env .VrTo) ^ 2 - (env .ViFrom - env .ViTo) ^ 2))
  · have h0 : a ^ 2 + b ^ 2 ≠ 0 := by positivity
    have hpos : (a ^ 2 + b ^ 2) ^ 2 ≠ 0 := pow_ne_zero _ h0
    by_cases hQ : y = .Q
    · subst hQ
      have hq : HasDerivAt (fun t : ℝ => upd env .Q t .Q) 1 (env .Q) := hi
      simp at hx
      rcases hx with rfl | rfl | rfl
      · simp at hder
        have d : HasDerivAt (fun t : ℝ => pqR (env .P) (upd env .Q t .Q) a b) (b / (a ^ 2 + b ^ 2)) (env .Q) := by
          unfold pqR
          refine (((hq.mul_const b).const_add (env .P * a)).div_const (a ^ 2 + b ^ 2)).congr_deriv ?_
          ring
        rw [hder.unique d]; exact div_ne_zero hb h0
      · simp at hder
        have d : HasDerivAt (fun t : ℝ => pqI (env .P) (upd env .Q t .Q) a b) (-a / (a ^ 2 + b ^ 2)) (env .Q) := by
          unfold pqI
          refine (((hq.mul_const a).const_sub (env .P * b)).div_const (a ^ 2 + b ^ 2)).congr_deriv ?_
          ring
        rw [hder.unique d]; exact div_ne_zero (neg_ne_zero.2 ha) h0
      · exact absurd ⟨rfl, rfl⟩ hxy
    · have hy' : y = .VrFrom ∨ y = .ViFrom := by simp at hy; tauto
      have key : ∃ σ τ : ℝ, ((σ = 1 ∧ τ = 0) ∨ (σ = 0 ∧ τ = 1)) ∧
          HasDerivAt (fun t => upd env y t .VrFrom - upd env y t .VrTo) σ (env y) ∧
          HasDerivAt (fun t => upd env y t .ViFrom - upd env y t .ViTo) τ (env y) := by
        rcases hy' with rfl | rfl
        · exact ⟨1, 0, by simp, hi.sub_const (env .VrTo), hasDerivAt_const _ (env .ViFrom - env .ViTo)⟩
        · exact ⟨0, 1, by simp, hasDerivAt_const _ (env .VrFrom - env .VrTo), hi.sub_const (env .ViTo)⟩
      obtain ⟨σ, τ, hst, hσ, hτ⟩ := key
      have hP : ∀ t, upd env y t .P = env .P := fun t => by rcases hy' with rfl | rfl <;> rfl
      have hQ' : ∀ t, upd env y t .Q = env .Q := fun t => by rcases hy' with rfl | rfl <;> rfl
      have hS : ∀ t, upd env y t .Vset = env .Vset := fun t => by rcases hy' with rfl | rfl <;> rfl
      simp only [hP, hQ', hS] at hder
      simp at hx
      rcases hx with rfl | rfl | rfl
      · have d1 := pqR_deriv (P := env .P) (Q := env .Q) hσ hτ (by simp only [hz]; exact h0)
        simp only [hz] at d1
        simp at hder; rw [hder.unique d1]
        refine div_ne_zero ?_ hpos
        rcases hst with ⟨e1, e2⟩ | ⟨e1, e2⟩
        · rw [e1, e2]; intro h; exact h1 (by linarith)
        · rw [e1, e2]; intro h; exact h2 (by linarith)
      · have d2 := pqI_deriv (P := env .P) (Q := env .Q) hσ hτ (by simp only [hz]; exact h0)
        simp only [hz] at d2
        simp at hder; rw [hder.unique d2]
        refine div_ne_zero ?_ hpos
        rcases hst with ⟨e1, e2⟩ | ⟨e1, e2⟩
        · rw [e1, e2]; intro h; exact h2 (by linarith)
        · rw [e1, e2]; intro h; exact h1 (by linarith)
      · have d3 := ((hσ.pow 2).const_sub (env .Vset ^ 2)).sub (hτ.pow 2)
        simp only [hz] at d3
        simp at hder
        have hder' : HasDerivAt (((fun t => env .Vset ^ 2 - ((fun t => upd env y t .VrFrom - upd env y t .VrTo) ^ 2) t) -
          (fun t => upd env y t .ViFrom - upd env y t .ViTo) ^ 2)) (eval env (diff y (L.gen.derivative (.lam k)))) (env y) := hder
        rw [hder'.unique d3]
        rcases hst with ⟨e1, e2⟩ | ⟨e1, e2⟩
        · rw [e1, e2]; simpa using ha
        · rw [e1, e2]; simpa using hb

theorem gen_filled (hL : L.Loaded) {f : Node} {n : ℕ} {P W t : ℝ} {v : ℕ → ℝ} (hf : f.lr = none ∧ f.li = none)
    (hr : Placed.Regular ⟨(twoTerminalDetails L.gen f Node.ground n false).1, [P, W]⟩ t v)
    (hre : (f.volt v).re ≠ 0) (him : (f.volt v).im ≠ 0)
    (h1 : ((⟨P, v n⟩ : ℂ) * (starRingEnd ℂ (f.volt v)) ^ 2).re ≠ 0)
    (h2 : ((⟨P, v n⟩ : ℂ) * (starRingEnd ℂ (f.volt v)) ^ 2).im ≠ 0) :
    Placed.Filled ⟨(twoTerminalDetails L.gen f Node.ground n false).1, [P, W]⟩ t v := by
  intro s hs _ hc
  obtain ⟨c, hc⟩ := Option.ne_none_iff_exists'.1 hc
  obtain ⟨x, hx, y, hy, hxr, hyc, hval⟩ := stamp_value hs hc
  obtain ⟨m, q1, q2, q3⟩ := gen_shape hL
  have hnd : ([Sym.Q] ++ [Sym.lam m]).Nodup := by simp
  have hmiss : ∀ s ∈ [Sym.Q] ++ [Sym.lam m], terminalDict f Node.ground s = none := by simp [terminalDict]
  obtain ⟨s1, s2, s3, s4, s5, s6, _⟩ := twoTerminalDetails_spec f Node.ground n false q1 q2 hnd hmiss
  have hseg : (twoTerminalDetails L.gen f Node.ground n false).1.seg = L.gen := s1
  have hx' : x ∈ [Sym.LrFrom, .LiFrom, .lam m] := by
    obtain ⟨_, _, _, _, g4, g5, _⟩ := twoTerminal_rows (n := n) q1 q2 hnd hmiss
    unfold Details.firstOrder at hx
    simp only [s1, s3, q2] at hx
    simp at hx
    rcases hx with rfl | rfl | rfl | rfl | rfl
    · simp
    · simp
    · exact absurd (g4.symm.trans hxr) (by simp [Node.ground])
    · exact absurd (g5.symm.trans hxr) (by simp [Node.ground])
    · simp
  have hy' : y ∈ [Sym.VrFrom, .ViFrom, .Q] := by
    unfold Segment.vars at hy
    simp only [s1, q1, q2] at hy
    simp [terminals] at hy
    rcases hy with rfl | rfl | rfl | rfl | rfl | rfl | rfl | rfl | rfl | rfl
    · simp
    · simp
    · exact absurd ((s4 .VrTo none rfl).symm.trans hyc) (by simp)
    · exact absurd ((s4 .ViTo none rfl).symm.trans hyc) (by simp)
    · simp
    · simp [s4 .LrFrom _ rfl, hf.1] at hyc
    · simp [s4 .LiFrom _ rfl, hf.2] at hyc
    · exact absurd ((s4 .LrTo none rfl).symm.trans hyc) (by simp)
    · exact absurd ((s4 .LiTo none rfl).symm.trans hyc) (by simp)
    · have := s6 (.lam m) (by simp)
      simp [this] at hyc
  have hdx : ∀ w, Placed.Regular ⟨(twoTerminalDetails L.gen f Node.ground n false).1, [P, W]⟩ t w →
      Defined (Placed.env ⟨(twoTerminalDetails L.gen f Node.ground n false).1, [P, W]⟩ t w) (L.gen.derivative x) := fun w hw => by
    have := defined_diff x hw.defined
    simp only [s1] at this; exact this
  by_cases hxy : x = .lam m ∧ y = .Q
  · right
    intro w hw
    rw [hval t w hw]
    show eval _ (diff y ((twoTerminalDetails L.gen f Node.ground n false).1.seg.derivative x)) = 0
    rw [hseg]
    exact (gen_diff hL q2 hx' hy' (hdx w hw)).1 hxy
  · left
    rw [hval t v hr]
    show eval _ (diff y ((twoTerminalDetails L.gen f Node.ground n false).1.seg.derivative x)) ≠ 0
    rw [hseg]
    obtain ⟨p1, p2, p3, p4, p5⟩ := twoTerminal_point (n := n) q1 q2 hnd hmiss [P, W] v
    have p5 := p5 .Q (by simp)
    have key : ∀ s, s ∉ L.gen.constants →
        Placed.env ⟨(twoTerminalDetails L.gen f Node.ground n false).1, [P, W]⟩ t v s =
        Placed.point ⟨(twoTerminalDetails L.gen f Node.ground n false).1, [P, W]⟩ v s := fun s hs =>
      env_const (by simp only [s1]; exact hs)
    have hP : Placed.env ⟨(twoTerminalDetails L.gen f Node.ground n false).1, [P, W]⟩ t v .P = P := by
      simp [Placed.env, Placed.part, Part.env, s1, q3]
    have e1 := (key .VrFrom (by rw [q3]; decide)).trans p1
    have e2 := (key .ViFrom (by rw [q3]; decide)).trans p2
    have e3 := (key .VrTo (by rw [q3]; decide)).trans p3
    have e4 := (key .ViTo (by rw [q3]; decide)).trans p4
    have e5 := (key .Q (by rw [q3]; decide)).trans p5
    have g1 : readIdx v Node.ground.vr = 0 := rfl
    have g2 : readIdx v Node.ground.vi = 0 := rfl
    have hidx : n + [Sym.Q].idxOf .Q = n := by simp
    rw [hidx] at e5
    rw [g1] at e3
    rw [g2] at e4
    have hV : f.volt v = ⟨readIdx v f.vr, readIdx v f.vi⟩ := rfl
    rw [hV] at h1 h2 hre him
    refine (gen_diff hL q2 hx' hy' (hdx v hr)).2 hxy ?_ ?_ ?_ ?_
    · rw [e1, e3, sub_zero]; exact hre
    · rw [e2, e4, sub_zero]; exact him
    · rw [e1, e2, e3, e4, e5, hP, sub_zero, sub_zero]
      intro h; apply h1; simp [pow_two]; linarith
    · rw [e1, e2, e3, e4, e5, hP, sub_zero, sub_zero]
      intro h; apply h2; simp [pow_two]; linarith

theorem place_filled (hL : L.Loaded) (nodes : List Node) (hn : ∀ r, (nodeAt nodes r).lr = none ∧ (nodeAt nodes r).li = none) (e : Element) (n : ℕ)
    (t : ℝ) (v : ℕ → ℝ)
    (he : e.SteadyAt (fun r => (nodeAt nodes r).volt v) (((Element.unknowns L false e).map (unknownIdx (e.place L false nodes n).1)).map (readIdx v)))
    (hr : ∀ p ∈ (e.place L false nodes n).1, p.Regular t v) :
    ∀ p ∈ (e.place L false nodes n).1, p.Filled t v := by
  by_cases hl : e.Linear
  · exact fun p hp => filled_of_linear (place_linear hL nodes e n hl p hp) t v
  intro p hp
  cases e with
  | generator b P W =>
    rw [(place_window hL nodes (.generator b P W) n v).2] at he
    have hw : ((fresh n ((Element.generator b P W).laws 0 (fun _ => 0) []).length).map (readIdx v)).getD 0 0 = v n :=
      getD_map_range' v n 1 0 (by omega)
    have hreg := hr p hp
    simp only [Element.place, placeTwoTerminal, List.mem_cons, List.not_mem_nil, or_false] at hp
    subst hp
    obtain ⟨a1, a2, a3, a4⟩ := he
    rw [hw] at a3 a4
    exact gen_filled hL (hn (some b)) hreg a1 a2 a3 a4
  | load f u l =>
    have h0 : ¬ (l.P = 0 ∧ l.Q = 0) := hl
    have hreg := hr p hp
    simp only [Element.place, placeLoad, if_neg h0, placeTwoTerminal] at hp
    obtain ⟨ni, hi0⟩ := hL.ic
    obtain ⟨ns, hs0⟩ := hL.shunt
    rcases List.mem_append.1 hp with hp | hp
    · rcases List.mem_append.1 hp with hp | hp
      · simp only [List.mem_cons, List.not_mem_nil, or_false] at hp
        subst hp
        obtain ⟨a, b⟩ := Or.resolve_left he h0
        exact load_filled hL (hn f) (hn u) hreg a b
      · have : ∃ m, p = ⟨(twoTerminalDetails L.ic (nodeAt nodes f) (nodeAt nodes u) m false).1, [l.IP, l.IQ]⟩ := by
          split_ifs at hp <;> simp at hp <;> exact ⟨_, hp⟩
        obtain ⟨m, rfl⟩ := this
        exact filled_of_linear (linearStamps_of rfl (ic_linear hi0)) t v
    · split_ifs at hp
      · simp at hp
      · simp only [List.mem_cons, List.not_mem_nil, or_false] at hp
        subst hp
        exact filled_of_linear (linearStamps_of rfl (shunt_linear hs0)) t v
  | _ => exact (hl trivial).elim

theorem placeElements_filled (hL : L.Loaded) (nodes : List Node) (hn : ∀ r, (nodeAt nodes r).lr = none ∧ (nodeAt nodes r).li = none)
    (es : List Element) (n : ℕ) (t : ℝ) (v : ℕ → ℝ)
    (he : ∀ x ∈ List.zipWith (fun e ps => (e, ((Element.unknowns L false e).map (unknownIdx ps)).map (readIdx v))) es (placeElements L false nodes n es).1,
      x.1.SteadyAt (fun r => (nodeAt nodes r).volt v) x.2)
    (hr : ∀ p ∈ (placeElements L false nodes n es).1.flatten, p.Regular t v) :
    ∀ p ∈ (placeElements L false nodes n es).1.flatten, p.Filled t v := by
  induction es generalizing n with
  | nil => simp [placeElements]
  | cons e es ih =>
    intro p hp
    simp only [placeElements, List.flatten_cons, List.mem_append] at hp hr
    simp only [placeElements, List.zipWith_cons_cons, List.mem_cons, forall_eq_or_imp] at he
    rcases hp with hp | hp
    · exact place_filled hL nodes hn e n t v he.1 (fun q hq => hr q (Or.inl hq)) p hp
    · exact ih _ he.2 (fun q hq => hr q (Or.inr hq)) p hp

theorem plain_nodeAt (K s : ℕ) (r : Ref) : (nodeAt ((List.range' s K).map plainNode) r).lr = none ∧
    (nodeAt ((List.range' s K).map plainNode) r).li = none := by
  cases r with
  | none => exact ⟨rfl, rfl⟩
  | some k =>
    unfold nodeAt
    simp only [List.getD_eq_getElem?_getD, List.getElem?_map]
    cases (List.range' s K)[k]? <;> exact ⟨rfl, rfl⟩

/-- The condition on elements fills all parts. -/
theorem network_filled (hL : L.Loaded) (N : Network) (ho : N.optimization = none) (t : ℝ) (xs : ℕ → ℝ)
    (hreg : ∀ p ∈ (N.assign L).all, p.Regular t xs)
    (hs : ∀ x ∈ (N.assign L).owned L N xs, x.1.SteadyAt ((N.assign L).voltages xs) x.2) :
    ∀ p ∈ (N.assign L).all, p.Filled t xs := by
  have hop : N.opt = false := by simp [Network.opt, ho]
  have hnodes : (N.assign L).nodes = (List.range' 0 N.buses).map plainNode := by
    have h1 : (N.assign L).nodes = (assignBuses N.opt N.buses 0).1 := rfl
    rw [h1, hop, show (0 : ℕ) = 2 * 0 from rfl, assignBuses_plain]
  have hall : (N.assign L).all = (placeElements L false (N.assign L).nodes (assignBuses N.opt N.buses 0).2 N.elements).1.flatten := by
    unfold Assignment.all Network.assign
    simp only [ho, List.append_nil, hop]
  rw [hall] at hreg ⊢
  refine placeElements_filled hL _ (by rw [hnodes]; exact plain_nodeAt _ _) N.elements _ t xs (fun x hx => hs x ?_) hreg
  have hparts : (N.assign L).parts = (placeElements L false (N.assign L).nodes (assignBuses N.opt N.buses 0).2 N.elements).1 := by
    unfold Network.assign
    simp only [hop]
  unfold Assignment.owned
  rw [hparts, hop]
  rw [hop] at hx
  exact hx

/-- The condition on elements gives a steady fill. -/
theorem steady_of_elements (hL : L.Loaded) (N : Network) (hv : N.Valid) (ho : N.optimization = none) (t : ℝ) (xs : ℕ → ℝ)
    (hr : ∀ e ∈ N.elements, e.RegularAt t ((N.assign L).voltages xs)) 
    (hs : ∀ x ∈ (N.assign L).owned L N xs, x.1.SteadyAt ((N.assign L).voltages xs) x.2) :
    SteadyFill (N.assign L).size (N.assign L).all t xs := by
  have hreg := network_regular hL N hv t xs hr
  exact steady_of_nonzero (fun p hp x hx c hc => network_below hL N p hp x hx c hc) hreg (network_filled hL N ho t xs hreg hs)

end Verif
