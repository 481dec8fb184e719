import Verif.Spec.Balanced
import Verif.Lemmas.Symmetry

/-!
# Lemmas on balanced three-phase networks
-/

namespace Verif

open ComplexConjugate

variable {L : Library}

/-! ### A third of a turn -/

theorem behind_sum : behind ^ 2 + behind + 1 = 0 := by
  have h : Real.sqrt 3 * Real.sqrt 3 = 3 := Real.mul_self_sqrt (by norm_num)
  apply Complex.ext
  · simp [behind, pow_two]; linarith
  · simp [behind, pow_two]; ring

theorem behind_cube : behind ^ 3 = 1 := by linear_combination (behind - 1) * behind_sum

theorem behind_conj : conj behind = behind ^ 2 := by
  have h : Real.sqrt 3 * Real.sqrt 3 = 3 := Real.mul_self_sqrt (by norm_num)
  apply Complex.ext
  · simp [behind, pow_two]; linarith
  · simp [behind, pow_two]; ring

theorem behind_norm : ‖behind‖ = 1 := by
  have h := congrArg norm behind_cube
  rw [norm_pow, norm_one] at h
  exact (pow_eq_one_iff_of_nonneg (norm_nonneg _) (by norm_num)).1 h

theorem behind_pow_norm (p : ℕ) : ‖behind ^ p‖ = 1 := by rw [norm_pow, behind_norm, one_pow]

/-- The difference of two neighbouring phases. -/
theorem behind_step : (1 : ℂ) - behind = ⟨Real.sqrt 3 * Real.cos (Real.pi / 6), Real.sqrt 3 * Real.sin (Real.pi / 6)⟩ := by
  have h : Real.sqrt 3 * Real.sqrt 3 = 3 := Real.mul_self_sqrt (by norm_num)
  rw [Real.cos_pi_div_six, Real.sin_pi_div_six]
  apply Complex.ext
  · simp [behind]; linarith
  · simp [behind]; ring

theorem behind_three : (1 - behind) * (1 - behind ^ 2) = 3 := by linear_combination (behind - 2) * behind_sum + 0 * behind_cube

theorem behind_ne : (1 : ℂ) - behind ≠ 0 := fun h => by
  have := behind_three; rw [h, zero_mul] at this; norm_num at this

theorem behind_sq_ne : (1 : ℂ) - behind ^ 2 ≠ 0 := fun h => by
  have := behind_three; rw [h, mul_zero] at this; norm_num at this

theorem behind_step_conj : conj (1 - behind) = 1 - behind ^ 2 := by rw [map_sub, map_one, behind_conj]

/-! ### Renumbered elements -/

theorem draws_put (φ : ℕ → ℕ) (t : ℝ) (V V' : Ref → ℂ) (hV : ∀ r, V' (Option.map φ r) = V r) (w : List ℝ) (e : Element) :
    (e.put φ).draws t V' w = (e.draws t V w).map fun d => (Option.map φ d.1, d.2) := by
  have hs : ∀ k, V' (some (φ k)) = V (some k) := fun k => hV (some k)
  cases e with
  | unbalanced ph y sh =>
    simp only [Element.put, Element.draws, List.length_map, List.map_flatMap, branch]
    refine List.flatMap_congr fun i hi => List.flatMap_congr fun j hj => ?_
    have hi := List.mem_range.1 hi
    have hj := List.mem_range.1 hj
    have e1 : ∀ k < ph.length, (ph.map fun p => (φ p.1, φ p.2)).getD k (0, 0) = (φ (ph.getD k (0, 0)).1, φ (ph.getD k (0, 0)).2) := fun k hk => by
      simp [List.getD_eq_getElem?_getD, List.getElem?_eq_getElem, hk]
    rw [e1 i hi, e1 j hj]
    simp [hs]
  | switch f u s => cases s <;> simp [Element.put, Element.draws, branch]
  | capacitor f u s b => cases s <;> simp [Element.put, Element.draws, branch, hV]
  | centerTap => simp [Element.put, Element.draws, branch, hs]
  | slack => simp [Element.put, Element.draws]
  | generator => simp [Element.put, Element.draws, hs]
  | shunt => simp [Element.put, Element.draws, hs]
  | regulator => simp [Element.put, Element.draws, xfmrDraws, branch, hV]
  | transformer => simp [Element.put, Element.draws, xfmrDraws, branch, hV]
  | _ => simp [Element.put, Element.draws, branch, hV]

theorem laws_put (φ : ℕ → ℕ) (t : ℝ) (V V' : Ref → ℂ) (hV : ∀ r, V' (Option.map φ r) = V r) (w : List ℝ) (e : Element) :
    (e.put φ).laws t V' w = e.laws t V w := by
  have hs : ∀ k, V' (some (φ k)) = V (some k) := fun k => hV (some k)
  have hn : V' none = V none := hV none
  cases e with
  | switch f u s => cases s <;> simp [Element.put, Element.laws, hV]
  | _ => simp [Element.put, Element.laws, xfmrLaws, hs, hV, hn]

theorem put_laws_length (φ : ℕ → ℕ) (e : Element) : ((e.put φ).laws 0 (fun _ => 0) []).length = (e.laws 0 (fun _ => 0) []).length := by
  cases e with
  | switch f u s => cases s <;> rfl
  | _ => rfl

theorem busSum_put (φ : ℕ → ℕ) (j k : ℕ) (h : ∀ i, φ i = j ↔ i = k) (c : ℂ) (ds : List (Ref × ℂ)) :
    busSum j ((ds.map fun d => (d.1, c * d.2)).map fun d => (Option.map φ d.1, d.2)) = c * busSum k ds := by
  induction ds with
  | nil => simp [busSum]
  | cons d ds ih =>
    obtain ⟨r, z⟩ := d
    simp only [List.map_cons] at ih ⊢
    rw [busSum_cons, busSum_cons, ih]
    cases r with
    | none => simp
    | some i =>
      simp only [Option.map_some, Option.some.injEq, h]
      split_ifs <;> ring

theorem busSum_put_none (φ : ℕ → ℕ) (j : ℕ) (h : ∀ i, φ i ≠ j) (c : ℂ) (ds : List (Ref × ℂ)) :
    busSum j ((ds.map fun d => (d.1, c * d.2)).map fun d => (Option.map φ d.1, d.2)) = 0 := by
  induction ds with
  | nil => simp [busSum]
  | cons d ds ih =>
    obtain ⟨r, z⟩ := d
    simp only [List.map_cons] at ih ⊢
    rw [busSum_cons, ih]
    cases r with
    | none => simp
    | some i => simp [h]

/-! ### The equipment one element stands for -/

/-- Voltages of the three phases. -/
structure Balanced3 (V V3 : Ref → ℂ) : Prop where
  ground : V none = 0
  ground3 : V3 none = 0
  a : ∀ k, V3 (some (3 * k)) = V (some k)
  b : ∀ k, V3 (some (3 * k + 1)) = behind * V (some k)
  c : ∀ k, V3 (some (3 * k + 2)) = behind ^ 2 * V (some k)

theorem Balanced3.at {V V3 : Ref → ℂ} (h : Balanced3 V V3) (p : ℕ) (hp : p < 3) (r : Ref) : V3 (r.phase p) = behind ^ p * V r := by
  cases r with
  | none => show V3 none = _; rw [h.ground3, h.ground, mul_zero]
  | some k =>
    show V3 (some (3 * k + p)) = _
    interval_cases p
    · rw [pow_zero, one_mul]; exact h.a k
    · rw [pow_one]; exact h.b k
    · exact h.c k

/-- Currents and laws of a list of three-phase equipment against those of the element that stands for it. -/
structure Stands (V V3 : Ref → ℂ) (e : Element) (w : List ℝ) (xs : List (Element × List ℝ)) : Prop where
  widths : ∀ x ∈ xs, x.2.length = (x.1.laws 0 (fun _ => 0) []).length
  a : ∀ k, busSum (3 * k) (xs.flatMap fun x => x.1.draws 0 V3 x.2) = busSum k (e.draws 0 V w)
  b : ∀ k, busSum (3 * k + 1) (xs.flatMap fun x => x.1.draws 0 V3 x.2) = behind * busSum k (e.draws 0 V w)
  c : ∀ k, busSum (3 * k + 2) (xs.flatMap fun x => x.1.draws 0 V3 x.2) = behind ^ 2 * busSum k (e.draws 0 V w)
  laws : ∀ x ∈ xs, ∀ z ∈ x.1.laws 0 V3 x.2, z = 0

theorem hits (f k : ℕ) : (3 * f = 3 * k ↔ f = k) ∧ (3 * f = 3 * k + 1 ↔ False) ∧ (3 * f = 3 * k + 2 ↔ False) ∧
    (3 * f + 1 = 3 * k ↔ False) ∧ (3 * f + 1 = 3 * k + 1 ↔ f = k) ∧ (3 * f + 1 = 3 * k + 2 ↔ False) ∧
    (3 * f + 2 = 3 * k ↔ False) ∧ (3 * f + 2 = 3 * k + 1 ↔ False) ∧ (3 * f + 2 = 3 * k + 2 ↔ f = k) := by
  refine ⟨?_, ?_, ?_, ?_, ?_, ?_, ?_, ?_, ?_⟩ <;> constructor <;> intro h <;> first | omega | exact h.elim

theorem stands_phases {V V3 : Ref → ℂ} (e : Element) (w : List ℝ) (x : ℕ → Element × List ℝ)
    (hd : ∀ p < 3, (x p).1.draws 0 V3 (x p).2 =
      ((e.draws 0 V w).map fun d => (d.1, behind ^ p * d.2)).map fun d => (Option.map (fun k => 3 * k + p) d.1, d.2))
    (hlaw : ∀ p < 3, ∀ z ∈ (x p).1.laws 0 V3 (x p).2, z = 0) (hwid : ∀ p, (x p).2.length = ((x p).1.laws 0 (fun _ => 0) []).length) :
    Stands V V3 e w [x 0, x 1, x 2] := by
  have hsum : ∀ j, busSum j ([x 0, x 1, x 2].flatMap fun x => x.1.draws 0 V3 x.2) = busSum j ((x 0).1.draws 0 V3 (x 0).2) +
        (busSum j ((x 1).1.draws 0 V3 (x 1).2) + busSum j ((x 2).1.draws 0 V3 (x 2).2)) := fun j => by
    simp only [List.flatMap_cons, List.flatMap_nil, List.append_nil, Raw.busSum_append]
  refine ⟨?_, ?_, ?_, ?_, ?_⟩
  · simp only [List.forall_mem_cons, List.not_mem_nil, false_imp_iff, implies_true, and_true]
    exact ⟨hwid 0, hwid 1, hwid 2⟩
  · intro k
    rw [hsum, hd 0 (by norm_num), hd 1 (by norm_num), hd 2 (by norm_num), busSum_put _ _ k (by omega), busSum_put_none _ _ (by omega),
      busSum_put_none _ _ (by omega)]
    ring
  · intro k
    rw [hsum, hd 0 (by norm_num), hd 1 (by norm_num), hd 2 (by norm_num), busSum_put_none _ _ (by omega), busSum_put _ _ k (by omega),
      busSum_put_none _ _ (by omega)]
    ring
  · intro k
    rw [hsum, hd 0 (by norm_num), hd 1 (by norm_num), hd 2 (by norm_num), busSum_put_none _ _ (by omega), busSum_put_none _ _ (by omega),
      busSum_put _ _ k (by omega)]
    ring
  · simp only [List.forall_mem_cons, List.not_mem_nil, false_imp_iff, implies_true, and_true]
    exact ⟨hlaw 0 (by norm_num), hlaw 1 (by norm_num), hlaw 2 (by norm_num)⟩

theorem stands_copies {V V3 : Ref → ℂ} (hV : Balanced3 V V3) (e : Element) (he : e.Turnable) (w : List ℝ)
    (hw : w.length = (e.laws 0 (fun _ => 0) []).length) (hl : ∀ z ∈ e.laws 0 V w, z = 0) :
    Stands V V3 e w [(e.inPhase 0, e.turnOwn (behind ^ 0) w), (e.inPhase 1, e.turnOwn (behind ^ 1) w), (e.inPhase 2, e.turnOwn (behind ^ 2) w)] := by
  refine stands_phases e w (fun p => (e.inPhase p, e.turnOwn (behind ^ p) w)) (fun p hp => ?_) (fun p hp => ?_) fun p => ?_
  · unfold Element.inPhase
    rw [draws_put _ 0 (fun r => behind ^ p * V r) V3 (hV.at p hp), draws_turn (behind_pow_norm p) 0 V _ (fun _ => rfl) e he w hw]
  · unfold Element.inPhase
    rw [laws_put _ 0 (fun r => behind ^ p * V r) V3 (hV.at p hp)]
    exact laws_turn (behind_pow_norm p) 0 V _ (fun _ => rfl) e w hw hl
  · unfold Element.inPhase
    rw [turnOwn_length, put_laws_length, turn_laws_length, hw]

theorem stands_wyeLoad {V V3 : Ref → ℂ} (hV : Balanced3 V V3) (f u : Ref) (P Q : ℝ) (Z I : ℂ) (w : List ℝ) :
    Stands V V3 (.load f u (loadIn P Q Z I 0)) w
      [(.load (f.phase 0) (u.phase 0) (loadIn P Q Z I 0), []), (.load (f.phase 1) (u.phase 1) (loadIn P Q Z I 1), []),
        (.load (f.phase 2) (u.phase 2) (loadIn P Q Z I 2), [])] := by
  refine stands_phases _ w (fun p => (.load (f.phase p) (u.phase p) (loadIn P Q Z I p), [])) (fun p hp => ?_) (fun p hp z hz => ?_) fun p => rfl
  · simp only [Element.draws, branch, loadIn, hV.at p hp, ← mul_sub, conj_power (behind_pow_norm p), Complex.eta, pow_zero, one_mul, Complex.ofReal_zero,
      sub_zero, List.map_cons, List.map_nil]
    congr 2
    · congr 1; ring
    · congr 2; ring
  · simp [Element.laws] at hz

theorem stands_coupled {V V3 : Ref → ℂ} (hV : Balanced3 V V3) (f u : ℕ) (ys ym : ℂ) (ss sm : ℝ) (w : List ℝ) :
    Stands V V3 (.line (some f) (some u) (ys - ym).re (ys - ym).im ((ss - sm) / 2)) w
      [(.unbalanced [(3 * f, 3 * u), (3 * f + 1, 3 * u + 1), (3 * f + 2, 3 * u + 2)] (alike ys ym) (alike ss sm), [])] := by
  have e1 : (⟨0, (ss - sm) / 2⟩ : ℂ) = ⟨0, ss / 2⟩ - ⟨0, sm / 2⟩ := by apply Complex.ext <;> simp; ring
  have hs := behind_sum
  have hc := behind_cube
  have hr : List.range 3 = [0, 1, 2] := rfl
  have s0 : ∀ x y : ℝ, stiff 0 x y = ⟨x, y⟩ := fun x y => by simp [stiff]
  have f0 : ∀ x y : ℝ, faded 0 x y = ⟨x, y⟩ := fun x y => by simp [faded]
  refine ⟨by simp [Element.laws], fun k => ?_, fun k => ?_, fun k => ?_, by simp [Element.laws]⟩
  all_goals
    obtain ⟨a1, a2, a3, a4, a5, a6, a7, a8, a9⟩ := hits f k
    obtain ⟨b1, b2, b3, b4, b5, b6, b7, b8, b9⟩ := hits u k
    simp only [Element.draws, List.length_cons, List.length_nil, Nat.reduceAdd, hr, List.flatMap_cons, List.flatMap_nil, List.append_nil, branch, List.cons_append,
      List.nil_append, List.getD_cons_zero, List.getD_cons_succ, alike, s0, f0, ite_self, Complex.eta, busSum_hit, hit, Raw.busSum_nil, Option.some.injEq,
      a1, a2, a3, a4, a5, a6, a7, a8, a9, b1, b2, b3, b4, b5, b6, b7, b8, b9, if_false, hV.a, hV.b, hV.c, e1]
    simp only [OfNat.zero_ne_ofNat, OfNat.ofNat_ne_zero, OfNat.one_ne_ofNat, OfNat.ofNat_ne_one, zero_ne_one, one_ne_zero, if_true, if_false]
    rw [← sub_eq_zero]
    generalize (if f = k then (1 : ℂ) else 0) = df
    generalize (if u = k then (1 : ℂ) else 0) = du
    linear_combination (df * (ym * (V (some f) - V (some u)) + ⟨0, sm / 2⟩ * V (some f)) + du * (-(ym * (V (some f) - V (some u))) + ⟨0, sm / 2⟩ * V (some u))) * hs

theorem stands_deltaLoad {V V3 : Ref → ℂ} (hV : Balanced3 V V3) (f : ℕ) (P Q : ℝ) (Z I : ℂ) (w : List ℝ) :
    Stands V V3 (.load (some f) none (loadIn P Q (Z / 3) (I * (1 - behind ^ 2)) 0)) w
      [(.load (some (3 * f)) (some (3 * f + 1)) (loadIn P Q Z I 0), []), (.load (some (3 * f + 1)) (some (3 * f + 2)) (loadIn P Q Z I 1), []),
        (.load (some (3 * f + 2)) (some (3 * f)) (loadIn P Q Z I 2), [])] := by
  have hs := behind_sum
  have hc := behind_cube
  have h3 := behind_three
  have e0 : V3 (some (3 * f)) - V3 (some (3 * f + 1)) = (1 - behind) * V (some f) := by rw [hV.a, hV.b]; ring
  have e1 : V3 (some (3 * f + 1)) - V3 (some (3 * f + 2)) = behind ^ 1 * ((1 - behind) * V (some f)) := by rw [hV.b, hV.c]; ring
  have e2 : V3 (some (3 * f + 2)) - V3 (some (3 * f)) = behind ^ 2 * ((1 - behind) * V (some f)) := by
    rw [hV.c, hV.a]; linear_combination V (some f) * hc
  have hS : conj ((⟨P, Q⟩ : ℂ) / ((1 - behind) * V (some f))) * (1 - behind ^ 2) = conj ((⟨P, Q⟩ : ℂ) / V (some f)) := by
    rw [mul_comm (1 - behind), ← div_div, map_div₀ conj _ (1 - behind), behind_step_conj, div_mul_cancel₀ _ behind_sq_ne]
  have hZ : (Z / 3)⁻¹ = 3 * Z⁻¹ := by rw [inv_div, div_eq_mul_inv]
  refine ⟨by simp [Element.laws], fun k => ?_, fun k => ?_, fun k => ?_, by simp [Element.laws]⟩
  all_goals
    obtain ⟨a1, a2, a3, a4, a5, a6, a7, a8, a9⟩ := hits f k
    simp only [Element.draws, List.flatMap_cons, List.flatMap_nil, List.append_nil, branch, List.cons_append, List.nil_append, loadIn, e0, e1, e2,
      conj_power (behind_pow_norm _), Complex.eta, pow_zero, one_mul, hV.ground, sub_zero, Complex.ofReal_zero, hZ,
      busSum_hit, hit, Raw.busSum_nil, Option.some.injEq, a1, a2, a3, a4, a5, a6, a7, a8, a9, if_false, reduceCtorEq]
    generalize (if f = k then (1 : ℂ) else 0) = d
    generalize conj ((⟨P, Q⟩ : ℂ) / ((1 - behind) * V (some f))) = X at hS ⊢
    generalize conj ((⟨P, Q⟩ : ℂ) / V (some f)) = Y at hS ⊢
  · linear_combination d * hS + d * Z⁻¹ * V (some f) * h3
  · linear_combination behind * (d * hS + d * Z⁻¹ * V (some f) * h3) + d * (X + I + Z⁻¹ * (1 - behind) * V (some f)) * hc
  · linear_combination behind ^ 2 * (d * hS + d * Z⁻¹ * V (some f) * h3) + d * (X + I + Z⁻¹ * (1 - behind) * V (some f)) * behind * hc

theorem stands_deltaCapacitor {V V3 : Ref → ℂ} (hV : Balanced3 V V3) (f : ℕ) (s : CapSwitch) (b : ℝ) (w : List ℝ) :
    Stands V V3 (.capacitor (some f) none s (3 * b)) w
      [(.capacitor (some (3 * f)) (some (3 * f + 1)) s b, []), (.capacitor (some (3 * f + 1)) (some (3 * f + 2)) s b, []),
        (.capacitor (some (3 * f + 2)) (some (3 * f)) s b, [])] := by
  have hs := behind_sum
  have e1 : (⟨0, 3 * b⟩ : ℂ) = 3 * ⟨0, b⟩ := by apply Complex.ext <;> simp
  have f0 : ∀ x y : ℝ, faded 0 x y = ⟨x, y⟩ := fun x y => by simp [faded]
  cases s with
  | opened => exact ⟨by simp [Element.laws], by simp [Element.draws, Raw.busSum_nil], by simp [Element.draws, Raw.busSum_nil], by simp [Element.draws, Raw.busSum_nil], by simp [Element.laws]⟩
  | closed =>
    refine ⟨by simp [Element.laws], fun k => ?_, fun k => ?_, fun k => ?_, by simp [Element.laws]⟩
    all_goals
      obtain ⟨a1, a2, a3, a4, a5, a6, a7, a8, a9⟩ := hits f k
      simp only [Element.draws, List.flatMap_cons, List.flatMap_nil, List.append_nil, branch, List.cons_append, List.nil_append, f0, e1,
        hV.a, hV.b, hV.c, hV.ground, sub_zero, busSum_hit, hit, Raw.busSum_nil, Option.some.injEq, a1, a2, a3, a4, a5, a6, a7, a8, a9, if_false, reduceCtorEq]
      generalize (if f = k then (1 : ℂ) else 0) = d
      linear_combination (-(d * ⟨0, b⟩ * V (some f))) * hs

/-- Own values of a transformer. -/
def four (I S : ℂ) : List ℝ := both I ++ both S

theorem four_zero (I S : ℂ) : pairAt (four I S) 0 = I := rfl

theorem four_two (I S : ℂ) : pairAt (four I S) 2 = S := rfl

theorem turns_mul (x α y β : ℝ) : turns 0 x α * ⟨y * Real.cos β, y * Real.sin β⟩ = turns 0 (x * y) (α + β) := by
  apply Complex.ext
  · simp [turns, ratioAt, Real.cos_add]; ring
  · simp [turns, ratioAt, Real.sin_add]; ring

theorem turns_delta (tr ang : ℝ) : turns 0 (tr / Real.sqrt 3) (ang - Real.pi / 6) * (1 - behind) = turns 0 tr ang := by
  have h : Real.sqrt 3 ≠ 0 := by positivity
  rw [behind_step, turns_mul, div_mul_cancel₀ _ h, sub_add_cancel]

theorem turns_delta' (tr ang : ℝ) : turns 0 (tr * Real.sqrt 3) (ang + Real.pi / 6) = turns 0 tr ang * (1 - behind) := by
  rw [behind_step, turns_mul]

theorem both_of {z : ℂ} (h : z = 0) : ∀ x ∈ both z, x = 0 := by subst h; simp [both]

theorem of_both {z : ℂ} (h : ∀ x ∈ both z, x = 0) : z = 0 := Complex.ext (h _ (by simp [both])) (h _ (by simp [both]))

theorem stands_deltaWye {V V3 : Ref → ℂ} (hV : Balanced3 V V3) (f u : ℕ) (tr ang g b : ℝ) (w : List ℝ)
    (hl : ∀ z ∈ (Element.transformer (some f) none (some u) none (tr / Real.sqrt 3) (ang - Real.pi / 6) g b).laws 0 V w, z = 0) :
    ∃ I S, Stands V V3 (.transformer (some f) none (some u) none (tr / Real.sqrt 3) (ang - Real.pi / 6) g b) w
      [(.transformer (some (3 * f)) (some (3 * f + 1)) (some (3 * u)) none tr ang g b, four I S),
        (.transformer (some (3 * f + 1)) (some (3 * f + 2)) (some (3 * u + 1)) none tr ang g b, four (behind * I) (behind * S)),
        (.transformer (some (3 * f + 2)) (some (3 * f)) (some (3 * u + 2)) none tr ang g b, four (behind ^ 2 * I) (behind ^ 2 * S))] := by
  have hc := behind_cube
  have h3 := behind_three
  have ht := turns_delta tr ang
  have htc : conj (turns 0 (tr / Real.sqrt 3) (ang - Real.pi / 6)) * (1 - behind ^ 2) = conj (turns 0 tr ang) := by
    rw [← ht, map_mul, behind_step_conj]
  have s3 : stiff 0 (3 * g) (3 * b) = 3 * stiff 0 g b := by apply Complex.ext <;> simp [stiff]
  simp only [Element.laws, xfmrLaws, List.forall_mem_append, hV.ground, sub_zero, s3] at hl
  obtain ⟨h1, h2⟩ := hl
  have h1 := of_both h1
  have h2 := of_both h2
  obtain ⟨I, hI⟩ : ∃ I, pairAt w 0 = I * (1 - behind ^ 2) := ⟨_, (div_mul_cancel₀ _ behind_sq_ne).symm⟩
  obtain ⟨E, hE⟩ : ∃ E, pairAt w 2 = V (some u) + E := ⟨pairAt w 2 - V (some u), by ring⟩
  rw [hI, hE] at h2
  rw [hE] at h1
  have hd : ∀ k : ℕ,
      let xs : List (Element × List ℝ) := [(.transformer (some (3 * f)) (some (3 * f + 1)) (some (3 * u)) none tr ang g b, four (I) ((V (some u) + E))),
        (.transformer (some (3 * f + 1)) (some (3 * f + 2)) (some (3 * u + 1)) none tr ang g b, four (behind * I) (behind * (V (some u) + E))),
        (.transformer (some (3 * f + 2)) (some (3 * f)) (some (3 * u + 2)) none tr ang g b, four (behind ^ 2 * I) (behind ^ 2 * (V (some u) + E)))]
      let e : Element := .transformer (some f) none (some u) none (tr / Real.sqrt 3) (ang - Real.pi / 6) g b
      busSum (3 * k) (xs.flatMap fun x => x.1.draws 0 V3 x.2) = busSum k (e.draws 0 V w) ∧
      busSum (3 * k + 1) (xs.flatMap fun x => x.1.draws 0 V3 x.2) = behind * busSum k (e.draws 0 V w) ∧
      busSum (3 * k + 2) (xs.flatMap fun x => x.1.draws 0 V3 x.2) = behind ^ 2 * busSum k (e.draws 0 V w) := fun k => by
    obtain ⟨a1, a2, a3, a4, a5, a6, a7, a8, a9⟩ := hits f k
    obtain ⟨b1, b2, b3, b4, b5, b6, b7, b8, b9⟩ := hits u k
    simp only [Element.draws, xfmrDraws, List.flatMap_cons, List.flatMap_nil, List.append_nil, branch, List.cons_append, List.nil_append, four_zero, four_two, hI, hE, s3,
      hV.a, hV.b, hV.c, hV.ground, sub_zero, busSum_hit, hit, Raw.busSum_nil, Option.some.injEq, a1, a2, a3, a4, a5, a6, a7, a8, a9,
      b1, b2, b3, b4, b5, b6, b7, b8, b9, if_false, reduceCtorEq]
    generalize (if f = k then (1 : ℂ) else 0) = d
    generalize (if u = k then (1 : ℂ) else 0) = d'
    refine ⟨?_, ?_, ?_⟩
    · linear_combination 0 * hc
    · linear_combination d * I * hc
    · linear_combination d * I * behind * hc
  refine ⟨I, (V (some u) + E), by simp [four, both, Element.laws, xfmrLaws], fun k => (hd k).1, fun k => (hd k).2.1, fun k => (hd k).2.2, ?_⟩
  simp only [List.forall_mem_cons, List.not_mem_nil, false_imp_iff, implies_true, and_true, Element.laws, xfmrLaws, List.forall_mem_append, four_zero, four_two,
    hV.a, hV.b, hV.c, hV.ground3, sub_zero]
  refine ⟨⟨both_of ?_, both_of ?_⟩, ⟨both_of ?_, both_of ?_⟩, both_of ?_, both_of ?_⟩
  · linear_combination (1 - behind) * h1 + (V (some u) + E) * ht 
  · linear_combination h2 + I * htc
  · linear_combination behind * ((1 - behind) * h1 + (V (some u) + E) * ht)
  · linear_combination behind * (h2 + I * htc)
  · linear_combination behind ^ 2 * ((1 - behind) * h1 + (V (some u) + E) * ht) + V (some f) * hc
  · linear_combination behind ^ 2 * (h2 + I * htc)

theorem stands_wyeDelta {V V3 : Ref → ℂ} (hV : Balanced3 V V3) (f u : ℕ) (tr ang g b : ℝ) (w : List ℝ)
    (hl : ∀ z ∈ (Element.transformer (some f) none (some u) none (tr * Real.sqrt 3) (ang + Real.pi / 6) (3 * g) (3 * b)).laws 0 V w, z = 0) :
    ∃ I S, Stands V V3 (.transformer (some f) none (some u) none (tr * Real.sqrt 3) (ang + Real.pi / 6) (3 * g) (3 * b)) w
      [(.transformer (some (3 * f)) none (some (3 * u)) (some (3 * u + 1)) tr ang g b, four I S),
        (.transformer (some (3 * f + 1)) none (some (3 * u + 1)) (some (3 * u + 2)) tr ang g b, four (behind * I) (behind * S)),
        (.transformer (some (3 * f + 2)) none (some (3 * u + 2)) (some (3 * u)) tr ang g b, four (behind ^ 2 * I) (behind ^ 2 * S))] := by
  have hc := behind_cube
  have h3 := behind_three
  have ht := turns_delta' tr ang
  have htc : conj (turns 0 (tr * Real.sqrt 3) (ang + Real.pi / 6)) = conj (turns 0 tr ang) * (1 - behind ^ 2) := by
    rw [ht, map_mul, behind_step_conj]
  have s3 : stiff 0 (3 * g) (3 * b) = 3 * stiff 0 g b := by apply Complex.ext <;> simp [stiff]
  simp only [Element.laws, xfmrLaws, List.forall_mem_append, hV.ground, sub_zero, s3] at hl
  obtain ⟨h1, h2⟩ := hl
  have h1 := of_both h1
  have h2 := of_both h2
  obtain ⟨I, hI⟩ : ∃ I, pairAt w 0 = I := ⟨_, rfl⟩
  obtain ⟨E, hE⟩ : ∃ E, pairAt w 2 = V (some u) + E := ⟨pairAt w 2 - V (some u), by ring⟩
  rw [hI, hE] at h2
  rw [hE] at h1
  have hk : conj (turns 0 tr ang) * I = stiff 0 g b * E * (1 - behind) := by
    apply mul_left_cancel₀ behind_sq_ne
    linear_combination -h2 - I * htc - stiff 0 g b * E * h3
  have hd : ∀ k : ℕ,
      let xs : List (Element × List ℝ) := [(.transformer (some (3 * f)) none (some (3 * u)) (some (3 * u + 1)) tr ang g b, four (I) ((V (some u) + E * (1 - behind)))),
        (.transformer (some (3 * f + 1)) none (some (3 * u + 1)) (some (3 * u + 2)) tr ang g b, four (behind * I) (behind * (V (some u) + E * (1 - behind)))),
        (.transformer (some (3 * f + 2)) none (some (3 * u + 2)) (some (3 * u)) tr ang g b, four (behind ^ 2 * I) (behind ^ 2 * (V (some u) + E * (1 - behind))))]
      let e : Element := .transformer (some f) none (some u) none (tr * Real.sqrt 3) (ang + Real.pi / 6) (3 * g) (3 * b)
      busSum (3 * k) (xs.flatMap fun x => x.1.draws 0 V3 x.2) = busSum k (e.draws 0 V w) ∧
      busSum (3 * k + 1) (xs.flatMap fun x => x.1.draws 0 V3 x.2) = behind * busSum k (e.draws 0 V w) ∧
      busSum (3 * k + 2) (xs.flatMap fun x => x.1.draws 0 V3 x.2) = behind ^ 2 * busSum k (e.draws 0 V w) := fun k => by
    obtain ⟨a1, a2, a3, a4, a5, a6, a7, a8, a9⟩ := hits f k
    obtain ⟨b1, b2, b3, b4, b5, b6, b7, b8, b9⟩ := hits u k
    simp only [Element.draws, xfmrDraws, List.flatMap_cons, List.flatMap_nil, List.append_nil, branch, List.cons_append, List.nil_append, four_zero, four_two, hI, hE, s3,
      hV.a, hV.b, hV.c, hV.ground, sub_zero, busSum_hit, hit, Raw.busSum_nil, Option.some.injEq, a1, a2, a3, a4, a5, a6, a7, a8, a9,
      b1, b2, b3, b4, b5, b6, b7, b8, b9, if_false, reduceCtorEq]
    generalize (if f = k then (1 : ℂ) else 0) = d
    generalize (if u = k then (1 : ℂ) else 0) = d'
    refine ⟨?_, ?_, ?_⟩
    · linear_combination d' * (behind ^ 2 * hk) - d' * stiff 0 g b * E * h3
    · linear_combination d' * hk - behind * d' * stiff 0 g b * E * h3 - d' * stiff 0 g b * E * (1 - behind) * hc
    · linear_combination behind * (d' * hk - behind * d' * stiff 0 g b * E * h3 - d' * stiff 0 g b * E * (1 - behind) * hc)
  refine ⟨I, (V (some u) + E * (1 - behind)), by simp [four, both, Element.laws, xfmrLaws], fun k => (hd k).1, fun k => (hd k).2.1, fun k => (hd k).2.2, ?_⟩
  simp only [List.forall_mem_cons, List.not_mem_nil, false_imp_iff, implies_true, and_true, Element.laws, xfmrLaws, List.forall_mem_append, four_zero, four_two,
    hV.a, hV.b, hV.c, hV.ground3, sub_zero]
  refine ⟨⟨both_of ?_, both_of ?_⟩, ⟨both_of ?_, both_of ?_⟩, both_of ?_, both_of ?_⟩
  · linear_combination h1 + (V (some u) + E) * ht
  · linear_combination (-1) * hk
  · linear_combination behind * (h1 + (V (some u) + E) * ht)
  · linear_combination -behind * hk
  · linear_combination behind ^ 2 * (h1 + (V (some u) + E) * ht) - turns 0 tr ang * V (some u) * hc
  · linear_combination -behind ^ 2 * hk

theorem stands_deltaDelta {V V3 : Ref → ℂ} (hV : Balanced3 V V3) (f u : ℕ) (tr ang g b : ℝ) (w : List ℝ)
    (hl : ∀ z ∈ (Element.transformer (some f) none (some u) none tr ang (3 * g) (3 * b)).laws 0 V w, z = 0) :
    ∃ I S, Stands V V3 (.transformer (some f) none (some u) none tr ang (3 * g) (3 * b)) w
      [(.transformer (some (3 * f)) (some (3 * f + 1)) (some (3 * u)) (some (3 * u + 1)) tr ang g b, four I S),
        (.transformer (some (3 * f + 1)) (some (3 * f + 2)) (some (3 * u + 1)) (some (3 * u + 2)) tr ang g b, four (behind * I) (behind * S)),
        (.transformer (some (3 * f + 2)) (some (3 * f)) (some (3 * u + 2)) (some (3 * u)) tr ang g b, four (behind ^ 2 * I) (behind ^ 2 * S))] := by
  have hc := behind_cube
  have h3 := behind_three
  have s3 : stiff 0 (3 * g) (3 * b) = 3 * stiff 0 g b := by apply Complex.ext <;> simp [stiff]
  simp only [Element.laws, xfmrLaws, List.forall_mem_append, hV.ground, sub_zero, s3] at hl
  obtain ⟨h1, h2⟩ := hl
  have h1 := of_both h1
  have h2 := of_both h2
  obtain ⟨I, hI⟩ : ∃ I, pairAt w 0 = I * (1 - behind ^ 2) := ⟨_, (div_mul_cancel₀ _ behind_sq_ne).symm⟩
  obtain ⟨E, hE⟩ : ∃ E, pairAt w 2 = V (some u) + E := ⟨pairAt w 2 - V (some u), by ring⟩
  rw [hI, hE] at h2
  rw [hE] at h1
  have hk : conj (turns 0 tr ang) * I = stiff 0 g b * E * (1 - behind) := by
    apply mul_left_cancel₀ behind_sq_ne
    linear_combination -h2 - stiff 0 g b * E * h3
  have hd : ∀ k : ℕ,
      let xs : List (Element × List ℝ) := [(.transformer (some (3 * f)) (some (3 * f + 1)) (some (3 * u)) (some (3 * u + 1)) tr ang g b, four (I) ((V (some u) + E * (1 - behind)))),
        (.transformer (some (3 * f + 1)) (some (3 * f + 2)) (some (3 * u + 1)) (some (3 * u + 2)) tr ang g b, four (behind * I) (behind * (V (some u) + E * (1 - behind)))),
        (.transformer (some (3 * f + 2)) (some (3 * f)) (some (3 * u + 2)) (some (3 * u)) tr ang g b, four (behind ^ 2 * I) (behind ^ 2 * (V (some u) + E * (1 - behind))))]
      let e : Element := .transformer (some f) none (some u) none tr ang (3 * g) (3 * b)
      busSum (3 * k) (xs.flatMap fun x => x.1.draws 0 V3 x.2) = busSum k (e.draws 0 V w) ∧
      busSum (3 * k + 1) (xs.flatMap fun x => x.1.draws 0 V3 x.2) = behind * busSum k (e.draws 0 V w) ∧
      busSum (3 * k + 2) (xs.flatMap fun x => x.1.draws 0 V3 x.2) = behind ^ 2 * busSum k (e.draws 0 V w) := fun k => by
    obtain ⟨a1, a2, a3, a4, a5, a6, a7, a8, a9⟩ := hits f k
    obtain ⟨b1, b2, b3, b4, b5, b6, b7, b8, b9⟩ := hits u k
    simp only [Element.draws, xfmrDraws, List.flatMap_cons, List.flatMap_nil, List.append_nil, branch, List.cons_append, List.nil_append, four_zero, four_two, hI, hE, s3,
      hV.a, hV.b, hV.c, hV.ground, sub_zero, busSum_hit, hit, Raw.busSum_nil, Option.some.injEq, a1, a2, a3, a4, a5, a6, a7, a8, a9,
      b1, b2, b3, b4, b5, b6, b7, b8, b9, if_false, reduceCtorEq]
    generalize (if f = k then (1 : ℂ) else 0) = d
    generalize (if u = k then (1 : ℂ) else 0) = d'
    refine ⟨?_, ?_, ?_⟩
    · linear_combination d' * (behind ^ 2 * hk) - d' * stiff 0 g b * E * h3
    · linear_combination d' * hk - behind * d' * stiff 0 g b * E * h3 - d' * stiff 0 g b * E * (1 - behind) * hc + d * I * hc
    · linear_combination behind * (d' * hk - behind * d' * stiff 0 g b * E * h3 - d' * stiff 0 g b * E * (1 - behind) * hc) + d * I * behind * hc
  refine ⟨I, (V (some u) + E * (1 - behind)), by simp [four, both, Element.laws, xfmrLaws], fun k => (hd k).1, fun k => (hd k).2.1, fun k => (hd k).2.2, ?_⟩
  simp only [List.forall_mem_cons, List.not_mem_nil, false_imp_iff, implies_true, and_true, Element.laws, xfmrLaws, List.forall_mem_append, four_zero, four_two,
    hV.a, hV.b, hV.c, hV.ground3, sub_zero]
  refine ⟨⟨both_of ?_, both_of ?_⟩, ⟨both_of ?_, both_of ?_⟩, both_of ?_, both_of ?_⟩
  · linear_combination (1 - behind) * h1
  · linear_combination (-1) * hk
  · linear_combination behind * ((1 - behind) * h1)
  · linear_combination -behind * hk
  · linear_combination behind ^ 2 * ((1 - behind) * h1) - turns 0 tr ang * V (some u) * hc + V (some f) * hc
  · linear_combination -behind ^ 2 * hk


/-- Whatever balanced equipment an element stands for, values of its own unknowns exist under which it stands for it. -/
theorem stands_exists {V V3 : Ref → ℂ} (hV : Balanced3 V V3) {e : Element} {es : List Element} (h : Threefold e es) (w : List ℝ)
    (hw : w.length = (e.laws 0 (fun _ => 0) []).length) (hl : ∀ z ∈ e.laws 0 V w, z = 0) :
    ∃ xs : List (Element × List ℝ), xs.map Prod.fst = es ∧ Stands V V3 e w xs := by
  cases h with
  | copies e he => exact ⟨_, rfl, stands_copies hV e he w hw hl⟩
  | wyeLoad f u P Q Z I => exact ⟨_, rfl, stands_wyeLoad hV f u P Q Z I w⟩
  | deltaLoad f P Q Z I => exact ⟨_, rfl, stands_deltaLoad hV f P Q Z I w⟩
  | deltaCapacitor f s b => exact ⟨_, rfl, stands_deltaCapacitor hV f s b w⟩
  | coupledLine f u ys ym ss sm => exact ⟨_, rfl, stands_coupled hV f u ys ym ss sm w⟩
  | deltaWye f u tr ang g b => obtain ⟨I, S, h⟩ := stands_deltaWye hV f u tr ang g b w hl; exact ⟨_, rfl, h⟩
  | wyeDelta f u tr ang g b => obtain ⟨I, S, h⟩ := stands_wyeDelta hV f u tr ang g b w hl; exact ⟨_, rfl, h⟩
  | deltaDelta f u tr ang g b => obtain ⟨I, S, h⟩ := stands_deltaDelta hV f u tr ang g b w hl; exact ⟨_, rfl, h⟩

/-- The voltages of the three phases from those of one. -/
noncomputable def spread (V : Ref → ℂ) : Ref → ℂ
  | none => 0
  | some j => behind ^ (j % 3) * V (some (j / 3))

theorem spread_balanced {V : Ref → ℂ} (h0 : V none = 0) : Balanced3 V (spread V) := by
  refine ⟨h0, rfl, fun k => ?_, fun k => ?_, fun k => ?_⟩
  · show behind ^ (3 * k % 3) * V (some (3 * k / 3)) = _
    rw [show 3 * k % 3 = 0 by omega, show 3 * k / 3 = k by omega, pow_zero, one_mul]
  · show behind ^ ((3 * k + 1) % 3) * V (some ((3 * k + 1) / 3)) = _
    rw [show (3 * k + 1) % 3 = 1 by omega, show (3 * k + 1) / 3 = k by omega, pow_one]
  · show behind ^ ((3 * k + 2) % 3) * V (some ((3 * k + 2) / 3)) = _
    rw [show (3 * k + 2) % 3 = 2 by omega, show (3 * k + 2) / 3 = k by omega]

theorem kirchhoff_spread {n : ℕ} {V : Ref → ℂ} (h0 : V none = 0) {zs : List (Element × List ℝ)} {ess : List (List Element)}
    (he : List.Forall₂ Threefold (zs.map Prod.fst) ess) (hw : ∀ x ∈ zs, x.2.length = (x.1.laws 0 (fun _ => 0) []).length) (hk : Kirchhoff n 0 V zs) :
    ∃ xs : List (Element × List ℝ), xs.map Prod.fst = ess.flatten ∧ (∀ x ∈ xs, x.2.length = (x.1.laws 0 (fun _ => 0) []).length) ∧
      Kirchhoff (3 * n) 0 (spread V) xs := by
  have key : ∀ (zs : List (Element × List ℝ)) (ess : List (List Element)), List.Forall₂ Threefold (zs.map Prod.fst) ess →
      (∀ x ∈ zs, x.2.length = (x.1.laws 0 (fun _ => 0) []).length) → (∀ x ∈ zs, ∀ z ∈ x.1.laws 0 V x.2, z = 0) →
      ∃ xs : List (Element × List ℝ), xs.map Prod.fst = ess.flatten ∧ (∀ x ∈ xs, x.2.length = (x.1.laws 0 (fun _ => 0) []).length) ∧
        (∀ k, busSum (3 * k) (xs.flatMap fun x => x.1.draws 0 (spread V) x.2) = busSum k (zs.flatMap fun x => x.1.draws 0 V x.2) ∧
          busSum (3 * k + 1) (xs.flatMap fun x => x.1.draws 0 (spread V) x.2) = behind * busSum k (zs.flatMap fun x => x.1.draws 0 V x.2) ∧
          busSum (3 * k + 2) (xs.flatMap fun x => x.1.draws 0 (spread V) x.2) = behind ^ 2 * busSum k (zs.flatMap fun x => x.1.draws 0 V x.2)) ∧
        ∀ x ∈ xs, ∀ z ∈ x.1.laws 0 (spread V) x.2, z = 0 := by
    intro zs
    induction zs with
    | nil =>
      intro ess he _ _
      cases he
      exact ⟨[], rfl, by simp, fun k => by simp [Raw.busSum_nil], by simp⟩
    | cons z zs ih =>
      intro ess he hw hl
      rw [List.map_cons] at he
      cases he with
      | cons h1 h2 =>
        obtain ⟨xs, g1, g2, g3, g4⟩ := ih _ h2 (fun x hx => hw x (List.mem_cons_of_mem _ hx)) fun x hx => hl x (List.mem_cons_of_mem _ hx)
        obtain ⟨ys, i1, i2⟩ := stands_exists (spread_balanced h0) h1 z.2 (hw z List.mem_cons_self) (hl z List.mem_cons_self)
        refine ⟨ys ++ xs, by rw [List.map_append, i1, g1, List.flatten_cons], ?_, fun k => ?_, ?_⟩
        · exact fun x hx => (List.mem_append.1 hx).elim (i2.widths x) (g2 x)
        · obtain ⟨j1, j2, j3⟩ := g3 k
          simp only [List.flatMap_append, List.flatMap_cons, Raw.busSum_append, i2.a, i2.b, i2.c, j1, j2, j3, mul_add, and_self]
        · exact fun x hx => (List.mem_append.1 hx).elim (i2.laws x) (g4 x)
  obtain ⟨xs, h1, h2, h3, h4⟩ := key zs ess he hw hk.2
  refine ⟨xs, h1, h2, fun j hj => ?_, h4⟩
  show busSum j _ = 0
  obtain ⟨j1, j2, j3⟩ := h3 (j / 3)
  have hz : busSum (j / 3) (zs.flatMap fun x => x.1.draws 0 V x.2) = 0 := hk.1 (j / 3) (by omega)
  rw [hz] at j1 j2 j3
  rcases (by omega : j = 3 * (j / 3) ∨ j = 3 * (j / 3) + 1 ∨ j = 3 * (j / 3) + 2) with h | h | h
  · rw [h, j1]
  · rw [h, j2, mul_zero]
  · rw [h, j3, mul_zero]

end Verif
