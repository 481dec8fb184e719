import Verif.Lemmas.NewtonStamper
import Verif.Props.Kirchhoff

/-! A two bus feeder used as a witness: a slack of one volt, a line of one siemens, a constant power load. -/

namespace Verif

open Ex Devices ComplexConjugate

variable {L : Library}

/-- The feeder with a load of active power `P`. -/
noncomputable def feeder (P : ℝ) : Network :=
  ⟨2, [.line (some 0) (some 1) 1 0 0, .slack 0 1 0, .load (some 1) none ⟨P, 0, 0, 0, 0⟩], none⟩

theorem feeder_valid (P : ℝ) : (feeder P).Valid := by
  intro e he
  simp [feeder] at he
  rcases he with rfl | rfl | rfl <;> simp [Element.Valid, Ref.Valid, feeder]

/-- The equations of the feeder at homotopy factor 0. -/
noncomputable def feederEq (P : ℝ) (v : ℕ → ℝ) : ℕ → ℝ
  | 0 => v 0 - v 2 + v 4
  | 1 => v 1 - v 3 + v 5
  | 2 => v 2 - v 0 + P * v 2 / (v 2 ^ 2 + v 3 ^ 2)
  | 3 => v 3 - v 1 + P * v 3 / (v 2 ^ 2 + v 3 ^ 2)
  | 4 => v 0 - 1
  | 5 => v 1
  | _ => 0

theorem feeder_volt (P : ℝ) (v : ℕ → ℝ) :
    ((feeder P).assign L).voltages v (some 0) = ⟨v 0, v 1⟩ ∧ ((feeder P).assign L).voltages v (some 1) = ⟨v 2, v 3⟩ ∧
    ((feeder P).assign L).voltages v none = 0 := by
  have hnodes : ((feeder P).assign L).nodes = [plainNode 0, plainNode 1] := rfl
  unfold Assignment.voltages
  rw [hnodes]
  exact ⟨rfl, rfl, rfl⟩

theorem feeder_owned (hL : L.Loaded) (P : ℝ) (v : ℕ → ℝ) : ((feeder P).assign L).owned L (feeder P) v =
    [(.line (some 0) (some 1) 1 0 0, []), (.slack 0 1 0, [v 4, v 5]), (.load (some 1) none ⟨P, 0, 0, 0, 0⟩, [])] := by
  obtain ⟨m, s1, s2, s3⟩ := slack_shape hL
  have hsp := twoTerminalDetails_spec (plainNode 0) Node.ground 4 false s1 s2 (by simp) (by simp [terminalDict])
  have h1 := hsp.2.2.2.2.1 .ISr (by simp)
  have h2 := hsp.2.2.2.2.1 .ISi (by simp)
  have e : ((feeder P).assign L).owned L (feeder P) v =
    [(.line (some 0) (some 1) 1 0 0, []),
     (.slack 0 1 0, [readIdx v ((twoTerminalDetails L.slack (plainNode 0) Node.ground 4 false).1.varMap .ISr),
       readIdx v ((twoTerminalDetails L.slack (plainNode 0) Node.ground 4 false).1.varMap .ISi)]),
     (.load (some 1) none ⟨P, 0, 0, 0, 0⟩, [])] := rfl
  rw [e, h1, h2]
  simp [readIdx]

theorem feeder_rows (hL : L.Loaded) (P : ℝ) (v : ℕ → ℝ) (i : ℕ) :
    networkEq ((feeder P).assign L).all 0 v i = feederEq P v i := by
  have h := network_total hL (feeder P) rfl 0 v i
  simp only at h
  rw [h, feeder_owned hL]
  obtain ⟨v0, v1, vg⟩ := feeder_volt (L := L) P v
  have hb : (feeder P).buses = 2 := rfl
  rw [hb]
  have hS : ((⟨P, 0⟩ : ℂ) / ⟨v 2, v 3⟩) = ⟨P * v 2 / (v 2 ^ 2 + v 3 ^ 2), -(P * v 3 / (v 2 ^ 2 + v 3 ^ 2))⟩ := by
    apply Complex.ext
    · rw [Complex.div_re]; simp [Complex.normSq_apply]; ring_nf
    · rw [Complex.div_im]; simp [Complex.normSq_apply]; ring_nf
  simp only [List.flatMap_cons, List.flatMap_nil, Element.draws, Element.laws, v0, v1, vg, sub_zero, hS]
  match i with
  | 0 =>
    rw [show (0 : ℕ) = 2 * 0 from rfl, (drawRow_bus 2 0 (by omega) _).1]
    simp [lawRow, branch, busSum, stiff, faded, pairAt, feederEq]
  | 1 =>
    rw [show (1 : ℕ) = 2 * 0 + 1 from rfl, (drawRow_bus 2 0 (by omega) _).2]
    simp [lawRow, branch, busSum, stiff, faded, pairAt, feederEq]
  | 2 =>
    rw [show (2 : ℕ) = 2 * 1 from rfl, (drawRow_bus 2 1 (by omega) _).1]
    simp [lawRow, branch, busSum, stiff, faded, pairAt, feederEq]
  | 3 =>
    rw [show (3 : ℕ) = 2 * 1 + 1 from rfl, (drawRow_bus 2 1 (by omega) _).2]
    simp [lawRow, branch, busSum, stiff, faded, pairAt, feederEq]
  | 4 => rw [drawRow_high 2 4 (by omega)]; simp [lawRow, both, feederEq]
  | 5 => rw [drawRow_high 2 5 (by omega)]; simp [lawRow, both, feederEq]
  | k + 6 => rw [drawRow_high 2 _ (by omega)]; simp [lawRow, both, feederEq]

theorem feeder_size (hL : L.Loaded) (P : ℝ) : ((feeder P).assign L).size = 6 := by
  obtain ⟨m, s1, s2, s3⟩ := slack_shape hL
  have hsp := twoTerminalDetails_spec (plainNode 0) Node.ground 4 false s1 s2 (by simp) (by simp [terminalDict])
  obtain ⟨q1, q2, _⟩ := pq_shape hL
  have hsq := twoTerminalDetails_spec (own := []) (lams := []) (plainNode 1) Node.ground 6 false q1 q2 (by simp) (by simp)
  have e : ((feeder P).assign L).size = (placeLoad L false (plainNode 1) Node.ground ⟨P, 0, 0, 0, 0⟩
      (twoTerminalDetails L.slack (plainNode 0) Node.ground 4 false).2).2 := rfl
  rw [e, hsp.2.2.2.2.2.2]
  have h6 := hsq.2.2.2.2.2.2
  unfold placeLoad placeTwoTerminal
  simp
  split_ifs
  · rfl
  · exact h6

theorem feeder_regularAt (P : ℝ) (v : ℕ → ℝ) (h : v 2 ≠ 0) : ∀ e ∈ (feeder P).elements, e.RegularAt 0 (((feeder P).assign L).voltages v) := by
  intro e he
  obtain ⟨v0, v1, vg⟩ := feeder_volt (L := L) P v
  simp [feeder] at he
  rcases he with rfl | rfl | rfl
  · trivial
  · trivial
  · right; rw [v1, vg]
    intro hh; exact h (congrArg Complex.re hh)

/-- The derivative of the feeder's equations at a vector with real load voltage. -/
noncomputable def feederDir (P : ℝ) (v w : ℕ → ℝ) : ℕ → ℝ
  | 0 => w 0 - w 2 + w 4
  | 1 => w 1 - w 3 + w 5
  | 2 => w 2 - w 0 - P / v 2 ^ 2 * w 2
  | 3 => w 3 - w 1 + P / v 2 ^ 2 * w 3
  | 4 => w 0
  | 5 => w 1
  | _ => 0

theorem feeder_dir (P : ℝ) (v w : ℕ → ℝ) (h2 : v 2 ≠ 0) (h3 : v 3 = 0) (i : ℕ) :
    HasDerivAt (fun s => feederEq P (along v w s) i) (feederDir P v w i) 0 := by
  have hl : ∀ k, HasDerivAt (fun s => along v w s k) (w k) 0 := fun k => by
    have := ((hasDerivAt_id (0 : ℝ)).mul_const (w k)).const_add (v k)
    simpa [along] using this
  have hz : ∀ k, along v w 0 k = v k := fun k => by simp
  have hq : HasDerivAt (fun s => along v w s 2 ^ 2 + along v w s 3 ^ 2) (2 * v 2 * w 2) 0 := by
    have := ((hl 2).pow 2).add ((hl 3).pow 2)
    refine this.congr_deriv ?_
    simp [h3]
  have hne : along v w 0 2 ^ 2 + along v w 0 3 ^ 2 ≠ 0 := by simp [h3, h2]
  match i with
  | 0 => exact ((hl 0).sub (hl 2)).add (hl 4)
  | 1 => exact ((hl 1).sub (hl 3)).add (hl 5)
  | 2 =>
    refine (((hl 2).sub (hl 0)).add (((hl 2).const_mul P).div hq hne)).congr_deriv ?_
    simp only [hz, h3, feederDir]; field_simp; ring
  | 3 =>
    refine (((hl 3).sub (hl 1)).add (((hl 3).const_mul P).div hq hne)).congr_deriv ?_
    simp only [hz, h3, feederDir]; field_simp; ring
  | 4 => exact (hl 0).sub_const 1
  | 5 => exact hl 1
  | k + 6 => exact hasDerivAt_const _ _

/-- The load cannot be served when `P > 1/4`. -/
theorem feeder_unsolvable (P : ℝ) (hP : 1 / 4 < P) (v : ℕ → ℝ) : ∃ i < 6, feederEq P v i ≠ 0 := by
  by_contra hc
  push Not at hc
  have r2 := hc 2 (by omega)
  have r3 := hc 3 (by omega)
  have r4 := hc 4 (by omega)
  have r5 := hc 5 (by omega)
  simp only [feederEq] at r2 r3 r4 r5
  have h0 : v 0 = 1 := by linarith
  by_cases hq : v 2 ^ 2 + v 3 ^ 2 = 0
  · have e2 : v 2 = 0 := by nlinarith [sq_nonneg (v 2), sq_nonneg (v 3)]
    rw [e2, h0] at r2; simp at r2
  · have hpos : 0 < v 2 ^ 2 + v 3 ^ 2 := lt_of_le_of_ne (by positivity) (Ne.symm hq)
    rw [h0] at r2
    rw [r5] at r3
    have e3 : v 3 * (1 + P / (v 2 ^ 2 + v 3 ^ 2)) = 0 := by
      have : v 3 * (1 + P / (v 2 ^ 2 + v 3 ^ 2)) = v 3 - 0 + P * v 3 / (v 2 ^ 2 + v 3 ^ 2) := by ring
      rw [this, r3]
    have : 0 < 1 + P / (v 2 ^ 2 + v 3 ^ 2) := by positivity
    have z3 : v 3 = 0 := by
      rcases mul_eq_zero.1 e3 with h | h
      · exact h
      · linarith
    rw [z3] at r2 hpos
    have hv2 : v 2 ≠ 0 := by intro h; rw [h] at hpos; simp at hpos
    have : v 2 * (v 2 - 1) + P = 0 := by
      have e : P * v 2 / (v 2 ^ 2 + 0 ^ 2) = P / v 2 := by field_simp; ring
      rw [e] at r2
      field_simp at r2
      linarith
    nlinarith [sq_nonneg (v 2 - 1 / 2)]

end Verif
