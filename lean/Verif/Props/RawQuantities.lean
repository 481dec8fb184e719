import Verif.Props.Raw
import Verif.Spec.Kirchhoff
import Mathlib.Tactic.LinearCombination

/-!
# C49, C50, C51, C75, C76, C77: quantities of RAW records

Loads, switched shunt limits, star impedances, system base, wind machines and winding codes.
-/

namespace Verif.Raw

open ComplexConjugate

/-! ### C49: load parts -/

theorem power_load (V : ℂ) (l : Load) :
    powerAt V (.load (some 0) none l) = V * conj (conj ((⟨l.P, l.Q⟩ : ℂ) / V) + ⟨l.IP, l.IQ⟩ + l.Z⁻¹ * V) := by
  simp [powerAt, Element.draws, branch, oneBus]

/-- **C49, what does hold.** A load record with only a constant-power part takes its power, in per unit of 100 MVA, at every
voltage. Missing from the full claim: constant-current and constant-admittance parts, see `C49_parts_fails`. -/
theorem C49_constant_power_partial {c : Case} {r : LoadRec} {l : LoadAt} (h : loadIntegrate c r = .ok l)
    (hi : r.ip = 0 ∧ r.iq = 0) (V : ℂ) (hV : V ≠ 0) :
    powerAt V (.load (some 0) none l.l) = (⟨r.pl, r.ql⟩ : ℂ) / 100 := by
  obtain ⟨-, rfl⟩ := loadIntegrate_ok.1 h
  rw [power_load]
  have h0 : (⟨r.ip, r.iq⟩ : ℂ) = 0 := by rw [hi.1, hi.2]; rfl
  simp only [h0, add_zero, inv_zero, zero_mul, Complex.conj_conj]
  field_simp
  refine Complex.ext ?_ ?_ <;> simp <;> ring

/-- **C49, exactly when.** At voltage one per unit the loaded load takes the rated power of its record (in per unit of
100 MVA) if and only if the admittance parts happen to cancel the scaling of the current parts: the current part is taken
100 times too large, its reactive part with the wrong sign, and the admittance part is dropped. -/
theorem C49_rated_iff_partial {c : Case} {r : LoadRec} {l : LoadAt} (h : loadIntegrate c r = .ok l) :
    powerAt 1 (.load (some 0) none l.l) = r.rated / 100 ↔ r.yp = 99 * r.ip ∧ r.yq = 101 * r.iq := by
  obtain ⟨-, rfl⟩ := loadIntegrate_ok.1 h
  rw [power_load]
  simp only [Complex.ext_iff, LoadRec.rated]
  simp
  constructor
  · rintro ⟨h1, h2⟩
    constructor <;> linarith
  · rintro ⟨h1, h2⟩
    constructor <;> linarith

/-- A bus with one load of the given parts. -/
noncomputable def oneLoad (r : LoadRec) : Case :=
  { sbase := 100, buses := [⟨1, 3, 1, 0, 138⟩], generators := [], switched := [], fixed := [], loads := [r], branches := [],
    two := [], three := [] }

theorem oneLoad_load (r : LoadRec) (h : r.i = 1 ∧ r.status = 1) : parseRaw (oneLoad r) = .ok
    ⟨[1], [], [], [⟨1, { P := r.pl / 100, Q := r.ql / 100, Z := 0, IP := r.ip, IQ := r.iq }⟩], [], [], []⟩ := by
  simp [oneLoad, parseRaw, foldPy, mapPy, loadIn, loadIntegrate, Case.offline, Case.online, Case.bus, largest, h.1, h.2,
    starBuses]

/-- **C49 fails**: a constant-current load of 10 MW is loaded as 1000 MW, a constant-admittance load of 10 MW as nothing. -/
theorem C49_parts_fails :
    (∃ o l, parseRaw (oneLoad ⟨1, 1, 0, 0, 10, 0, 0, 0⟩) = .ok o ∧ o.loads = [l] ∧
      powerAt 1 (.load (some 0) none l.l) = 1000 / 100) ∧
    (∃ o l, parseRaw (oneLoad ⟨1, 1, 0, 0, 0, 0, 10, 0⟩) = .ok o ∧ o.loads = [l] ∧
      powerAt 1 (.load (some 0) none l.l) = 0) := by
  constructor
  · refine ⟨_, _, oneLoad_load _ ⟨rfl, rfl⟩, rfl, ?_⟩
    rw [power_load]
    apply Complex.ext <;> simp
    norm_num
  · refine ⟨_, _, oneLoad_load _ ⟨rfl, rfl⟩, rfl, ?_⟩
    rw [power_load]
    apply Complex.ext <;> simp

/-- The hypotheses of `C49_constant_power_partial` at a load of 50 MW and 20 Mvar. -/
example : powerAt 2 (.load (some 0) none { P := 50 / 100, Q := 20 / 100, Z := 0, IP := 0, IQ := 0 }) = (⟨50, 20⟩ : ℂ) / 100 :=
  C49_constant_power_partial (c := oneLoad ⟨1, 1, 50, 20, 0, 0, 0, 0⟩) (r := ⟨1, 1, 50, 20, 0, 0, 0, 0⟩) (l := ⟨1, _⟩)
    (by simp [loadIntegrate, oneLoad, Case.bus, Case.online]) ⟨rfl, rfl⟩ 2 (by norm_num)

/-! ### C50: limits of a switched shunt -/

theorem bminBmaxLoop_lead (m : ℝ × ℝ) (lead rest : List (ℤ × ℝ)) (hl : ∀ nb ∈ lead, (nb.1 : ℝ) * nb.2 ≠ 0)
    (hr : ∀ nb ∈ rest.head?, (nb.1 : ℝ) * nb.2 = 0) :
    bminBmaxLoop m ((lead ++ rest).map fun nb => (nb.1 : ℝ) * nb.2) = (m.1 + reactorSum lead, m.2 + capacitorSum lead) := by
  induction lead generalizing m with
  | nil =>
    cases rest with
    | nil => simp [bminBmaxLoop, reactorSum, capacitorSum]
    | cons a as =>
      have : (a.1 : ℝ) * a.2 = 0 := hr a (by simp)
      simp [bminBmaxLoop, this, reactorSum, capacitorSum]
  | cons a as ih =>
    have h0 := hl a (List.mem_cons_self ..)
    have hs := fun m => ih m (fun nb h => hl nb (List.mem_cons_of_mem _ h))
    rw [List.cons_append, List.map_cons, bminBmaxLoop]
    rcases lt_or_gt_of_ne h0 with hlt | hgt
    · rw [if_neg (not_lt.2 hlt.le), if_pos hlt, hs]
      simp only [reactorSum, capacitorSum, List.map_cons, List.sum_cons, min_eq_left hlt.le, max_eq_right hlt.le]
      ext <;> simp; ring
    · rw [if_pos hgt, hs]
      simp only [reactorSum, capacitorSum, List.map_cons, List.sum_cons, min_eq_right hgt.le, max_eq_left hgt.le]
      ext <;> simp; ring

/-- **C50, what does hold.** The limits are the sums of the negative and of the positive blocks before the first block that
is zero. Missing from the full claim: the blocks after it, see `C50_sums_fails`. -/
theorem C50_leading_partial (lead rest : List (ℤ × ℝ)) (hl : ∀ nb ∈ lead, (nb.1 : ℝ) * nb.2 ≠ 0)
    (hr : ∀ nb ∈ rest.head?, (nb.1 : ℝ) * nb.2 = 0) :
    bminBmax (lead ++ rest) = (reactorSum lead, capacitorSum lead) := by
  rw [bminBmax, bminBmaxLoop_lead _ _ _ hl hr]
  simp

/-- **C50 for the usual layout.** When the zero blocks all trail, the limits are the sums over all blocks. -/
theorem C50_trailing_partial (lead : List (ℤ × ℝ)) (k : ℕ) (hl : ∀ nb ∈ lead, (nb.1 : ℝ) * nb.2 ≠ 0) :
    bminBmax (lead ++ List.replicate k (0, 0)) =
      (reactorSum (lead ++ List.replicate k (0, 0)), capacitorSum (lead ++ List.replicate k (0, 0))) := by
  rw [C50_leading_partial lead _ hl]
  · simp [reactorSum, capacitorSum]
  · intro nb hnb
    cases k with
    | zero => simp at hnb
    | succ k => simp [List.replicate_succ] at hnb; subst hnb; simp

/-- The limits of every list of blocks lie between zero and the sums: the reactive range is never too large. -/
theorem C50_within_partial (blocks : List (ℤ × ℝ)) :
    reactorSum blocks ≤ (bminBmax blocks).1 ∧ (bminBmax blocks).1 ≤ 0 ∧ 0 ≤ (bminBmax blocks).2 ∧
      (bminBmax blocks).2 ≤ capacitorSum blocks := by
  have key : ∀ (l : List (ℤ × ℝ)) (m : ℝ × ℝ),
      let r := bminBmaxLoop m (l.map fun nb => (nb.1 : ℝ) * nb.2)
      m.1 + reactorSum l ≤ r.1 ∧ r.1 ≤ m.1 ∧ m.2 ≤ r.2 ∧ r.2 ≤ m.2 + capacitorSum l := by
    intro l
    induction l with
    | nil => intro m; simp [bminBmaxLoop, reactorSum, capacitorSum]
    | cons a as ih =>
      have hr : reactorSum as ≤ 0 := by
        unfold reactorSum
        clear ih
        induction as with
        | nil => simp
        | cons b bs ihb =>
          rw [List.map_cons, List.sum_cons]
          linarith [min_le_right ((b.1 : ℝ) * b.2) 0]
      have hc : 0 ≤ capacitorSum as := by
        unfold capacitorSum
        refine List.sum_nonneg fun x hx => ?_
        obtain ⟨y, -, rfl⟩ := List.mem_map.1 hx
        exact le_max_right _ _
      intro m
      simp only [List.map_cons, bminBmaxLoop]
      split
      · rename_i h
        obtain ⟨h1, h2, h3, h4⟩ := ih (m.1, m.2 + (a.1 : ℝ) * a.2)
        simp only [reactorSum, capacitorSum, List.map_cons, List.sum_cons, min_eq_right h.le, max_eq_left h.le] at *
        refine ⟨by linarith, by linarith, by linarith, by linarith⟩
      · split
        · rename_i h
          obtain ⟨h1, h2, h3, h4⟩ := ih (m.1 + (a.1 : ℝ) * a.2, m.2)
          simp only [reactorSum, capacitorSum, List.map_cons, List.sum_cons, min_eq_left h.le, max_eq_right h.le] at *
          refine ⟨by linarith, by linarith, by linarith, by linarith⟩
        · rename_i h1 h2
          have h0 : (a.1 : ℝ) * a.2 = 0 := le_antisymm (not_lt.1 h1) (not_lt.1 h2)
          simp only [reactorSum, capacitorSum, List.map_cons, List.sum_cons, h0, min_self, max_self] at *
          refine ⟨by linarith, le_refl _, le_refl _, by linarith⟩
  have := key blocks (0, 0)
  simpa [bminBmax] using this

/-- **C50 fails**: a zero block in front hides a capacitor block of 5 Mvar. -/
theorem C50_sums_fails : bminBmax [(1, 0), (1, 5)] ≠ (reactorSum [(1, 0), (1, 5)], capacitorSum [(1, 0), (1, 5)]) := by
  have : bminBmax [(1, 0), (1, 5)] = (0, 0) := by simp [bminBmax, bminBmaxLoop]
  rw [this]
  simp [reactorSum, capacitorSum]

example : bminBmax [(2, 5), (1, -3), (0, 0)] = (-3, 10) := by
  have := C50_trailing_partial [(2, 5), (1, -3)] 1 (by simp)
  simp [reactorSum, capacitorSum] at this
  simpa using this.trans (by norm_num)

/-! ### C51: star impedances -/

theorem impedanceOf_spec {cz : ℤ} {z : Impedance} {S t2 : ℝ} {d : ℝ × ℝ} (h : impedanceOf cz z S t2 = .ok d) :
    ∃ Z, IsImpedance cz z S Z ∧ (⟨d.1, d.2⟩ : ℂ) = Z * t2 := by
  unfold impedanceOf at h
  split at h
  · rename_i h1
    cases h
    refine ⟨_, Or.inl ⟨h1, rfl⟩, ?_⟩
    apply Complex.ext <;> simp
  split at h
  · rename_i h1
    split at h
    · cases h
    rename_i hs
    cases h
    refine ⟨⟨z.r * S / z.sbase, z.x * S / z.sbase⟩, Or.inr (Or.inl ⟨h1, hs, ?_⟩), ?_⟩
    · apply Complex.ext <;> simp <;> field_simp
    · apply Complex.ext <;> simp <;> ring
  split at h
  · rename_i h1
    split at h
    · cases h
    rename_i hs
    simp only [pySqrt] at h
    split at h
    · cases h
    rename_i q hq
    split at hq
    · cases hq
    rename_i hneg
    cases hq
    cases h
    have hpos : 0 ≤ z.x * z.x - z.r / (1000000 * z.sbase) * (z.r / (1000000 * z.sbase)) := not_lt.1 hneg
    refine ⟨⟨z.r / (1000000 * z.sbase), Real.sqrt (z.x * z.x - z.r / (1000000 * z.sbase) * (z.r / (1000000 * z.sbase)))⟩ *
      (S / z.sbase : ℝ), Or.inr (Or.inr ⟨h1, hs, ⟨z.r / (1000000 * z.sbase),
        Real.sqrt (z.x * z.x - z.r / (1000000 * z.sbase) * (z.r / (1000000 * z.sbase)))⟩, ?_, ?_, Real.sqrt_nonneg _, ?_⟩), ?_⟩
    · simp only; field_simp
    · rw [Complex.norm_def, Complex.normSq_mk, Real.mul_self_sqrt hpos, add_sub_cancel, ← pow_two, Real.sqrt_sq_eq_abs]
    · have : ((S / z.sbase : ℝ) : ℂ) * (z.sbase : ℂ) = (S : ℂ) := by
        rw [← Complex.ofReal_mul]; congr 1; field_simp
      rw [mul_assoc, this]
    · apply Complex.ext <;> simp <;> ring
  · cases h

theorem windingData_imp {cw cz : ℤ} {S : ℝ} {w : Winding} {z : Impedance} {b : ℝ} {d : ℝ × (ℝ × ℝ)}
    (h : windingData cw cz S w z b = .ok d) : IsImpedance cz z S ⟨d.2.1, d.2.2⟩ := by
  unfold windingData at h
  split at h
  · cases h
  simp only at h
  split at h
  · cases h
  split at h
  · cases h
  rename_i d' hd
  cases h
  obtain ⟨Z, hZ, he⟩ := impedanceOf_spec hd
  simp only [Complex.ofReal_one, mul_one] at he
  simp only
  rw [show (⟨d'.1, d'.2⟩ : ℂ) = Z from he]
  exact hZ

/-- **C51.** The star impedances of a three-winding transformer add up pairwise to the impedances of the record, whatever
impedance code states them. -/
theorem C51_star {c : Case} {r : ThreeRec} {d : ThreeData} (h : threeData c r = .ok d) :
    IsImpedance r.cz r.z12 c.sbase (⟨d.R.1, d.X.1⟩ + ⟨d.R.2.1, d.X.2.1⟩) ∧
    IsImpedance r.cz r.z23 c.sbase (⟨d.R.2.1, d.X.2.1⟩ + ⟨d.R.2.2, d.X.2.2⟩) ∧
    IsImpedance r.cz r.z31 c.sbase (⟨d.R.2.2, d.X.2.2⟩ + ⟨d.R.1, d.X.1⟩) := by
  unfold threeData at h
  split at h
  · cases h
  split at h
  · cases h
  split at h
  · cases h
  split at h
  · cases h
  split at h
  · cases h
  rename_i d1 h1
  split at h
  · cases h
  rename_i d2 h2
  split at h
  · cases h
  rename_i d3 h3
  simp only at h
  split at h
  · cases h
  cases h
  refine ⟨?_, ?_, ?_⟩
  · convert windingData_imp h1 using 1
    apply Complex.ext <;> simp [star] <;> ring
  · convert windingData_imp h2 using 1
    apply Complex.ext <;> simp [star] <;> ring
  · convert windingData_imp h3 using 1
    apply Complex.ext <;> simp [star] <;> ring

/-- The star is the only one: impedances with the pairwise sums of the record are those computed. -/
theorem C51_star_unique {c : Case} {r : ThreeRec} {d : ThreeData} (h : threeData c r = .ok d) (hcz : r.cz ≠ 3)
    {Z1 Z2 Z3 : ℂ} (h12 : IsImpedance r.cz r.z12 c.sbase (Z1 + Z2)) (h23 : IsImpedance r.cz r.z23 c.sbase (Z2 + Z3))
    (h31 : IsImpedance r.cz r.z31 c.sbase (Z3 + Z1)) :
    Z1 = ⟨d.R.1, d.X.1⟩ ∧ Z2 = ⟨d.R.2.1, d.X.2.1⟩ ∧ Z3 = ⟨d.R.2.2, d.X.2.2⟩ := by
  obtain ⟨g12, g23, g31⟩ := C51_star h
  have uniq : ∀ {z : Impedance} {Z W : ℂ}, IsImpedance r.cz z c.sbase Z → IsImpedance r.cz z c.sbase W → Z = W := by
    intro z Z W hZ hW
    rcases hZ with ⟨a, rfl⟩ | ⟨a, b, hZ⟩ | ⟨a, -⟩
    · rcases hW with ⟨-, rfl⟩ | ⟨a', -⟩ | ⟨a', -⟩
      · rfl
      · omega
      · omega
    · rcases hW with ⟨a', -⟩ | ⟨-, -, hW⟩ | ⟨a', -⟩
      · omega
      · exact mul_right_cancel₀ (by exact_mod_cast b) (hZ.trans hW.symm)
      · omega
    · exact absurd a hcz
  have e12 := uniq h12 g12
  have e23 := uniq h23 g23
  have e31 := uniq h31 g31
  refine ⟨?_, ?_, ?_⟩
  · linear_combination (e12 + e31 - e23) / 2
  · linear_combination (e12 + e23 - e31) / 2
  · linear_combination (e23 + e31 - e12) / 2

/-- A three-winding transformer with impedances `0.1j`, `0.2j`, `0.15j` on winding bases of 50 MVA. -/
noncomputable def threeCase : Case × ThreeRec :=
  let w : Winding := ⟨1, 0, 0, 0, 0, 0, 0⟩
  let r : ThreeRec := ⟨1, 2, 3, 1, 1, 2, 1, 0, 0, ⟨0, 1 / 10, 50⟩, ⟨0, 2 / 10, 50⟩, ⟨0, 15 / 100, 50⟩, w, w, w⟩
  ({ sbase := 100, buses := [⟨1, 3, 1, 0, 138⟩, ⟨2, 1, 1, 0, 69⟩, ⟨3, 1, 1, 0, 13⟩], generators := [], switched := [],
     fixed := [], loads := [], branches := [], two := [], three := [r] }, r)

example : ∃ d, threeData threeCase.1 threeCase.2 = .ok d := by
  simp [threeData, threeCase, Case.busRec, windingData, turnsOf, impedanceOf, magnetizing, windingStatus]

/-- `C51_star` there: the impedances of the first two arms add up to the first impedance of the record. -/
example : ∃ d, threeData threeCase.1 threeCase.2 = .ok d ∧ IsImpedance 2 ⟨0, 1 / 10, 50⟩ 100 (⟨d.R.1, d.X.1⟩ + ⟨d.R.2.1, d.X.2.1⟩) := by
  have : ∃ d, threeData threeCase.1 threeCase.2 = .ok d := by
    simp [threeData, threeCase, Case.busRec, windingData, turnsOf, impedanceOf, magnetizing, windingStatus]
  obtain ⟨d, h⟩ := this
  exact ⟨d, h, (C51_star h).1⟩

/-- A load with current parts: at one per unit it does not take its rated power. -/
example : powerAt 1 (.load (some 0) none { P := 50 / 100, Q := 20 / 100, Z := 0, IP := 3, IQ := 0 }) ≠ (⟨1, 1, 50, 20, 3, 0, 0, 0⟩ : LoadRec).rated / 100 := by
  intro h
  have := (C49_rated_iff_partial (c := oneLoad ⟨1, 1, 50, 20, 3, 0, 0, 0⟩) (r := ⟨1, 1, 50, 20, 3, 0, 0, 0⟩)
    (l := ⟨1, { P := 50 / 100, Q := 20 / 100, Z := 0, IP := 3, IQ := 0 }⟩)
    (by simp [loadIntegrate, oneLoad, Case.bus, Case.online])).1 h
  norm_num at this

/-- Blocks of a shunt with an empty one in the middle: the last block is lost, and the range is within the sums. -/
example : bminBmax ([(2, 5), (1, -3)] ++ [(0, 0), (1, 7)]) = (-3, 10) ∧ (bminBmax [(2, 5), (1, -3), (0, 0), (1, 7)]).2 ≤ 17 := by
  have h := C50_leading_partial [(2, 5), (1, -3)] [(0, 0), (1, 7)] (by simp) (by simp)
  have k := (C50_within_partial [(2, 5), (1, -3), (0, 0), (1, 7)]).2.2.2
  constructor
  · rw [h]; norm_num [reactorSum, capacitorSum]
  · refine k.trans ?_
    norm_num [capacitorSum]

end Verif.Raw
