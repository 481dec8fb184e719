import Verif.Spec.LineCharge
import Verif.Props.LineCarson

/-!
# Lemmas on the charging of lines of a file
-/

namespace Verif.Glm

open Matrix

/-- What the conductors give is what the wires have, if the reading of conductors does not change that. -/
theorem readWires_kept {α : Type} {read : Obj → Char → Py (α × Obj)} {P : Char → α → Prop} {Q : Char → Obj → Prop}
    (hr : ∀ o p w, read o p = .ok w → Q p o → P p w.1) (hw : ∀ o p w, read o p = .ok w → o.cls ∈ conductorClasses → SameObj o w.2)
    (hQ : ∀ o o' p, SameObj o o' → Q p o → Q p o') {names : List (Char × Txt)} {objs : List (Txt × Obj)} {r : List α × List (Txt × Obj)}
    (h : readWires read objs names = .ok r) (hc : AreConductors objs names) (hn : ∀ x ∈ names, ∀ o, lookup x.2 objs = some o → Q x.1 o) :
    List.Forall₂ (fun x w => P x.1 w) names r.1 := by
  induction names generalizing objs r with
  | nil => cases h; exact .nil
  | cons x names ih =>
    obtain ⟨p, n⟩ := x
    rw [readWires] at h
    split at h
    · cases h
    · rename_i o ho
      obtain ⟨w, hwo, h⟩ := bind_eq_ok h
      obtain ⟨_, -, h⟩ := bind_eq_ok h
      obtain ⟨r', hr', h⟩ := bind_eq_ok h
      cases h
      have s1 : SameObjs objs (store n w.2 objs) := store_same ho (hw o p w hwo (hc (p, n) (by simp) o ho))
      refine .cons (hr o p w hwo (hn (p, n) (by simp) o ho)) (ih hr' (fun y hy => AreConductors.same s1 hc y (List.mem_cons_of_mem _ hy)) fun y hy o' ho' => ?_)
      obtain ⟨o0, h0, hs⟩ := s1.to_some ho'
      exact hQ _ _ _ hs (hn y (List.mem_cons_of_mem _ hy) o0 h0)

theorem names_phases {objs : List (Txt × Obj)} {c : Obj} {Q : Char → Obj → Prop}
    (h : ∀ p ∈ conductorLetters c "ABC".toList, ∃ w, Refers objs c ("conductor_".toList ++ [p]) w ∧ Q p w) :
    ∀ x ∈ conductorNames c "ABCN".toList, ∀ o, lookup x.2 objs = some o → x.1 ≠ 'N' → Q x.1 o := by
  intro x hx o ho hN
  obtain ⟨p, hp, hx⟩ := List.mem_filterMap.1 hx
  obtain ⟨n, hn, rfl⟩ := Option.map_eq_some_iff.1 hx
  have hp' : p ∈ "ABC".toList := by
    have : ∀ p ∈ "ABCN".toList, p ≠ 'N' → p ∈ "ABC".toList := by decide
    exact this p hp hN
  obtain ⟨w, ⟨n', hn', hw⟩, hq⟩ := h p (List.mem_filter.2 ⟨hp', by rw [hn]; rfl⟩)
  rw [hn, Option.some.injEq] at hn'
  subst hn'
  rw [ho, Option.some.injEq] at hw
  subst hw
  exact hq

theorem conductorLetters_append (c : Obj) : conductorLetters c "ABCN".toList = conductorLetters c "ABC".toList ++ conductorLetters c "N".toList := by
  rw [conductorLetters, conductorLetters, conductorLetters, ← List.filter_append]
  rfl

/-- The current into the shunts of a line that is built, at both ends together. -/
theorem made_charging {d : LineData} {m : ℕ} {B : Matrix (Fin m) (Fin m) ℝ} {pairs : List (ℕ × ℕ)} {e : Element} (h : lineMade d pairs = .ok e)
    (hS : ∀ i j : Fin m, d.S i j = shuntPerMeter B i j) (hp : pairs.length = m) {x : ℚ} (hx : d.length = x * (1609344 / 1000)) :
    ∃ y sh, e = .unbalanced pairs y sh ∧ ∀ V : Ref → ℂ, (∀ p ∈ pairs, V (some p.1) = V (some p.2)) → ∀ i : Fin m,
      shuntCurrent (pairs.map Prod.fst) sh V i + shuntCurrent (pairs.map Prod.snd) sh V i =
        ∑ j : Fin m, Complex.I * (((x : ℝ) * B i j : ℝ) : ℂ) * V (some (pairs.getD j (0, 0)).1) := by
  obtain ⟨Y, -, -, -, -, he⟩ := makeUnbalanced_ok h
  refine ⟨_, _, he, fun V hV i => ?_⟩
  rw [shunt_total B (d.length : ℝ) _ hp V hV _ (fun i j => by rw [hS]; exact shunt_entry B _ i j)]
  refine Finset.sum_congr rfl fun j _ => ?_
  rw [hx]
  congr 4
  push_cast
  field_simp

theorem EndVoltages.same {ps : List Char} {pairs : List (ℕ × ℕ)} {V : Ref → ℂ} {U : Char → ℂ} (h : EndVoltages ps pairs V U) (hl : pairs.length = ps.length) :
    ∀ p ∈ pairs, V (some p.1) = V (some p.2) := by
  intro p hp
  obtain ⟨i, hi, rfl⟩ := List.getElem_of_mem hp
  have := h i (by omega)
  rw [List.getD_eq_getElem?_getD, List.getElem?_eq_getElem hi, Option.getD_some] at this
  rw [this.1, this.2]

/-! ### Cables -/

theorem undergroundConductor_charged {o : Obj} {p : Char} {w : CableWire × Obj} (h : undergroundConductor o p = .ok w) {outer strand conductor : ℚ} {k : ℕ}
    (h1 : Valued o "outer_diameter" outer) (h2 : Valued o "neutral_diameter" strand) (h3 : Valued o "neutral_strands" k) (h4 : Valued o "conductor_diameter" conductor) :
    w.1.phase = p ∧ w.1.outer = some outer ∧ w.1.strand = some strand ∧ w.1.strands = some (k : ℤ) ∧ w.1.conductor = some conductor := by
  rw [undergroundConductor, h1.float, h2.float, h3.float, h4.float] at h
  simp only [ok_bind'] at h
  obtain ⟨_, -, h⟩ := bind_eq_ok h
  obtain ⟨_, -, h⟩ := bind_eq_ok h
  obtain ⟨_, -, h⟩ := bind_eq_ok h
  obtain ⟨_, -, h⟩ := bind_eq_ok h
  cases h
  exact ⟨rfl, rfl, rfl, by rw [Option.map_some, truncate_nat], rfl⟩

theorem wireSusceptance_charged {w : CableWire} (hN : w.phase ≠ 'N') {outer strand conductor : ℚ} {k : ℕ} (h1 : w.outer = some outer) (h2 : w.strand = some strand)
    (h3 : w.strands = some (k : ℤ)) (h4 : w.conductor = some conductor) {b : Option ℝ} (h : wireSusceptance w = .ok b) :
    b = some (concentricSusceptance outer strand conductor k) := by
  rw [wireSusceptance, if_neg hN, h1, h2, h3, h4] at h
  dsimp only at h
  split at h
  · rename_i hpos
    cases h
    obtain ⟨hk, hs, ho, hc, -⟩ := hpos
    have hs' : (0 : ℝ) < strand := by exact_mod_cast hs
    have ho' : (0 : ℝ) < outer - strand := by have : (strand : ℝ) < outer := by exact_mod_cast ho
                                              linarith
    have hc' : (0 : ℝ) < conductor := by exact_mod_cast hc
    have hk' : (0 : ℝ) < k := by exact_mod_cast hk
    rw [cableSusceptance, concentricSusceptance]
    simp only [Int.cast_natCast]
    congr 1
    have e1 : ((outer : ℝ) - strand) / 2 / (conductor / 2) = (outer - strand) / conductor := by field_simp
    have e2 : (k : ℝ) * (strand / 2) / ((outer - strand) / 2) = k * strand / (outer - strand) := by field_simp
    rw [e1, e2, show 1 / (k : ℝ) * Real.log (k * strand / (outer - strand)) = Real.log (k * strand / (outer - strand)) / k by ring]
    norm_num
  · cases h

/-! ### Bare wires -/

theorem overheadConductor_charged {o : Obj} {p : Char} {w : BareWire × Obj} (h : overheadConductor o p = .ok w) {δ : ℚ} (hd : Valued o "diameter" δ) :
    w.1.phase = p ∧ w.1.diameter = some δ := by
  rw [overheadConductor, hd.float] at h
  simp only [ok_bind'] at h
  obtain ⟨_, -, h⟩ := bind_eq_ok h
  obtain ⟨_, -, h⟩ := bind_eq_ok h
  cases h
  exact ⟨rfl, rfl⟩

theorem phase_index : ∀ p ∈ "ABC".toList, ∃ a < 3, revLookup p = some a ∧ spacingLetters.getD a ' ' = p := by decide

theorem potential_charged {s : Obj} {T : Table} (hT : overheadSpacing s = .ok T) {wires : List BareWire} (hr : ChargingReadable wires T) {δ : Char → ℚ} {D : Char → Char → ℚ} {h : ℚ}
    (hh : 0 < h) (hw : ∀ w ∈ wires, w.diameter = some (δ w.phase) ∧ w.phase ∈ "ABC".toList ∧ Spaced s w.phase 'E' h)
    (hD : ∀ v ∈ wires, ∀ w ∈ wires, v.phase ≠ w.phase → 0 < D v.phase w.phase ∧ Spaced s v.phase w.phase (D v.phase w.phase)) (hn : (wires.map BareWire.phase).Nodup)
    {i j : ℕ} (hi : i < wires.length) (hj : j < wires.length) :
    potentialAt wires T i j = potentialCoefficient h (D wires[i].phase wires[j].phase) (1 * δ wires[i].phase / 2 : ℚ) (wires[i].phase = wires[j].phase) := by
  have hij : wires[i].phase = wires[j].phase ↔ i = j := by
    constructor
    · intro e
      have := (List.Nodup.getElem_inj_iff hn (i := i) (j := j) (hi := by simpa) (hj := by simpa)).1 (by simpa using e)
      exact this
    · rintro rfl; rfl
  obtain ⟨hd, hA, hE⟩ := hw _ (List.getElem_mem hi)
  obtain ⟨-, hB, -⟩ := hw _ (List.getElem_mem hj)
  obtain ⟨a, ha, ra, la⟩ := phase_index _ hA
  obtain ⟨b, hb, rb, lb⟩ := phase_index _ hB
  have h4 : T a 4 = h := spaced_entry hT (by omega) (by norm_num) hh.ne' (by rw [la]; exact hE)
  have hhr : (0 : ℝ) < h := by exact_mod_cast hh
  simp only [potentialAt, List.getD_eq_getElem?_getD, List.getElem?_eq_getElem hi, List.getElem?_eq_getElem hj, Option.getD_some, ra, rb, hd]
  by_cases e : i = j
  · subst e
    rw [ra, Option.some.injEq] at rb
    subst rb
    obtain ⟨h0, -⟩ := hr.2.2 _ (List.getElem_mem hi) a ra
    rw [potentialCoefficient, if_pos rfl, imageDistance, if_pos rfl, if_pos rfl, h4, h0, Rat.cast_zero, add_zero]
    rw [show (0 : ℝ) ^ 2 + (2 * (h : ℝ)) ^ 2 = (2 * h) ^ 2 by ring, Real.sqrt_sq (by positivity)]
    congr 3
    push_cast
    ring
  · have hne : wires[i].phase ≠ wires[j].phase := fun h => e (hij.1 h)
    have hab : a ≠ b := by
      rintro rfl
      exact hne (la.symm.trans lb)
    obtain ⟨hpos, hs⟩ := hD _ (List.getElem_mem hi) _ (List.getElem_mem hj) hne
    have hab' : T a b = D wires[i].phase wires[j].phase := spaced_entry hT (by omega) (by omega) hpos.ne' (by rw [la, lb]; exact hs)
    rw [potentialCoefficient, if_neg hne, imageDistance, if_neg hab, if_pos ⟨by omega, by omega⟩, if_neg e, h4, hab', zero_add]

/-- Charges that give the voltages, from an invertible matrix of potential coefficients. -/
theorem charges_exist {ps : List Char} (hn : ps.Nodup) {m : ℕ} (hm : ps.length = m) {M : Matrix (Fin m) (Fin m) ℝ} (hd : M.det ≠ 0) {P : Char → Char → ℝ}
    (hM : ∀ i j : Fin m, M i j = P (ps.getD i 'A') (ps.getD j 'A')) (U : Char → ℂ) : ∃ Q : Char → ℂ, (∀ p ∈ ps, U p = (ps.map fun q => (P p q : ℂ) * Q q).sum) ∧
      ∀ i : Fin m, Q (ps.getD i 'A') = ∑ j : Fin m, (M⁻¹ i j : ℂ) * U (ps.getD j 'A') := by
  subst hm
  let q : Fin ps.length → ℂ := fun i => ∑ j, (M⁻¹ i j : ℂ) * U (ps.getD j 'A')
  let Q : Char → ℂ := fun p => if h : ps.idxOf p < ps.length then q ⟨ps.idxOf p, h⟩ else 0
  have hQ : ∀ i : Fin ps.length, Q (ps.getD i 'A') = q i := by
    intro i
    have e : ps.getD i 'A' = ps[(i : ℕ)] := by rw [List.getD_eq_getElem?_getD, List.getElem?_eq_getElem i.2]; rfl
    have ei : ps.idxOf (ps.getD i 'A') = i := by rw [e]; exact hn.idxOf_getElem i i.2
    have hlt : ps.idxOf (ps.getD i 'A') < ps.length := by rw [ei]; exact i.2
    show (if h : ps.idxOf (ps.getD i 'A') < ps.length then q ⟨ps.idxOf (ps.getD i 'A'), h⟩ else 0) = q i
    rw [dif_pos hlt]
    congr 1
    exact Fin.ext ei
  refine ⟨Q, ?_, hQ⟩
  rw [← forall_getD rfl]
  intro i
  rw [← sum_getD rfl]
  simp only [hQ, ← hM]
  have hinv : M * M⁻¹ = 1 := mul_nonsing_inv _ (isUnit_iff_ne_zero.2 hd)
  have e : ∀ j, (M i j : ℂ) * q j = ∑ k, ((M i j * M⁻¹ j k : ℝ) : ℂ) * U (ps.getD k 'A') := by
    intro j
    show (M i j : ℂ) * ∑ k, (M⁻¹ j k : ℂ) * U (ps.getD k 'A') = _
    rw [Finset.mul_sum]
    refine Finset.sum_congr rfl fun k _ => ?_
    push_cast
    ring
  simp only [e]
  rw [Finset.sum_comm]
  have e2 : ∀ k, ∑ j, ((M i j * M⁻¹ j k : ℝ) : ℂ) * U (ps.getD k 'A') = if i = k then U (ps.getD k 'A') else 0 := by
    intro k
    rw [← Finset.sum_mul, ← Complex.ofReal_sum, ← Matrix.mul_apply, hinv, Matrix.one_apply]
    split <;> simp
  simp only [e2]
  simp

end Verif.Glm
