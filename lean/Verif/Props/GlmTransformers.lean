import Verif.Props.GlmFile
import Verif.Spec.GlmFlow
import Mathlib.Tactic.FieldSimp
import Mathlib.Tactic.Linarith
import Mathlib.Data.List.Rotate

/-!
# C60, C90, C97: the transformers of a GridLAB-D file
-/

namespace Verif.Glm

variable {M : Type}

/-! ### C60 -/

/-- **C60, pairing.** The coils on the phases `ps` go around them: each phase is the positive end of one coil, each phase is the negative end of one
coil, and the negative end of a coil is the positive end of the next one, so that all of them form one cycle. -/
theorem C60_cycle (ps : List Char) : (around ps).map Prod.fst = ps ∧ ((around ps).map Prod.snd).Perm ps ∧
    ∀ i (h : i < ps.length), (around ps)[i]? = some (ps[i], ps[(i + 1) % ps.length]'(Nat.mod_lt _ (by omega))) := by
  have e : ps.tail ++ ps.take 1 = ps.rotate 1 := by
    cases ps with
    | nil => rfl
    | cons a l => simp
  have hl : (ps.tail ++ ps.take 1).length = ps.length := by rw [e, List.length_rotate]
  refine ⟨?_, ?_, fun i h => ?_⟩
  · rw [around, List.map_fst_zip (by rw [hl])]
  · rw [around, List.map_snd_zip (by rw [hl]), e]
    exact List.rotate_perm ps 1
  · rw [around, e, List.getElem?_zip_eq_some]
    refine ⟨List.getElem?_eq_getElem h, ?_⟩
    rw [List.getElem?_eq_getElem (by rw [List.length_rotate]; exact h), List.getElem_rotate]

/-- Three phases. -/
example : around ['A', 'B', 'C'] = [('A', 'B'), ('B', 'C'), ('C', 'A')] := by decide

section File

variable {readLine : LineReader M} {schedules : List (Txt × Txt)} {objs : List (Txt × Obj)} {g : Grid M}

/-- **C60, file.** The transformers of the network are those of the file. A bank is one coil for each of its phases, with its positive ends at that
phase of the two nodes; on a side in delta the negative end is at the next phase around, on another side it is ground. A center tap goes from its
phase to the two hot wires. Voltages, impedance and power are those of the configuration. -/
theorem C60_coils (hR : Keeps readLine objs) (hO : OuterFile objs) (hk : (objs.map Prod.fst).Nodup) (hp : PlainConfigurations objs)
    (h : parseGrid readLine objs schedules = .ok g) : List.Forall₂ (IsXfmr objs g) (declaredXfmrs objs) g.transformers := by
  obtain ⟨s, groups, hr⟩ := parseGrid_read hR hO h
  exact hr.transformers hk hp

end File

/-- The feeder has three coils and a center tap. -/
example : (declaredXfmrs feeder).map (fun d => match d with
      | .coil _ _ p q => some (p, q)
      | .tap _ _ => none) = [some ('A', 'B'), some ('B', 'C'), some ('C', 'A'), none] ∧
    ∃ g, parseGrid noLines feeder [] = .ok g ∧ List.Forall₂ (IsXfmr feeder g) (declaredXfmrs feeder) g.transformers := by
  obtain ⟨g, hg⟩ := feeder_read
  exact ⟨by decide +kernel, g, hg, C60_coils noLines_keeps feeder_outer feeder_keys feeder_plain hg⟩

/-! ### C90 -/

theorem sqrt3_sq : Real.sqrt 3 * Real.sqrt 3 = 3 := Real.mul_self_sqrt (by norm_num)

theorem sqrt3_ne : Real.sqrt 3 ≠ 0 := by
  intro h
  have := sqrt3_sq
  rw [h] at this
  norm_num at this

theorem coilVoltage_rated (d : Bool) (v : ℚ) : coilVoltage d v = Real.sqrt 3 * ratedCoil d v := by
  cases d with
  | true => simp [coilVoltage, ratedCoil, mul_comm]
  | false =>
    simp only [coilVoltage, ratedCoil, Bool.false_eq_true, if_false]
    field_simp

theorem series_inverse {r x : ℝ} (h : r ^ 2 + x ^ 2 ≠ 0) :
    (⟨(seriesAdmittance r x).1, (seriesAdmittance r x).2⟩ : ℂ) * ⟨r, x⟩ = 1 := by
  apply Complex.ext
  · simp only [seriesAdmittance, Complex.mul_re, Complex.one_re]
    field_simp
    ring
  · simp only [seriesAdmittance, Complex.mul_im, Complex.one_im]
    field_simp
    ring

/-- The numbers of a coil: ratio of the rated coil voltages, and the inverse of the impedance on the base of one coil of three. -/
theorem coil_numbers {v1 v2 : ℚ} {d1 d2 : Bool} {r x s : ℚ} (hv : v2 ≠ 0) (hs : s ≠ 0) (hz : ¬ (r = 0 ∧ x = 0)) :
    (coilNumbers v1 v2 d1 d2 r x s).1 = ratedCoil d1 v1 / ratedCoil d2 v2 ∧
    (⟨(coilNumbers v1 v2 d1 d2 r x s).2.1, (coilNumbers v1 v2 d1 d2 r x s).2.2⟩ : ℂ) *
      (toComplex (r, x) * ((ratedCoil d2 v2 ^ 2 / ((s : ℝ) / 3) : ℝ) : ℂ)) = 1 := by
  have hsr : (s : ℝ) ≠ 0 := Rat.cast_ne_zero.2 hs
  have hvr : (v2 : ℝ) ≠ 0 := Rat.cast_ne_zero.2 hv
  have hb : coilVoltage d2 v2 ≠ 0 := by
    cases d2
    · simpa [coilVoltage] using hvr
    · exact mul_ne_zero hvr sqrt3_ne
  have hbase : coilVoltage d2 v2 ^ 2 / (s : ℝ) = ratedCoil d2 v2 ^ 2 / ((s : ℝ) / 3) := by
    rw [coilVoltage_rated, mul_pow, sq (Real.sqrt 3), sqrt3_sq]
    field_simp
  refine ⟨?_, ?_⟩
  · rw [coilNumbers]
    simp only
    rw [coilVoltage_rated, coilVoltage_rated]
    exact mul_div_mul_left _ _ sqrt3_ne
  · have hne : ((r : ℝ) * coilVoltage d2 v2 ^ 2 / s) ^ 2 + ((x : ℝ) * coilVoltage d2 v2 ^ 2 / s) ^ 2 ≠ 0 := by
      have h0 : 0 < (coilVoltage d2 v2 ^ 2 / (s : ℝ)) ^ 2 := by positivity
      have h1 : 0 < (r : ℝ) ^ 2 + (x : ℝ) ^ 2 := by
        by_contra hc
        have hr2 := sq_nonneg (r : ℝ)
        have hx2 := sq_nonneg (x : ℝ)
        have hr0 : (r : ℝ) = 0 := by nlinarith
        have hx0 : (x : ℝ) = 0 := by nlinarith
        exact hz ⟨by exact_mod_cast hr0, by exact_mod_cast hx0⟩
      have e : ((r : ℝ) * coilVoltage d2 v2 ^ 2 / s) ^ 2 + ((x : ℝ) * coilVoltage d2 v2 ^ 2 / s) ^ 2 =
          ((r : ℝ) ^ 2 + (x : ℝ) ^ 2) * (coilVoltage d2 v2 ^ 2 / (s : ℝ)) ^ 2 := by ring
      rw [e]
      exact (mul_pos h1 h0).ne'
    have hZ : toComplex (r, x) * ((ratedCoil d2 v2 ^ 2 / ((s : ℝ) / 3) : ℝ) : ℂ) =
        ⟨(r : ℝ) * coilVoltage d2 v2 ^ 2 / s, (x : ℝ) * coilVoltage d2 v2 ^ 2 / s⟩ := by
      rw [← hbase]
      apply Complex.ext
      · simp only [toComplex, Complex.mul_re, Complex.ofReal_re, Complex.ofReal_im]; ring
      · simp only [toComplex, Complex.mul_im, Complex.ofReal_re, Complex.ofReal_im]; ring
    rw [hZ]
    exact series_inverse hne

/-- The coil that a configuration describes, for a bank of three coils with rated voltages between two lines and the rated power of all three: the
ratio is that of the rated voltages of the coils, there is no shift of phase, and the impedance is that of the file in per unit of the rated voltage
and power of one coil. -/
def IsBankCoil (objs : List (Txt × Obj)) (g : Grid M) (o c : Obj) (p q : Char) (x : GXfmr) : Prop :=
  ∃ fp fn tp tn a gs bs v1 v2 s r y, x.element = .transformer (some fp) fn (some tp) tn a 0 gs bs ∧
    FileAtOf objs g (o.attr "from".toList) p fp ∧ FileAtOf objs g (o.attr "to".toList) p tp ∧
    FileTerm objs g (o.attr "from".toList) (if (deltaSides (c.attr "connect_type".toList)).1 then some q else none) fn ∧
    FileTerm objs g (o.attr "to".toList) (if (deltaSides (c.attr "connect_type".toList)).2 then some q else none) tn ∧
    (c.attr "primary_voltage".toList).bind volts = some v1 ∧ (c.attr "secondary_voltage".toList).bind volts = some v2 ∧ IsImpedance c r y ∧
    IsRating c s ∧
    a = ratedCoil (deltaSides (c.attr "connect_type".toList)).1 v1 / ratedCoil (deltaSides (c.attr "connect_type".toList)).2 v2 ∧
    (⟨gs, bs⟩ : ℂ) * (toComplex (r, y) * ((ratedCoil (deltaSides (c.attr "connect_type".toList)).2 v2 ^ 2 / ((s : ℚ) / 3 : ℝ) : ℝ) : ℂ)) = 1

theorem coil_element {objs : List (Txt × Obj)} {g : Grid M} {o c : Obj} {p q : Char} {x : GXfmr} (h : IsCoil objs g o c p q x) :
    IsBankCoil objs g o c p q x := by
  obtain ⟨fp, fn, tp, tn, v1, v2, d1, d2, r, y, s, rfl, hd, h1, h2, h3, h4, ⟨t1, ht1, hv1⟩, ⟨t2, ht2, hv2⟩, hv, hs, hz, hi, hpw⟩ := h
  obtain ⟨ha, hb⟩ := coil_numbers (v1 := v1) (d1 := d1) (d2 := d2) hv hs hz
  have e1 : d1 = (deltaSides (c.attr "connect_type".toList)).1 := congrArg Prod.fst hd
  have e2 : d2 = (deltaSides (c.attr "connect_type".toList)).2 := congrArg Prod.snd hd
  subst e1 e2
  exact ⟨fp, fn, tp, tn, _, _, _, v1, v2, s, r, y, rfl, h1, h2, h3, h4, by rw [ht1]; exact hv1, by rw [ht2]; exact hv2, hi, hpw, ha, hb⟩

section File

variable {readLine : LineReader M} {schedules : List (Txt × Txt)} {objs : List (Txt × Obj)} {g : Grid M}

/-- **C90, partial.** Every coil of every bank of the file is in the network with the ratio and the series impedance its configuration describes.
Missing: the shunt impedance, see `C90_shunt_fails`. -/
theorem C90_banks_partial (hR : Keeps readLine objs) (hO : OuterFile objs) (hk : (objs.map Prod.fst).Nodup) (hp : PlainConfigurations objs)
    (h : parseGrid readLine objs schedules = .ok g) : List.Forall₂ (fun d x => ∀ o c p q, d = .coil o (some c) p q → IsBankCoil objs g o c p q x)
      (declaredXfmrs objs) g.transformers := by
  refine (C60_coils hR hO hk hp h).imp fun d x hd o c p q he => ?_
  subst he
  obtain ⟨c', hc, hcoil⟩ := hd
  cases hc
  exact coil_element hcoil

end File

/-- The bank of the feeder: its second coil goes from phase `B` to phase `C` of `n2`, and the ratio is 2400 over 240 by the root of 3. -/
example : ∃ g o c x, parseGrid noLines feeder [] = .ok g ∧ x ∈ g.transformers ∧ IsBankCoil feeder g o c 'B' 'C' x ∧
    c.attr "connect_type".toList = some "DELTA_GWYE".toList := by
  obtain ⟨g, hg⟩ := feeder_read
  have h := C90_banks_partial noLines_keeps feeder_outer feeder_keys feeder_plain hg
  let o := (fileObject "transformer" [("name", "x"), ("phases", "ABC"), ("from", "n2"), ("to", "n3"), ("configuration", "tc")]).2
  let c := (fileObject "transformer_configuration" [("name", "tc"), ("connect_type", "DELTA_GWYE"), ("primary_voltage", "2.4kV"),
    ("secondary_voltage", "240"), ("resistance", "0.01"), ("reactance", "0.06"), ("power_rating", "75")]).2
  obtain ⟨x, hx, hcoil⟩ := forall₂_mem_left h (a := .coil o (some c) 'B' 'C') (by decide +kernel)
  exact ⟨g, o, c, x, hg, hx, hcoil _ _ _ _ rfl, by decide +kernel⟩

/-- A file with two nodes joined by a transformer with the configuration `l`. -/
def withTransformer (l : List (String × String)) : List (Txt × Obj) := [
  fileObject "node" [("name", "n1"), ("phases", "ABCN"), ("nominal_voltage", "2400")],
  fileObject "node" [("name", "n2"), ("phases", "ABCN"), ("nominal_voltage", "240")],
  fileObject "transformer_configuration" ([("name", "tc"), ("connect_type", "WYE_WYE"), ("primary_voltage", "2400"), ("secondary_voltage", "240"),
    ("resistance", "0.01"), ("reactance", "0.06"), ("power_rating", "75")] ++ l),
  fileObject "transformer" [("name", "x"), ("phases", "ABCN"), ("from", "n1"), ("to", "n2"), ("configuration", "tc")]]

/-- **C90 fails for the shunt.** A transformer with a shunt impedance is read as the same network as one without. -/
theorem C90_shunt_fails : ∃ g, parseGrid noLines (withTransformer [("shunt_impedance", "100+50j")]) [] = .ok g ∧
    parseGrid noLines (withTransformer []) [] = .ok g := by
  obtain ⟨g, hg, h⟩ := read_of_check (objs := withTransformer [("shunt_impedance", "100+50j")])
    (p := fun g => parseGrid noLines (withTransformer []) [] = .ok g) (by decide +kernel)
  exact ⟨g, hg, h⟩

/-! ### C97 -/

theorem ct_inverse {r x v s : ℚ} (hv : v ≠ 0) (hs : s ≠ 0) (hz : ¬ (r = 0 ∧ x = 0)) :
    (⟨(ctNumbers r x v s).1, (ctNumbers r x v s).2⟩ : ℂ) * (toComplex (r, x) * (((v : ℝ) ^ 2 / (s : ℝ) : ℝ) : ℂ)) = 1 := by
  have hsr : (s : ℝ) ≠ 0 := Rat.cast_ne_zero.2 hs
  have hvr : (v : ℝ) ≠ 0 := Rat.cast_ne_zero.2 hv
  have hne : ¬ ((r : ℝ) * (v : ℝ) ^ 2 / s = 0 ∧ (x : ℝ) * (v : ℝ) ^ 2 / s = 0) := by
    rintro ⟨h1, h2⟩
    refine hz ⟨?_, ?_⟩
    · rw [div_eq_zero_iff] at h1
      rcases h1 with h1 | h1
      · rcases mul_eq_zero.1 h1 with h1 | h1
        · exact_mod_cast h1
        · exact absurd h1 (pow_ne_zero 2 hvr)
      · exact absurd h1 hsr
    · rw [div_eq_zero_iff] at h2
      rcases h2 with h1 | h1
      · rcases mul_eq_zero.1 h1 with h1 | h1
        · exact_mod_cast h1
        · exact absurd h1 (pow_ne_zero 2 hvr)
      · exact absurd h1 hsr
  rw [ctNumbers]
  rw [if_pos hne]
  have hZ : toComplex (r, x) * (((v : ℝ) ^ 2 / (s : ℝ) : ℝ) : ℂ) = ⟨(r : ℝ) * (v : ℝ) ^ 2 / s, (x : ℝ) * (v : ℝ) ^ 2 / s⟩ := by
    apply Complex.ext
    · simp only [toComplex, Complex.mul_re, Complex.ofReal_re, Complex.ofReal_im]; ring
    · simp only [toComplex, Complex.mul_im, Complex.ofReal_re, Complex.ofReal_im]; ring
  rw [hZ]
  refine series_inverse fun h0 => hne ⟨?_, ?_⟩ <;>
    nlinarith [sq_nonneg ((r : ℝ) * (v : ℝ) ^ 2 / s), sq_nonneg ((x : ℝ) * (v : ℝ) ^ 2 / s)]

/-- The center tap that a configuration describes: ratio of the rated voltages, and the impedance of the file divided between the windings - half of
the resistance and 0.8 of the reactance on the primary, the resistance and 0.4 of the reactance on each half of the secondary - each in per unit of
the rated voltage of its winding and the rated power. -/
def IsFileTap (objs : List (Txt × Obj)) (g : Grid M) (o c : Obj) (x : GXfmr) : Prop :=
  ∃ p f b0 b1 t1 b2 t2 a g0 s0 g1 s1 g2 s2 v1 v2 s r y, x.element = .centerTap f b0 b1 t1 b2 t2 a g0 s0 g1 s1 g2 s2 ∧ (objPhases o).head? = some p ∧
    FileAtOf objs g (o.attr "from".toList) p f ∧ FileAtOf objs g (o.attr "to".toList) '1' t1 ∧ FileAtOf objs g (o.attr "to".toList) '2' t2 ∧
    Inner g b0 ∧ Inner g b1 ∧ Inner g b2 ∧ b0 ≠ b1 ∧ b0 ≠ b2 ∧ b1 ≠ b2 ∧
    (c.attr "primary_voltage".toList).bind volts = some v1 ∧ (c.attr "secondary_voltage".toList).bind volts = some v2 ∧ IsImpedance c r y ∧
    IsRating c s ∧
    a = (v1 : ℝ) / v2 ∧ ((r, y) ≠ 0 → v1 ≠ 0 →
      (⟨g0, s0⟩ : ℂ) * (toComplex (r / 2, 8 / 10 * y) * (((v1 : ℝ) ^ 2 / (s : ℝ) : ℝ) : ℂ)) = 1 ∧
      (⟨g1, s1⟩ : ℂ) * (toComplex (r, 4 / 10 * y) * (((v2 : ℝ) ^ 2 / (s : ℝ) : ℝ) : ℂ)) = 1 ∧
      (⟨g2, s2⟩ : ℂ) * (toComplex (r, 4 / 10 * y) * (((v2 : ℝ) ^ 2 / (s : ℝ) : ℝ) : ℂ)) = 1)

theorem tap_element {objs : List (Txt × Obj)} {g : Grid M} {o c : Obj} {x : GXfmr} (h : IsTap objs g o c x) (hV : InVolts c)
    (h1 : c.attr "impedance1".toList = none) : IsFileTap objs g o c x := by
  obtain ⟨p, f, b0, b1, t1, b2, t2, v0, v1, v2, r0, r1, r2, x0, x1, x2, s, rfl, hp, hf, ht1, ht2, i0, i1, i2, n1, n2, n3, ⟨u1, hu1, hv0⟩,
    ⟨u2, hu2, hv1, hv2⟩, hv, hs, hi, hpw⟩ := h
  obtain ⟨r, y, himp, rfl, rfl, rfl, rfl, rfl, rfl⟩ := hi h1
  have e2 : v2 = - v1 := by
    have := hv1
    rw [volts, hv2, hV _ hu2] at this
    simp only [Option.map_some, Option.isSome_none, Bool.false_eq_true, if_false, Option.some.injEq] at this
    rw [← this, neg_neg]
  subst e2
  refine ⟨p, f, b0, b1, t1, b2, t2, _, _, _, _, _, _, _, v0, v1, s, r2, y, rfl, hp, hf, ht1, ht2, i0, i1, i2, n1, n2, n3, by rw [hu1]; exact hv0,
    by rw [hu2]; exact hv1, himp, hpw, rfl, fun hz hv0 => ?_⟩
  have hz' : ¬ (r2 = 0 ∧ y = 0) := fun h => hz (by rw [h.1, h.2]; rfl)
  have hz1 : ¬ (r2 = 0 ∧ 4 / 10 * y = 0) := fun h => hz' ⟨h.1, by linarith [h.2]⟩
  refine ⟨ct_inverse hv0 hs fun h : r2 / 2 = 0 ∧ 8 / 10 * y = 0 => hz' ⟨by linarith [h.1], by linarith [h.2]⟩, ct_inverse hv hs hz1, ?_⟩
  have := ct_inverse (v := -v1) (neg_ne_zero.2 hv) hs hz1
  rwa [show (((-v1 : ℚ) : ℝ)) ^ 2 = (v1 : ℝ) ^ 2 by push_cast; ring] at this

section File

variable {readLine : LineReader M} {schedules : List (Txt × Txt)} {objs : List (Txt × Obj)} {g : Grid M}

/-- **C97, partial.** Every center tap of the file whose secondary voltage is in volts and whose impedance is given as a whole is in the network with
the ratio and impedances its configuration describes. Missing: a secondary voltage in `kV`, see `C97_kilovolts_fails`, and impedances given per
winding, see `C97_windings_fails`. -/
theorem C97_center_taps_partial (hR : Keeps readLine objs) (hO : OuterFile objs) (hk : (objs.map Prod.fst).Nodup) (hp : PlainConfigurations objs)
    (h : parseGrid readLine objs schedules = .ok g) : List.Forall₂ (fun d x => ∀ o c, d = .tap o c → InVolts c →
      c.attr "impedance1".toList = none → IsFileTap objs g o c x) (declaredXfmrs objs) g.transformers := by
  refine (C60_coils hR hO hk hp h).imp fun d x hd o c he hV h1 => ?_
  subst he
  exact tap_element hd hV h1

end File

/-- The center tap of the feeder. -/
example : ∃ g o c x, parseGrid noLines feeder [] = .ok g ∧ x ∈ g.transformers ∧ IsFileTap feeder g o c x := by
  obtain ⟨g, hg⟩ := feeder_read
  have h := C97_center_taps_partial noLines_keeps feeder_outer feeder_keys feeder_plain hg
  let o := (fileObject "transformer" [("name", "y"), ("phases", "BS"), ("from", "n4"), ("to", "tm"), ("configuration", "cc")]).2
  let c := (fileObject "transformer_configuration" [("name", "cc"), ("connect_type", "SINGLE_PHASE_CENTER_TAPPED"), ("primary_voltage", "2400"),
    ("secondary_voltage", "120"), ("impedance", "0.006+0.0136j"), ("power_rating", "25")]).2
  obtain ⟨x, hx, htap⟩ := forall₂_mem_left h (a := .tap o c) (by decide +kernel)
  refine ⟨g, o, c, x, hg, hx, htap _ _ rfl (fun t ht => ?_) (by decide +kernel)⟩
  have : c.attr "secondary_voltage".toList = some "120".toList := by decide +kernel
  rw [this] at ht
  cases ht
  decide +kernel

/-- A file with a center tap of configuration `l`. -/
def withCenterTap (l : List (String × String)) : List (Txt × Obj) := [
  fileObject "node" [("name", "n1"), ("phases", "AN"), ("nominal_voltage", "2400")],
  fileObject "triplex_meter" [("name", "tm"), ("phases", "AS"), ("nominal_voltage", "120")],
  fileObject "transformer_configuration" ([("name", "tc"), ("connect_type", "SINGLE_PHASE_CENTER_TAPPED"), ("primary_voltage", "2400"),
    ("power_rating", "25")] ++ l),
  fileObject "transformer" [("name", "x"), ("phases", "AS"), ("from", "n1"), ("to", "tm"), ("configuration", "tc")]]

/-- **C97 fails in kilovolts.** A secondary of 0.12 kV: one half has a rated voltage of 120 V, the other of 0.12 V, so that its impedance is a
millionth of that of the first half. -/
theorem C97_kilovolts_fails : ∃ g f b0 b1 t1 b2 t2, parseGrid noLines (withCenterTap [("secondary_voltage", "0.12kV"), ("impedance", "0.006+0.0136j")]) [] = .ok g ∧
    g.transformers = [.centerTap f b0 b1 t1 b2 t2 2400 120 (-12 / 100) (3 / 1000) (6 / 1000) (6 / 1000) (1088 / 100000) (544 / 100000) (544 / 100000) 25000] ∧
    ctNumbers (6 / 1000) (544 / 100000) 120 25000 ≠ ctNumbers (6 / 1000) (544 / 100000) (-12 / 100) 25000 := by
  obtain ⟨g, hg, hx⟩ := read_of_check (objs := withCenterTap [("secondary_voltage", "0.12kV"), ("impedance", "0.006+0.0136j")])
    (p := fun g => g.transformers = [.centerTap 0 3 4 1 5 2 2400 120 (-12 / 100) (3 / 1000) (6 / 1000) (6 / 1000) (1088 / 100000) (544 / 100000)
      (544 / 100000) 25000]) (by decide +kernel)
  refine ⟨g, 0, 3, 4, 1, 5, 2, hg, hx, fun h => ?_⟩
  have h1 := ct_inverse (r := 6 / 1000) (x := 544 / 100000) (v := 120) (s := 25000) (by norm_num) (by norm_num) (by norm_num)
  have h2 := ct_inverse (r := 6 / 1000) (x := 544 / 100000) (v := -12 / 100) (s := 25000) (by norm_num) (by norm_num) (by norm_num)
  rw [h] at h1
  have hne : (⟨(ctNumbers (6 / 1000) (544 / 100000) (-12 / 100) 25000).1, (ctNumbers (6 / 1000) (544 / 100000) (-12 / 100) 25000).2⟩ : ℂ) *
      toComplex (6 / 1000, 544 / 100000) ≠ 0 := by
    intro h0
    rw [← mul_assoc, h0, zero_mul] at h1
    exact zero_ne_one h1
  rw [← mul_assoc] at h1 h2
  have := mul_left_cancel₀ hne (h1.trans h2.symm)
  have := Complex.ofReal_injective this
  norm_num at this

/-- **C97 fails for impedances per winding.** The resistances of the two halves of the secondary, 0.03 each, are not used; both have that of
`resistance`, 0.01. -/
theorem C97_windings_fails : ∃ g f b0 b1 t1 b2 t2, parseGrid noLines (withCenterTap [("secondary_voltage", "120"), ("resistance", "0.01"),
      ("reactance", "0.02"), ("impedance1", "0.03+0.04j"), ("impedance2", "0.03+0.04j")]) [] = .ok g ∧
    g.transformers = [.centerTap f b0 b1 t1 b2 t2 2400 120 (-120) (5 / 1000) (1 / 100) (1 / 100) (2 / 100) (4 / 100) (4 / 100) 25000] := by
  obtain ⟨g, hg, hx⟩ := read_of_check (objs := withCenterTap [("secondary_voltage", "120"), ("resistance", "0.01"), ("reactance", "0.02"),
      ("impedance1", "0.03+0.04j"), ("impedance2", "0.03+0.04j")])
    (p := fun g => g.transformers = [.centerTap 0 3 4 1 5 2 2400 120 (-120) (5 / 1000) (1 / 100) (1 / 100) (2 / 100) (4 / 100) (4 / 100) 25000])
    (by decide +kernel)
  exact ⟨g, 0, 3, 4, 1, 5, 2, hg, hx⟩

end Verif.Glm
