import Verif.Spec.LineSound
import Verif.Lemmas.LineCharge
import Verif.Props.LineBuilt
import Verif.Lemmas.GlmAccept

/-!
# Sound lines are read
-/

namespace Verif.Glm

open Matrix

/-! ### Reading -/

theorem NumberIf.float {o : Obj} {a : Txt} (h : NumberIf o a) : ∃ x, floatAttribute o a = .ok x := by
  rw [floatAttribute, Obj.get]
  cases hl : lookup a o.attrs with
  | none => exact ⟨_, rfl⟩
  | some t =>
    obtain ⟨x, hx⟩ := h t hl
    dsimp only
    rw [floatOf, hx]
    exact ⟨_, rfl⟩

theorem RatingsRead.read {w : Obj} (h : RatingsRead w) : readRatings w = .ok () := by
  obtain ⟨x, hx⟩ := h.1.float
  obtain ⟨y, hy⟩ := h.2.float
  rw [readRatings, hx, hy]
  rfl

/-- Sound conductors are read. -/
theorem readWires_total {α : Type} {read : Obj → Char → Py (α × Obj)} {P : Char → α → Prop} {Q : Char → Obj → Prop}
    (hr : ∀ o p, Q p o → ∃ w, read o p = .ok (w, o) ∧ P p w) (hq : ∀ o p, Q p o → RatingsRead o) {names : List (Char × Txt)} {objs : List (Txt × Obj)}
    (hn : ∀ x ∈ names, ∃ o, lookup x.2 objs = some o ∧ Q x.1 o) :
    ∃ r, readWires read objs names = .ok r ∧ List.Forall₂ (fun x w => P x.1 w) names r.1 ∧ ∀ k, lookup k r.2 = lookup k objs := by
  induction names generalizing objs with
  | nil => exact ⟨_, rfl, .nil, fun _ => rfl⟩
  | cons x names ih =>
    obtain ⟨p, n⟩ := x
    obtain ⟨o, ho, hQ⟩ := hn (p, n) (by simp)
    obtain ⟨w, hw, hP⟩ := hr o p hQ
    have hsame : ∀ k, lookup k (store n o objs) = lookup k objs := by
      intro k
      by_cases e : k = n
      · rw [e, lookup_store_self, ho]
      · exact lookup_store_ne _ e _
    obtain ⟨r, h1, h2, h3⟩ := ih (objs := store n o objs) fun y hy => by
      rw [hsame]
      exact hn y (List.mem_cons_of_mem _ hy)
    refine ⟨(w :: r.1, r.2), ?_, .cons hP h2, fun k => by rw [h3, hsame]⟩
    rw [readWires, ho]
    simp only [hw, ok_bind', (hq o p hQ).read, h1]

theorem names_given {objs : List (Txt × Obj)} {c : Obj} {ps : List Char} {Q : Char → Obj → Prop}
    (h : ∀ p ∈ conductorLetters c ps, ∃ w, Refers objs c ("conductor_".toList ++ [p]) w ∧ Q p w) :
    ∀ x ∈ conductorNames c ps, ∃ o, lookup x.2 objs = some o ∧ Q x.1 o := by
  intro x hx
  obtain ⟨p, hp, hx⟩ := List.mem_filterMap.1 hx
  obtain ⟨n, hn, rfl⟩ := Option.map_eq_some_iff.1 hx
  obtain ⟨w, ⟨n', hn', hw⟩, hq⟩ := h p (List.mem_filter.2 ⟨hp, by rw [hn]; rfl⟩)
  rw [hn, Option.some.injEq] at hn'
  subst hn'
  exact ⟨w, hw, hq⟩

theorem forall₂_phases {α : Type} {P : Char → α → Prop} {phase : α → Char} (hp : ∀ p w, P p w → phase w = p) {c : Obj} {ps : List Char} {ws : List α}
    (h : List.Forall₂ (fun x w => P x.1 w) (conductorNames c ps) ws) : ws.map phase = conductorLetters c ps := by
  rw [conductorLetters, ← conductorNames_fst]
  generalize conductorNames c ps = l at h
  induction h with
  | nil => rfl
  | cons h1 _ ih => rw [List.map_cons, List.map_cons, hp _ _ h1, ih]

theorem config_given {objs : List (Txt × Obj)} {o c : Obj} (h : Refers objs o "configuration".toList c) : configurationOf objs o = .ok c := by
  obtain ⟨n, h1, h2⟩ := h
  rw [configurationOf, h1]
  dsimp only
  rw [h2]

theorem Miles.read {o : Obj} {m : ℚ} (h : Miles o m) : ∃ len, parseLineLength o = .ok len ∧ len.1 = m * (1609344 / 1000) := by
  have hex : ∃ len, parseLineLength o = .ok len := by
    obtain ⟨n, y, hn, ⟨ha, rfl⟩ | ⟨ha, rfl⟩⟩ := id h
    · have := (C64_length_partial hn).2 (get_of_attr ha)
      cases hp : parseLineLength o with
      | ok len => exact ⟨len, rfl⟩
      | error e => rw [hp] at this; cases this
    · have := (C64_length_partial hn).1 (get_of_attr ha)
      cases hp : parseLineLength o with
      | ok len => exact ⟨len, rfl⟩
      | error e => rw [hp] at this; cases this
  obtain ⟨len, hl⟩ := hex
  exact ⟨len, hl, miles_length h hl⟩

theorem SoundWire.read {r g δ : ℚ} {w : Obj} (h : SoundWire r g δ w) (p : Char) : overheadConductor w p = .ok (⟨p, some δ, some g, some r⟩, w) := by
  obtain ⟨h1, h2, -, -, -, h6, -⟩ := h
  have e : ∃ d, floatAttribute w "diameter".toList = .ok d ∧ d.getD (1 / 2) = δ := by
    rcases h6 with h6 | ⟨h6, rfl⟩
    · exact ⟨_, h6.float, rfl⟩
    · refine ⟨none, ?_, rfl⟩
      rw [Obj.attr] at h6
      rw [floatAttribute, Obj.get, h6]
  obtain ⟨d, hd, hδ⟩ := e
  rw [overheadConductor, hd]
  rw [show "cm".toList = 'c' :: "m".toList from rfl, h2.unit (by decide)]
  rw [show "Ohm/km".toList = 'O' :: "hm/km".toList from rfl]
  simp only [bind, Except.bind, h1.unit (c := 'O') (u := "hm/km".toList) (by decide), hδ]

theorem triplexConductor_read {r g : ℚ} {w : Obj} (h1 : Valued w "resistance" r) (h2 : Valued w "geometric_mean_radius" g) (p : Char) :
    triplexConductor w p = .ok (⟨p, some g, some r⟩, w) := by
  rw [triplexConductor, h2.float, h1.float]
  rfl

theorem SoundCable.read {k : ℕ} {x : CableData} {δ : ℚ} {w : Obj} (h : SoundCable k x δ w) (p : Char) :
    undergroundConductor w p = .ok (⟨p, some x.outer, some x.strand, some (k : ℤ), some δ, some x.g, some x.r, some x.gs, some x.rs⟩, w) := by
  obtain ⟨h1, h2, h3, h4, h5, h6, h7, h8, -⟩ := h
  rw [undergroundConductor, h1.float, h2.float, h3.float, h4.float, h5.float, h7.float, h8.float]
  rw [show "Ohm/km".toList = 'O' :: "hm/km".toList from rfl, h6.unit (c := 'O') (u := "hm/km".toList) (by decide)]
  simp only [ok_bind', Option.map_some, truncate_nat]

theorem SoundNeutral.read {r g : ℚ} {w : Obj} (h : SoundNeutral r g w) (p : Char) :
    ∃ v, undergroundConductor w p = .ok (v, w) ∧ v.phase = p ∧ v.outer.isSome ∧ v.gmr = some g ∧ v.resistance = some r := by
  obtain ⟨h1, h2, h3, -, -, h6, -⟩ := h
  obtain ⟨x1, e1⟩ := (h6 "outer_diameter".toList (by decide)).float
  obtain ⟨x2, e2⟩ := (h6 "neutral_diameter".toList (by decide)).float
  obtain ⟨x3, e3⟩ := (h6 "neutral_strands".toList (by decide)).float
  obtain ⟨x4, e4⟩ := (h6 "conductor_diameter".toList (by decide)).float
  obtain ⟨x5, e5⟩ := (h6 "neutral_gmr".toList (by decide)).float
  obtain ⟨x6, e6⟩ := (h6 "neutral_resistance".toList (by decide)).float
  refine ⟨⟨p, x1, x2, x3.map truncate, x4, some g, some r, x5, x6⟩, ?_, rfl, floatAttribute_some e1 h1, rfl, rfl⟩
  rw [undergroundConductor, e1, e2, e3, e4, e5, e6, h3.float]
  rw [show "Ohm/km".toList = 'O' :: "hm/km".toList from rfl, h2.unit (c := 'O') (u := "hm/km".toList) (by decide)]
  simp only [ok_bind']

/-! ### Triplex lines -/

theorem triplex_total {r g : Char → ℚ} {d t : ℚ} (hr : ∀ p ∈ "12N".toList, 0 < r p ∧ 0 < g p) (hd : 0 < d) (ht : 0 ≤ t) :
    ∃ Z, triplexImpedance (triplexWires r g) (some ((d + 2 * t) / 12, (d + t) / 12)) = .ok Z := by
  have hR : TriplexReadable (triplexWires r g) (some ((d + 2 * t) / 12, (d + t) / 12)) := by
    refine ⟨fun w hw r' g' _ hg => ?_, fun x hx => ?_⟩
    · have hw : w = ⟨'1', some (g '1'), some (r '1')⟩ ∨ w = ⟨'2', some (g '2'), some (r '2')⟩ ∨ w = ⟨'N', some (g 'N'), some (r 'N')⟩ := by
        simpa [triplexWires] using hw
      rcases hw with rfl | rfl | rfl <;> cases hg
      · exact (hr '1' (by decide)).2
      · exact (hr '2' (by decide)).2
      · exact (hr 'N' (by decide)).2
    · cases hx
      constructor <;> dsimp only <;> linarith
  rw [triplexImpedance, if_neg (not_not.2 hR)]
  dsimp only
  refine ⟨_, kron_of_det ?_⟩
  rw [det_unique, submatrix_apply]
  intro hz
  have hz : triplexPrimitive (triplexWires r g) (some ((d + 2 * t) / 12, (d + t) / 12)) 2 2 = 0 := hz
  rw [triplexPrimitive, triplexAt_wires] at hz
  simp only [if_true] at hz
  have h1 := congrArg Complex.re hz
  have h2 : (0 : ℝ) < r ("12N".toList.getD (2 : Fin 3) 'A') := by exact_mod_cast (hr 'N' (by decide)).1
  simp only [selfImpedance, Complex.zero_re, Bool.false_eq_true, if_false] at h1
  linarith

theorem SoundTriplex.accepted {objs : List (Txt × Obj)} {o : Obj} (h : SoundTriplex objs o) {m : ℚ} (hm : Miles o m) (h0 : m ≠ 0) :
    ∃ d objs', readTriplexLine objs o = .ok (d, objs') ∧ d.1 = "12".toList ∧ ∀ pairs : List (ℕ × ℕ), pairs.length = d.1.length → ∃ e, lineMade d.2 pairs = .ok e := by
  obtain ⟨c, r, g, d, t, h1, h2, h3, h4, h5, h6⟩ := h
  obtain ⟨len, hlen, hl⟩ := hm.read
  have hall : conductorLetters c "12N".toList = "12N".toList := List.filter_eq_self.2 fun p hp => by
    obtain ⟨w, ⟨n, hn, -⟩, -⟩ := h2 p hp
    rw [hn]; rfl
  obtain ⟨⟨ws, objs'⟩, hw, hF, -⟩ := readWires_total (read := triplexConductor) (P := fun p w => w = ⟨p, some (g p), some (r p)⟩)
    (Q := fun p w => Valued w "resistance" (r p) ∧ Valued w "geometric_mean_radius" (g p) ∧ 0 < r p ∧ 0 < g p ∧ RatingsRead w)
    (fun w p hq => ⟨_, triplexConductor_read hq.1 hq.2.1 p, rfl⟩) (fun w p hq => hq.2.2.2.2) (names_given (by rw [hall]; exact h2))
  have hws : ws = triplexWires r g := by
    have e : ws = ((conductorNames c "12N".toList).map Prod.fst).map fun p => ⟨p, some (g p), some (r p)⟩ := by
      rw [List.map_map]
      clear hw
      generalize conductorNames c "12N".toList = l at hF
      dsimp only at hF
      induction hF with
      | nil => rfl
      | cons h1 _ ih => rw [h1, ih]; rfl
    rw [e, conductorNames_fst]
    change (conductorLetters c "12N".toList).map _ = _
    rw [hall]
    rfl
  subst hws
  obtain ⟨Z, hZ⟩ := triplex_total (r := r) (g := g) (fun p hp => by obtain ⟨w, -, -, -, a, b, -⟩ := h2 p hp; exact ⟨a, b⟩) h5 h6
  have hx : triplexDistances c (triplexWires r g) = .ok (some ((d + 2 * t) / 12, (d + t) / 12)) := by
    rw [show triplexWires r g = ⟨'1', some (g '1'), some (r '1')⟩ :: _ from rfl, triplexDistances_valued h3 h4]
  refine ⟨(((triplexWires r g).map TriplexWire.phase).filter (· ≠ 'N'), ⟨2, perMeter Z, fun _ _ => none, len.1⟩), objs', ?_, rfl, fun pairs hp => ?_⟩
  · rw [readTriplexLine]
    simp only [hlen, config_given h1, hw, hx, hZ, ok_bind']
  · have hp2 : pairs.length = 2 := by rw [hp, show (((triplexWires r g).map TriplexWire.phase).filter (· ≠ 'N')) = "12".toList from rfl]; rfl
    have hb : 1 ≤ 2 ∧ 2 ≤ 3 := by norm_num
    have hne : len.1 ≠ 0 := by
      rw [hl]
      exact mul_ne_zero h0 (by norm_num)
    refine lineMade_of_strict (d := ⟨2, perMeter Z, fun _ _ => none, len.1⟩) hb hne (fun I hI => perMeter_strict ?_) hp2
    refine triplex_strict hZ (fun w hw => ?_) (fun k => ?_) hI
    · have hw : w = ⟨'1', some (g '1'), some (r '1')⟩ ∨ w = ⟨'2', some (g '2'), some (r '2')⟩ ∨ w = ⟨'N', some (g 'N'), some (r 'N')⟩ := by
        simpa [triplexWires] using hw
      have hr : ∀ p ∈ "12N".toList, 0 < r p := fun p hp => by obtain ⟨w, -, -, -, a, b, -⟩ := h2 p hp; exact a
      rcases hw with rfl | rfl | rfl
      · exact ⟨_, _, rfl, rfl, hr '1' (by decide)⟩
      · exact ⟨_, _, rfl, rfl, hr '2' (by decide)⟩
      · exact ⟨_, _, rfl, rfl, hr 'N' (by decide)⟩
    · rw [show ((k : Fin 2) : ℕ) = ((k.castSucc : Fin 3) : ℕ) from rfl, triplexAt_wires]
      rfl

/-! ### Underground lines -/

theorem mapM_given {α β : Type} {f : α → Py β} {g : α → β} {l : List α} (h : ∀ a ∈ l, f a = .ok (g a)) : l.mapM f = .ok (l.map g) := by
  induction l with
  | nil => rfl
  | cons a l ih =>
    rw [List.mapM_cons, h a (by simp), ih fun b hb => h b (by simp [hb])]
    rfl

/-- The neutrals of cables with positive resistances can be eliminated. -/
theorem neutrals_invert (n : ℕ) (cables : List Cable) (k : ℕ) {D : ℕ → ℕ → ℝ} (hD : ∀ i j, D i j = D j i) (hr : ∀ c ∈ cables, 0 < c.rn) :
    (cablePrimitive n cables k D).toBlocks₂₂.det ≠ 0 := by
  refine det_ne_of_strict fun J hJ => ?_
  have e : (cablePrimitive n cables k D).toBlocks₂₂ = of fun a b : Fin cables.length =>
      (⟨(if a = b then ((cableAt cables a).rn : ℝ) else 0) + 9327 / 100000 * (1 * 1), (cablePrimitive n cables k D (.inr a) (.inr b)).im⟩ : ℂ) := by
    ext a b
    rw [toBlocks₂₂, of_apply, of_apply]
    conv_lhs => rw [cablePrimitive_eq]
    simp only [of_apply, Sum.elim_inr, Sum.inr.injEq]
  have hs : ∀ a b : Fin cables.length, (cablePrimitive n cables k D (.inr a) (.inr b)).im = (cablePrimitive n cables k D (.inr b) (.inr a)).im := fun a b => by
    conv_lhs => rw [← cablePrimitive_symm _ _ _ hD, transpose_apply]
  rw [e, power_formula (fun a : Fin cables.length => ((cableAt cables a).rn : ℝ)) (fun _ => 1) _ _ hs]
  obtain ⟨i, hi⟩ := Function.ne_iff.1 hJ
  have hpos : ∀ a : Fin cables.length, (0 : ℝ) < (cableAt cables a).rn := fun a => by
    have : cableAt cables a ∈ cables := by
      rw [cableAt, List.getD_eq_getElem?_getD, List.getElem?_eq_getElem a.2]
      exact List.getElem_mem _
    exact_mod_cast hr _ this
  refine add_pos_of_pos_of_nonneg (Finset.sum_pos' (fun a _ => mul_nonneg (hpos a).le (Complex.normSq_nonneg _)) ⟨i, Finset.mem_univ _, ?_⟩)
    (mul_nonneg (by norm_num) (Complex.normSq_nonneg _))
  exact mul_pos (hpos i) (Complex.normSq_pos.2 hi)

theorem SoundCable.own_pos {k : ℕ} {x : CableData} {δ : ℚ} {w : Obj} (h : SoundCable k x δ w) : 0 < x.own := by
  obtain ⟨-, -, -, -, -, -, -, -, -, h, -⟩ := h
  rw [CableData.own]
  exact div_pos (by linarith) (by norm_num)

theorem SoundCable.susceptance {k : ℕ} (hk : 0 < k) {x : CableData} {δ : ℚ} {w : Obj} (h : SoundCable k x δ w) {p : Char} (hp : p ≠ 'N') :
    ∃ b, wireSusceptance ⟨p, some x.outer, some x.strand, some (k : ℤ), some δ, some x.g, some x.r, some x.gs, some x.rs⟩ = .ok b := by
  obtain ⟨-, -, -, -, -, -, -, -, h1, h2, h3, -, -, -, -, -, h4⟩ := h
  rw [wireSusceptance, if_neg hp]
  dsimp only
  have h1' : (0 : ℝ) < x.strand := by exact_mod_cast h1
  have h2' : (0 : ℝ) < x.outer - x.strand := by
    have : (x.strand : ℝ) < x.outer := by exact_mod_cast h2
    linarith
  have h3' : (0 : ℝ) < δ := by exact_mod_cast h3
  rw [if_pos]
  · exact ⟨_, rfl⟩
  · refine ⟨by exact_mod_cast hk, h1, h2, h3, fun e => h4 ?_⟩
    push_cast at e
    have e1 : ((x.outer : ℝ) - x.strand) / 2 / (δ / 2) = (x.outer - x.strand) / δ := by field_simp
    have e2 : (k : ℝ) * (x.strand / 2) / ((x.outer - x.strand) / 2) = k * x.strand / (x.outer - x.strand) := by field_simp
    rw [e1, e2] at e
    rw [sub_eq_zero.1 e]
    ring

/-- What is read for a sound cable or neutral. -/
def CableReadAs (k : ℕ) (x : Char → CableData) (r g : ℚ) (p : Char) (w : CableWire) : Prop := w.phase = p ∧ w.outer.isSome ∧ cableOf w = .ok (cableGathered k x r g p) ∧
  ∃ b, wireSusceptance w = .ok b

theorem cable_read {k : ℕ} (hk : 0 < k) {x : Char → CableData} {δ : Char → ℚ} {r g : ℚ} {w : Obj} {p : Char}
    (h : if p = 'N' then SoundNeutral r g w else SoundCable k (x p) (δ p) w) : ∃ v, undergroundConductor w p = .ok (v, w) ∧ CableReadAs k x r g p v := by
  by_cases hp : p = 'N'
  · rw [if_pos hp] at h
    obtain ⟨v, h1, h2, h3, h4, h5⟩ := h.read p
    refine ⟨v, h1, h2, h3, ?_, none, ?_⟩
    · rw [cableOf, if_pos (h2.trans hp), neutralCable, h4, h5, cableGathered, if_pos hp]
    · rw [wireSusceptance, if_pos (h2.trans hp)]
  · rw [if_neg hp] at h
    refine ⟨_, h.read p, rfl, rfl, ?_, h.susceptance hk hp⟩
    rw [cableOf, if_neg hp, cableGathered, if_neg hp]
    simp only [phaseCable]
    rw [if_neg (by omega)]
    simp only [Int.toNat_natCast, Int.cast_natCast, CableData.own]

theorem SoundUnderground.accepted {v : Option Table} {objs : List (Txt × Obj)} {o : Obj} (h : SoundUnderground objs o) {m : ℚ} (hm : Miles o m) (h0 : m ≠ 0) :
    ∃ d objs' v', readUnderground v objs o = .ok ((d, objs'), v') ∧ (∃ c, Refers objs o "configuration".toList c ∧ d.1 = conductorLetters c "ABC".toList) ∧
      ∀ pairs : List (ℕ × ℕ), pairs.length = d.1.length → ∃ e, lineMade d.2 pairs = .ok e := by
  obtain ⟨c, s, k, x, δ, r, g, D, h1, hk, h2, h3, h4, h5, h6, h7⟩ := h
  obtain ⟨len, hlen, hl⟩ := hm.read
  obtain ⟨⟨ws, objs'⟩, hw, hF, hsame⟩ := readWires_total (read := undergroundConductor) (P := CableReadAs k x r g)
    (Q := fun p w => if p = 'N' then SoundNeutral r g w else SoundCable k (x p) (δ p) w)
    (fun w p hq => cable_read hk hq) (fun w p hq => by
      split at hq
      · exact hq.2.2.2.2.2.2
      · obtain ⟨-, -, -, -, -, -, -, -, -, -, -, -, -, -, -, h, -⟩ := hq; exact h) (names_given h2)
  have hps : ws.map CableWire.phase = conductorLetters c "ABCN".toList := forall₂_phases (P := CableReadAs k x r g) (fun p w h => h.1) hF
  have hwv := forall₂_attr (P := CableReadAs k x r g) (phase := CableWire.phase) (fun p w h => h.1) hF
  obtain ⟨T, hT⟩ := spacing_total h4
  have hany : (ws.any fun w => w.outer.isNone) = false := by
    rw [List.any_eq_false]
    intro w hwm
    obtain ⟨y, hy⟩ := Option.isSome_iff_exists.1 (hwv w hwm).2.1
    rw [hy]
    simp
  have htab : undergroundTable v objs' c ws = .ok (some T) := by
    obtain ⟨n, hn1, hn2⟩ := h3
    rw [undergroundTable, hn1]
    dsimp only
    rw [hsame, hn2]
    dsimp only
    rw [if_neg (by rw [hany]; decide), underground_spacing_eq h4, hT]
    rfl
  set cables := (conductorLetters c "ABCN".toList).map (cableGathered k x r g) with hcables
  have hcab : ws.mapM cableOf = .ok cables := by
    rw [mapM_given (g := fun w => cableGathered k x r g w.phase) fun w hw => (hwv w hw).2.2.1, hcables, ← hps, List.map_map]
    rfl
  have hn : (ws.filter (·.phase ≠ 'N')).length = (conductorLetters c "ABC".toList).length := by
    rw [filter_phases, hps, conductorLetters_phases]
  have hcl : cables.length = (conductorLetters c "ABCN".toList).length := by rw [hcables, List.length_map]
  have hsub := conductorLetters_sublist c "ABCN".toList
  have hnd : (conductorLetters c "ABCN".toList).Nodup := hsub.nodup (by decide)
  have hget : ∀ i < (conductorLetters c "ABC".toList).length, ∃ p ∈ "ABC".toList, p ∈ conductorLetters c "ABCN".toList ∧ cables[i]? = some (cableGathered k x r g p) := by
    intro i hi
    refine ⟨(conductorLetters c "ABC".toList)[i], (List.mem_filter.1 (List.getElem_mem hi)).1, ?_, ?_⟩
    · rw [conductorLetters_split]
      exact List.mem_append_left _ (List.getElem_mem hi)
    · rw [hcables, List.getElem?_map, conductorLetters_split, List.getElem?_append_left hi, List.getElem?_eq_getElem hi]
      rfl
  have hABC : ∀ p ∈ "ABC".toList, p ≠ 'N' := by decide
  have hkk : (cables.getD ((ws.filter (·.phase ≠ 'N')).length - 1) ⟨0, 0, 0, 0, 0, 0⟩).k = k := by
    have hpos := List.length_pos_iff.2 h7
    obtain ⟨p, hp, -, he⟩ := hget ((ws.filter (·.phase ≠ 'N')).length - 1) (by omega)
    rw [List.getD_eq_getElem?_getD, he, Option.getD_some, cableGathered, if_neg (hABC p hp)]
  have hsound : ∀ p ∈ conductorLetters c "ABCN".toList, p ≠ 'N' → ∃ w, SoundCable k (x p) (δ p) w := by
    intro p hp hN
    obtain ⟨w, -, hq⟩ := h2 p hp
    rw [if_neg hN] at hq
    exact ⟨w, hq⟩
  have hread : CablesReadable (ws.filter (·.phase ≠ 'N')).length cables k T := by
    refine ⟨?_, ?_, ?_, ?_⟩
    · intro i hi cb hcb
      obtain ⟨p, hp, hpc, he⟩ := hget i (by omega)
      rw [he, Option.some.injEq] at hcb
      subst hcb
      obtain ⟨w, hq⟩ := hsound p hpc (hABC p hp)
      rw [cableGathered, if_neg (hABC p hp)]
      refine ⟨?_, hq.own_pos⟩
      obtain ⟨-, -, -, -, -, -, -, -, -, -, -, h, -⟩ := hq
      exact h
    · intro cb hcb
      obtain ⟨p, hp, rfl⟩ := List.mem_map.1 hcb
      rw [cableGathered]
      obtain ⟨w, -, hq⟩ := h2 p hp
      split at hq <;> rename_i hN
      · rw [if_pos hN]
        obtain ⟨-, -, -, -, h, -⟩ := hq
        dsimp only
        exact_mod_cast h
      · rw [if_neg hN]
        have hown := hq.own_pos
        obtain ⟨-, -, -, -, -, -, -, -, -, -, -, -, -, h, -⟩ := hq
        refine Real.rpow_pos_of_pos ?_ _
        have : (0 : ℚ) < (x p).gs * k * (x p).own ^ (k - 1) := mul_pos (mul_pos h (by exact_mod_cast hk)) (pow_pos hown _)
        exact_mod_cast this
    · intro i hi j hj hij
      rw [hcl] at hi hj
      have hne : (conductorLetters c "ABCN".toList)[i] ≠ (conductorLetters c "ABCN".toList)[j] := fun e => hij ((hnd.getElem_inj_iff).1 e)
      obtain ⟨hpos, hsp, -⟩ := h5 _ (List.getElem_mem hi) _ (List.getElem_mem hj) hne
      exact ⟨_, striped_spaced h4 hT hsub h6 hi hj hpos hsp, hpos⟩
    · intro i hi j hj hij d cb hd hcb
      rw [hcl] at hj
      have hi' : i < (conductorLetters c "ABCN".toList).length := by
        rw [conductorLetters_split, List.length_append]; omega
      have hne : (conductorLetters c "ABCN".toList)[i] ≠ (conductorLetters c "ABCN".toList)[j] := fun e => hij ((hnd.getElem_inj_iff).1 e)
      obtain ⟨hpos, hsp, hown⟩ := h5 _ (List.getElem_mem hi') _ (List.getElem_mem hj) hne
      rw [striped_spaced h4 hT hsub h6 hi' hj hpos hsp, Option.some.injEq] at hd
      rw [hcables, List.getElem?_map, List.getElem?_eq_getElem hj, Option.map_some, Option.some.injEq] at hcb
      subst hd hcb
      rw [cableGathered]
      split <;> rename_i hN
      · dsimp only
        rw [zero_pow hk.ne']
        exact pow_pos hpos _
      · obtain ⟨w, hq⟩ := hsound _ (List.getElem_mem hj) hN
        exact pow_lt_pow_left₀ (hown hN) hq.own_pos.le hk.ne'
  have hrn : ∀ cb ∈ cables, 0 < cb.rn := by
    intro cb hcb
    obtain ⟨p, hp, rfl⟩ := List.mem_map.1 hcb
    rw [cableGathered]
    obtain ⟨w, -, hq⟩ := h2 p hp
    split at hq <;> rename_i hN
    · rw [if_pos hN]
      exact hq.2.2.2.1
    · rw [if_neg hN]
      obtain ⟨-, -, -, -, -, -, -, -, -, -, -, -, -, -, h, -⟩ := hq
      exact div_pos h (by exact_mod_cast hk)
  have hZ : ∃ Z, undergroundImpedance ws T = .ok Z := by
    rw [undergroundImpedance, hcab]
    simp only [ok_bind']
    rw [if_neg (not_not.2 (by rw [hkk]; exact hread))]
    exact ⟨_, kron_of_det (neutrals_invert _ _ _ (fun i j => by rw [striped_symm hT]) hrn)⟩
  obtain ⟨Z, hZ⟩ := hZ
  have hB : ∃ B, undergroundCharging ws = .ok B := by
    obtain ⟨bs, hbs⟩ := mapM_py ws fun w hw => (hwv w hw).2.2.2
    rw [undergroundCharging, hbs]
    exact ⟨_, rfl⟩
  obtain ⟨B, hB⟩ := hB
  have hph : (ws.map CableWire.phase).filter (· ≠ 'N') = conductorLetters c "ABC".toList := by rw [hps, conductorLetters_phases]
  refine ⟨((ws.map CableWire.phase).filter (· ≠ 'N'), ⟨_, perMeter Z, shuntPerMeter B, len.1⟩), objs', some T, ?_, ⟨c, h1, hph⟩, fun pairs hp => ?_⟩
  · rw [readUnderground]
    simp only [hlen, config_given h1, hw, htab, tableSet, hZ, hB, ok_bind']
  · dsimp only at hp
    rw [hph, ← hn] at hp
    have hpos := List.length_pos_iff.2 h7
    have hle : (conductorLetters c "ABC".toList).length ≤ 3 := (conductorLetters_sublist c "ABC".toList).length_le
    have hne : len.1 ≠ 0 := by
      rw [hl]
      exact mul_ne_zero h0 (by norm_num)
    have hb : 1 ≤ (ws.filter (·.phase ≠ 'N')).length ∧ (ws.filter (·.phase ≠ 'N')).length ≤ 3 := by omega
    refine lineMade_of_strict (d := ⟨_, perMeter Z, shuntPerMeter B, len.1⟩) hb hne (fun I hI => perMeter_strict ?_) hp
    obtain ⟨cables', hc', J, hJ⟩ := underground_power (striped_symm hT) hZ I
    rw [hcab] at hc'
    cases hc'
    obtain ⟨i, hi⟩ := Function.ne_iff.1 hI
    have hrp : ∀ i : Fin (ws.filter (·.phase ≠ 'N')).length, (0 : ℝ) < (cableAt cables i).r := by
      intro i
      obtain ⟨p, hp, hpc, he⟩ := hget i (i.2.trans_eq hn)
      obtain ⟨w, hq⟩ := hsound p hpc (hABC p hp)
      rw [cableAt, List.getD_eq_getElem?_getD, he, Option.getD_some, cableGathered, if_neg (hABC p hp)]
      obtain ⟨-, -, -, -, -, -, -, -, -, -, -, -, h, -⟩ := hq
      exact_mod_cast h
    refine lt_of_lt_of_le (add_pos_of_pos_of_nonneg ?_ (Finset.sum_nonneg fun j _ => mul_nonneg ?_ (Complex.normSq_nonneg _))) hJ
    · exact Finset.sum_pos' (fun i _ => mul_nonneg (hrp i).le (Complex.normSq_nonneg _)) ⟨i, Finset.mem_univ _, mul_pos (hrp i) (Complex.normSq_pos.2 hi)⟩
    · have : cableAt cables j ∈ cables := by
        rw [cableAt, List.getD_eq_getElem?_getD, List.getElem?_eq_getElem j.2]
        exact List.getElem_mem _
      exact_mod_cast (hrn _ this).le

end Verif.Glm
