import Verif.Spec.LineReader
import Verif.Lemmas.LineMatrices

/-!
# Wires and the conductors they are read from
-/

namespace Verif.Glm

open Matrix

theorem attr_of_get {o : Obj} {k t : Txt} (h : o.get k = .ok t) : o.attr k = some t := by
  rw [Obj.get] at h
  rw [Obj.attr]
  split at h
  · rename_i v hv; cases h; exact hv
  · cases h

theorem configurationOf_ok {objs : List (Txt × Obj)} {o c : Obj} (h : configurationOf objs o = .ok c) :
    ∃ k, o.attr "configuration".toList = some k ∧ lookup k objs = some c := by
  rw [configurationOf] at h
  split at h
  · cases h
  rename_i k hk
  split at h
  · cases h
  rename_i c' hc
  cases h
  exact ⟨k, hk, hc⟩

/-- What holds for the conductors that are read holds for the wires. -/
theorem readWires_all {α : Type} {read : Obj → Char → Py (α × Obj)} {P : α → Prop} {Q : Obj → Prop} (hr : ∀ o p w, read o p = .ok w → Q o → P w.1 ∧ Q w.2)
    {names : List (Char × Txt)} {objs : List (Txt × Obj)} {r : List α × List (Txt × Obj)} (h : readWires read objs names = .ok r)
    (hn : ∀ x ∈ names, ∀ o, lookup x.2 objs = some o → Q o) : ∀ w ∈ r.1, P w := by
  induction names generalizing objs r with
  | nil => cases h; intro w hw; cases hw
  | cons x names ih =>
    obtain ⟨p, n⟩ := x
    rw [readWires] at h
    split at h
    · cases h
    · rename_i o ho
      obtain ⟨w, hw, h⟩ := bind_eq_ok h
      obtain ⟨_, -, h⟩ := bind_eq_ok h
      obtain ⟨r', hr', h⟩ := bind_eq_ok h
      cases h
      obtain ⟨hP, hQ⟩ := hr o p w hw (hn (p, n) (by simp) o ho)
      have hrest := ih hr' fun y hy o' ho' => by
        by_cases e : y.2 = n
        · rw [e, lookup_store_self] at ho'
          cases ho'
          exact hQ
        · rw [lookup_store_ne _ e] at ho'
          exact hn y (List.mem_cons_of_mem _ hy) o' ho'
      intro w' hw'
      rcases List.mem_cons.1 hw' with rfl | hw'
      · exact hP
      · exact hrest w' hw'

theorem conductorNames_uses {objs : List (Txt × Obj)} {o c : Obj} (hc : configurationOf objs o = .ok c) {ps : List Char} {x : Char × Txt}
    (hx : x ∈ conductorNames c ps) {w : Obj} (hw : lookup x.2 objs = some w) : x.1 ∈ ps ∧ UsesConductor objs o x.1 w := by
  obtain ⟨k, hk, hl⟩ := configurationOf_ok hc
  obtain ⟨p, hp, hx⟩ := List.mem_filterMap.1 hx
  obtain ⟨n, hn, rfl⟩ := Option.map_eq_some_iff.1 hx
  exact ⟨hp, k, c, n, hk, hl, hn, hw⟩

theorem floatAttribute_some {o : Obj} {k : Txt} {x : Option ℚ} (h : floatAttribute o k = .ok x) (hs : (o.attr k).isSome) : x.isSome := by
  rw [floatAttribute] at h
  split at h
  · rename_i e he
    rw [Obj.get] at he
    rw [Obj.attr] at hs
    split at he
    · cases he
    · rename_i hn; rw [hn] at hs; cases hs
  · obtain ⟨y, -, h⟩ := bind_eq_ok h
    cases h
    rfl

theorem unitAttribute_attr {o o' : Obj} {k unit a : Txt} {f : ℚ} {x : Option ℚ} (h : unitAttribute o k unit f = .ok (x, o')) (ha : a ≠ k) :
    o'.attr a = o.attr a := by
  rw [unitAttribute] at h
  split at h
  · cases h; rfl
  · split at h <;> obtain ⟨y, -, h⟩ := bind_eq_ok h <;> cases h
    · exact lookup_store_ne _ ha _
    · rfl

theorem undergroundConductor_outer {o : Obj} {p : Char} {w : CableWire × Obj} (h : undergroundConductor o p = .ok w)
    (ho : (o.attr "outer_diameter".toList).isSome) : w.1.outer.isSome ∧ (w.2.attr "outer_diameter".toList).isSome := by
  rw [undergroundConductor] at h
  obtain ⟨_, h0, h⟩ := bind_eq_ok h
  obtain ⟨_, -, h⟩ := bind_eq_ok h
  obtain ⟨_, -, h⟩ := bind_eq_ok h
  obtain ⟨_, -, h⟩ := bind_eq_ok h
  obtain ⟨_, -, h⟩ := bind_eq_ok h
  obtain ⟨⟨r, o1⟩, h1, h⟩ := bind_eq_ok h
  obtain ⟨_, -, h⟩ := bind_eq_ok h
  obtain ⟨_, -, h⟩ := bind_eq_ok h
  cases h
  exact ⟨floatAttribute_some h0 ho, by rw [unitAttribute_attr h1 (by decide)]; exact ho⟩


theorem readWires_phases {α : Type} {read : Obj → Char → Py (α × Obj)} {phase : α → Char} (hr : ∀ o p w, read o p = .ok w → phase w.1 = p)
    {names : List (Char × Txt)} {objs : List (Txt × Obj)} {r : List α × List (Txt × Obj)} (h : readWires read objs names = .ok r) :
    r.1.map phase = names.map Prod.fst := by
  induction names generalizing objs r with
  | nil => cases h; rfl
  | cons x names ih =>
    obtain ⟨p, n⟩ := x
    rw [readWires] at h
    split at h
    · cases h
    · rename_i o ho
      obtain ⟨w, hw, h⟩ := bind_eq_ok h
      obtain ⟨_, -, h⟩ := bind_eq_ok h
      obtain ⟨r', hr', h⟩ := bind_eq_ok h
      cases h
      simp only [List.map_cons, ih hr', hr o p w hw]

theorem conductorNames_sublist (c : Obj) (ps : List Char) : ((conductorNames c ps).map Prod.fst).Sublist ps := by
  rw [conductorNames]
  induction ps with
  | nil => exact List.Sublist.slnil
  | cons p ps ih =>
    rw [List.filterMap_cons]
    cases c.attr ("conductor_".toList ++ [p]) with
    | none => exact ih.cons _
    | some n => exact ih.cons_cons _

theorem overheadConductor_phase {o : Obj} {p : Char} {w : BareWire × Obj} (h : overheadConductor o p = .ok w) : w.1.phase = p := by
  rw [overheadConductor] at h
  obtain ⟨_, -, h⟩ := bind_eq_ok h
  obtain ⟨⟨_, _⟩, -, h⟩ := bind_eq_ok h
  obtain ⟨⟨_, _⟩, -, h⟩ := bind_eq_ok h
  cases h
  rfl

theorem triplexConductor_phase {o : Obj} {p : Char} {w : TriplexWire × Obj} (h : triplexConductor o p = .ok w) : w.1.phase = p := by
  rw [triplexConductor] at h
  obtain ⟨_, -, h⟩ := bind_eq_ok h
  obtain ⟨_, -, h⟩ := bind_eq_ok h
  cases h
  rfl

theorem undergroundConductor_phase {o : Obj} {p : Char} {w : CableWire × Obj} (h : undergroundConductor o p = .ok w) : w.1.phase = p := by
  rw [undergroundConductor] at h
  obtain ⟨_, -, h⟩ := bind_eq_ok h
  obtain ⟨_, -, h⟩ := bind_eq_ok h
  obtain ⟨_, -, h⟩ := bind_eq_ok h
  obtain ⟨_, -, h⟩ := bind_eq_ok h
  obtain ⟨_, -, h⟩ := bind_eq_ok h
  obtain ⟨⟨_, _⟩, -, h⟩ := bind_eq_ok h
  obtain ⟨_, -, h⟩ := bind_eq_ok h
  obtain ⟨_, -, h⟩ := bind_eq_ok h
  cases h
  rfl

/-! ### Resistances -/

theorem pyFloat_of {t : Txt} {x : ℚ} (h : floatOf t = .ok x) : pyFloat t = some x := by
  rw [floatOf] at h
  split at h
  · rename_i y hy; cases h; exact hy
  · cases h

theorem floatAttribute_text {o : Obj} {k : Txt} {x : ℚ} (h : floatAttribute o k = .ok (some x)) : ∃ t, o.attr k = some t ∧ pyFloat t = some x := by
  rw [floatAttribute] at h
  split at h
  · cases h
  · rename_i t ht
    obtain ⟨y, hy, h⟩ := bind_eq_ok h
    cases h
    exact ⟨t, attr_of_get ht, pyFloat_of hy⟩

theorem attr_store_self (o : Obj) (k v : Txt) : ({ o with attrs := store k v o.attrs } : Obj).attr k = some v := lookup_store_self _ _ _

theorem attr_store_isSome {o : Obj} {a : Txt} (k v : Txt) (h : (o.attr a).isSome) : (({ o with attrs := store k v o.attrs } : Obj).attr a).isSome := by
  by_cases e : a = k
  · rw [e, attr_store_self]; rfl
  · rw [show ({ o with attrs := store k v o.attrs } : Obj).attr a = o.attr a from lookup_store_ne _ e _]
    exact h

/-- What `unitAttribute` gives, and what it does to the object. -/
theorem unitAttribute_ok {o o' : Obj} {k unit : Txt} {f : ℚ} {x : Option ℚ} (h : unitAttribute o k unit f = .ok (x, o')) :
    (x = none ∧ o' = o ∧ o.attr k = none) ∨ (∃ t y, o.attr k = some t ∧ pyFloat t = some y ∧ x = some y ∧ o' = o) ∨
    ∃ t y, o.attr k = some t ∧ pyFloat (removeNonnum t) = some y ∧ x = some (y * f) ∧ o' = { o with attrs := store k (removeNonnum t) o.attrs } := by
  rw [unitAttribute] at h
  split at h
  · rename_i e he
    cases h
    refine Or.inl ⟨rfl, rfl, ?_⟩
    rw [Obj.get] at he
    rw [Obj.attr]
    split at he
    · cases he
    · assumption
  · rename_i t ht
    split at h <;> obtain ⟨y, hy, h⟩ := bind_eq_ok h <;> cases h
    · exact Or.inr (Or.inr ⟨t, y, attr_of_get ht, pyFloat_of hy, rfl, rfl⟩)
    · exact Or.inr (Or.inl ⟨t, y, attr_of_get ht, pyFloat_of hy, rfl, rfl⟩)

theorem unitAttribute_isSome {o o' : Obj} {k unit a : Txt} {f : ℚ} {x : Option ℚ} (h : unitAttribute o k unit f = .ok (x, o')) (ha : (o.attr a).isSome) :
    (o'.attr a).isSome ∧ (a = k → x.isSome) := by
  rcases unitAttribute_ok h with ⟨rfl, rfl, hn⟩ | ⟨t, y, -, -, rfl, rfl⟩ | ⟨t, y, -, -, rfl, rfl⟩
  · exact ⟨ha, by rintro rfl; rw [hn] at ha; cases ha⟩
  · exact ⟨ha, fun _ => rfl⟩
  · exact ⟨attr_store_isSome _ _ ha, fun _ => rfl⟩

/-- The resistances of the object after `unitAttribute`. -/
theorem unitAttribute_each {P : ℚ → Prop} {o o' : Obj} {k unit : Txt} {f : ℚ} {x : Option ℚ} (h : unitAttribute o k unit f = .ok (x, o'))
    (ho : EachResistance P o) : EachResistance P o' := by
  rcases unitAttribute_ok h with ⟨-, rfl, -⟩ | ⟨t, y, -, -, -, rfl⟩ | ⟨t, y, ht, -, -, rfl⟩
  · exact ho
  · exact ho
  · intro a ha u hu z hz
    by_cases e : a = k
    · subst e
      rw [attr_store_self] at hu
      cases hu
      rw [removeNonnum_idem, or_self] at hz
      exact ho a ha t ht z (Or.inr hz)
    · rw [show ({ o with attrs := store k (removeNonnum t) o.attrs } : Obj).attr a = o.attr a from lookup_store_ne _ e _] at hu
      exact ho a ha u hu z hz

theorem EachResistance.same {P : ℚ → Prop} {o o' : Obj} (h : SameObj o o') (ho : EachResistance P o) : EachResistance P o' := by
  intro a ha u hu z hz
  rcases h.clean a with e | ⟨t, ht, e⟩
  · exact ho a ha u (by rw [← e, hu]) z hz
  · rw [e] at hu
    cases hu
    rw [removeNonnum_idem, or_self] at hz
    exact ho a ha t ht z (Or.inr hz)

theorem CompleteBare.same {o o' : Obj} (h : SameObj o o') (ho : CompleteBare o) : CompleteBare o' := by
  have : ∀ a, (o.attr a).isSome → (o'.attr a).isSome := fun a ha => by
    rcases h.clean a with e | ⟨t, ht, e⟩
    · rw [e]; exact ha
    · rw [e]; rfl
  exact ⟨this _ ho.1, this _ ho.2⟩

theorem unitAttribute_value {P : ℚ → Prop} {o o' : Obj} {k unit : Txt} {f x : ℚ} (h : unitAttribute o k unit f = .ok (some x, o'))
    (ho : EachResistance P o) (hk : k ∈ ["resistance", "conductor_resistance", "neutral_resistance"].map String.toList) (hP : ∀ y, P y → P (y * f)) : P x := by
  rcases unitAttribute_ok h with ⟨hx, -, -⟩ | ⟨t, y, ht, hy, hx, -⟩ | ⟨t, y, ht, hy, hx, -⟩
  · cases hx
  · cases hx; exact ho k hk t ht _ (Or.inl hy)
  · cases hx; exact hP _ (ho k hk t ht _ (Or.inr hy))

theorem floatAttribute_value {P : ℚ → Prop} {o : Obj} {k : Txt} {x : ℚ} (h : floatAttribute o k = .ok (some x))
    (ho : EachResistance P o) (hk : k ∈ ["resistance", "conductor_resistance", "neutral_resistance"].map String.toList) : P x := by
  obtain ⟨t, ht, hx⟩ := floatAttribute_text h
  exact ho k hk t ht x (Or.inl hx)

theorem overheadConductor_each {P : ℚ → Prop} (hP : ∀ y, P y → P (y * (1609344 / 1000000))) {o : Obj} {p : Char} {w : BareWire × Obj}
    (h : overheadConductor o p = .ok w) (ho : EachResistance P o ∧ CompleteBare o) :
    (∃ r g, w.1.resistance = some r ∧ w.1.gmr = some g ∧ P r) ∧ EachResistance P w.2 ∧ CompleteBare w.2 := by
  rw [overheadConductor] at h
  obtain ⟨_, -, h⟩ := bind_eq_ok h
  obtain ⟨⟨g, o1⟩, h1, h⟩ := bind_eq_ok h
  obtain ⟨⟨r, o2⟩, h2, h⟩ := bind_eq_ok h
  cases h
  obtain ⟨he, hc1, hc2⟩ := ho
  have a1 := unitAttribute_isSome h1 hc1
  have a2 := unitAttribute_isSome h1 hc2
  have b1 := unitAttribute_isSome h2 a1.1
  have b2 := unitAttribute_isSome h2 a2.1
  obtain ⟨g', rfl⟩ := Option.isSome_iff_exists.1 (a2.2 rfl)
  obtain ⟨r', rfl⟩ := Option.isSome_iff_exists.1 (b1.2 rfl)
  have e1 := unitAttribute_each h1 he
  exact ⟨⟨r', g', rfl, rfl, unitAttribute_value h2 e1 (by simp) hP⟩, unitAttribute_each h2 e1, b1.1, b2.1⟩

theorem triplexConductor_each {P : ℚ → Prop} {o : Obj} {p : Char} {w : TriplexWire × Obj}
    (h : triplexConductor o p = .ok w) (ho : EachResistance P o ∧ CompleteBare o) :
    (∃ r g, w.1.resistance = some r ∧ w.1.gmr = some g ∧ P r) ∧ EachResistance P w.2 ∧ CompleteBare w.2 := by
  rw [triplexConductor] at h
  obtain ⟨g, h1, h⟩ := bind_eq_ok h
  obtain ⟨r, h2, h⟩ := bind_eq_ok h
  cases h
  obtain ⟨g', rfl⟩ := Option.isSome_iff_exists.1 (floatAttribute_some h1 ho.2.2)
  obtain ⟨r', rfl⟩ := Option.isSome_iff_exists.1 (floatAttribute_some h2 ho.2.1)
  exact ⟨⟨r', g', rfl, rfl, floatAttribute_value h2 ho.1 (by simp)⟩, ho⟩

theorem undergroundConductor_each {P : ℚ → Prop} (hP : ∀ y, P y → P (y * (1609344 / 1000000))) {o : Obj} {p : Char} {w : CableWire × Obj}
    (h : undergroundConductor o p = .ok w) (ho : EachResistance P o) :
    ((∀ r, w.1.resistance = some r → P r) ∧ ∀ r, w.1.strandResistance = some r → P r) ∧ EachResistance P w.2 := by
  rw [undergroundConductor] at h
  obtain ⟨_, -, h⟩ := bind_eq_ok h
  obtain ⟨_, -, h⟩ := bind_eq_ok h
  obtain ⟨_, -, h⟩ := bind_eq_ok h
  obtain ⟨_, -, h⟩ := bind_eq_ok h
  obtain ⟨_, -, h⟩ := bind_eq_ok h
  obtain ⟨⟨r, o1⟩, h1, h⟩ := bind_eq_ok h
  obtain ⟨_, -, h⟩ := bind_eq_ok h
  obtain ⟨rs, h2, h⟩ := bind_eq_ok h
  cases h
  refine ⟨⟨?_, ?_⟩, unitAttribute_each h1 ho⟩
  · rintro x rfl
    exact unitAttribute_value h1 ho (by simp) hP
  · rintro x rfl
    exact floatAttribute_value h2 ho (by simp)

/-! ### Cables -/

theorem phaseCable_ok {w : CableWire} {c : Cable} (h : phaseCable w = .ok c) : w.resistance = some c.r ∧
    ∃ k : ℤ, 0 < k ∧ ∃ rs, w.strandResistance = some rs ∧ c.rn = rs / k := by
  rw [phaseCable] at h
  split at h
  · rename_i outer strand k gmr r gs rs h1 h2 h3 h4 h5 h6 h7
    split at h
    · cases h
    · rename_i hk
      cases h
      exact ⟨h5, k, by omega, rs, h7, rfl⟩
  · cases h

theorem cableOf_nonneg {w : CableWire} {c : Cable} (h : cableOf w = .ok c) (hr : ∀ r, w.resistance = some r → 0 ≤ r)
    (hs : ∀ r, w.strandResistance = some r → 0 ≤ r) : 0 ≤ c.r ∧ 0 ≤ c.rn := by
  rw [cableOf] at h
  split at h
  · rw [neutralCable] at h
    split at h
    · rename_i g r hg hr'
      cases h
      exact ⟨le_refl _, hr r hr'⟩
    · cases h
  · obtain ⟨h1, k, hk, rs, h2, h3⟩ := phaseCable_ok h
    refine ⟨hr _ h1, ?_⟩
    rw [h3]
    exact div_nonneg (hs rs h2) (by exact_mod_cast hk.le)

theorem cableAt_of {cables : List Cable} {P : Cable → Prop} (h : ∀ c ∈ cables, P c) (h0 : P ⟨0, 0, 0, 0, 0, 0⟩) (i : ℕ) : P (cableAt cables i) := by
  rw [cableAt, List.getD_eq_getElem?_getD]
  cases hi : cables[i]? with
  | none => exact h0
  | some c => exact h c (List.mem_of_getElem? hi)

theorem cables_nonneg {wires : List CableWire} {cables : List Cable} (h : wires.mapM cableOf = .ok cables)
    (hw : ∀ w ∈ wires, (∀ r, w.resistance = some r → 0 ≤ r) ∧ ∀ r, w.strandResistance = some r → 0 ≤ r) (i : ℕ) :
    0 ≤ (cableAt cables i).r ∧ 0 ≤ (cableAt cables i).rn := by
  refine cableAt_of (P := fun c => 0 ≤ c.r ∧ 0 ≤ c.rn) (fun c hc => ?_) ⟨le_refl _, le_refl _⟩ i
  obtain ⟨w, hwm, hwc⟩ := forall₂_mem_right (mapM_forall₂ h) hc
  exact cableOf_nonneg hwc (hw w hwm).1 (hw w hwm).2

theorem phases_first {l : List Char} (h : l.Sublist "ABCN".toList) {i : ℕ} (hi : i < (l.filter (· ≠ 'N')).length) : i < l.length ∧ l[i]? ≠ some 'N' :=
  (show ∀ l ∈ "ABCN".toList.sublists, ∀ i < (l.filter (· ≠ 'N')).length, i < l.length ∧ l[i]? ≠ some 'N' by decide) l (List.mem_sublists.2 h) i hi

theorem filter_phases (wires : List CableWire) : (wires.filter (·.phase ≠ 'N')).length = ((wires.map CableWire.phase).filter (· ≠ 'N')).length := by
  rw [List.filter_map, List.length_map]
  rfl

theorem cables_pos {wires : List CableWire} {cables : List Cable} (h : wires.mapM cableOf = .ok cables) (hs : (wires.map CableWire.phase).Sublist "ABCN".toList)
    (hw : ∀ w ∈ wires, ∀ r, w.resistance = some r → 0 < r) {i : ℕ} (hi : i < (wires.filter (·.phase ≠ 'N')).length) : 0 < (cableAt cables i).r := by
  rw [filter_phases] at hi
  obtain ⟨hl, hN⟩ := phases_first hs hi
  rw [List.length_map] at hl
  have hF := mapM_forall₂ h
  have hl' : i < cables.length := by rw [← hF.length_eq]; exact hl
  have hc : cableOf wires[i] = .ok cables[i] := List.forall₂_iff_get.1 hF |>.2 i hl hl'
  rw [List.getElem?_map, List.getElem?_eq_getElem hl] at hN
  rw [cableOf, if_neg (fun e => hN (by rw [← e]; rfl))] at hc
  have := hw _ (List.getElem_mem hl) _ (phaseCable_ok hc).1
  rw [cableAt, List.getD_eq_getElem?_getD, List.getElem?_eq_getElem hl']
  exact this

theorem underground_passive {wires : List CableWire} {T : Table} (hT : ∀ i j, stripedDistance T i j = stripedDistance T j i) {Z : Matrix _ _ ℂ}
    (h : undergroundImpedance wires T = .ok Z) (hw : ∀ w ∈ wires, (∀ r, w.resistance = some r → 0 ≤ r) ∧ ∀ r, w.strandResistance = some r → 0 ≤ r)
    (I : Fin (wires.filter (·.phase ≠ 'N')).length → ℂ) : 0 ≤ (star I ⬝ᵥ Z *ᵥ I).re := by
  obtain ⟨cables, hc, J, hJ⟩ := underground_power hT h I
  refine le_trans (add_nonneg (Finset.sum_nonneg fun i _ => mul_nonneg ?_ (Complex.normSq_nonneg _)) (Finset.sum_nonneg fun i _ => mul_nonneg ?_ (Complex.normSq_nonneg _))) hJ
  · exact_mod_cast (cables_nonneg hc hw i).1
  · exact_mod_cast (cables_nonneg hc hw i).2

theorem underground_strict {wires : List CableWire} {T : Table} (hT : ∀ i j, stripedDistance T i j = stripedDistance T j i) {Z : Matrix _ _ ℂ}
    (h : undergroundImpedance wires T = .ok Z) (hs : (wires.map CableWire.phase).Sublist "ABCN".toList)
    (hw : ∀ w ∈ wires, (∀ r, w.resistance = some r → 0 < r) ∧ ∀ r, w.strandResistance = some r → 0 < r)
    {I : Fin (wires.filter (·.phase ≠ 'N')).length → ℂ} (hI : I ≠ 0) : 0 < (star I ⬝ᵥ Z *ᵥ I).re := by
  obtain ⟨cables, hc, J, hJ⟩ := underground_power hT h I
  obtain ⟨k, hk⟩ := Function.ne_iff.1 hI
  have hw0 : ∀ w ∈ wires, (∀ r, w.resistance = some r → 0 ≤ r) ∧ ∀ r, w.strandResistance = some r → 0 ≤ r :=
    fun w h => ⟨fun r hr => ((hw w h).1 r hr).le, fun r hr => ((hw w h).2 r hr).le⟩
  refine lt_of_lt_of_le (add_pos_of_pos_of_nonneg ?_ (Finset.sum_nonneg fun i _ => mul_nonneg ?_ (Complex.normSq_nonneg _))) hJ
  · refine Finset.sum_pos' (fun i _ => mul_nonneg (by exact_mod_cast (cables_nonneg hc hw0 i).1) (Complex.normSq_nonneg _)) ⟨k, Finset.mem_univ _, ?_⟩
    exact mul_pos (by exact_mod_cast cables_pos hc hs (fun w h => (hw w h).1) k.2) (Complex.normSq_pos.2 hk)
  · exact_mod_cast (cables_nonneg hc hw0 i).2

end Verif.Glm
