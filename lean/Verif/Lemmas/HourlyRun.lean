import Verif.Model.HourlyRun
import Verif.Spec.HourlyRun
import Verif.Spec.GlmFlow
import Verif.Props.LoadNames

/-!
# Lemmas on the time series of a feeder
-/

namespace Verif

/-- Changing an item by the load factors. -/
noncomputable def Item.scaled (a b : ℝ) : Item → Item
  | .fixed e => .fixed (e.factor a b)
  | i => i

theorem items_scaled (D : DxNet) (a b : ℝ) : (D.factor a b).items = D.items.map (Item.scaled a b) := by
  show D.items.map _ = D.items.map _
  refine List.map_congr_left fun i _ => ?_
  cases i <;> rfl

theorem asLoad_some {i : Item} {f t : Ref} {l : Load} (h : i.asLoad = some (f, t, l)) : i = .fixed (.load f t l) := by
  cases i with
  | fixed e => cases e <;> cases h <;> rfl
  | _ => cases h

theorem scaled_none {i : Item} (h : i.asLoad = none) (a b : ℝ) : i.scaled a b = i := by
  cases i with
  | fixed e => cases e <;> first | rfl | cases h
  | _ => rfl

theorem putItems_none {i : Item} (h : i.asLoad = none) (is : List Item) (ls : List NamedLoad) : putItems (i :: is) ls = i :: putItems is ls := by
  rw [putItems.eq_def]
  simp only [h]

theorem putItems_load (f t : Ref) (l : Load) (is : List Item) (m : NamedLoad) (ls : List NamedLoad) :
    putItems (.fixed (.load f t l) :: is) (m :: ls) = .fixed (.load f t m.load) :: putItems is ls := by
  rw [putItems.eq_def]
  rfl

theorem putItems_scaled (a s : ℝ) (items : List Item) : ∀ ls : List NamedLoad,
    ls.map NamedLoad.load = (items.filterMap Item.asLoad).map (fun x => { x.2.2 with P := x.2.2.P * s, Q := x.2.2.Q * s }) →
    putItems (items.map (Item.scaled a a)) ls = items.map (Item.scaled s s) := by
  induction items with
  | nil => intro ls _; rfl
  | cons i items ih =>
    intro ls h
    cases hi : i.asLoad with
    | none =>
      rw [List.filterMap_cons_none hi] at h
      rw [List.map_cons, List.map_cons, scaled_none hi, scaled_none hi, putItems_none hi, ih ls h]
    | some x =>
      obtain ⟨f, t, l⟩ := x
      rw [List.filterMap_cons_some hi, List.map_cons] at h
      obtain rfl := asLoad_some hi
      cases ls with
      | nil => cases h
      | cons m ls =>
        rw [List.map_cons, List.cons.injEq] at h
        rw [List.map_cons, List.map_cons]
        refine (putItems_load f t _ _ m ls).trans ?_
        rw [ih ls h.2, h.1]
        rfl

end Verif

namespace Verif.Glm

variable {M : Type} {g : Grid M} {D : DxNet} {make : M → List (ℕ × ℕ) → Except String Element} {mats : M → (ℕ → ℕ → ℂ) × (ℕ → ℕ → ℝ)}

theorem mapM_all {α β : Type} {f : α → Except String β} {p : β → Prop} (hf : ∀ a b, f a = .ok b → p b) : ∀ {l : List α} {r : List β}, l.mapM f = .ok r → ∀ b ∈ r, p b := by
  intro l
  induction l with
  | nil =>
    intro r h b hb
    rw [List.mapM_nil] at h
    cases h
    cases hb
  | cons a l ih =>
    intro r h b hb
    rw [List.mapM_cons] at h
    cases ha : f a with
    | error e => rw [ha] at h; cases h
    | ok y =>
      rw [ha] at h
      cases hl : l.mapM f with
      | error e => rw [hl] at h; cases h
      | ok ys =>
        rw [hl] at h
        cases h
        rcases List.mem_cons.1 hb with rfl | hb
        · exact hf _ _ ha
        · exact ih hl b hb

theorem filterMap_none {l : List Item} (h : ∀ i ∈ l, i.asLoad = none) : l.filterMap Item.asLoad = [] := by
  rw [List.filterMap_eq_nil_iff]
  exact h

/-- The loads among the items of the network are the loads of the feeder, in order. -/
theorem network_loads (hM : Makes make mats) (hD : g.network make = .ok D) :
    D.items.filterMap Item.asLoad = g.loads.map fun x => (some x.f, x.t, x.named.load) := by
  unfold Grid.network at hD
  cases hl : g.lines.mapM (lineElement make g) with
  | error e => rw [hl] at hD; cases hD
  | ok lines =>
    cases hr : g.regulators.mapM GReg.item with
    | error e => rw [hl, hr] at hD; cases hD
    | ok regs =>
      rw [hl, hr] at hD
      cases hD
      have h1 : (lines.map Item.fixed).filterMap Item.asLoad = [] := filterMap_none fun i hi => by
        obtain ⟨e, he, rfl⟩ := List.mem_map.1 hi
        refine mapM_all (p := fun e => (Item.fixed e).asLoad = none) (fun l e h => ?_) hl e he
        unfold lineElement at h
        cases hp : linePhases g l with
        | error _ => rw [hp] at h; cases h
        | ok ps =>
          rw [hp] at h
          rw [(hM _ _ _ h).2]
          rfl
      have h2 : regs.filterMap Item.asLoad = [] := filterMap_none fun i hi => by
        refine mapM_all (p := fun i : Item => i.asLoad = none) (fun r i h => ?_) hr i hi
        unfold GReg.item at h
        simp only at h
        cases hm : Reg.make (some r.f) (some r.c) (some r.t) r.tap r.step r.kind r.raiseTaps r.lowerTaps (seriesAdmittance (1 / 10000) 0).1
            (seriesAdmittance (1 / 10000) 0).2 with
        | error e => rw [hm] at h; cases h
        | ok x =>
          rw [hm] at h
          cases h
          rfl
      have h3 : (g.transformers.map fun t => Item.fixed t.element).filterMap Item.asLoad = [] := filterMap_none fun i hi => by
        obtain ⟨t, -, rfl⟩ := List.mem_map.1 hi
        cases t <;> rfl
      have h4 : (g.slacks.map fun s => Item.fixed (.slack s.1 s.2.value.1 s.2.value.2)).filterMap Item.asLoad = [] := filterMap_none fun i hi => by
        obtain ⟨t, -, rfl⟩ := List.mem_map.1 hi
        rfl
      have h5 : (g.switches.map fun s => Item.fixed (.switch (some s.f) (some s.t) s.status)).filterMap Item.asLoad = [] := filterMap_none fun i hi => by
        obtain ⟨t, -, rfl⟩ := List.mem_map.1 hi
        rfl
      have h6 : (g.fuses.map GFuse.item).filterMap Item.asLoad = [] := filterMap_none fun i hi => by
        obtain ⟨t, -, rfl⟩ := List.mem_map.1 hi
        rfl
      have h7 : (g.capacitors.map GCap.item).filterMap Item.asLoad = [] := filterMap_none fun i hi => by
        obtain ⟨t, -, rfl⟩ := List.mem_map.1 hi
        rfl
      simp only [List.filterMap_append, h1, h2, h3, h4, h5, h6, h7, List.nil_append, List.append_nil]
      rw [List.filterMap_map]
      exact congrFun (List.filterMap_eq_map' (f := fun x : GLoad => ((some x.f : Ref), x.t, x.named.load))) g.loads

/-- The network with its loads at the factor `s`, whatever factor they had. -/
theorem putLoads_factor (hM : Makes make mats) (hD : g.network make = .ok D) (a s : ℝ) :
    (D.factor a a).putLoads (modifyLoadFactor (g.loads.map GLoad.named) s s) = D.factor s s := by
  have key : putItems (D.items.map (Item.scaled a a)) (modifyLoadFactor (g.loads.map GLoad.named) s s) = D.items.map (Item.scaled s s) := by
    apply putItems_scaled
    rw [network_loads hM hD, modifyLoadFactor, List.map_map, List.map_map, List.map_map]
    rfl
  rw [← items_scaled, ← items_scaled] at key
  show ({ D.factor a a with items := putItems (D.factor a a).items _ } : DxNet) = _
  rw [key]
  rfl

/-- A load whose magnitude is set to a multiple of its own has that multiple of its power, with the sign it had. -/
theorem setMagnitude_scale (l : NamedLoad) {a e s : ℝ} (ha : 0 < a) (he : e = 1 ∨ e = -1) : (l.scale (e * a) (e * a)).setMagnitude (s * ‖l.S‖) = l.scale (e * s) (e * s) := by
  have hsc : ∀ b : ℝ, (l.scale b b).S = (b : ℂ) * l.S := fun b => by
    apply Complex.ext <;> simp [NamedLoad.scale, NamedLoad.S, mul_comm]
  have hnorm : ‖(l.scale (e * a) (e * a)).S‖ = a * ‖l.S‖ := by
    rw [hsc, norm_mul, Complex.norm_real, norm_mul, Real.norm_of_nonneg ha.le]
    rcases he with rfl | rfl <;> simp
  have h1 : ((l.scale (e * a) (e * a)).setMagnitude (s * ‖l.S‖)).S = (l.scale (e * s) (e * s)).S := by
    have h2 := Complex.norm_mul_exp_arg_mul_I (l.scale (e * a) (e * a)).S
    rw [hnorm, Complex.ofReal_mul] at h2
    have ha' : (a : ℂ) ≠ 0 := Complex.ofReal_ne_zero.2 ha.ne'
    apply mul_left_cancel₀ ha'
    rw [setMagnitude_S, Complex.ofReal_mul, show (a : ℂ) * ((s : ℂ) * (‖l.S‖ : ℂ) * Complex.exp ((l.scale (e * a) (e * a)).S.arg * Complex.I)) =
      (s : ℂ) * ((a : ℂ) * (‖l.S‖ : ℂ) * Complex.exp ((l.scale (e * a) (e * a)).S.arg * Complex.I)) by ring, h2, hsc, hsc]
    push_cast
    ring
  have hP : ((l.scale (e * a) (e * a)).setMagnitude (s * ‖l.S‖)).load.P = (l.scale (e * s) (e * s)).load.P := congrArg Complex.re h1
  have hQ : ((l.scale (e * a) (e * a)).setMagnitude (s * ‖l.S‖)).load.Q = (l.scale (e * s) (e * s)).load.Q := congrArg Complex.im h1
  show ({ l.scale (e * a) (e * a) with load := { (l.scale (e * a) (e * a)).load with
    P := ((l.scale (e * a) (e * a)).setMagnitude (s * ‖l.S‖)).load.P, Q := ((l.scale (e * a) (e * a)).setMagnitude (s * ‖l.S‖)).load.Q } } : NamedLoad) = _
  rw [hP, hQ]
  rfl

variable {readLine : LineReader M} {schedules : List (Txt × Txt)} {objs : List (Txt × Obj)}

/-- An hour of a scaling load file brings all loads to the factor of the hour, whatever factor they had; negative loads stay negative. -/
theorem setLoadValues_scaled (hR : Keeps readLine objs) (hO : OuterFile objs) (hk : (objs.map Prod.fst).Nodup) (hb : NoBasePower objs)
    (h : parseGrid readLine objs schedules = .ok g) {cols : List Column} {scale : ℤ → ℝ} {start stop : ℤ} (hs : ScaledColumns objs cols scale start stop)
    {hour : ℤ} (h1 : start ≤ hour) (h2 : hour < stop) {a e : ℝ} (ha : 0 < a) (he : e = 1 ∨ e = -1) :
    setLoadValues cols hour (modifyLoadFactor (g.loads.map GLoad.named) (e * a) (e * a)) = modifyLoadFactor (g.loads.map GLoad.named) (e * scale hour) (e * scale hour) := by
  have hid : ∀ a, (modifyLoadFactor (g.loads.map GLoad.named) a a).map NamedLoad.ident = (g.loads.map GLoad.named).map NamedLoad.ident := fun a => by
    rw [modifyLoadFactor, List.map_map]; rfl
  have hlen := (C152_names hR hO hk hb h).length_eq
  apply List.ext_getElem?
  intro i
  by_cases hi : i < (namedLoads objs).length
  · have hd := List.getElem?_eq_getElem hi
    set d := (namedLoads objs)[i] with hdd
    have hdm : d ∈ namedLoads objs := List.getElem_mem hi
    obtain ⟨x, hx, hdx, -, -, -⟩ := named_get hR hO hk hb h hd
    have hget : ∀ a, (modifyLoadFactor (g.loads.map GLoad.named) a a)[i]? = some (x.named.scale a a) := fun a => by
      rw [modifyLoadFactor, List.getElem?_map, List.getElem?_map, hx]; rfl
    rw [hget]
    obtain ⟨b, rest, -, -, -, hpq, -⟩ := hdx
    by_cases hp : d.2.kind = .power
    · obtain ⟨c, hc, hcol, hv⟩ := hs.given d hdm hp
      have hidx : loadIndex (modifyLoadFactor (g.loads.map GLoad.named) (e * a) (e * a)) c.name = some i := by
        rw [loadIndex_ident (hid (e * a))]
        refine (column_index hR hO hk hb h hd).2 ⟨hcol, fun j d' hj hd' hcol' => ?_⟩
        exact absurd (hs.own i j d d' hd hd' c hc hcol hcol') hj.ne
      rw [setLoadValues_get cols hs.names hour _ c hc i hidx, hget, hv hour h1 h2]
      rw [if_pos hp] at hpq
      have hS : x.named.S = toComplex d.2.value := by rw [← hpq]; rfl
      rw [← hS]
      exact congrArg some (setMagnitude_scale _ ha he)
    · rw [setLoadValues_other, hget]
      · rw [if_neg hp] at hpq
        have e1 : x.named.load.P = 0 := by
          show ((x.p : ℚ) : ℝ) = 0
          rw [show x.p = 0 from congrArg Prod.fst hpq, Rat.cast_zero]
        have e2 : x.named.load.Q = 0 := by
          show ((x.q : ℚ) : ℝ) = 0
          rw [show x.q = 0 from congrArg Prod.snd hpq, Rat.cast_zero]
        rw [NamedLoad.scale, NamedLoad.scale, e1, e2, zero_mul, zero_mul]
      · intro c hc hidx
        rw [loadIndex_ident (hid (e * a))] at hidx
        exact hs.powers d hdm hp c hc ((column_index hR hO hk hb h hd).1 hidx).1
  · have hl1 : (setLoadValues cols hour (modifyLoadFactor (g.loads.map GLoad.named) (e * a) (e * a))).length = g.loads.length := by
      have := congrArg List.length (setLoadValues_ident cols hour (modifyLoadFactor (g.loads.map GLoad.named) (e * a) (e * a)))
      simpa [modifyLoadFactor] using this
    rw [List.getElem?_eq_none (by rw [hl1]; omega), List.getElem?_eq_none (by simp [modifyLoadFactor]; omega)]

end Verif.Glm
