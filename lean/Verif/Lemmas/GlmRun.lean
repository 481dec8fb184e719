import Verif.Lemmas.GlmSturdy
import Verif.Lemmas.RawRun
import Verif.Model.Execute
import Verif.Props.LightFar
import Verif.Props.Exchange

/-!
# Runs on feeders
-/

namespace Verif

variable {L : Library}

theorem DxNet.factor_network (a b : ℝ) (D : DxNet) : (D.factor a b).network = D.network.factor a b := by
  simp only [DxNet.factor, DxNet.network, Network.factor, List.map_map]
  congr 1
  refine List.map_congr_left fun i _ => ?_
  cases i <;> rfl

/-- A device without occasion to be adjusted. -/
def Item.Still : Item → Prop
  | .fixed _ => True
  | .fuse _ => False
  | .cap c => c.mode = .manual
  | .reg _ => True

theorem still_items (a : Assignment) (v : ℕ → ℝ) : ∀ (is : List Item) (k : ℕ), (∀ i ∈ is, i.Still) → adjustItems a v k is = .ok (is, false)
  | [], k, _ => rfl
  | i :: is, k, h => by
    have hi : i.adjust a v k = .ok (i, false) := by
      have := h i (by simp)
      cases i with
      | fixed e => rfl
      | fuse F => exact this.elim
      | cap c =>
        have hc : c.mode = .manual := this
        have : c.adjust (a.volt c.f v) = .ok (c, false) := by unfold Cap.adjust; rw [hc]
        simp only [Item.adjust, this, bind, Except.bind]
      | reg r => rfl
    simp only [adjustItems, hi, still_items a v is (k + 1) fun j hj => h j (by simp [hj]), bind, Except.bind, Bool.or_self]

/-- A run on devices that stay as they are is one call of the solver. -/
theorem settled_run {C : NRContext} {tx control : Bool} {vInit : ℕ → ℝ} {D : DxNet} {m : Stamper} {r : HomotopyResult Stamper}
    (hno : ∀ i ∈ D.items, i.refuses = false) (hstill : control = true → ∀ i ∈ D.items, i.Still)
    (hm : Stamper.build D.network.opt (D.network.assign L).all = .ok m)
    (hr : homotopyRun (solverRun { C with size := (D.network.assign L).size }) tx m vInit = .ok r) :
    (DxNet.run L C tx control vInit D).out = .ok (r, D) := by
  have hsolve : DxNet.solve L C tx D vInit = .ok r := by
    unfold DxNet.solve
    rw [if_neg (by
      rw [List.any_eq_true]
      rintro ⟨i, hi, he⟩
      rw [hno i hi] at he
      cases he), hm]
    exact hr
  have hadj : control = true → ∀ v, DxNet.adjust L D v = .ok (D, false) := fun hc v => by
    unfold DxNet.adjust
    split
    · rw [still_items _ v D.items 0 (hstill hc)]
      rfl
    · rfl
  have hloop : ∀ k, (deviceLoop (DxNet.ops L C tx) control vInit (k + 1) D []).out = .ok (r, D) := fun k => by
    unfold deviceLoop
    rw [show (DxNet.ops L C tx).solve = DxNet.solve L C tx from rfl, hsolve]
    simp only
    split
    · rfl
    · split
      · rfl
      · rename_i hc
        rw [show (DxNet.ops L C tx).adjust = DxNet.adjust L from rfl, hadj (by simpa using hc)]
        rfl
  unfold DxNet.run deviceRun
  split
  · rename_i hc
    rw [show (DxNet.ops L C tx).adjust = DxNet.adjust L from rfl, hadj hc]
    exact hloop 9
  · exact hloop 9

namespace Glm

variable {M : Type} {objs : List (Txt × Obj)} {g : Grid M} {mats : M → (ℕ → ℕ → ℂ) × (ℕ → ℕ → ℝ)} {ds : List (List Char × M)} {D : DxNet}
  {lines : List Element} {regs : List Item}

/-! ### Voltages by name -/

open Classical in
/-- Voltages by name and phase from the voltages of buses. -/
noncomputable def namedVolts (objs : List (Txt × Obj)) (g : Grid M) (W : Ref → ℂ) (n : Txt) (p : Char) : ℂ :=
  if h : ∃ b, FileAt objs g n p b then W (some h.choose) else 0

theorem namedVolts_at (hB : BusesOf objs g) (W : Ref → ℂ) {n : Txt} {p : Char} {b : ℕ} (h : FileAt objs g n p b) : namedVolts objs g W n p = W (some b) := by
  have hex : ∃ b, FileAt objs g n p b := ⟨b, h⟩
  rw [namedVolts, dif_pos hex, hB.one _ _ _ _ hex.choose_spec h]

theorem declared_across {V : Txt → Char → ℂ} {W : Ref → ℂ} (h0 : W none = 0) (hV : ∀ n p b, FileAt objs g n p b → V n p = W (some b)) {d : DeclaredLoad} {x : GLoad}
    (h : IsDeclared objs g d x) : W (some x.f) - W x.t = d.across V := by
  obtain ⟨a, rest, hd, h1, h2, -⟩ := h
  unfold DeclaredLoad.across
  rw [hd]
  simp only
  rw [hV _ _ _ h1]
  congr 1
  cases hh : rest.head? with
  | none =>
    rw [hh] at h2
    rw [show x.t = none from h2, h0]
    rfl
  | some q =>
    rw [hh] at h2
    obtain ⟨b, hb, n, hn, hat⟩ := h2
    cases hn
    rw [hb, ← hV _ _ _ hat]
    rfl

theorem declared_power {d : DeclaredLoad} {x : GLoad} (h : IsDeclared objs g d x) :
    d.kind = .power ∧ (⟨x.p, x.q⟩ : ℂ) = toComplex d.value ∧ ((x.p : ℝ) = 0 ∧ (x.q : ℝ) = 0 ↔ d.value = 0) ∨ d.kind ≠ .power ∧ (x.p : ℝ) = 0 ∧ (x.q : ℝ) = 0 := by
  obtain ⟨a, rest, -, -, -, hp, -⟩ := h
  by_cases hk : d.kind = .power
  · rw [if_pos hk] at hp
    refine Or.inl ⟨hk, ?_, ?_⟩
    · rw [← hp]
      rfl
    · rw [← hp, Prod.mk_eq_zero]
      norm_cast
  · rw [if_neg hk] at hp
    obtain ⟨e1, e2⟩ := Prod.mk_eq_zero.1 hp
    exact Or.inr ⟨hk, by rw [e1]; simp, by rw [e2]; simp⟩

theorem Parts.kinds (hf : PlainFeeder objs) (hP : Parts mats objs ds g D lines regs) : ∀ e ∈ D.network.elements,
    (∃ x ∈ g.loads, x.element = e) ∨ ((∀ f u l, e ≠ .load f u l) ∧ (∀ b P W, e ≠ .generator b P W)) := by
  have key : ∀ e ∈ lines ++ otherElements g regs, (∃ x ∈ g.loads, x.element = e) ∨ ((∀ f u l, e ≠ .load f u l) ∧ (∀ b P W, e ≠ .generator b P W)) := by
    intro e he
    simp only [otherElements, List.mem_append, List.mem_map] at he
    rcases he with he | ⟨x, hx, rfl⟩ | ⟨x, hx, rfl⟩ | ⟨x, hx, rfl⟩ | ⟨x, hx, rfl⟩ | ⟨x, hx, rfl⟩ | ⟨x, hx, rfl⟩ | ⟨x, hx, rfl⟩
    · obtain ⟨x, hx, a, b, bs, -, -, hbs, rfl⟩ := forall₂_mem_right hP.wires he
      exact Or.inr ⟨fun _ _ _ => Element.noConfusion, fun _ _ _ => Element.noConfusion⟩
    · cases x <;> exact Or.inr ⟨fun _ _ _ => Element.noConfusion, fun _ _ _ => Element.noConfusion⟩
    · exact Or.inr ⟨fun _ _ _ => Element.noConfusion, fun _ _ _ => Element.noConfusion⟩
    · exact Or.inr ⟨fun _ _ _ => Element.noConfusion, fun _ _ _ => Element.noConfusion⟩
    · exact Or.inl ⟨x, hx, rfl⟩
    · obtain ⟨y, hy, hit⟩ := forall₂_mem_right hP.items hx
      obtain ⟨d, -, hr, htap⟩ := forall₂_mem_right hP.settings hy
      obtain ⟨c, ratio, -, -, e⟩ := reg_ratio hr hit htap
      rw [e]
      exact Or.inr ⟨fun _ _ _ => Element.noConfusion, fun _ _ _ => Element.noConfusion⟩
    · exact Or.inr ⟨fun _ _ _ => Element.noConfusion, fun _ _ _ => Element.noConfusion⟩
    · exact Or.inr ⟨fun _ _ _ => Element.noConfusion, fun _ _ _ => Element.noConfusion⟩
  rw [hP.elements]
  exact key

/-- Ratios of center taps are not zero. -/
theorem Parts.ratios (hs : SuppliedFeeder mats objs ds) (hP : Parts mats objs ds g D lines regs) {a b c d e f : ℕ} {r x0 y0 x1 y1 x2 y2 : ℝ}
    (h : Element.centerTap a b c d e f r x0 y0 x1 y1 x2 y2 ∈ D.network.elements) : r ≠ 0 :=
  (hP.resistive hs _ (List.mem_map_of_mem (f := Element.factor 0 0) h)).1

/-- Devices are defined where loads have voltage. -/
theorem Parts.regular (hs : SuppliedFeeder mats objs ds) (hP : Parts mats objs ds g D lines regs) {V : Txt → Char → ℂ} {W : Ref → ℂ} (h0 : W none = 0)
    (hV : ∀ n p b, FileAt objs g n p b → V n p = W (some b)) (hlive : LoadsLive objs V) : ∀ e ∈ D.network.elements, e.RegularAt 0 W := by
  intro e he
  rcases hP.kinds hs.plain e he with ⟨x, hx, rfl⟩ | ⟨h1, h2⟩
  · obtain ⟨d, hd, hdec⟩ := forall₂_mem_right hP.loads hx
    show ((x.p : ℝ) = 0 ∧ (x.q : ℝ) = 0) ∨ W (some x.f) ≠ W x.t
    rcases declared_power hdec with ⟨hk, -, hz⟩ | ⟨-, hz⟩
    · by_cases hv : d.value = 0
      · exact Or.inl (hz.2 hv)
      · refine Or.inr (sub_ne_zero.1 ?_)
        rw [declared_across h0 hV hdec]
        exact hlive d hd hk hv
    · exact Or.inl hz
  · cases e with
    | load f u l => exact absurd rfl (h1 f u l)
    | generator b P W => exact absurd rfl (h2 b P W)
    | centerTap =>
      show ratioAt 0 _ ≠ 0
      rw [ratioAt, mul_zero, add_zero]
      exact hP.ratios hs he
    | _ => trivial

theorem Parts.steady (hs : SuppliedFeeder mats objs ds) (hP : Parts mats objs ds g D lines regs) {V : Txt → Char → ℂ} {W : Ref → ℂ} (h0 : W none = 0)
    (hV : ∀ n p b, FileAt objs g n p b → V n p = W (some b)) (hoff : LoadsOffAxes objs V) : ∀ e ∈ D.network.elements, e.SteadyAt W [] := by
  intro e he
  rcases hP.kinds hs.plain e he with ⟨x, hx, rfl⟩ | ⟨h1, h2⟩
  · obtain ⟨d, hd, hdec⟩ := forall₂_mem_right hP.loads hx
    show ((x.p : ℝ) = 0 ∧ (x.q : ℝ) = 0) ∨ (((⟨x.p, x.q⟩ : ℂ) * (starRingEnd ℂ (W (some x.f) - W x.t)) ^ 2).re ≠ 0 ∧
      ((⟨x.p, x.q⟩ : ℂ) * (starRingEnd ℂ (W (some x.f) - W x.t)) ^ 2).im ≠ 0)
    rcases declared_power hdec with ⟨hk, hS, hz⟩ | ⟨-, hz⟩
    · by_cases hv : d.value = 0
      · exact Or.inl (hz.2 hv)
      · refine Or.inr ?_
        rw [declared_across h0 hV hdec, hS]
        exact hoff d hd hk hv
    · exact Or.inl hz
  · cases e with
    | load f u l => exact absurd rfl (h1 f u l)
    | generator b P W => exact absurd rfl (h2 b P W)
    | _ => trivial

/-- The loads of the network at a place are those of the file. -/
theorem Parts.loadAt (hs : SuppliedFeeder mats objs ds) (hP : Parts mats objs ds g D lines regs) {k : ℕ} (hk : D.network.power k ≠ 0) :
    ∃ d ∈ declaredLoads objs, d.kind = .power ∧ d.value ≠ 0 ∧ ∀ (V : Txt → Char → ℂ) (W : Ref → ℂ), W none = 0 →
      (∀ n p b, FileAt objs g n p b → V n p = W (some b)) → D.network.across W k = d.across V := by
  unfold Network.power at hk
  unfold Network.across
  cases hel : D.network.elements[k]? with
  | none => rw [hel] at hk; exact absurd rfl hk
  | some e =>
    rw [hel] at hk
    rcases hP.kinds hs.plain e (List.mem_of_getElem? hel) with ⟨x, hx, rfl⟩ | ⟨h1, h2⟩
    · obtain ⟨d, hd, hdec⟩ := forall₂_mem_right hP.loads hx
      have hne : ¬ ((x.p : ℝ) = 0 ∧ (x.q : ℝ) = 0) := fun hz => hk (Complex.ext hz.1 hz.2)
      rcases declared_power hdec with ⟨hkd, -, hz⟩ | ⟨-, hz⟩
      · exact ⟨d, hd, hkd, fun hv => hne (hz.2 hv), fun V W h0 hV => declared_across h0 hV hdec⟩
      · exact absurd hz hne
    · cases e with
      | load f u l => exact absurd rfl (h1 f u l)
      | _ => exact absurd rfl hk

/-- Finitely many loads under voltage have a smallest voltage. -/
theorem loads_floor {V : Txt → Char → ℂ} (h : LoadsLive objs V) :
    ∃ m > 0, ∀ d ∈ declaredLoads objs, d.kind = .power → d.value ≠ 0 → m ≤ ‖d.across V‖ := by
  obtain ⟨m, hm, hfl⟩ := positive_floor (fun i => ((declaredLoads objs)[i]?.map fun d => ‖d.across V‖).getD 0) (declaredLoads objs).length
  refine ⟨m, hm, fun d hd hk hv => ?_⟩
  obtain ⟨i, hi, rfl⟩ := List.mem_iff_getElem.1 hd
  have e : ((declaredLoads objs)[i]?.map fun d => ‖d.across V‖).getD 0 = ‖(declaredLoads objs)[i].across V‖ := by
    rw [List.getElem?_eq_getElem hi]
    rfl
  have := hfl i hi
  simp only [e] at this
  exact this (norm_pos_iff.2 (h _ hd hk hv))

/-! ### Items -/

theorem network_items {make : M → List (ℕ × ℕ) → Except String Element} (hD : g.network make = .ok D) : ∀ i ∈ D.items,
    (∃ e, i = .fixed e) ∨ (∃ r, i = .reg r) ∨ (∃ x ∈ g.fuses, i = x.item) ∨ ∃ x ∈ g.capacitors, i = x.item := by
  rw [Grid.network] at hD
  obtain ⟨lines, hl, hD⟩ := bind_eq_ok hD
  obtain ⟨regs, hrg, hD⟩ := bind_eq_ok hD
  cases hD
  intro i hi
  simp only [List.mem_append, List.mem_map] at hi
  rcases hi with ((((((⟨x, hx, rfl⟩ | ⟨x, hx, rfl⟩) | ⟨x, hx, rfl⟩) | ⟨x, hx, rfl⟩) | ⟨x, hx, rfl⟩) | hi) | ⟨x, hx, rfl⟩) | ⟨x, hx, rfl⟩
  · exact Or.inl ⟨_, rfl⟩
  · exact Or.inl ⟨_, rfl⟩
  · exact Or.inl ⟨_, rfl⟩
  · exact Or.inl ⟨_, rfl⟩
  · exact Or.inl ⟨_, rfl⟩
  · obtain ⟨y, hy, hit⟩ := forall₂_mem_right (mapM_forall₂ hrg) hi
    rw [GReg.item] at hit
    obtain ⟨r', _, hit⟩ := bind_eq_ok hit
    cases hit
    exact Or.inr (Or.inl ⟨_, rfl⟩)
  · exact Or.inr (Or.inr (Or.inl ⟨x, hx, rfl⟩))
  · exact Or.inr (Or.inr (Or.inr ⟨x, hx, rfl⟩))

theorem factor_items {a b : ℝ} {P : Item → Prop} (hfix : ∀ e, P (.fixed e)) (h : ∀ i ∈ D.items, P i) : ∀ i ∈ (D.factor a b).items, P i := by
  intro i hi
  obtain ⟨j, hj, rfl⟩ := List.mem_map.1 hi
  cases j with
  | fixed e => exact hfix _
  | _ => exact h _ hj

theorem Parts.good (hf : PlainFeeder objs) (hP : Parts mats objs ds g D lines regs) {make : M → List (ℕ × ℕ) → Except String Element}
    (hD : g.network make = .ok D) : ∀ i ∈ D.items, i.refuses = false := by
  intro i hi
  rcases network_items hD i hi with ⟨e, rfl⟩ | ⟨r, rfl⟩ | ⟨x, hx, rfl⟩ | ⟨x, hx, rfl⟩
  · rfl
  · rfl
  · obtain ⟨d, hd, -, -, -, hgood, -⟩ := forall₂_mem_right hP.fuses hx
    show decide (x.status = .blown) = false
    rw [hgood (hf.fusesGood d hd)]
    rfl
  · rfl

theorem Parts.still (hP : Parts mats objs ds g D lines regs) {make : M → List (ℕ × ℕ) → Except String Element}
    (hD : g.network make = .ok D) (hfu : declaredFuses objs = []) (hca : ∀ d ∈ declaredCaps objs, d.obj.attr "control".toList = some "MANUAL".toList) :
    ∀ i ∈ D.items, i.Still := by
  intro i hi
  rcases network_items hD i hi with ⟨e, rfl⟩ | ⟨r, rfl⟩ | ⟨x, hx, rfl⟩ | ⟨x, hx, rfl⟩
  · trivial
  · trivial
  · obtain ⟨d, hd, -⟩ := forall₂_mem_right hP.fuses hx
    rw [hfu] at hd
    cases hd
  · obtain ⟨d, hd, -, -, -, -, hman, -⟩ := forall₂_mem_right hP.caps hx
    exact (hman (hca d hd)).1

end Glm

end Verif
