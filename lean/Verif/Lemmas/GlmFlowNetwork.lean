import Verif.Lemmas.GlmFlowDevices

/-!
# The equations of a network and the circuit of a file
-/

namespace Verif.Glm

open Verif.Raw (busSum_nil busSum_append busSum_flatMap)

variable {M : Type} {objs : List (Txt × Obj)} {g : Grid M} {V : Txt → Char → ℂ} {U : Ref → ℂ}

/-- The sum of all currents at a bus. -/
noncomputable def total (U : Ref → ℂ) (es : List (Element × List ℝ)) (k : ℕ) : ℂ := (es.map fun y => busSum k (y.1.draws 0 U y.2)).sum

/-- At an inner bus only the element it belongs to has a current. -/
theorem isolate {es : List (Element × List ℝ)} (hnd : (es.flatMap fun y => y.1.inner).Nodup)
    (hq : ∀ y ∈ es, Quiet g y.1.inner (y.1.draws 0 U y.2)) {y : Element × List ℝ} (hy : y ∈ es) {k : ℕ} (hk : k ∈ y.1.inner) (hin : Inner g k)
    (h0 : total U es k = 0) : busSum k (y.1.draws 0 U y.2) = 0 := by
  obtain ⟨l1, l2, rfl⟩ := List.append_of_mem hy
  rw [List.flatMap_append, List.flatMap_cons] at hnd
  have z1 : ∀ x ∈ l1, busSum k (x.1.draws 0 U x.2) = 0 := fun x hx => hq x (by simp [hx]) k hin fun hkx =>
    (List.disjoint_of_nodup_append hnd) (List.mem_flatMap.2 ⟨x, hx, hkx⟩) (List.mem_append_left _ hk)
  have hnd2 := hnd.of_append_right
  have z2 : ∀ x ∈ l2, busSum k (x.1.draws 0 U x.2) = 0 := fun x hx => hq x (by simp [hx]) k hin fun hkx =>
    (List.disjoint_of_nodup_append hnd2) hk (List.mem_flatMap.2 ⟨x, hx, hkx⟩)
  rw [total, List.map_append, List.map_cons, List.sum_append, List.sum_cons,
    List.sum_eq_zero (by intro z hz; obtain ⟨x, hx, rfl⟩ := List.mem_map.1 hz; exact z1 x hx),
    List.sum_eq_zero (l := List.map _ l2) (by intro z hz; obtain ⟨x, hx, rfl⟩ := List.mem_map.1 hz; exact z2 x hx), zero_add, add_zero] at h0
  exact h0

theorem collect_sound (hc : Places objs g V U) {Fs : List (List (Term × ℂ) → Prop)} {es : List (Element × List ℝ)}
    (hM : List.Forall₂ (fun F (y : Element × List ℝ) => Models objs g V F y.1) Fs es) (ho : ∀ y ∈ es, Obeys U y.1 y.2) :
    ∃ ls, List.Forall₂ (fun F l => F l) Fs ls ∧ ∀ r p b, Place objs g r p b → drawnAt objs r p ls.flatten = total U es b := by
  induction hM with
  | nil => exact ⟨[], .nil, fun r p b hP => rfl⟩
  | cons h _ ih =>
    obtain ⟨ls, h1, h2⟩ := ih fun y hy => ho y (by simp [hy])
    obtain ⟨l, hl, hcar⟩ := h.sound U _ hc (ho _ (by simp))
    refine ⟨l :: ls, .cons hl h1, fun r p b hP => ?_⟩
    rw [List.flatten_cons, drawnAt_append, hcar r p b hP, h2 r p b hP, total, total, List.map_cons, List.sum_cons]

theorem collect_complete {Fs : List (List (Term × ℂ) → Prop)} {elems : List Element}
    (hM : List.Forall₂ (Models objs g V) Fs elems) : ∀ {ls : List (List (Term × ℂ))}, List.Forall₂ (fun F l => F l) Fs ls →
    ∃ (es : List (Element × List ℝ)) (vals : List (ℕ × ℂ)), es.map Prod.fst = elems ∧ vals.map Prod.fst = elems.flatMap Element.inner ∧
      (∀ y ∈ es, y.2.length = (y.1.laws 0 (fun _ => 0) []).length) ∧
      ∀ U, Places objs g V U → (∀ x ∈ vals, U (some x.1) = x.2) → (∀ y ∈ es, Obeys U y.1 y.2) ∧
        ∀ r p b, Place objs g r p b → drawnAt objs r p ls.flatten = total U es b := by
  induction hM with
  | nil =>
    intro ls hls
    cases hls
    exact ⟨[], [], rfl, rfl, fun y hy => absurd hy (by simp), fun U _ _ => ⟨fun y hy => absurd hy (by simp), fun r p b hP => rfl⟩⟩
  | @cons F e Fs elems h _ ih =>
    intro ls hls
    cases hls with
    | @cons _ l _ ls hl hls =>
      obtain ⟨es, vals, h1, h2, h3, h4⟩ := ih hls
      obtain ⟨vals0, w, k1, k2, k3⟩ := h.complete l hl
      refine ⟨(e, w) :: es, vals0 ++ vals, by rw [List.map_cons, h1], by rw [List.map_append, k1, h2, List.flatMap_cons], ?_, ?_⟩
      · intro y hy
        rcases List.mem_cons.1 hy with rfl | hy
        · exact k2
        · exact h3 y hy
      · intro U hc hv
        obtain ⟨o1, c1⟩ := k3 U hc fun x hx => hv x (List.mem_append_left _ hx)
        obtain ⟨o2, c2⟩ := h4 U hc fun x hx => hv x (List.mem_append_right _ hx)
        refine ⟨fun y hy => ?_, fun r p b hP => ?_⟩
        · rcases List.mem_cons.1 hy with rfl | hy
          · exact o1
          · exact o2 y hy
        · rw [List.flatten_cons, drawnAt_append, c1 r p b hP, c2 r p b hP, total, total, List.map_cons, List.sum_cons]

theorem forall₂_fst {α : Type} {R : α → Element → Prop} {xs : List α} {es : List (Element × List ℝ)} (h : List.Forall₂ R xs (es.map Prod.fst)) :
    List.Forall₂ (fun x (y : Element × List ℝ) => R x y.1) xs es := by
  rwa [List.forall₂_map_right_iff] at h

/-- What is needed of the buses of a file. -/
structure BusesOf (objs : List (Txt × Obj)) (g : Grid M) : Prop where
  root : ∀ n r r', FileRoot objs n r → FileRoot objs n r' → r = r'
  one : ∀ name p b b', FileAt objs g name p b → FileAt objs g name p b' → b = b'
  outer : ∀ (b : ℕ) (x : PhaseBus), g.buses[b]? = some x → x.virtual = false →
    ∃ y ∈ declaredPlaces objs, y.1.2.attr "parent".toList = none ∧ y.1.1 = x.name ∧ y.2 = x.phase
  have_ : ∀ y ∈ declaredPlaces objs, y.1.2.attr "parent".toList = none → ∃ b, Place objs g y.1.1 y.2 b

theorem fileAt_lt {name : Txt} {p : Char} {b : ℕ} (h : FileAt objs g name p b) : b < g.buses.length := by
  obtain ⟨r, x, _, hx, _⟩ := h
  exact (List.getElem?_eq_some_iff.1 hx).1

/-- The value at a number. -/
noncomputable def valAt (k : ℕ) : List (ℕ × ℂ) → ℂ
  | [] => 0
  | x :: vals => if x.1 = k then x.2 else valAt k vals

theorem valAt_of_nodup {vals : List (ℕ × ℂ)} (h : (vals.map Prod.fst).Nodup) {x : ℕ × ℂ} (hx : x ∈ vals) : valAt x.1 vals = x.2 := by
  induction vals with
  | nil => cases hx
  | cons y vals ih =>
    rw [List.map_cons, List.nodup_cons] at h
    rcases List.mem_cons.1 hx with rfl | hx
    · rw [valAt, if_pos rfl]
    · rw [valAt, if_neg (fun e : y.1 = x.1 => h.1 (e ▸ List.mem_map_of_mem hx))]
      exact ih h.2 hx

/-- **The equations of a network whose elements are the devices of a file are the circuit of the file.** -/
theorem circuit_iff {L : Library} (hL : L.Loaded) (N : Network) (ho : N.optimization = none) (hb : N.buses = g.buses.length)
    (hB : BusesOf objs g) (hnd : (N.elements.flatMap Element.inner).Nodup) (V : Txt → Char → ℂ) {Fs : List (List (Term × ℂ) → Prop)}
    (hM : List.Forall₂ (Models objs g V) Fs N.elements) :
    (∃ v, (∀ name p b, FileAt objs g name p b → V name p = (N.assign L).voltages v (some b)) ∧ ∀ i, networkEq (N.assign L).all 0 v i = 0) ↔
      (∀ x ∈ declaredPlaces objs, x.1.2.attr "parent".toList = none → ∀ n, FileRoot objs n x.1.1 → V n x.2 = V x.1.1 x.2) ∧
      ∃ ls, List.Forall₂ (fun F l => F l) Fs ls ∧
        ∀ x ∈ declaredPlaces objs, x.1.2.attr "parent".toList = none → drawnAt objs x.1.1 x.2 ls.flatten = 0 := by
  have hinner : ∀ e ∈ N.elements, ∀ k ∈ e.inner, Inner g k := fun e he k hk => by
    obtain ⟨F, _, hF⟩ := forall₂_mem_right hM he
    exact hF.inner k hk
  constructor
  · rintro ⟨v, hV, hz⟩
    have hK := (C67_equations_are_kirchhoff hL N ho 0 v).1 hz
    have hfst := owned_fst (L := L) N v
    generalize (N.assign L).owned L N v = es at hK hfst
    have h0 : (N.assign L).voltages v none = 0 := rfl
    generalize (N.assign L).voltages v = U at hK hV h0
    obtain ⟨hkcl, hlaw⟩ := hK
    have hc : Places objs g V U := ⟨hB.root, hB.one, h0, hV⟩
    have hM' : List.Forall₂ (fun F (y : Element × List ℝ) => Models objs g V F y.1) Fs es := forall₂_fst (by rw [hfst]; exact hM)
    have hkcl' : ∀ k < N.buses, total U es k = 0 := fun k hk => by
      have := hkcl k hk
      change busSum k _ = 0 at this
      rwa [busSum_flatMap] at this
    have hnd' : (es.flatMap fun y => y.1.inner).Nodup := by
      rw [← hfst, List.flatMap_map] at hnd
      exact hnd
    have hq : ∀ y ∈ es, Quiet g y.1.inner (y.1.draws 0 U y.2) := fun y hy => by
      obtain ⟨F, _, hF⟩ := forall₂_mem_right hM' hy
      exact hF.quiet U y.2
    obtain ⟨ls, h1, h2⟩ := collect_sound hc hM' fun y hy => ⟨hlaw y hy, fun k hk => by
      have hin := hinner y.1 (hfst ▸ List.mem_map_of_mem hy) k hk
      refine isolate hnd' hq hy hk hin (hkcl' k ?_)
      obtain ⟨x, hx, _⟩ := hin
      rw [hb]
      exact (List.getElem?_eq_some_iff.1 hx).1⟩
    refine ⟨fun x hx hp n hn => ?_, ls, h1, fun x hx hp => ?_⟩
    · obtain ⟨b, hP⟩ := hB.have_ x hx hp
      obtain ⟨r, y, hr, hy⟩ := hP.2
      have e := hB.root _ _ _ hr hP.1
      subst e
      rw [hV _ _ _ hP.2, hV n x.2 b ⟨_, y, hn, hy⟩]
    · obtain ⟨b, hP⟩ := hB.have_ x hx hp
      rw [h2 _ _ b hP]
      exact hkcl' b (hb ▸ fileAt_lt hP.2)
  · rintro ⟨hpar, ls, hls, hkcl⟩
    obtain ⟨es, vals, e1, e2, e3, e4⟩ := collect_complete hM hls
    let W : ℕ → ℂ := fun k => match g.buses[k]? with
      | some x => if x.virtual = true then valAt k vals else V x.name x.phase
      | none => 0
    obtain ⟨v, hv, hown⟩ := exists_values hL N ho W es e1 e3
    have hV : ∀ name p b, FileAt objs g name p b → V name p = (N.assign L).voltages v (some b) := by
      intro name p b hF
      rw [hv b (hb ▸ fileAt_lt hF)]
      obtain ⟨r, x, hr, hx, hn, hph, hvirt⟩ := hF
      obtain ⟨y, hy, hyp, hyn, hyph⟩ := hB.outer b x hx hvirt
      have hW : W b = V x.name x.phase := by
        simp only [W, hx, hvirt, Bool.false_eq_true, if_false]
      rw [hW, hn, hph, ← hph, ← hyph]
      have := hpar y hy hyp name (by rw [hyn, hn]; exact hr)
      rw [this, hyn, hn]
    have hc : Places objs g V ((N.assign L).voltages v) := ⟨hB.root, hB.one, rfl, hV⟩
    have hvals : ∀ x ∈ vals, (N.assign L).voltages v (some x.1) = x.2 := by
      intro x hx
      have hk : x.1 ∈ N.elements.flatMap Element.inner := e2 ▸ List.mem_map_of_mem hx
      obtain ⟨e, he, hke⟩ := List.mem_flatMap.1 hk
      obtain ⟨y, hy, hvirt⟩ := hinner e he x.1 hke
      rw [hv x.1 (hb ▸ (List.getElem?_eq_some_iff.1 hy).1)]
      simp only [W, hy, hvirt, if_true]
      exact valAt_of_nodup (by rw [e2]; exact hnd) hx
    obtain ⟨hob, hdr⟩ := e4 _ hc hvals
    refine ⟨v, hV, (C67_equations_are_kirchhoff hL N ho 0 v).2 ?_⟩
    rw [hown]
    refine ⟨fun k hk => ?_, fun y hy => (hob y hy).1⟩
    change busSum k _ = 0
    rw [busSum_flatMap]
    have hk' : k < g.buses.length := hb ▸ hk
    have hx : g.buses[k]? = some g.buses[k] := List.getElem?_eq_getElem hk'
    cases hvirt : g.buses[k].virtual with
    | false =>
      obtain ⟨y, hy, hyp, hyn, hyph⟩ := hB.outer k _ hx hvirt
      obtain ⟨b, hP⟩ := hB.have_ y hy hyp
      have hF : FileAt objs g y.1.1 y.2 k := ⟨y.1.1, _, hP.1, hx, hyn.symm, hyph.symm, hvirt⟩
      have e := hB.one _ _ _ _ hP.2 hF
      subst e
      have := hdr _ _ _ hP
      rw [hkcl y hy hyp] at this
      exact this.symm
    | true =>
      have hin : Inner g k := ⟨_, hx, hvirt⟩
      refine List.sum_eq_zero fun z hz => ?_
      obtain ⟨y, hy, rfl⟩ := List.mem_map.1 hz
      by_cases hky : k ∈ y.1.inner
      · exact (hob y hy).2 k hky
      · obtain ⟨F, _, hF⟩ := forall₂_mem_right hM (show y.1 ∈ N.elements from e1 ▸ List.mem_map_of_mem hy)
        exact hF.quiet _ _ k hin hky

end Verif.Glm
