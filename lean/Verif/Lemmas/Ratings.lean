import Verif.Model.Ratings
import Verif.Lemmas.LineWires
import Verif.Lemmas.LineLaw

/-!
# Lemmas on ratings
-/

namespace Verif.Glm

/-- Keeping the ratings changes nothing else. -/
theorem readRated_wires {α : Type} {read : Obj → Char → Py (α × Obj)} {names : List (Char × Txt)} {objs : List (Txt × Obj)} {r : List α × List (Txt × Obj)}
    (h : readWires read objs names = .ok r) : ∃ ws, readRated read objs names = .ok (ws, r.2) ∧ ws.map Prod.fst = r.1 := by
  induction names generalizing objs r with
  | nil => cases h; exact ⟨[], rfl, rfl⟩
  | cons x names ih =>
    obtain ⟨p, n⟩ := x
    rw [readWires] at h
    cases ho : lookup n objs with
    | none => rw [ho] at h; cases h
    | some o =>
      rw [ho] at h
      obtain ⟨w, hw, h⟩ := bind_eq_ok h
      obtain ⟨_, hq, h⟩ := bind_eq_ok h
      obtain ⟨r', hr', h⟩ := bind_eq_ok h
      cases h
      rw [readRatings] at hq
      obtain ⟨e1, h1, hq⟩ := bind_eq_ok hq
      obtain ⟨e2, h2, -⟩ := bind_eq_ok hq
      obtain ⟨ws, hws, he⟩ := ih hr'
      refine ⟨(w.1, e2) :: ws, ?_, by rw [List.map_cons, he]⟩
      rw [readRated, ho]
      simp only [hw, h1, h2, hws, bind, Except.bind]

/-- The ratings are those of the conductors named. -/
theorem readRated_names {α : Type} {read : Obj → Char → Py (α × Obj)}
    (hr : ∀ o p w, read o p = .ok w → w.2.attr "rating.summer.emergency".toList = o.attr "rating.summer.emergency".toList)
    {names : List (Char × Txt)} {objs : List (Txt × Obj)} {r : List (α × Option ℚ) × List (Txt × Obj)} (h : readRated read objs names = .ok r) :
    List.Forall₂ (fun x e => ∃ w, lookup x.2 objs = some w ∧ floatAttribute w "rating.summer.emergency".toList = .ok e) names (r.1.map Prod.snd) := by
  suffices H : ∀ objs0, (∀ k o, lookup k objs = some o → ∃ o0, lookup k objs0 = some o0 ∧
      o.attr "rating.summer.emergency".toList = o0.attr "rating.summer.emergency".toList) →
      List.Forall₂ (fun x e => ∃ w, lookup x.2 objs0 = some w ∧ floatAttribute w "rating.summer.emergency".toList = .ok e) names (r.1.map Prod.snd) from
    H objs fun k o h => ⟨o, h, rfl⟩
  intro objs0
  induction names generalizing objs r with
  | nil => intro _; cases h; exact .nil
  | cons x names ih =>
    intro hs
    obtain ⟨p, n⟩ := x
    rw [readRated] at h
    cases ho : lookup n objs with
    | none => rw [ho] at h; cases h
    | some o =>
      rw [ho] at h
      obtain ⟨w, hw, h⟩ := bind_eq_ok h
      obtain ⟨e1, -, h⟩ := bind_eq_ok h
      obtain ⟨e, he, h⟩ := bind_eq_ok h
      obtain ⟨r', hr', h⟩ := bind_eq_ok h
      cases h
      obtain ⟨o0, h0, h1⟩ := hs n o ho
      have hwa : w.2.attr "rating.summer.emergency".toList = o0.attr "rating.summer.emergency".toList := (hr o p w hw).trans h1
      refine List.Forall₂.cons ⟨o0, h0, ?_⟩ (ih hr' fun k o' hk => ?_)
      · rw [← he, floatAttribute, floatAttribute, Obj.get, Obj.get]
        rw [Obj.attr, Obj.attr] at hwa
        rw [hwa]
      · by_cases e : k = n
        · rw [e, lookup_store_self] at hk
          cases hk
          exact ⟨o0, by rw [e]; exact h0, hwa⟩
        · rw [lookup_store_ne _ e] at hk
          exact hs k o' hk

theorem overheadConductor_emergency {o : Obj} {p : Char} {w : BareWire × Obj} (h : overheadConductor o p = .ok w) :
    w.2.attr "rating.summer.emergency".toList = o.attr "rating.summer.emergency".toList := by
  rw [overheadConductor] at h
  obtain ⟨d, -, h⟩ := bind_eq_ok h
  obtain ⟨⟨g, o1⟩, h1, h⟩ := bind_eq_ok h
  obtain ⟨⟨r, o2⟩, h2, h⟩ := bind_eq_ok h
  cases h
  exact (unitAttribute_attr h2 (by decide)).trans (unitAttribute_attr h1 (by decide))

theorem triplexConductor_emergency {o : Obj} {p : Char} {w : TriplexWire × Obj} (h : triplexConductor o p = .ok w) :
    w.2.attr "rating.summer.emergency".toList = o.attr "rating.summer.emergency".toList := by
  rw [triplexConductor] at h
  obtain ⟨d, -, h⟩ := bind_eq_ok h
  obtain ⟨g, -, h⟩ := bind_eq_ok h
  cases h
  rfl

theorem undergroundConductor_emergency {o : Obj} {p : Char} {w : CableWire × Obj} (h : undergroundConductor o p = .ok w) :
    w.2.attr "rating.summer.emergency".toList = o.attr "rating.summer.emergency".toList := by
  rw [undergroundConductor] at h
  obtain ⟨_, -, h⟩ := bind_eq_ok h
  obtain ⟨_, -, h⟩ := bind_eq_ok h
  obtain ⟨_, -, h⟩ := bind_eq_ok h
  obtain ⟨_, -, h⟩ := bind_eq_ok h
  obtain ⟨_, -, h⟩ := bind_eq_ok h
  obtain ⟨⟨r, o1⟩, h1, h⟩ := bind_eq_ok h
  obtain ⟨_, -, h⟩ := bind_eq_ok h
  obtain ⟨_, -, h⟩ := bind_eq_ok h
  cases h
  exact unitAttribute_attr h1 (by decide)

/-- The neutral comes last, so leaving it out moves no other wire. -/
theorem filter_neutral {l ps : List Char} (hl : l.Sublist (ps ++ ['N'])) (hp : 'N' ∉ ps) {i : ℕ} {p : Char} (h : (l.filter (· ≠ 'N'))[i]? = some p) :
    l[i]? = some p := by
  obtain ⟨a, b, rfl, ha, hb⟩ := List.sublist_append_iff.1 hl
  have e1 : a.filter (· ≠ 'N') = a := List.filter_eq_self.2 fun x hx => by
    simp only [decide_eq_true_eq]
    rintro rfl
    exact hp (ha.subset hx)
  have e2 : b.filter (· ≠ 'N') = [] := List.filter_eq_nil_iff.2 fun x hx => by
    simpa using hb.subset hx
  rw [List.filter_append, e1, e2, List.append_nil] at h
  obtain ⟨hi, -⟩ := List.getElem?_eq_some_iff.1 h
  rw [List.getElem?_append_left hi]
  exact h

theorem UsesConductor.back {objs objs' : List (Txt × Obj)} (hs : SameObjs objs objs') {o o' : Obj} (ho : SameObj o o') {p : Char} {w' : Obj}
    (h : UsesConductor objs' o' p w') : ∃ w, UsesConductor objs o p w ∧ SameObj w w' := by
  obtain ⟨k, c', n, h1, h2, h3, h4⟩ := h
  obtain ⟨c, hc, hcs⟩ := hs.to_some h2
  obtain ⟨w, hw, hws⟩ := hs.to_some h4
  refine ⟨w, ⟨k, c, n, ?_, hc, ?_, hw⟩, hws⟩
  · rw [← h1]
    exact (ho.attr _ (by decide)).symm
  · rw [← h3]
    refine (hcs.attr _ ?_).symm
    intro hm
    simp only [writtenAttributes, List.map_cons, List.map_nil, List.mem_cons, List.not_mem_nil, or_false] at hm
    rcases hm with hm | hm | hm <;> · have := congrArg List.length hm; simp at this

/-- What the ratings of a line are, by the letters of its wires. -/
theorem amps_named {α : Type} {read : Obj → Char → Py (α × Obj)} {phase : α → Char} (hph : ∀ o p w, read o p = .ok w → phase w.1 = p)
    (hr : ∀ o p w, read o p = .ok w → w.2.attr "rating.summer.emergency".toList = o.attr "rating.summer.emergency".toList)
    {objs objs' : List (Txt × Obj)} {o c : Obj} (hc : configurationOf objs o = .ok c) {ps : List Char} (hp : 'N' ∉ ps) {ws : List α}
    (h : readWires read objs (conductorNames c (ps ++ ['N'])) = .ok (ws, objs')) : ∃ rs, readRated read objs (conductorNames c (ps ++ ['N'])) = .ok (rs, objs') ∧
      ∀ (i : ℕ) (p : Char), ((ws.map phase).filter (· ≠ 'N'))[i]? = some p → ∃ w e, UsesConductor objs o p w ∧
        floatAttribute w "rating.summer.emergency".toList = .ok e ∧ (rs.map Prod.snd)[i]? = some e := by
  obtain ⟨rs, h1, h2⟩ := readRated_wires h
  refine ⟨rs, h1, fun i p hi => ?_⟩
  rw [readWires_phases hph h] at hi
  have hi := filter_neutral (conductorNames_sublist _ _) hp hi
  rw [List.getElem?_map, Option.map_eq_some_iff] at hi
  obtain ⟨x, hx, rfl⟩ := hi
  obtain ⟨hl, hF⟩ := List.forall₂_iff_get.1 (readRated_names hr h1)
  obtain ⟨hi, hxi⟩ := List.getElem?_eq_some_iff.1 hx
  obtain ⟨w, hw, he⟩ := hF i hi (by rw [← hl]; exact hi)
  simp only [List.get_eq_getElem] at hw he
  rw [hxi] at hw
  refine ⟨w, _, (conductorNames_uses hc (hxi ▸ List.getElem_mem hi) hw).2, he, ?_⟩
  exact List.getElem?_eq_getElem _

end Verif.Glm
