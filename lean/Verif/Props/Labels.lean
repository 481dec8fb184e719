import Verif.Model.Labels
import Verif.Props.Placement
import Verif.Props.Kirchhoff

/-!
# C128: the printed place of the largest residual
-/

namespace Verif

open Ex Devices

variable {L : Library}

theorem mapGet_of_nodup {m : List (Idx × Txt)} (h : (m.map Prod.fst).Nodup) {i : ℕ} {t : Txt} (hm : (some i, t) ∈ m) : mapGet m i = some t := by
  have hex : (m.reverse.find? fun x => x.1 == some i).isSome := by
    rw [List.find?_isSome]
    exact ⟨_, List.mem_reverse.2 hm, by simp⟩
  obtain ⟨y, hy⟩ := Option.isSome_iff_exists.1 hex
  have h1 := List.find?_some hy
  have h2 := List.mem_reverse.1 (List.mem_of_find?_eq_some hy)
  have h3 : y.1 = some i := by simpa using h1
  have : y = (some i, t) := List.inj_on_of_nodup_map h h2 hm (by rw [h3])
  unfold mapGet
  rw [hy, this]; rfl

theorem mapGet_none {m : List (Idx × Txt)} {i : ℕ} (h : some i ∉ m.map Prod.fst) : mapGet m i = none := by
  unfold mapGet
  rw [List.find?_eq_none.2]
  · rfl
  · intro x hx hi
    exact h (List.mem_map.2 ⟨x, List.mem_reverse.1 hx, by simpa using hi⟩)

theorem mapGet_mem {m : List (Idx × Txt)} {i : ℕ} {t : Txt} (h : mapGet m i = some t) : (some i, t) ∈ m := by
  unfold mapGet at h
  cases hf : m.reverse.find? fun x => x.1 == some i with
  | none => rw [hf] at h; simp at h
  | some y =>
    rw [hf] at h
    have h1 : y.1 = some i := by simpa using List.find?_some hf
    have h2 := List.mem_reverse.1 (List.mem_of_find?_eq_some hf)
    have h3 : y.2 = t := by simpa using h
    rw [← h1, ← h3]; exact h2

theorem labels_sublist (opt : Bool) (names : List NodeLabel) (x : Element × List Placed) :
    ((slackLabels names x ++ xfmrLabels names x).map Prod.fst).Sublist ((Element.unknowns L opt x.1).map (unknownIdx x.2)) := by
  obtain ⟨e, ps⟩ := x
  cases e with
  | slack b vr vi =>
    simp only [slackLabels, xfmrLabels, List.append_nil, List.map_cons, List.map_nil, Element.unknowns, twoTerminalUnknowns, List.map_append]
    exact List.sublist_append_left _ _
  | transformer =>
    simp only [slackLabels, xfmrLabels, List.nil_append, List.map_cons, List.map_nil, Element.unknowns, xfmrUnknowns, List.map_append]
    exact List.sublist_append_left _ _
  | centerTap =>
    simp only [slackLabels, xfmrLabels, List.nil_append, List.map_cons, List.map_nil, Element.unknowns, List.map_append]
    exact List.sublist_append_left _ _
  | _ => simp [slackLabels, xfmrLabels]

theorem flatMap_sublist {α β : Type} {f g : α → List β} : ∀ {l : List α}, (∀ x ∈ l, (f x).Sublist (g x)) → (l.flatMap f).Sublist (l.flatMap g)
  | [], _ => List.Sublist.refl _
  | a :: l, h => by
    rw [List.flatMap_cons, List.flatMap_cons]
    exact (h a (by simp)).append (flatMap_sublist fun x hx => h x (by simp [hx]))

theorem matrixMap_nodup (hL : L.Loaded) (N : Network) (names : List NodeLabel) : ((matrixMap N names (N.assign L)).map Prod.fst).Nodup := by
  set a := N.assign L with ha
  have hu := (C07_distinct_and_dense hL N).1
  unfold Assignment.unknowns at hu
  have hu := (List.nodup_append.1 hu).1
  refine (List.Perm.nodup_iff ?_).1 (List.Nodup.sublist (l₁ := (busLabels names a.nodes).map Prod.fst ++
    ((N.elements.zip a.parts).flatMap fun x => slackLabels names x ++ xfmrLabels names x).map Prod.fst) ?_ hu)
  · unfold matrixMap
    rw [List.append_assoc, List.map_append]
    refine List.Perm.append_left _ (List.Perm.map _ ?_)
    exact (List.flatMap_append_perm _ _ _).symm
  · refine List.Sublist.append ?_ ?_
    · unfold busLabels
      rw [List.map_flatMap]
      have : a.nodes.flatMap (Node.unknowns N.opt) = a.nodes.zipIdx.flatMap fun x => Node.unknowns N.opt x.1 := by
        conv_lhs => rw [← List.zipIdx_map_fst 0 a.nodes, List.flatMap_map]
      rw [this]
      refine flatMap_sublist fun x _ => ?_
      simp [Node.unknowns]
    · rw [List.map_flatMap, ← List.map_uncurry_zip_eq_zipWith, ← List.flatMap_def]
      exact flatMap_sublist fun x _ => labels_sublist N.opt names x

/-- **C128, what holds.** The two voltages of every bus, the current of every slack, and the primary current and inner voltage of every
transformer are printed under the name of the bus they belong to, and all other equations as `other`. -/
theorem C128_names_partial (hL : L.Loaded) (N : Network) (names : List NodeLabel) :
    let a := N.assign L
    let attr := residualAttr (matrixMap N names a)
    (∀ k n i, a.nodes[k]? = some n → (n.vr = some i → attr i = labelText "bus".toList (nameAt names (some k)) "Vr".toList) ∧
      (n.vi = some i → attr i = labelText "bus".toList (nameAt names (some k)) "Vi".toList)) ∧
    (∀ b vr vi ps i, (.slack b vr vi, ps) ∈ N.elements.zip a.parts →
      (unknownIdx ps (0, .ISr) = some i → attr i = labelText "slack".toList (nameAt names (some b)) "Ir".toList) ∧
      (unknownIdx ps (0, .ISi) = some i → attr i = labelText "slack".toList (nameAt names (some b)) "Ii".toList)) ∧
    (∀ fp fn tp tn tr ang g b ps i, (.transformer fp fn tp tn tr ang g b, ps) ∈ N.elements.zip a.parts →
      (unknownIdx ps (0, .IrPrim) = some i → attr i = labelText "xfmr".toList (nameAt names fp) "Ir-pri".toList) ∧
      (unknownIdx ps (0, .IiPrim) = some i → attr i = labelText "xfmr".toList (nameAt names fp) "Ii-pri".toList) ∧
      (unknownIdx ps (0, .VrSecPos) = some i → attr i = labelText "xfmr".toList (nameAt names fp) "Vr-sec".toList) ∧
      (unknownIdx ps (0, .ViSecPos) = some i → attr i = labelText "xfmr".toList (nameAt names fp) "Vi-sec".toList)) ∧
    (∀ f p s1 t1 s2 t2 ratio g0 b0 g1 b1 g2 b2 ps i, (.centerTap f p s1 t1 s2 t2 ratio g0 b0 g1 b1 g2 b2, ps) ∈ N.elements.zip a.parts →
      (unknownIdx ps (0, .IrL1) = some i → attr i = labelText "xfmr-ct".toList (nameAt names (some f)) "L1_Ir".toList) ∧
      (unknownIdx ps (0, .IiL1) = some i → attr i = labelText "xfmr-ct".toList (nameAt names (some f)) "L1-Ii".toList) ∧
      (unknownIdx ps (0, .IrL2) = some i → attr i = labelText "xfmr-ct".toList (nameAt names (some f)) "L2-Ir".toList) ∧
      (unknownIdx ps (0, .IiL2) = some i → attr i = labelText "xfmr-ct".toList (nameAt names (some f)) "L2-Ii".toList)) ∧
    ∀ i, (∀ n ∈ a.nodes, n.vr ≠ some i ∧ n.vi ≠ some i) →
      (∀ x ∈ N.elements.zip a.parts, (∃ b vr vi, x.1 = .slack b vr vi) ∨ (∃ fp fn tp tn tr ang g b, x.1 = .transformer fp fn tp tn tr ang g b) ∨
        (∃ f p s1 t1 s2 t2 ratio g0 b0 g1 b1 g2 b2, x.1 = .centerTap f p s1 t1 s2 t2 ratio g0 b0 g1 b1 g2 b2) →
        some i ∉ (Element.unknowns L N.opt x.1).map (unknownIdx x.2)) → attr i = "other".toList := by
  intro a attr
  have hnd := matrixMap_nodup hL N names
  have hget : ∀ i t, (some i, t) ∈ matrixMap N names a → attr i = t := fun i t h => by
    show (mapGet _ i).getD _ = t
    rw [mapGet_of_nodup hnd h]; rfl
  have hbus : ∀ i t, (some i, t) ∈ busLabels names a.nodes → attr i = t := fun i t h =>
    hget i t (List.mem_append_left _ (List.mem_append_left _ h))
  have hslack : ∀ x ∈ N.elements.zip a.parts, ∀ i t, (some i, t) ∈ slackLabels names x → attr i = t := fun x hx i t h =>
    hget i t (List.mem_append_left _ (List.mem_append_right _ (List.mem_flatMap.2 ⟨x, hx, h⟩)))
  have hxf : ∀ x ∈ N.elements.zip a.parts, ∀ i t, (some i, t) ∈ xfmrLabels names x → attr i = t := fun x hx i t h =>
    hget i t (List.mem_append_right _ (List.mem_flatMap.2 ⟨x, hx, h⟩))
  refine ⟨fun k n i hn => ⟨fun h => ?_, fun h => ?_⟩, fun b vr vi ps i hx => ⟨fun h => ?_, fun h => ?_⟩,
    fun fp fn tp tn tr ang g b ps i hx => ⟨fun h => ?_, fun h => ?_, fun h => ?_, fun h => ?_⟩,
    fun f p s1 t1 s2 t2 ratio g0 b0 g1 b1 g2 b2 ps i hx => ⟨fun h => ?_, fun h => ?_, fun h => ?_, fun h => ?_⟩, fun i h1 h2 => ?_⟩
  · exact hbus i _ (List.mem_flatMap.2 ⟨(n, k), List.mem_zipIdx_iff_getElem?.2 hn, by simp [h]⟩)
  · exact hbus i _ (List.mem_flatMap.2 ⟨(n, k), List.mem_zipIdx_iff_getElem?.2 hn, by simp [h]⟩)
  · exact hslack _ hx i _ (by simp [slackLabels, h])
  · exact hslack _ hx i _ (by simp [slackLabels, h])
  · exact hxf _ hx i _ (by simp [xfmrLabels, h])
  · exact hxf _ hx i _ (by simp [xfmrLabels, h])
  · exact hxf _ hx i _ (by simp [xfmrLabels, h])
  · exact hxf _ hx i _ (by simp [xfmrLabels, h])
  · exact hxf _ hx i _ (by simp [xfmrLabels, h])
  · exact hxf _ hx i _ (by simp [xfmrLabels, h])
  · exact hxf _ hx i _ (by simp [xfmrLabels, h])
  · exact hxf _ hx i _ (by simp [xfmrLabels, h])
  · show (mapGet _ i).getD _ = _
    rw [mapGet_none]
    · rfl
    · intro hi
      unfold matrixMap at hi
      rw [List.append_assoc, List.map_append, List.mem_append] at hi
      rcases hi with hi | hi
      · obtain ⟨y, hy, hyi⟩ := List.mem_map.1 hi
        obtain ⟨⟨n, k⟩, hx, hy⟩ := List.mem_flatMap.1 hy
        have := h1 n (List.mem_of_getElem? (List.mem_zipIdx_iff_getElem?.1 hx))
        simp only [List.mem_cons, List.not_mem_nil, or_false] at hy
        rcases hy with rfl | rfl
        · exact this.1 hyi
        · exact this.2 hyi
      · have hi := (List.Perm.map Prod.fst (List.flatMap_append_perm (N.elements.zip a.parts) (slackLabels names) (xfmrLabels names))).mem_iff.1 hi
        obtain ⟨y, hy, hyi⟩ := List.mem_map.1 hi
        obtain ⟨x, hx, hy⟩ := List.mem_flatMap.1 hy
        refine h2 x hx ?_ ((labels_sublist (L := L) N.opt names x).subset (List.mem_map.2 ⟨y, hy, hyi⟩))
        obtain ⟨e, ps⟩ := x
        cases e with
        | slack b vr vi => exact Or.inl ⟨b, vr, vi, rfl⟩
        | transformer fp fn tp tn tr ang g b => exact Or.inr (Or.inl ⟨fp, fn, tp, tn, tr, ang, g, b, rfl⟩)
        | centerTap f p s1 t1 s2 t2 ratio g0 b0 g1 b1 g2 b2 =>
          exact Or.inr (Or.inr ⟨f, p, s1, t1, s2, t2, ratio, g0, b0, g1, b1, g2, b2, rfl⟩)
        | _ => simp [slackLabels, xfmrLabels] at hy

/-! ### Labels that identify -/

theorem split_colon {a a' r r' : Txt} (h : a ++ ':' :: r = a' ++ ':' :: r') (ha : ':' ∉ a) (ha' : ':' ∉ a') : a = a' ∧ r = r' := by
  induction a generalizing a' with
  | nil =>
    cases a' with
    | nil => simpa using h
    | cons c a' => simp at h; exact absurd (by rw [h.1]; simp) ha'
  | cons c a ih =>
    cases a' with
    | nil => simp at h; exact absurd (by rw [h.1]; simp) ha
    | cons c' a' =>
      simp only [List.cons_append, List.cons.injEq] at h
      obtain ⟨h1, h2⟩ := ih h.2 (fun h => ha (by simp [h])) (fun h => ha' (by simp [h]))
      exact ⟨by rw [h.1, h1], h2⟩

theorem split_colon_last {a a' r r' : Txt} (h : a ++ ':' :: r = a' ++ ':' :: r') (hr : ':' ∉ r) (hr' : ':' ∉ r') : a = a' ∧ r = r' := by
  have h2 := congrArg List.reverse h
  simp only [List.reverse_append, List.reverse_cons, List.append_assoc, List.singleton_append] at h2
  obtain ⟨h3, h4⟩ := split_colon h2 (by simpa using hr) (by simpa using hr')
  exact ⟨List.reverse_injective h4, List.reverse_injective h3⟩

theorem labelText_inj {k k' q q' : Txt} {b b' : NodeLabel} (h : labelText k b q = labelText k' b' q') (hk : ':' ∉ k) (hk' : ':' ∉ k')
    (hq : ':' ∉ q) (hq' : ':' ∉ q') (hb : ':' ∉ b.phase) (hb' : ':' ∉ b'.phase) : k = k' ∧ b = b' ∧ q = q' := by
  have e : ∀ (k q : Txt) (b : NodeLabel), labelText k b q = k ++ ':' :: (b.name ++ ':' :: (b.phase ++ ':' :: q)) := fun k q b => by
    show k ++ [':'] ++ b.name ++ [':'] ++ b.phase ++ [':'] ++ q = _
    simp only [List.append_assoc, List.cons_append, List.nil_append]
  rw [e, e] at h
  obtain ⟨h1, h2⟩ := split_colon h hk hk'
  have e2 : ∀ (q : Txt) (b : NodeLabel), b.name ++ ':' :: (b.phase ++ ':' :: q) = (b.name ++ ':' :: b.phase) ++ ':' :: q := fun q b => by simp
  rw [e2, e2] at h2
  obtain ⟨h3, h4⟩ := split_colon_last h2 hq hq'
  obtain ⟨h5, h6⟩ := split_colon_last h3 hb hb'
  refine ⟨h1, ?_, h4⟩
  cases b; cases b'; dsimp only at h5 h6; rw [h5, h6]

/-- What a device is printed as: its kind, and the bus it is named by. Other devices are not printed. -/
def Element.shown : Element → Option (Txt × Ref)
  | .slack b _ _ => some ("slack".toList, some b)
  | .transformer fp .. => some ("xfmr".toList, fp)
  | .centerTap f .. => some ("xfmr-ct".toList, some f)
  | _ => none

/-- The printed quantities of a device. -/
def shownRows : Element × List Placed → List (Txt × Idx)
  | (.slack .., ps) => [("Ir".toList, unknownIdx ps (0, .ISr)), ("Ii".toList, unknownIdx ps (0, .ISi))]
  | (.transformer .., ps) => [("Ir-pri".toList, unknownIdx ps (0, .IrPrim)), ("Ii-pri".toList, unknownIdx ps (0, .IiPrim)),
      ("Vr-sec".toList, unknownIdx ps (0, .VrSecPos)), ("Vi-sec".toList, unknownIdx ps (0, .ViSecPos))]
  | (.centerTap .., ps) => [("L1_Ir".toList, unknownIdx ps (0, .IrL1)), ("L1-Ii".toList, unknownIdx ps (0, .IiL1)),
      ("L2-Ir".toList, unknownIdx ps (0, .IrL2)), ("L2-Ii".toList, unknownIdx ps (0, .IiL2))]
  | _ => []

theorem shownRows_texts (x : Element × List Placed) : ((shownRows x).map Prod.fst).Nodup ∧ ∀ y ∈ shownRows x, ':' ∉ y.1 := by
  obtain ⟨e, ps⟩ := x
  cases e with
  | slack => exact ⟨by simp only [shownRows, List.map_cons, List.map_nil]; decide, by simp only [shownRows, List.forall_mem_cons]; exact ⟨by decide, by decide, by simp⟩⟩
  | transformer =>
    exact ⟨by simp only [shownRows, List.map_cons, List.map_nil]; decide,
      by simp only [shownRows, List.forall_mem_cons]; exact ⟨by decide, by decide, by decide, by decide, by simp⟩⟩
  | centerTap =>
    exact ⟨by simp only [shownRows, List.map_cons, List.map_nil]; decide,
      by simp only [shownRows, List.forall_mem_cons]; exact ⟨by decide, by decide, by decide, by decide, by simp⟩⟩
  | _ => exact ⟨List.nodup_nil, by simp [shownRows]⟩

theorem device_label (names : List NodeLabel) (x : Element × List Placed) (y : Idx × Txt) (hy : y ∈ slackLabels names x ++ xfmrLabels names x) :
    ∃ κ r q, x.1.shown = some (κ, r) ∧ (q, y.1) ∈ shownRows x ∧ y.2 = labelText κ (nameAt names r) q ∧ ':' ∉ κ ∧ κ ≠ "bus".toList := by
  obtain ⟨e, ps⟩ := x
  cases e with
  | slack b vr vi =>
    simp only [slackLabels, xfmrLabels, List.append_nil, List.mem_cons, List.not_mem_nil, or_false] at hy
    rcases hy with rfl | rfl
    all_goals exact ⟨_, _, _, rfl, by simp [shownRows], rfl, by decide, by decide⟩
  | transformer =>
    simp only [slackLabels, xfmrLabels, List.nil_append, List.mem_cons, List.not_mem_nil, or_false] at hy
    rcases hy with rfl | rfl | rfl | rfl
    all_goals exact ⟨_, _, _, rfl, by simp [shownRows], rfl, by decide, by decide⟩
  | centerTap =>
    simp only [slackLabels, xfmrLabels, List.nil_append, List.mem_cons, List.not_mem_nil, or_false] at hy
    rcases hy with rfl | rfl | rfl | rfl
    all_goals exact ⟨_, _, _, rfl, by simp [shownRows], rfl, by decide, by decide⟩
  | _ => simp [slackLabels, xfmrLabels] at hy

theorem nameAt_inj {names : List NodeLabel} (hn : names.Nodup) (hg : groundName ∉ names) {r r' : Ref} (hr : Ref.Valid names.length r)
    (hr' : Ref.Valid names.length r') (h : nameAt names r = nameAt names r') : r = r' := by
  have hget : ∀ k (hk : k < names.length), nameAt names (some k) = names[k] := fun k hk => by
    simp [nameAt, List.getD_eq_getElem?_getD, List.getElem?_eq_getElem hk]
  cases r with
  | none =>
    cases r' with
    | none => rfl
    | some k => rw [hget k hr'] at h; exact absurd (by rw [show groundName = names[k]'hr' from h]; exact List.getElem_mem _) hg
  | some k =>
    rw [hget k hr] at h
    cases r' with
    | none => exact absurd (by rw [← show names[k]'hr = groundName from h]; exact List.getElem_mem _) hg
    | some k' =>
      rw [hget k' hr'] at h
      rw [(List.Nodup.getElem_inj_iff hn).1 h]

theorem nameAt_phase {names : List NodeLabel} (hp : ∀ b ∈ names, ':' ∉ b.phase) (r : Ref) : ':' ∉ (nameAt names r).phase := by
  have hgr : ':' ∉ groundName.phase := by decide
  cases r with
  | none => exact hgr
  | some k =>
    show ':' ∉ (names.getD k groundName).phase
    rw [List.getD_eq_getElem?_getD]
    cases h : names[k]? with
    | none => exact hgr
    | some b => exact hp b (List.mem_of_getElem? h)

theorem shown_valid {n : ℕ} {e : Element} (hv : e.Valid n) {κ : Txt} {r : Ref} (h : e.shown = some (κ, r)) : Ref.Valid n r := by
  cases e with
  | slack => simp [Element.shown] at h; rw [← h.2]; exact hv
  | transformer => simp [Element.shown] at h; rw [← h.2]; exact hv.1
  | centerTap => simp [Element.shown] at h; rw [← h.2]; exact hv.1
  | _ => simp [Element.shown] at h

/-- **C128, which places are told apart.** If buses have names of their own and no bus has two slacks or feeds two transformers of one kind, two equations
printed under the same text other than `other` are the same equation. -/
theorem C128_identify_partial (N : Network) (hv : N.Valid) (names : List NodeLabel) (hlen : names.length = N.buses) (hn : names.Nodup)
    (hg : groundName ∉ names) (hp : ∀ b ∈ names, ':' ∉ b.phase)
    (hone : ∀ (i j : ℕ) (e e' : Element), N.elements[i]? = some e → N.elements[j]? = some e' → e.shown = e'.shown → e.shown ≠ none → i = j) (i j : ℕ)
    (h : residualAttr (matrixMap N names (N.assign L)) i = residualAttr (matrixMap N names (N.assign L)) j)
    (ho : residualAttr (matrixMap N names (N.assign L)) i ≠ "other".toList) : i = j := by
  set a := N.assign L with ha
  set m := matrixMap N names a with hm
  have hl : a.nodes.length = N.buses := (assignBuses_proper _ _ _).1
  have hi : ∀ i, residualAttr m i ≠ "other".toList → ∃ t, residualAttr m i = t ∧ (some i, t) ∈ m := fun i ho => by
    cases hg : mapGet m i with
    | none => exact absurd (by unfold residualAttr; rw [hg]; rfl) ho
    | some t => exact ⟨t, by unfold residualAttr; rw [hg]; rfl, mapGet_mem hg⟩
  obtain ⟨t, h1, h2⟩ := hi i ho
  obtain ⟨t', h3, h4⟩ := hi j (by rw [← h]; exact ho)
  have ht : t' = t := by rw [← h3, ← h, h1]
  subst ht
  -- where an entry comes from
  have hsrc : ∀ y ∈ m, (∃ (k : ℕ) (n : Node) (q : Txt), a.nodes[k]? = some n ∧ y.2 = labelText "bus".toList (nameAt names (some k)) q ∧ ':' ∉ q ∧
      (q = "Vr".toList ∧ y.1 = n.vr ∨ q = "Vi".toList ∧ y.1 = n.vi)) ∨
      ∃ (p : ℕ) (x : Element × List Placed) (κ : Txt) (r : Ref) (q : Txt), (N.elements.zip a.parts)[p]? = some x ∧ x.1.shown = some (κ, r) ∧ (q, y.1) ∈ shownRows x ∧
        y.2 = labelText κ (nameAt names r) q ∧ ':' ∉ κ ∧ κ ≠ "bus".toList := by
    intro y hy
    rw [hm] at hy
    unfold matrixMap at hy
    rw [List.append_assoc, List.mem_append] at hy
    rcases hy with hy | hy
    · left
      obtain ⟨⟨n, k⟩, hx, hy⟩ := List.mem_flatMap.1 hy
      have hx := List.mem_zipIdx_iff_getElem?.1 hx
      simp only [List.mem_cons, List.not_mem_nil, or_false] at hy
      rcases hy with rfl | rfl
      · exact ⟨k, n, _, hx, rfl, by decide, Or.inl ⟨rfl, rfl⟩⟩
      · exact ⟨k, n, _, hx, rfl, by decide, Or.inr ⟨rfl, rfl⟩⟩
    · right
      rw [(List.flatMap_append_perm (N.elements.zip a.parts) (slackLabels names) (xfmrLabels names)).mem_iff] at hy
      obtain ⟨x, hx, hy⟩ := List.mem_flatMap.1 hy
      obtain ⟨p, hp⟩ := List.getElem?_of_mem hx
      obtain ⟨κ, r, q, c1, c2, c3, c4, c5⟩ := device_label names x y hy
      exact ⟨p, x, κ, r, q, hp, c1, c2, c3, c4, c5⟩
  have hph := nameAt_phase hp
  have hb : ':' ∉ "bus".toList := by decide
  rcases hsrc _ h2 with ⟨k, n, q, c1, c2, c3, c4⟩ | ⟨p, x, κ, r, q, c1, c2, c3, c4, c5, c6⟩ <;>
    rcases hsrc _ h4 with ⟨k', n', q', d1, d2, d3, d4⟩ | ⟨p', x', κ', r', q', d1, d2, d3, d4, d5, d6⟩
  · obtain ⟨_, e2, e3⟩ := labelText_inj (c2.symm.trans d2) hb hb c3 d3 (hph _) (hph _)
    have hk : k < N.buses := by rw [← hl]; exact (List.getElem?_eq_some_iff.1 c1).1
    have hk' : k' < N.buses := by rw [← hl]; exact (List.getElem?_eq_some_iff.1 d1).1
    have := nameAt_inj hn hg (r := some k) (r' := some k') (by rw [hlen]; exact hk) (by rw [hlen]; exact hk') e2
    have hkk := Option.some.inj this
    subst hkk
    have hnn : n = n' := by rw [c1] at d1; exact Option.some.inj d1
    subst hnn e3
    rcases c4 with ⟨e, f⟩ | ⟨e, f⟩ <;> rcases d4 with ⟨e', f'⟩ | ⟨e', f'⟩
    · exact Option.some.inj (f.trans f'.symm)
    · exact absurd (e.symm.trans e') (by decide)
    · exact absurd (e.symm.trans e') (by decide)
    · exact Option.some.inj (f.trans f'.symm)
  · exact absurd (labelText_inj (c2.symm.trans d4) hb d5 c3 ((shownRows_texts x').2 _ d3) (hph _) (hph _)).1 (Ne.symm d6)
  · exact absurd (labelText_inj (c4.symm.trans d2) c5 hb ((shownRows_texts x).2 _ c3) d3 (hph _) (hph _)).1 c6
  · obtain ⟨e1, e2, e3⟩ := labelText_inj (c4.symm.trans d4) c5 d5 ((shownRows_texts x).2 _ c3) ((shownRows_texts x').2 _ d3) (hph _) (hph _)
    obtain ⟨f1, _⟩ := List.getElem?_zip_eq_some.1 c1
    obtain ⟨g1, _⟩ := List.getElem?_zip_eq_some.1 d1
    have hr := nameAt_inj hn hg (by rw [hlen]; exact shown_valid (hv _ (List.mem_of_getElem? f1)) c2)
      (by rw [hlen]; exact shown_valid (hv _ (List.mem_of_getElem? g1)) d2) e2
    have hpp := hone p p' _ _ f1 g1 (by rw [c2, d2, e1, hr]) (by rw [c2]; simp)
    subst hpp
    have hxx : x = x' := by rw [c1] at d1; exact Option.some.inj d1
    subst hxx e3
    have := List.inj_on_of_nodup_map (shownRows_texts x).1 c3 d3 rfl
    simpa using this

/-- Two transformers fed from one bus, and a generator. -/
noncomputable def pairNet : Network := ⟨3, [.transformer (some 0) none (some 1) none 1 0 1 0, .transformer (some 0) none (some 2) none 1 0 1 0,
  .generator 2 (-1) 1, .slack 0 1 0], none⟩

theorem pair_nodes : (pairNet.assign L).nodes = [plainNode 0, plainNode 1, plainNode 2] := rfl

/-- **C128 fails for parallel transformers.** The currents of two transformers fed from one bus are different unknowns printed under the same text. -/
theorem C128_shared_fails (hL : L.Loaded) (names : List NodeLabel) : ∃ i j, i ≠ j ∧ i < (pairNet.assign L).size ∧ j < (pairNet.assign L).size ∧
    residualAttr (matrixMap pairNet names (pairNet.assign L)) i = labelText "xfmr".toList (nameAt names (some 0)) "Ir-pri".toList ∧
    residualAttr (matrixMap pairNet names (pairNet.assign L)) j = labelText "xfmr".toList (nameAt names (some 0)) "Ir-pri".toList := by
  have h := (C128_names_partial hL pairNet names).2.2.1
  have hd := (C07_distinct_and_dense hL pairNet).2
  have hu : ∀ i, some i ∈ [some 6, some 10] → some i ∈ (pairNet.assign L).unknowns L pairNet := fun i hi => by
    unfold Assignment.unknowns
    refine List.mem_append_left _ (List.mem_append_right _ (List.mem_flatten.2 ?_))
    simp only [List.mem_cons, List.not_mem_nil, or_false, Option.some.injEq] at hi
    rcases hi with rfl | rfl
    · exact ⟨_, List.mem_cons_self .., List.mem_cons_self ..⟩
    · exact ⟨_, List.mem_cons_of_mem _ (List.mem_cons_self ..), List.mem_cons_self ..⟩
  refine ⟨6, 10, by norm_num, (hd 6).2 (hu 6 (by simp)), (hd 10).2 (hu 10 (by simp)), ?_, ?_⟩
  · exact (h (some 0) none (some 1) none 1 0 1 0 _ 6 (List.mem_cons_self ..)).1 rfl
  · exact (h (some 0) none (some 2) none 1 0 1 0 _ 10 (List.mem_cons_of_mem _ (List.mem_cons_self ..))).1 rfl

/-- A generator and a slack at one bus. -/
noncomputable def genFirst : Network := ⟨1, [.generator 0 (-1) 1, .slack 0 1 0], none⟩

/-- **C128 fails for generators.** The equation of the voltage set point of a generator is printed as `other`. -/
theorem C128_other_fails (hL : L.Loaded) (names : List NodeLabel) : ∃ i < (genFirst.assign L).size, ∃ ps,
    (.generator 0 (-1) 1, ps) ∈ genFirst.elements.zip (genFirst.assign L).parts ∧ unknownIdx ps (0, .Q) = some i ∧
    residualAttr (matrixMap genFirst names (genFirst.assign L)) i = "other".toList := by
  obtain ⟨k, g1, g2, g3⟩ := gen_shape hL
  have hsg := twoTerminalDetails_spec (plainNode 0) Node.ground 2 false g1 g2 (by simp) (by simp [terminalDict])
  have h3 := hsg.2.2.2.2.1 .Q (by simp)
  have h4 : (twoTerminalDetails L.gen (plainNode 0) Node.ground 2 false).2 = 3 := (gen_total hL (plainNode 0) Node.ground 2 0 0 0 (fun _ => 0) 0).1
  obtain ⟨m, s1, s2, s3⟩ := slack_shape hL
  have hsp := twoTerminalDetails_spec (plainNode 0) Node.ground 3 false s1 s2 (by simp) (by simp [terminalDict])
  have k1 := hsp.2.2.2.2.1 .ISr (by simp)
  have k2 := hsp.2.2.2.2.1 .ISi (by simp)
  have k3 : (twoTerminalDetails L.slack (plainNode 0) Node.ground 3 false).2 = 5 := hsp.2.2.2.2.2.2
  have hs : (genFirst.assign L).size = (twoTerminalDetails L.slack (plainNode 0) Node.ground
      (twoTerminalDetails L.gen (plainNode 0) Node.ground 2 false).2 false).2 := rfl
  refine ⟨2, by rw [hs, h4, k3]; norm_num, _, List.mem_cons_self .., ?_, ?_⟩
  · show (twoTerminalDetails L.gen (plainNode 0) Node.ground 2 false).1.varMap .Q = some 2
    rw [h3]; simp
  · have e : matrixMap genFirst names (genFirst.assign L) =
        [(some 0, labelText "bus".toList (nameAt names (some 0)) "Vr".toList), (some 1, labelText "bus".toList (nameAt names (some 0)) "Vi".toList),
         ((twoTerminalDetails L.slack (plainNode 0) Node.ground (twoTerminalDetails L.gen (plainNode 0) Node.ground 2 false).2 false).1.varMap .ISr,
           labelText "slack".toList (nameAt names (some 0)) "Ir".toList),
         ((twoTerminalDetails L.slack (plainNode 0) Node.ground (twoTerminalDetails L.gen (plainNode 0) Node.ground 2 false).2 false).1.varMap .ISi,
           labelText "slack".toList (nameAt names (some 0)) "Ii".toList)] := rfl
    rw [e, h4, k1, k2]
    generalize labelText "bus".toList (nameAt names (some 0)) "Vr".toList = t1
    generalize labelText "bus".toList (nameAt names (some 0)) "Vi".toList = t2
    generalize labelText "slack".toList (nameAt names (some 0)) "Ir".toList = t3
    generalize labelText "slack".toList (nameAt names (some 0)) "Ii".toList = t4
    rfl

/-- Names of the buses of a small network. -/
def abcNames : List NodeLabel := [⟨"a".toList, "A".toList⟩, ⟨"a".toList, "B".toList⟩, ⟨"b".toList, "NA".toList⟩]

/-- A slack, a transformer and a center-tap transformer that share a bus. -/
noncomputable def soleNet : Network := ⟨3, [.transformer (some 0) none (some 1) none 1 0 1 0, .centerTap 0 1 1 2 2 2 1 1 0 1 0 1 0, .slack 0 1 0], none⟩

example (i j : ℕ) (h : residualAttr (matrixMap soleNet abcNames (soleNet.assign L)) i = residualAttr (matrixMap soleNet abcNames (soleNet.assign L)) j)
    (ho : residualAttr (matrixMap soleNet abcNames (soleNet.assign L)) i ≠ "other".toList) : i = j := by
  refine C128_identify_partial soleNet ?_ abcNames rfl (by decide) (by decide) (by decide) ?_ i j h ho
  · intro e he
    simp [soleNet] at he
    rcases he with rfl | rfl | rfl <;> simp [Element.Valid, Ref.Valid, soleNet]
  · intro i j e e' h1 h2 h3 h4
    have hs : ∀ i (e : Element), soleNet.elements[i]? = some e → e.shown = ([some ("xfmr".toList, some 0), some ("xfmr-ct".toList, some 0),
        some ("slack".toList, some 0)] : List (Option (Txt × Ref))).getD i none ∧ i < 3 := by
      intro i e h
      match i, h with
      | 0, h => cases h; exact ⟨rfl, by norm_num⟩
      | 1, h => cases h; exact ⟨rfl, by norm_num⟩
      | 2, h => cases h; exact ⟨rfl, by norm_num⟩
    obtain ⟨a1, a2⟩ := hs i e h1
    obtain ⟨b1, b2⟩ := hs j e' h2
    rw [a1, b1] at h3
    match i, j, a2, b2, h3 with
    | 0, 0, _, _, _ | 1, 1, _, _, _ | 2, 2, _, _, _ => rfl
    | 0, 1, _, _, h3 | 0, 2, _, _, h3 | 1, 0, _, _, h3 | 1, 2, _, _, h3 | 2, 0, _, _, h3 | 2, 1, _, _, h3 => exact absurd h3 (by decide)

/-- The labels are not all `other`. -/
example (hL : L.Loaded) : residualAttr (matrixMap soleNet abcNames (soleNet.assign L)) 3 = "bus:a:B:Vi".toList :=
  (((C128_names_partial hL soleNet abcNames).1 1 (plainNode 1) 3 rfl).2 rfl).trans (by decide)

end Verif
