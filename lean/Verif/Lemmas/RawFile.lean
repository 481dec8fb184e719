import Verif.Lemmas.RawCase
import Mathlib.Data.List.Forall2

/-!
# From the rows of a file to the case
-/

namespace Verif.Raw

open Glm (Blank Number)

theorem integer_head {t : Txt} {n : ℤ} (h : Integer t n) : ∃ c t', t = c :: t' ∧ c ≠ '@' := by
  obtain ⟨s, ds, k, hs, hne, hd, rfl, rfl⟩ := h
  cases hs with
  | none =>
    cases ds with
    | nil => exact absurd rfl hne
    | cons c ds => exact ⟨c, ds, rfl, fun e => absurd (hd c (by simp)) (by rw [e]; decide)⟩
  | plus => exact ⟨'+', ds, rfl, by decide⟩
  | minus => exact ⟨'-', ds, rfl, by decide⟩

theorem readRows_header {header fields title1 title2 : Row} {first body : List Row} (hfirst : first = [] ∨ ∃ c, Comment c ∧ first = [c])
    (hh : HeaderRow header fields) (hf : Fits caseColumns 6 ["IC", "SBASE"] fields) {q : ℚ} {v : ℤ} (hid : readIdentification false header = .ok (q, v)) :
    readRows (first ++ header :: title1 :: title2 :: body) = runSections (sections v) { sbase := q, rev := v } body := by
  obtain ⟨b, c, -, hlen, hlen', -, hhead⟩ := header_take hh
  have c0 : colAt caseColumns 0 "IC" .integer = true := by decide +kernel
  have hic : ∃ c, firstChar header = some c ∧ c ≠ '@' := by
    obtain ⟨n, hn⟩ := (hf.holds c0).resolve_left (hf.filled "IC" (by simp))
    obtain ⟨c, t', e, hc⟩ := integer_head hn
    refine ⟨c, ?_, hc⟩
    cases fields with
    | nil => cases hlen
    | cons a l =>
      rw [under_eq c0] at e
      obtain rfl : a = c :: t' := e
      cases header with
      | nil => cases hhead
      | cons a' l' => cases hhead; rfl
  obtain ⟨c, hc1, hc2⟩ := hic
  have hne : decide (header.length = 2) = false := by simp; omega
  rcases hfirst with rfl | ⟨r, hr, rfl⟩
  · rw [List.nil_append, readRows]
    simp only [hc1, if_neg hc2, identification, hne, hid]
  · rw [List.singleton_append, readRows]
    simp only [hr.first, if_pos, identification, hc1, if_neg hc2, hne, hid]

theorem readRows_file {v : ℤ} (hv : Version v) {sbase : ℝ} {d : Document} {rows : List Row} (h : FileOf v sbase d rows) (hs : d.Sound v) :
    ∃ f, readRows rows = .ok f ∧ (f.sbase : ℝ) = sbase ∧ f.rev = v ∧ Collected v d f := by
  obtain ⟨first, header, fields, t1, t2, body, rfl, hfirst, hh, hf, hsb, hrev, hl⟩ := h
  obtain ⟨q, hq, hid⟩ := readIdentification_header hh hf hsb hrev
  obtain ⟨f, hrun, h1, h2, h3⟩ := runSections_document hv hs hl q
  exact ⟨f, (readRows_header hfirst hh hf hid).trans hrun, by rw [h1]; exact hq, h2, h3⟩

/-! ### The case -/

theorem listed_map {α β γ : Type} {states : α → γ → Prop} {rs : List α} {bs bs' : List β} (g : β → γ) (h : List.Forall₂ (fun r b => states r (g b)) rs bs)
    (hp : bs.Perm bs') : Listed states rs (bs'.map g) :=
  ⟨bs.map g, hp.map g, by rwa [List.forall₂_map_right_iff]⟩

theorem sortedBy_perm {α κ : Type} [LinearOrder κ] (key : α → κ) (l : List α) : l.Perm (sortedBy key l) := (List.perm_insertionSort _ l).symm

theorem sortedBy_sorted {α κ : Type} [LinearOrder κ] (key : α → κ) (l : List α) : (sortedBy key l).Pairwise fun a b => key a ≤ key b := by
  haveI : Std.Total fun a b : α => key a ≤ key b := ⟨fun a b => le_total (key a) (key b)⟩
  haveI : IsTrans α fun a b => key a ≤ key b := ⟨fun a b c => le_trans⟩
  exact List.pairwise_insertionSort _ l

theorem mapPy_forall₂ {α β : Type} {g : α → Py β} {l : List α} {m : List β} (h : List.Forall₂ (fun a b => g a = .ok b) l m) : mapPy g l = .ok m := by
  induction h with
  | nil => rfl
  | cons h _ ih => rw [mapPy, h]; simp only [ih]

theorem sortedGens_some (gs : List GenRow) : sortedGens (gs.map some) = .ok (sortedBy (fun g : GenRow => toLex (g.i, g.id)) gs) := by
  rw [sortedGens, if_neg (by simp)]
  congr 2
  simp

theorem toCase_collected {v : ℤ} (hv : Version v) {d : Document} {f : RawFile} (hr : f.rev = v) (h : Collected v d f) :
    ∃ c, f.toCase = .ok c ∧ c.sbase = f.sbase ∧ d.Means v c ∧ (c.buses.map BusRec.i).Pairwise (· < ·) := by
  obtain ⟨gs, hgs, hg, _⟩ := h.gens
  have h2 : ∃ ts, List.Forall₂ (fun (t : TwoRow) rec => t.toRec = .ok rec) (sortedBy (fun x : TwoRow => toLex (x.i, toLex (x.j, x.ckt))) f.two) ts ∧
      Listed (fun (x : TwoRows) rec => StatesTwo v x.r1 x.r2 x.r3 x.r4 rec ∧ (v ≠ 34 → StatesControl v x.r3 rec.w1)) d.two ts := by
    have hex : ∃ recs : List TwoRec, List.Forall₂ (fun (t : TwoRow) rec => t.toRec = .ok rec) f.two recs ∧
        List.Forall₂ (fun (x : TwoRows) rec => StatesTwo v x.r1 x.r2 x.r3 x.r4 rec ∧ (v ≠ 34 → StatesControl v x.r3 rec.w1)) d.two recs := by
      have h' := h.two
      revert h'
      generalize f.two = l
      generalize d.two = m
      intro h'
      induction h' with
      | nil => exact ⟨[], .nil, .nil⟩
      | cons hh _ ih =>
        obtain ⟨recs, i1, i2⟩ := ih
        obtain ⟨_, rec, e1, e2⟩ := hh
        exact ⟨rec :: recs, .cons e1 i1, .cons e2 i2⟩
    obtain ⟨recs, i1, i2⟩ := hex
    obtain ⟨ts, j1, j2⟩ := List.perm_comp_forall₂ (sortedBy_perm (fun x : TwoRow => toLex (x.i, toLex (x.j, x.ckt))) f.two).symm i1
    exact ⟨ts, j1, recs, j2.symm, i2⟩
  obtain ⟨ts, ht, hl⟩ := h2
  have h30 : f.rev ∈ ([30, 32, 33, 34] : List ℤ) := by rw [hr]; rcases hv with rfl | rfl | rfl <;> simp
  rw [RawFile.toCase, if_neg (by tauto), hgs, sortedGens_some, ok_then, mapPy_forall₂ ht, ok_then]
  refine ⟨_, rfl, rfl, ?_, ?_⟩
  · exact {
      buses := listed_map _ (h.buses.imp fun _ _ h => h.2) (sortedBy_perm _ _)
      loads := listed_map _ (h.loads.imp fun _ _ h => h.2) (sortedBy_perm _ _)
      fixed := listed_map _ (h.fixed.imp fun _ _ h => h.2) (sortedBy_perm _ _)
      generators := listed_map _ (hg.imp fun _ _ h => h.2) (sortedBy_perm _ _)
      branches := listed_map _ (h.branches.imp fun _ _ h => h.2) (sortedBy_perm _ _)
      two := hl
      three := listed_map _ (h.three.imp fun _ _ h => h.2) (sortedBy_perm _ _)
      switched := listed_map _ (h.switched.imp fun _ _ h => h.2) (sortedBy_perm _ _) }
  · show (((sortedBy BusRow.i f.buses).map BusRow.toRec).map BusRec.i).Pairwise (· < ·)
    rw [List.map_map, List.pairwise_map]
    refine ((sortedBy_sorted BusRow.i f.buses).and ?_).imp fun {a b} h => lt_of_le_of_ne h.1 h.2
    exact List.pairwise_map.1 ((List.Perm.nodup_iff ((sortedBy_perm BusRow.i f.buses).map _)).1 h.busKeys)

/-! ### Order of records -/

theorem perm_of_forall₂ {α β : Type} {P : α → β → Prop} (hu : ∀ a b b', P a b → P a b' → b = b') {l l' : List α} {m m' : List β}
    (h : List.Forall₂ P l m) (h' : List.Forall₂ P l' m') (hp : l.Perm l') : m.Perm m' := by
  obtain ⟨w, h1, h2⟩ := List.perm_comp_forall₂ hp h'
  have : m = w := by
    clear h' hp h2
    induction h generalizing w with
    | nil => cases h1; rfl
    | cons a _ ih =>
      cases h1 with
      | cons b hs => rw [hu _ _ _ a b, ih _ hs]
  rw [this]
  exact h2

theorem sortedBy_eq {α κ κ' : Type} [LinearOrder κ] (key : α → κ) (key' : α → κ') (hk : ∀ a b, key a = key b → key' a = key' b) {l l' : List α} (hp : l.Perm l')
    (hn : (l.map key').Nodup) : sortedBy key l = sortedBy key l' := by
  have hperm : (sortedBy key l).Perm (sortedBy key l') := (sortedBy_perm key l).symm.trans (hp.trans (sortedBy_perm key l'))
  refine List.Perm.eq_of_pairwise ?_ (sortedBy_sorted key l) (sortedBy_sorted key l') hperm
  intro a b ha hb h1 h2
  have ha' : a ∈ l := (sortedBy_perm key l).mem_iff.2 ha
  have hb' : b ∈ l := hp.mem_iff.2 ((sortedBy_perm key l').mem_iff.2 hb)
  exact List.inj_on_of_nodup_map hn ha' hb' (hk a b (le_antisymm h1 h2))

theorem ok_unique {α : Type} {x : Py α} {a b : α} (h1 : x = .ok a) (h2 : x = .ok b) : a = b := by
  rw [h1] at h2; cases h2; rfl

theorem toCase_rearranged {v : ℤ} {d d' : Document} {f f' : RawFile} (h : Collected v d f) (h' : Collected v d' f') (hd : d.Rearranged d')
    (hr : f.rev = v) (hr' : f'.rev = v) (hv : Version v) (hb : f.sbase = f'.sbase) : f.toCase = f'.toCase := by
  obtain ⟨gs, hgs, hg, hgn⟩ := h.gens
  obtain ⟨gs', hgs', hg', -⟩ := h'.gens
  have h30 : f.rev ∈ ([30, 32, 33, 34] : List ℤ) := by rw [hr]; rcases hv with rfl | rfl | rfl <;> simp
  have h30' : f'.rev ∈ ([30, 32, 33, 34] : List ℤ) := by rw [hr']; rcases hv with rfl | rfl | rfl <;> simp
  have e1 := sortedBy_eq BusRow.i BusRow.i (fun _ _ h => h) (perm_of_forall₂ (fun a b b' x y => ok_unique x.1 y.1) h.buses h'.buses hd.buses) h.busKeys
  have e2 := sortedBy_eq (fun l : LoadRow => toLex (l.i, l.id)) (fun l => (l.i, l.id)) (fun _ _ h => toLex.injective h)
    (perm_of_forall₂ (fun a b b' x y => ok_unique x.1 y.1) h.loads h'.loads hd.loads) h.loadKeys
  have e3 := sortedBy_eq (fun l : FixedRow => toLex (l.i, l.id)) (fun l => (l.i, l.id)) (fun _ _ h => toLex.injective h)
    (perm_of_forall₂ (fun a b b' x y => ok_unique x.1 y.1) h.fixed h'.fixed hd.fixed) h.fixedKeys
  have e4 := sortedBy_eq (fun l : GenRow => toLex (l.i, l.id)) (fun l => (l.i, l.id)) (fun _ _ h => toLex.injective h)
    (perm_of_forall₂ (fun a b b' x y => Option.some.inj (ok_unique x.1 y.1)) hg hg' hd.generators) hgn
  have e5 := sortedBy_eq (fun b : BranchRow => toLex (b.i, toLex (b.j, b.ckt))) (fun b => (b.i, b.j, b.ckt)) (fun a b h => by
      have h := toLex.injective h
      rw [Prod.mk.injEq] at h
      have h2 := toLex.injective h.2
      rw [Prod.mk.injEq] at h2
      rw [h.1, h2.1, h2.2])
    (perm_of_forall₂ (fun a b b' x y => ok_unique x.1 y.1) h.branches h'.branches hd.branches) h.branchKeys
  have e6 := sortedBy_eq (fun x : TwoRow => toLex (x.i, toLex (x.j, x.ckt))) (fun b => (b.i, b.j, b.ckt)) (fun a b h => by
      have h := toLex.injective h
      rw [Prod.mk.injEq] at h
      have h2 := toLex.injective h.2
      rw [Prod.mk.injEq] at h2
      rw [h.1, h2.1, h2.2])
    (perm_of_forall₂ (fun a b b' x y => ok_unique x.1 y.1) h.two h'.two hd.two) h.twoKeys
  have e7 := sortedBy_eq (fun x : ThreeRow => toLex (x.i, toLex (x.j, toLex (x.k, x.ckt)))) (fun b => (b.i, b.j, b.k, b.ckt)) (fun a b h => by
      have h := toLex.injective h
      rw [Prod.mk.injEq] at h
      have h2 := toLex.injective h.2
      rw [Prod.mk.injEq] at h2
      have h3 := toLex.injective h2.2
      rw [Prod.mk.injEq] at h3
      rw [h.1, h2.1, h3.1, h3.2])
    (perm_of_forall₂ (fun a b b' x y => ok_unique x.1 y.1) h.three h'.three hd.three) h.threeKeys
  have e8 := sortedBy_eq SwitchedRow.i SwitchedRow.i (fun _ _ h => h)
    (perm_of_forall₂ (fun a b b' x y => Option.some.inj (ok_unique x.1 y.1)) h.switched h'.switched hd.switched) h.switchedKeys
  rw [RawFile.toCase, RawFile.toCase, if_neg (by tauto), if_neg (by tauto), hgs, hgs', sortedGens_some, sortedGens_some, ok_then, ok_then]
  rw [e1, e2, e3, e4, e5, e6, e7, e8, hb]

end Verif.Raw
