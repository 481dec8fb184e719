import Verif.Lemmas.RawRecords
import Mathlib.Data.List.Perm.Basic

/-!
# The case of a file
-/

namespace Verif.Raw

open Glm (Blank cutAt Number)

/-! ### Sections that keep records -/

theorem foldl_buses (bs : List BusRow) : ∀ f : RawFile, ∃ s, bs.foldl (fun (f : RawFile) b => { f with buses := put BusRow.i f.buses b, slack := if b.ide = 3 then f.slack ++ [b.i] else f.slack }) f =
    { f with buses := bs.foldl (put BusRow.i) f.buses, slack := s } := by
  induction bs with
  | nil => intro f; exact ⟨f.slack, rfl⟩
  | cons b bs ih =>
    intro f
    obtain ⟨s, hs⟩ := ih { f with buses := put BusRow.i f.buses b, slack := if b.ide = 3 then f.slack ++ [b.i] else f.slack }
    exact ⟨s, by rw [List.foldl_cons, hs]; rfl⟩

theorem foldl_loads (as : List LoadRow) : ∀ f : RawFile, as.foldl (fun (f : RawFile) a => { f with loads := put (fun l : LoadRow => (l.i, l.id)) f.loads a }) f =
    { f with loads := as.foldl (put fun l : LoadRow => (l.i, l.id)) f.loads } := by
  induction as with
  | nil => intro f; rfl
  | cons a as ih => intro f; rw [List.foldl_cons, ih]; rfl

theorem foldl_fixed (as : List FixedRow) : ∀ f : RawFile, as.foldl (fun (f : RawFile) a => { f with fixed := put (fun l : FixedRow => (l.i, l.id)) f.fixed a }) f =
    { f with fixed := as.foldl (put fun l : FixedRow => (l.i, l.id)) f.fixed } := by
  induction as with
  | nil => intro f; rfl
  | cons a as ih => intro f; rw [List.foldl_cons, ih]; rfl

theorem foldl_gens (as : List GenRow) : ∀ f : RawFile, as.foldl (fun (f : RawFile) a => { f with gens := put genKey f.gens (some a) }) f =
    { f with gens := (as.map some).foldl (put genKey) f.gens } := by
  induction as with
  | nil => intro f; rfl
  | cons a as ih => intro f; rw [List.foldl_cons, ih]; rfl

theorem foldl_branches (as : List BranchRow) : ∀ f : RawFile, as.foldl (fun (f : RawFile) a => { f with branches := put (fun b : BranchRow => (b.i, b.j, b.ckt)) f.branches a }) f =
    { f with branches := as.foldl (put fun b : BranchRow => (b.i, b.j, b.ckt)) f.branches } := by
  induction as with
  | nil => intro f; rfl
  | cons a as ih => intro f; rw [List.foldl_cons, ih]; rfl

theorem foldl_switched (as : List SwitchedRow) : ∀ f : RawFile, as.foldl (fun (f : RawFile) a => { f with switched := put SwitchedRow.i f.switched a }) f =
    { f with switched := as.foldl (put SwitchedRow.i) f.switched } := by
  induction as with
  | nil => intro f; rfl
  | cons a as ih => intro f; rw [List.foldl_cons, ih]; rfl

/-- A transformer that was read is kept. -/
def keepTransformer (f : RawFile) : TwoRow ⊕ ThreeRow → RawFile
  | .inl x => { f with two := put (fun x : TwoRow => (x.i, x.j, x.ckt)) f.two x }
  | .inr x => { f with three := put (fun x : ThreeRow => (x.i, x.j, x.k, x.ckt)) f.three x }

theorem foldl_transformers (as : List (TwoRow ⊕ ThreeRow)) : ∀ f : RawFile, as.foldl keepTransformer f =
    { f with two := (as.filterMap Sum.getLeft?).foldl (put fun x : TwoRow => (x.i, x.j, x.ckt)) f.two,
             three := (as.filterMap Sum.getRight?).foldl (put fun x : ThreeRow => (x.i, x.j, x.k, x.ckt)) f.three } := by
  induction as with
  | nil => intro f; rfl
  | cons a as ih =>
    intro f
    rw [List.foldl_cons, ih]
    cases a <;> rfl

/-- What was read out of a document. -/
structure Collected (v : ℤ) (d : Document) (f : RawFile) : Prop where
  buses : List.Forall₂ (fun r b => readBus v r = .ok b ∧ StatesBus v r b.toRec) d.buses f.buses
  loads : List.Forall₂ (fun r b => readLoad v r = .ok b ∧ StatesLoad r b.toRec) d.loads f.loads
  fixed : List.Forall₂ (fun r b => readFixed r = .ok b ∧ StatesFixed r b.toRec) d.fixed f.fixed
  gens : ∃ gs, f.gens = gs.map some ∧ List.Forall₂ (fun r g => readGen v r = .ok (some g) ∧ StatesGen r g.toRec) d.generators gs ∧ (gs.map fun g => (g.i, g.id)).Nodup
  branches : List.Forall₂ (fun r b => readBranch v r = .ok b ∧ StatesBranch v r b.toRec) d.branches f.branches
  two : List.Forall₂ (fun x t => readTwo v x.r1 x.r2 x.r3 x.r4 = .ok t ∧
    ∃ rec, t.toRec = .ok rec ∧ StatesTwo v x.r1 x.r2 x.r3 x.r4 rec ∧ (v ≠ 34 → StatesControl v x.r3 rec.w1)) d.two f.two
  three : List.Forall₂ (fun x t => readThree v x.r1 x.r2 x.r3 x.r4 x.r5 = .ok t ∧ StatesThree v x.r1 x.r2 x.r3 x.r4 x.r5 t.toRec) d.three f.three
  switched : List.Forall₂ (fun r b => readSwitched v r = .ok (some b) ∧ StatesSwitched r b.toRec) d.switched f.switched
  busKeys : (f.buses.map BusRow.i).Nodup
  loadKeys : (f.loads.map fun l => (l.i, l.id)).Nodup
  fixedKeys : (f.fixed.map fun l => (l.i, l.id)).Nodup
  branchKeys : (f.branches.map fun b => (b.i, b.j, b.ckt)).Nodup
  twoKeys : (f.two.map fun x => (x.i, x.j, x.ckt)).Nodup
  threeKeys : (f.three.map fun x => (x.i, x.j, x.k, x.ckt)).Nodup
  switchedKeys : (f.switched.map SwitchedRow.i).Nodup

theorem forall₂_split {α β γ δ : Type} {P : α → γ → Prop} {Q : β → δ → Prop} : ∀ {l : List (α ⊕ β)},
    (∀ a ∈ l.filterMap Sum.getLeft?, ∃ c, P a c) → (∀ b ∈ l.filterMap Sum.getRight?, ∃ d, Q b d) →
    ∃ m : List (γ ⊕ δ), List.Forall₂ (Sum.LiftRel P Q) l m := by
  intro l
  induction l with
  | nil => intro _ _; exact ⟨[], .nil⟩
  | cons x l ih =>
    intro h1 h2
    cases x with
    | inl a =>
      obtain ⟨c, hc⟩ := h1 a (by simp)
      obtain ⟨m, hm⟩ := ih (fun a' ha => h1 a' (by simp at ha ⊢; exact .inr ha)) fun b hb => h2 b (by simpa using hb)
      exact ⟨.inl c :: m, .cons (.inl hc) hm⟩
    | inr b =>
      obtain ⟨c, hc⟩ := h2 b (by simp)
      obtain ⟨m, hm⟩ := ih (fun a' ha => h1 a' (by simpa using ha)) fun b' hb => h2 b' (by simp at hb ⊢; exact .inr hb)
      exact ⟨.inr c :: m, .cons (.inr hc) hm⟩

theorem forall₂_left {α β γ δ : Type} {P : α → γ → Prop} {Q : β → δ → Prop} {l : List (α ⊕ β)} {m : List (γ ⊕ δ)}
    (h : List.Forall₂ (Sum.LiftRel P Q) l m) : List.Forall₂ P (l.filterMap Sum.getLeft?) (m.filterMap Sum.getLeft?) ∧
      List.Forall₂ Q (l.filterMap Sum.getRight?) (m.filterMap Sum.getRight?) := by
  induction h with
  | nil => exact ⟨.nil, .nil⟩
  | cons h _ ih =>
    cases h with
    | inl h => exact ⟨.cons h ih.1, ih.2⟩
    | inr h => exact ⟨ih.1, .cons h ih.2⟩

theorem checkSection_runs {cols : List Heading} {n : ℕ} {req : List String} {rows : List Row} (checks : List (ℕ × Kind × Bool)) (h : ∀ r ∈ rows, Fits cols n req r)
    (hc : ∀ e ∈ checks, Compatible cols req e = true) (hl : ∀ e ∈ checks, e.1 < n) : Runs (checkSection checks) (single rows) id :=
  Runs.ofRow_same fun r hr f => by
    rw [checkFields_fits (h r hr) checks hc fun e he => lt_of_lt_of_le (hl e he) (h r hr).width]; rfl

theorem correction_runs {v : ℤ} (hv : Version v) {rows : List Row} (h : v ≠ 34 → ∀ r ∈ rows, Fits correctionColumns 0 ["I"] r) :
    Runs (correctionSection v) (single rows) id :=
  Runs.ofRow_same fun r hr f => by
    by_cases h34 : v = 34
    · rw [if_pos h34]
    · rw [if_neg h34]
      have hf := (h h34 r hr).fullRow 23
      rw [checkFields_fits hf _ (by decide +kernel) fun e he => lt_of_lt_of_le (b := 23) (by revert e; decide +kernel) hf.width]; rfl

theorem multi_runs {rows : List Row} (h : ∀ r ∈ rows, Fits multiColumns 5 ["I", "J", "DUM1"] r) : Runs multiSection (single rows) id :=
  Runs.ofRow_same fun r hr f => by
    have h5 := (h r hr).width
    have hf := (h r hr).fullRow 13
    have hw := hf.width
    simp only [if_neg (not_lt.2 h5)]
    have a1 : ∀ e ∈ [(0, Kind.int, false), (1, .int, false), (2, .text, true), (3, .int, true), (4, .int, false)],
        Compatible multiColumns ["I", "J", "DUM1"] e = true ∧ e.1 < 13 := by decide +kernel
    have a2 : ∀ k ∈ List.range 8, Compatible multiColumns ["I", "J", "DUM1"] (k + 5, .int, true) = true ∧ k + 5 < 13 := by decide +kernel
    rw [checkFields_fits hf]
    · rfl
    · intro e he
      rcases List.mem_append.1 he with he | he
      · exact (a1 e he).1
      · obtain ⟨k, hk, rfl⟩ := List.mem_map.1 he
        exact (a2 k (List.mem_filter.1 hk).1).1
    · intro e he
      rcases List.mem_append.1 he with he | he
      · exact lt_of_lt_of_le (a1 e he).2 hw
      · obtain ⟨k, hk, rfl⟩ := List.mem_map.1 he
        exact lt_of_lt_of_le (a2 k (List.mem_filter.1 hk).1).2 hw

theorem three_runs {c1 c2 : List Heading} {n : ℕ} {n1 n2 n3 : ℕ} {q1 q2 q3 : List String} (fields : List (List (ℕ × Kind × Bool))) {l : List DcRows}
    (h : ∀ x ∈ l, Fits c1 n1 q1 x.r1 ∧ Fits c2 n2 q2 x.r2 ∧ Fits c2 n3 q3 x.r3)
    (k1 : ∀ e ∈ fields.getD 0 [], Compatible c1 q1 e = true) (k2 : ∀ e ∈ fields.getD 1 [], Compatible c2 q2 e = true)
    (k3 : ∀ e ∈ fields.getD 2 [], Compatible c2 q3 e = true)
    (w1 : ∀ e ∈ fields.getD 0 [], e.1 < max n n1) (w2 : ∀ e ∈ fields.getD 1 [], e.1 < n2) (w3 : ∀ e ∈ fields.getD 2 [], e.1 < n3) :
    Runs (sectionLoop (checkThree n fields) 0) (l.map fun x => [x.r1, x.r2, x.r3]) id :=
  Runs.loop_same l _ fun x hx f more r rs e => by
    cases e
    obtain ⟨f1, f2, f3⟩ := h x hx
    have f1' := f1.fullRow n
    rw [List.cons_append, List.cons_append, checkThree,
      checkFields_fits f1' _ k1 fun e he => lt_of_lt_of_le (w1 e he) (by
        have := f1'.width
        have := f1.width
        have := (fullRow_length x.r1 n).2
        omega), ok_then,
      checkFields_fits f2 _ k2 (fun e he => lt_of_lt_of_le (w2 e he) f2.width), ok_then,
      checkFields_fits f3 _ k3 (fun e he => lt_of_lt_of_le (w3 e he) f3.width), ok_then]
    rfl

theorem transformer_runs {v : ℤ} (hv : Version v) {l : List (TwoRows ⊕ ThreeRows)} {m : List (TwoRow ⊕ ThreeRow)}
    (h : List.Forall₂ (Sum.LiftRel (fun x t => FitsTwo v x ∧ readTwo v x.r1 x.r2 x.r3 x.r4 = .ok t) fun x t => FitsThree v x ∧ readThree v x.r1 x.r2 x.r3 x.r4 x.r5 = .ok t) l m) :
    Runs (xfmrSection v) (l.map transformerRows) fun f => m.foldl keepTransformer f := by
  refine Runs.loop ?_
  rw [List.forall₂_map_left_iff]
  refine h.imp fun x t hx f more r rs e => ?_
  have c2 : colAt (xfmrColumns v) 2 "K" .integer = true := by rcases hv with rfl | rfl | rfl <;> decide +kernel
  cases hx with
  | @inl x t hx =>
    cases e
    have hw : 14 ≤ x.r1.length := le_trans (by split <;> omega) hx.1.r1.width
    have hk := hx.1.k
    rw [under_eq c2] at hk
    rw [List.cons_append, List.cons_append, List.cons_append, readTransformer, cell_eq (by omega), hk, ok_then, if_pos rfl]
    simp only [hx.2, ok_then]
    rfl
  | @inr x t hx =>
    cases e
    have hw : 14 ≤ x.r1.length := le_trans (by split <;> omega) hx.1.r1.width
    have hk := hx.1.k
    rw [under_eq c2] at hk
    rw [List.cons_append, List.cons_append, List.cons_append, List.cons_append, readTransformer, cell_eq (by omega), ok_then, if_neg hk]
    simp only [hx.2, ok_then]
    rfl

/-! ### Reading a document -/

/-- The sections that are used, with what they do. -/
def usedSections (v : ℤ) (bs : List BusRow) (ls : List LoadRow) (fs : List FixedRow) (gs : List GenRow) (rs : List BranchRow) (ts : List (TwoRow ⊕ ThreeRow))
    (ss : List SwitchedRow) : List (Section × (RawFile → RawFile)) :=
  (if v = 34 then [(fun f rows => (systemLoop rows).map fun r => (f, r), id)] else []) ++
  [(busSection v, fun f => bs.foldl (fun (f : RawFile) b => { f with buses := put BusRow.i f.buses b, slack := if b.ide = 3 then f.slack ++ [b.i] else f.slack }) f),
    (loadSection v, fun f => ls.foldl (fun (f : RawFile) a => { f with loads := put (fun l : LoadRow => (l.i, l.id)) f.loads a }) f),
    (fixedSection, fun f => fs.foldl (fun (f : RawFile) a => { f with fixed := put (fun l : FixedRow => (l.i, l.id)) f.fixed a }) f),
    (genSection v, fun f => gs.foldl (fun (f : RawFile) a => { f with gens := put genKey f.gens (some a) }) f),
    (branchSection v, fun f => rs.foldl (fun (f : RawFile) a => { f with branches := put (fun b : BranchRow => (b.i, b.j, b.ckt)) f.branches a }) f)] ++
  (if v = 34 then [(skipSection, id)] else []) ++
  [(xfmrSection v, fun f => ts.foldl keepTransformer f), (areaSection, id), (twoTerminalSection, id), (vscSection, id), (correctionSection v, id),
    (skipSection, id), (multiSection, id), (zoneSection, id), (interareaSection, id), (ownerSection, id), (factsSection v, id),
    (switchedSection v, fun f => ss.foldl (fun (f : RawFile) a => { f with switched := put SwitchedRow.i f.switched a }) f)]

theorem sections_used {v : ℤ} (hv : Version v) (bs : List BusRow) (ls : List LoadRow) (fs : List FixedRow) (gs : List GenRow) (rs : List BranchRow)
    (ts : List (TwoRow ⊕ ThreeRow)) (ss : List SwitchedRow) : ∃ n, (v = 32 → n = 0) ∧
      sections v = (usedSections v bs ls fs gs rs ts ss).map Prod.fst ++ List.replicate n fun f rows => (trailingLoop false rows).map fun r => (f, r) := by
  rcases hv with rfl | rfl | rfl
  · exact ⟨0, fun _ => rfl, rfl⟩
  · exact ⟨1, fun h => absurd h (by decide), rfl⟩
  · exact ⟨3, fun h => absurd h (by decide), rfl⟩

theorem Integer.unique {t : Txt} {m n : ℤ} (hm : Integer t m) (hn : Integer t n) : m = n := by
  have h1 := toInt_integer hm
  rw [toInt_integer hn] at h1
  cases h1; rfl

theorem runSections_document {v : ℤ} (hv : Version v) {d : Document} (hs : d.Sound v) {rows : List Row} (hl : LaysOut (Tail v) (d.sections v) rows) (q : ℚ) :
    ∃ f, runSections (sections v) { sbase := q, rev := v } rows = .ok f ∧ f.sbase = q ∧ f.rev = v ∧ Collected v d f := by
  obtain ⟨bs, hb⟩ := exists_forall₂ fun r hr => readBus_fits hv (hs.buses r hr)
  obtain ⟨ls, hlo⟩ := exists_forall₂ fun r hr => readLoad_fits (v := v) (hs.loads r hr) (hs.clean r (by simp [hr]))
  obtain ⟨fs, hfi⟩ := exists_forall₂ fun r hr => readFixed_fits (hs.fixed r hr) (hs.clean r (by simp [hr]))
  obtain ⟨gs, hg⟩ := exists_forall₂ fun r hr => readGen_fits hv (hs.generators r hr) (hs.clean r (by simp [hr]))
  obtain ⟨rs, hr⟩ := exists_forall₂ fun r hr => readBranch_fits hv (hs.branches r hr) (hs.clean r (by simp [hr]))
  obtain ⟨ss, hsw⟩ := exists_forall₂ fun r hr => readSwitched_fits hv (hs.switched r hr)
  obtain ⟨ts, ht⟩ := forall₂_split (l := d.transformers)
    (P := fun x t => FitsTwo v x ∧ readTwo v x.r1 x.r2 x.r3 x.r4 = .ok t ∧ ∃ rec : TwoRec, t.toRec = .ok rec ∧
      StatesTwo v x.r1 x.r2 x.r3 x.r4 rec ∧ (v ≠ 34 → StatesControl v x.r3 rec.w1) ∧
      t.i = under (xfmrColumns v) x.r1 "I" ∧ t.j = under (xfmrColumns v) x.r1 "J" ∧ t.ckt = under (xfmrColumns v) x.r1 "CKT")
    (Q := fun x t => FitsThree v x ∧ readThree v x.r1 x.r2 x.r3 x.r4 x.r5 = .ok t ∧ StatesThree v x.r1 x.r2 x.r3 x.r4 x.r5 t.toRec ∧
      Integer (under (xfmrColumns v) x.r1 "I") t.i ∧ Integer (under (xfmrColumns v) x.r1 "J") t.j ∧ Integer (under (xfmrColumns v) x.r1 "K") t.k ∧
      t.ckt = identifier (under (xfmrColumns v) x.r1 "CKT"))
    (fun x hx => by
      obtain ⟨t, rec, h1, h2, h3⟩ := readTwo_fits hv (hs.two x hx)
      exact ⟨t, hs.two x hx, h1, rec, h2, h3⟩)
    (fun x hx => by
      obtain ⟨t, h1, h2⟩ := readThree_fits hv (hs.three x hx)
      exact ⟨t, hs.three x hx, h1, h2⟩)
  obtain ⟨ht2, ht3⟩ := forall₂_left ht
  obtain ⟨n, hn, hsec⟩ := sections_used hv bs ls fs gs rs ts ss
  have key : List.Forall₂ (fun s it => Runs s.1 it s.2) (usedSections v bs ls fs gs rs ts ss) (d.sections v) := by
    rw [usedSections, Document.sections]
    refine List.rel_append (List.rel_append (List.rel_append ?_ ?_) ?_) ?_
    · split
      · exact .cons (Runs.system _) .nil
      · exact .nil
    · refine .cons ?_ (.cons ?_ (.cons ?_ (.cons ?_ (.cons ?_ .nil))))
      · exact Runs.ofRow (hb.imp fun r a h f => by rw [h.1, ok_then])
      · exact Runs.ofRow (hlo.imp fun r a h f => by rw [h.1, ok_then])
      · exact Runs.ofRow (hfi.imp fun r a h f => by rw [h.1, ok_then])
      · exact Runs.ofRow (hg.imp fun r a h f => by rw [h.1, ok_then])
      · exact Runs.ofRow (hr.imp fun r a h f => by rw [h.1, ok_then])
    · split
      · exact .cons (Runs.ofRow_same fun _ _ _ => rfl) .nil
      · exact .nil
    · refine .cons ?_ (.cons ?_ (.cons ?_ (.cons ?_ (.cons ?_ (.cons ?_ (.cons ?_ (.cons ?_ (.cons ?_ (.cons ?_ (.cons ?_ (.cons ?_ .nil)))))))))))
      · exact transformer_runs hv (ht.imp fun x t h => by
          cases h with
          | inl h => exact .inl ⟨h.1, h.2.1⟩
          | inr h => exact .inr ⟨h.1, h.2.1⟩)
      · exact checkSection_runs _ hs.areas (by decide +kernel) (by decide +kernel)
      · exact three_runs _ hs.twoTerminal (by decide +kernel) (by decide +kernel) (by decide +kernel) (by decide +kernel) (by decide +kernel) (by decide +kernel)
      · exact three_runs _ hs.vsc (by decide +kernel) (by decide +kernel) (by decide +kernel) (by decide +kernel) (by decide +kernel) (by decide +kernel)
      · exact correction_runs hv hs.corrections
      · exact Runs.ofRow_same fun _ _ _ => rfl
      · exact multi_runs hs.multiSection
      · exact checkSection_runs _ hs.zones (by decide +kernel) (by decide +kernel)
      · exact checkSection_runs _ hs.interarea (by decide +kernel) (by decide +kernel)
      · exact checkSection_runs _ hs.owners (by decide +kernel) (by decide +kernel)
      · exact checkSection_runs _ hs.facts (by rcases hv with rfl | rfl | rfl <;> decide +kernel) (by rcases hv with rfl | rfl | rfl <;> decide +kernel)
      · exact Runs.ofRow (hsw.imp fun r a h f => by rw [h.1, ok_then])
  have htail : ∀ f rows, Tail v rows → runSections (List.replicate n fun f rows => (trailingLoop false rows).map fun r => (f, r)) f rows = .ok f := by
    intro f rows h
    by_cases h32 : v = 32
    · rw [hn h32]; rfl
    · obtain ⟨pre, q, rest, h1, h2, h3, h4⟩ := h h32
      exact runSections_trail n f rows ⟨pre, q, rest, h1, h2, h3, h4, fun h => by cases h⟩
  have busKeys : (bs.map BusRow.i).Nodup := keys_nodup hb hs.busNames fun r r' a a' h h' e => by
    refine ⟨fun name hn => ?_, fun name hn => by cases hn⟩
    obtain rfl := List.mem_singleton.1 hn
    exact ⟨a.i, h.2.2, e ▸ h'.2.2⟩
  have loadKeys : (ls.map fun l => (l.i, l.id)).Nodup := keys_nodup hlo hs.loadNames fun r r' a a' h h' e => by
    rw [Prod.mk.injEq] at e
    refine ⟨fun name hn => ?_, fun name hn => ?_⟩
    · obtain rfl := List.mem_singleton.1 hn
      exact ⟨a.i, h.2.2.1, e.1 ▸ h'.2.2.1⟩
    · obtain rfl := List.mem_singleton.1 hn
      rw [← h.2.2.2, ← h'.2.2.2, e.2]
  have fixedKeys : (fs.map fun l => (l.i, l.id)).Nodup := keys_nodup hfi hs.fixedNames fun r r' a a' h h' e => by
    rw [Prod.mk.injEq] at e
    refine ⟨fun name hn => ?_, fun name hn => ?_⟩
    · obtain rfl := List.mem_singleton.1 hn
      exact ⟨a.i, h.2.2.1, e.1 ▸ h'.2.2.1⟩
    · obtain rfl := List.mem_singleton.1 hn
      rw [← h.2.2.2, ← h'.2.2.2, e.2]
  have genKeys : (gs.map fun l => (l.i, l.id)).Nodup := keys_nodup hg hs.generatorNames fun r r' a a' h h' e => by
    rw [Prod.mk.injEq] at e
    refine ⟨fun name hn => ?_, fun name hn => ?_⟩
    · obtain rfl := List.mem_singleton.1 hn
      exact ⟨a.i, h.2.2.1, e.1 ▸ h'.2.2.1⟩
    · obtain rfl := List.mem_singleton.1 hn
      rw [← h.2.2.2, ← h'.2.2.2, e.2]
  have branchKeys : (rs.map fun b => (b.i, b.j, b.ckt)).Nodup := keys_nodup hr hs.branchNames fun r r' a a' h h' e => by
    rw [Prod.mk.injEq, Prod.mk.injEq] at e
    refine ⟨fun name hn => ?_, fun name hn => ?_⟩
    · rcases List.mem_cons.1 hn with rfl | hn
      · exact ⟨a.i, h.2.2.1, e.1 ▸ h'.2.2.1⟩
      · obtain rfl := List.mem_singleton.1 hn
        exact ⟨a.j, h.2.2.2.1, e.2.1 ▸ h'.2.2.2.1⟩
    · obtain rfl := List.mem_singleton.1 hn
      rw [← h.2.2.2.2, ← h'.2.2.2.2, e.2.2]
  have twoKeys : ((ts.filterMap Sum.getLeft?).map fun x => (x.i, x.j, x.ckt)).Nodup := keys_nodup ht2 hs.twoNames fun x x' a a' h h' e => by
    obtain ⟨hx, -, rec, -, hst, -, e1, e2, e3⟩ := h
    obtain ⟨hx', -, rec', -, hst', -, e1', e2', e3'⟩ := h'
    rw [Prod.mk.injEq, Prod.mk.injEq] at e
    have hi : Integer (under (xfmrColumns v) x.r1 "I") rec.i := hst.i.resolve_left fun h => hx.r1.filled "I" (by simp) h.1
    have hj : Integer (under (xfmrColumns v) x.r1 "J") rec.j := hst.j.resolve_left fun h => hx.r1.filled "J" (by simp) h.1
    refine ⟨fun name hn => ?_, fun name hn => ?_⟩
    · rcases List.mem_cons.1 hn with rfl | hn
      · exact ⟨rec.i, hi, by rw [← e1', ← e.1, e1]; exact hi⟩
      · obtain rfl := List.mem_singleton.1 hn
        exact ⟨rec.j, hj, by rw [← e2', ← e.2.1, e2]; exact hj⟩
    · obtain rfl := List.mem_singleton.1 hn
      rw [← e3, ← e3', e.2.2]
  have threeKeys : ((ts.filterMap Sum.getRight?).map fun x => (x.i, x.j, x.k, x.ckt)).Nodup := keys_nodup ht3 hs.threeNames fun x x' a a' h h' e => by
    obtain ⟨-, -, -, i1, j1, k1, e1⟩ := h
    obtain ⟨-, -, -, i2, j2, k2, e2⟩ := h'
    rw [Prod.mk.injEq, Prod.mk.injEq, Prod.mk.injEq] at e
    refine ⟨fun name hn => ?_, fun name hn => ?_⟩
    · rcases List.mem_cons.1 hn with rfl | hn
      · exact ⟨a.i, i1, e.1 ▸ i2⟩
      · rcases List.mem_cons.1 hn with rfl | hn
        · exact ⟨a.j, j1, e.2.1 ▸ j2⟩
        · obtain rfl := List.mem_singleton.1 hn
          exact ⟨a.k, k1, e.2.2.1 ▸ k2⟩
    · obtain rfl := List.mem_singleton.1 hn
      rw [← e1, ← e2, e.2.2.2]
  have switchedKeys : (ss.map SwitchedRow.i).Nodup := keys_nodup hsw hs.switchedNames fun r r' a a' h h' e => by
    refine ⟨fun name hn => ?_, fun name hn => by cases hn⟩
    obtain rfl := List.mem_singleton.1 hn
    exact ⟨a.i, h.2.2, e ▸ h'.2.2⟩
  have gensKeys : ((gs.map some).map genKey).Nodup := by
    rw [List.map_map]
    refine List.Nodup.of_map (fun k : Option ℤ × Txt => (k.1.getD 0, k.2)) ?_
    rw [List.map_map]
    exact genKeys
  rw [hsec, runSections_laysOut htail hl _ key]
  have result : ∃ s, (usedSections v bs ls fs gs rs ts ss).foldl (fun f s => s.2 f) { sbase := q, rev := v } =
      { sbase := q, rev := v, buses := bs, slack := s, loads := ls, fixed := fs, gens := gs.map some, branches := rs, two := ts.filterMap Sum.getLeft?,
        three := ts.filterMap Sum.getRight?, switched := ss } := by
    obtain ⟨s, hsl⟩ := foldl_buses bs { sbase := q, rev := v }
    refine ⟨s, ?_⟩
    have e : (usedSections v bs ls fs gs rs ts ss).foldl (fun f s => s.2 f) { sbase := q, rev := v } =
        ss.foldl (fun (f : RawFile) a => { f with switched := put SwitchedRow.i f.switched a })
          (ts.foldl keepTransformer
            (rs.foldl (fun (f : RawFile) a => { f with branches := put (fun b : BranchRow => (b.i, b.j, b.ckt)) f.branches a })
              (gs.foldl (fun (f : RawFile) a => { f with gens := put genKey f.gens (some a) })
                (fs.foldl (fun (f : RawFile) a => { f with fixed := put (fun l : FixedRow => (l.i, l.id)) f.fixed a })
                  (ls.foldl (fun (f : RawFile) a => { f with loads := put (fun l : LoadRow => (l.i, l.id)) f.loads a })
                    (bs.foldl (fun (f : RawFile) b => { f with buses := put BusRow.i f.buses b, slack := if b.ide = 3 then f.slack ++ [b.i] else f.slack })
                      { sbase := q, rev := v })))))) := by
      rw [usedSections]
      split <;> rfl
    rw [e, hsl, foldl_loads, foldl_fixed, foldl_gens, foldl_branches, foldl_transformers, foldl_switched]
    dsimp only
    rw [foldl_put _ _ _ (by simpa using busKeys), foldl_put _ _ _ (by simpa using loadKeys), foldl_put _ _ _ (by simpa using fixedKeys),
      foldl_put _ _ _ (by simpa using gensKeys), foldl_put _ _ _ (by simpa using branchKeys), foldl_put _ _ _ (by simpa using twoKeys),
      foldl_put _ _ _ (by simpa using threeKeys), foldl_put _ _ _ (by simpa using switchedKeys)]
    rfl
  obtain ⟨s, hres⟩ := result
  refine ⟨_, rfl, by rw [hres], by rw [hres], ?_⟩
  rw [hres]
  exact {
    buses := hb.imp fun _ _ h => ⟨h.1, h.2.1⟩
    loads := hlo.imp fun _ _ h => ⟨h.1, h.2.1⟩
    fixed := hfi.imp fun _ _ h => ⟨h.1, h.2.1⟩
    gens := ⟨gs, rfl, hg.imp fun _ _ h => ⟨h.1, h.2.1⟩, genKeys⟩
    branches := hr.imp fun _ _ h => ⟨h.1, h.2.1⟩
    two := ht2.imp fun _ _ h => ⟨h.2.1, by obtain ⟨rec, h1, h2, h3, _⟩ := h.2.2; exact ⟨rec, h1, h2, h3⟩⟩
    three := ht3.imp fun _ _ h => ⟨h.2.1, h.2.2.1⟩
    switched := hsw.imp fun _ _ h => ⟨h.1, h.2.1⟩
    busKeys := busKeys
    loadKeys := loadKeys
    fixedKeys := fixedKeys
    branchKeys := branchKeys
    twoKeys := twoKeys
    threeKeys := threeKeys
    switchedKeys := switchedKeys }

/-! ### The first row -/

theorem header_take {header fields : Row} (h : HeaderRow header fields) : ∃ b c, (Blank b ∧ (fields.getD 5 [] = [] → b = [])) ∧ fields.length = 6 ∧ 6 ≤ header.length ∧
    (header.take 6 = fields ∨ header.take 6 = fields.take 5 ++ [fields.getD 5 [] ++ b ++ '/' :: c]) ∧ header.head? = fields.head? := by
  cases h with
  | plain r more h =>
    refine ⟨[], [], ⟨fun _ h => (by cases h), fun _ => rfl⟩, h, by rw [List.length_append]; omega, .inl ?_, ?_⟩
    · rw [List.take_append_of_le_length (by omega), List.take_of_length_le (by omega)]
    · cases fields with
      | nil => cases h
      | cons a l => rfl
  | comment r more t b c h hb ht =>
    have h1 : (r ++ [t]).take 5 = r := by rw [← h]; simp
    have h2 : (r ++ [t]).getD 5 [] = t := by
      rw [List.getD_eq_getElem?_getD, ← h]; simp
    refine ⟨b, c, ⟨hb, fun h => ht (h2 ▸ h)⟩, by simp [h], by simp [h]; omega, .inr ?_, ?_⟩
    · rw [h1, h2]
      have : r ++ (t ++ b ++ '/' :: c) :: more = (r ++ [t ++ b ++ '/' :: c]) ++ more := by simp
      rw [this, List.take_append_of_le_length (by simp [h]), List.take_of_length_le (by simp [h])]
    · cases r with
      | nil => cases h
      | cons a l => rfl

theorem cut_comment {t b c : Txt} (h1 : '/' ∉ t) (hb : Blank b) : cutAt "/".toList (t ++ b ++ '/' :: c) = t ++ b := by
  have hb' : '/' ∉ b := fun hm => absurd (hb _ hm) (by decide)
  have h := Glm.cutAt_append '/' [] (t ++ b) ('/' :: c) (by simp only [List.mem_append, not_or]; exact ⟨h1, hb'⟩)
  have h0 : cutAt ['/'] ('/' :: c) = [] := Glm.cutAt_pattern ['/'] c
  rw [h0, List.append_nil] at h
  exact h

theorem readIdentification_header {header fields : Row} {sbase : ℝ} {v : ℤ} (hh : HeaderRow header fields) (hf : Fits caseColumns 6 ["IC", "SBASE"] fields)
    (hs : Num none (under caseColumns fields "SBASE") sbase) (hr : Int' (some 33) (under caseColumns fields "REV") v) :
    ∃ q : ℚ, (q : ℝ) = sbase ∧ readIdentification false header = .ok (q, v) := by
  obtain ⟨b, c, ⟨hb, hb0⟩, hlen, hlen', htake, _⟩ := header_take hh
  have hcols : ∀ name ∈ ["IC", "SBASE"], ∃ k c, colAt caseColumns k name c = true ∧ c ≠ .text := by
    intro name hn
    rcases List.mem_cons.1 hn with rfl | hn
    · exact ⟨0, .integer, by decide +kernel, by decide⟩
    · obtain rfl := List.mem_singleton.1 hn
      exact ⟨1, .number, by decide +kernel, by decide⟩
  have c5 : colAt caseColumns 5 "BASFRQ" .number = true := by decide +kernel
  obtain ⟨q, hq, hn⟩ := hs
  have hn : Number (under caseColumns fields "SBASE") q := by
    rcases hn with ⟨_, h⟩ | h
    · cases h
    · exact h
  have h5 := hf.holds c5
  -- the row after comments are cut off
  have hpad : ∃ b', (Blank b' ∧ (fields.getD 5 [] = [] → b' = [])) ∧ padRow (header.take 6) 6 = .ok (fields.take 5 ++ [fields.getD 5 [] ++ b']) := by
    have hcut : ∀ t ∈ fields, cutAt "/".toList t = t := by
      intro t ht
      obtain ⟨k, hk, rfl⟩ := List.getElem_of_mem ht
      have hcol : ∃ name c, caseColumns[k]? = some (name, c) ∧ c ≠ .text := by
        have : ∀ k < 6, ∃ h : k < caseColumns.length, (caseColumns[k]).2 ≠ .text := by decide
        obtain ⟨h, h'⟩ := this k (by omega)
        exact ⟨_, _, List.getElem?_eq_getElem h, h'⟩
      obtain ⟨name, c, h1, h2⟩ := hcol
      exact cut_holds h2 (hf.typed k _ _ h1 (List.getElem?_eq_getElem hk))
    have hsplit : fields = fields.take 5 ++ [fields.getD 5 []] := by
      have h1 : fields.drop 5 = [fields.getD 5 []] := by
        rw [List.getD_eq_getElem?_getD, List.getElem?_eq_getElem (by omega), List.drop_eq_getElem_cons (by omega),
          List.drop_eq_nil_of_le (by omega)]; rfl
      conv_lhs => rw [← List.take_append_drop 5 fields, h1]
    have hmem5 : fields.getD 5 [] ∈ fields := by
      rw [getD_lt (by omega)]
      exact List.getElem_mem _
    have htk : (fields.take 5).map (fun t => cutAt "/".toList t) = fields.take 5 := by
      conv_rhs => rw [← List.map_id (fields.take 5)]
      exact List.map_congr_left fun t ht => hcut t (List.mem_of_mem_take ht)
    rcases htake with e | e
    · refine ⟨[], ⟨fun _ h => (by cases h), fun _ => rfl⟩, ?_⟩
      rw [e, padRow, if_neg (by omega)]
      conv_lhs => rw [hsplit]
      rw [List.map_append, htk, List.map_singleton, hcut _ hmem5, List.append_nil]
    · refine ⟨b, ⟨hb, hb0⟩, ?_⟩
      rw [e, padRow, if_neg (by simp [hlen]), List.map_append, htk, List.map_singleton, cut_comment _ hb]
      rcases h5 with h | ⟨x, hx⟩
      · rw [under_eq c5] at h
        rw [h]; simp
      · rw [under_eq c5] at hx
        exact Number.noSlash hx
  obtain ⟨b', ⟨hb', hb0'⟩, hpad⟩ := hpad
  refine ⟨q, hq.symm, ?_⟩
  have hget : ∀ k < 5, (fields.take 5 ++ [fields.getD 5 [] ++ b']).getD k [] = fields.getD k [] := by
    intro k hk
    rw [List.getD_eq_getElem?_getD, List.getD_eq_getElem?_getD, List.getElem?_append_left (by simp; omega), List.getElem?_take_of_lt hk]
    exact (List.getD_eq_getElem?_getD ..).symm
  have hl6 : (fields.take 5 ++ [fields.getD 5 [] ++ b']).length = 6 := by simp [hlen]
  generalize hR : fields.take 5 ++ [fields.getD 5 [] ++ b'] = R at hpad hget hl6
  have hR5 : R.getD 5 [] = fields.getD 5 [] ++ b' := by
    rw [← hR, List.getD_eq_getElem?_getD, List.getElem?_append_right (by simp)]
    simp [hlen]
  have e1 : floatAt R 1 none = .ok q := by
    have c1 : colAt caseColumns 1 "SBASE" .number = true := by decide +kernel
    rw [floatAt, cell_eq (by omega), ok_then, hget 1 (by omega), ← under_eq c1, parseToken_ne _ _ (Number.ne_nil hn), toFloat_number hn]
  have e2 : intAt R 2 (some 33) = .ok v := by
    have c2 : colAt caseColumns 2 "REV" .integer = true := by decide +kernel
    rw [intAt, cell_eq (by omega), ok_then, hget 2 (by omega), ← under_eq c2]
    rcases hr with ⟨h, h'⟩ | h
    · cases h'
      unfold parseToken
      rw [if_pos h]
    · rw [parseToken_ne _ _ (Number.ne_nil h.number), toInt_integer h]
  have one : ∀ k < 5, ∀ e, e.1 = k → Compatible caseColumns ["IC", "SBASE"] e = true → checkToken e.2.1 e.2.2 (R.getD k []) = .ok () := by
    intro k hk e he hc
    rw [hget k hk, ← he]
    exact checkToken_fits hf hc
  have e3 : checkFields R [(0, .int, true)] = .ok () := by
    rw [checkFields, cell_eq (by omega), ok_then, one 0 (by omega) (0, .int, true) rfl (by decide +kernel)]; rfl
  have e5 : checkToken .float true (R.getD 5 []) = .ok () := by
    rw [hR5]
    rcases h5 with h | ⟨x, hx⟩
    · rw [under_eq c5] at h
      rw [h, hb0' h]
      rfl
    · rw [under_eq c5] at hx
      unfold checkToken
      rw [if_neg fun h => Number.ne_nil hx (List.append_eq_nil_iff.1 h).1]
      simp only [toFloat_blanks hx hb']
      rfl
  have e4 : checkFields R [(3, .int, true), (4, .int, true), (5, .float, true)] = .ok () := by
    rw [checkFields, cell_eq (by omega), ok_then, one 3 (by omega) (3, .int, true) rfl (by decide +kernel), ok_then,
      checkFields, cell_eq (by omega), ok_then, one 4 (by omega) (4, .int, true) rfl (by decide +kernel), ok_then,
      checkFields, cell_eq (by omega), ok_then, e5]; rfl
  rw [readIdentification]
  simp only [Bool.false_eq_true, if_false, hpad, e1, e2, e3, e4, ok_then]

end Verif.Raw
