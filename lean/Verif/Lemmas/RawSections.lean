import Verif.Lemmas.RawFields

/-!
# Sections of a file
-/

namespace Verif.Raw

open Glm (cutAt)

/-! ### Rows -/

theorem Comment.first {r : Row} (h : Comment r) : firstChar r = some '@' := by
  obtain ⟨t, ts, rfl⟩ := h; rfl

theorem FileEnd.first {r : Row} (h : FileEnd r) : ∃ c, firstChar r = some c ∧ (c = 'q' ∨ c = 'Q') := by
  obtain ⟨c, t, ts, rfl, h⟩ := h
  exact ⟨c, rfl, h⟩

theorem joined_cons (t : Txt) (ts : Row) : ∃ s, joined (t :: ts) = t ++ s ∧ (s = [] ∧ ts = [] ∨ ∃ s', s = ' ' :: s') := by
  cases ts with
  | nil => exact ⟨[], by simp [joined], .inl ⟨rfl, rfl⟩⟩
  | cons u us => exact ⟨' ' :: joined (u :: us), by simp [joined], .inr ⟨_, rfl⟩⟩

theorem Terminator.first {r : Row} (h : Terminator r) : firstChar r = some '0' := by
  rcases h with rfl | ⟨t, ts, rfl⟩ <;> rfl

theorem Terminator.isEnd {r : Row} (h : Terminator r) : isSectionEnd r = true := by
  rcases h with rfl | ⟨t, ts, rfl⟩
  · decide
  · obtain ⟨s, e, _⟩ := joined_cons ('0' :: ' ' :: '/' :: t) ts
    have : joined (('0' :: ' ' :: '/' :: t) :: ts) = ['0'] ++ (" /".toList ++ (t ++ s)) := by rw [e]; rfl
    rw [isSectionEnd, this]
    have h1 : cutAt " /".toList (['0'] ++ (" /".toList ++ (t ++ s))) = ['0'] ++ cutAt " /".toList (" /".toList ++ (t ++ s)) :=
      Glm.cutAt_append ' ' ['/'] ['0'] _ (by decide)
    rw [h1, Glm.cutAt_pattern]; rfl

theorem cutAt_cons (p c : Char) (ps s : Txt) (h : c ≠ p) : cutAt (p :: ps) (c :: s) = c :: cutAt (p :: ps) s :=
  Glm.cutAt_append p ps [c] s (by simpa using Ne.symm h)

theorem Opening.first {r : Row} (h : Opening r) : ∃ c, firstChar r = some c ∧ c ≠ '@' ∧ c ≠ 'q' ∧ c ≠ 'Q' := by
  obtain ⟨c, t, ts, rfl, h1, h2, h3, _⟩ := h
  exact ⟨c, rfl, h1, h2, h3⟩

/-- The text before a space and a slash. -/
theorem cutAt_spec (s : Txt) : (∃ u, s = cutAt [' ', '/'] s ++ ' ' :: '/' :: u) ∨ cutAt [' ', '/'] s = s := by
  induction s with
  | nil => exact .inr rfl
  | cons c s ih =>
    by_cases h : [' ', '/'].isPrefixOf (c :: s) = true
    · left
      have e : cutAt [' ', '/'] (c :: s) = [] := by rw [cutAt, Glm.find, if_pos h]; rfl
      obtain ⟨u, hu⟩ := List.isPrefixOf_iff_prefix.1 h
      exact ⟨u, by rw [e, ← hu]; rfl⟩
    · have e : cutAt [' ', '/'] (c :: s) = c :: cutAt [' ', '/'] s := by
        rw [cutAt, Glm.find, if_neg h, cutAt]
        cases Glm.find [' ', '/'] s <;> simp
      rw [e]
      rcases ih with ⟨u, hu⟩ | hu
      · exact .inl ⟨u, by rw [List.cons_append, ← hu]⟩
      · exact .inr (by rw [hu])

theorem Opening.notEnd {r : Row} (h : Opening r) : isSectionEnd r = false := by
  obtain ⟨c, t, ts, rfl, _, _, _, h0, hp⟩ := h
  obtain ⟨s, e, hs⟩ := joined_cons (c :: t) ts
  rw [isSectionEnd, decide_eq_false_iff_not]
  intro hcut
  have e0 : " /".toList = [' ', '/'] := rfl
  rw [e0] at hcut
  have hj : joined ((c :: t) :: ts) = ['0'] ∨ ∃ u, joined ((c :: t) :: ts) = ['0', ' ', '/'] ++ u := by
    rcases cutAt_spec (joined ((c :: t) :: ts)) with ⟨u, hu⟩ | hu
    · right
      rw [hcut] at hu
      exact ⟨u, hu⟩
    · left
      rw [← hu, hcut]
  rw [e] at hj
  rcases hj with hj | ⟨u, hu⟩
  · rw [List.cons_append, List.cons.injEq, List.append_eq_nil_iff] at hj
    exact h0 (by rw [hj.1, hj.2.1])
  · cases t with
    | nil =>
      rw [List.cons_append, List.cons_append, List.cons.injEq] at hu
      exact h0 (by rw [hu.1])
    | cons c2 t =>
      cases t with
      | nil =>
        simp only [List.cons_append, List.nil_append, List.cons.injEq] at hu
        obtain ⟨_, _, h3⟩ := hu
        rcases hs with ⟨rfl, _⟩ | ⟨s', rfl⟩
        · cases h3
        · rw [List.cons.injEq] at h3
          exact absurd h3.1 (by decide)
      | cons c3 t =>
        simp only [List.cons_append, List.nil_append, List.cons.injEq] at hu
        exact hp ⟨t, by rw [hu.1, hu.2.1, hu.2.2.1]; rfl⟩

/-! ### The loop over a section -/

theorem sectionLoop_skip (record : RawFile → Row → List Row → Py (RawFile × ℕ)) (f : RawFile) (rows : List Row) :
    ∀ rs : List Row, sectionLoop record rs.length f (rs ++ rows) = sectionLoop record 0 f rows := by
  intro rs
  induction rs with
  | nil => rfl
  | cons r rs ih => rw [List.length_cons, List.cons_append, sectionLoop, ih]

theorem sectionLoop_lists {α : Type} {record : RawFile → Row → List Row → Py (RawFile × ℕ)} {add : RawFile → α → RawFile}
    {items : List (List Row)} {rows rest : List Row} (h : Lists items rows rest) :
    ∀ (as : List α), List.Forall₂ (fun it a => ∀ f more r rs, it = r :: rs → record f r (rs ++ more) = .ok (add f a, rs.length)) items as →
      ∀ f, sectionLoop record 0 f rows = .ok (as.foldl add f, some rest) := by
  induction h with
  | stop ht =>
    intro as ha f
    cases ha
    rw [sectionLoop]
    simp only [ht.first]
    rw [if_neg (by decide), if_neg (by decide), if_pos ht.isEnd]
    rfl
  | comment hc _ ih =>
    intro as ha f
    rw [sectionLoop]
    simp only [hc.first, if_pos]
    exact ih as ha f
  | @item r rs items rows rest hr _ ih =>
    intro as ha f
    cases ha with
    | @cons _ a _ as ha has =>
      obtain ⟨c, h1, h2, h3, h4⟩ := hr.first
      rw [sectionLoop]
      simp only [h1]
      rw [if_neg h2, if_neg (by tauto), if_neg (by rw [hr.notEnd]; decide), ha f rows r rs rfl]
      simp only [sectionLoop_skip]
      exact ih as has (add f a)

theorem sectionLoop_early (record : RawFile → Row → List Row → Py (RawFile × ℕ)) (f : RawFile) {cs rest : List Row} {q : Row}
    (hc : ∀ c ∈ cs, Comment c) (hq : FileEnd q) : sectionLoop record 0 f (cs ++ q :: rest) = .ok (f, none) := by
  induction cs with
  | nil =>
    obtain ⟨c, h1, h2⟩ := hq.first
    rw [List.nil_append, sectionLoop]
    simp only [h1]
    rw [if_neg (by rcases h2 with rfl | rfl <;> decide), if_pos h2]
  | cons c cs ih =>
    rw [List.cons_append, sectionLoop]
    simp only [(hc c (by simp)).first, if_pos]
    exact ih fun d hd => hc d (by simp [hd])

/-- A section with these records changes what was collected in this way. -/
structure Runs (s : Section) (items : List (List Row)) (upd : RawFile → RawFile) : Prop where
  full : ∀ f rows rest, Lists items rows rest → s f rows = .ok (upd f, some rest)
  same : items = [] → ∀ f, upd f = f
  early : ∀ f cs q rest, (∀ c ∈ cs, Comment c) → FileEnd q → s f (cs ++ q :: rest) = .ok (f, none)

theorem Runs.loop {α : Type} {record : RawFile → Row → List Row → Py (RawFile × ℕ)} {add : RawFile → α → RawFile} {items : List (List Row)} {as : List α}
    (h : List.Forall₂ (fun it a => ∀ f more r rs, it = r :: rs → record f r (rs ++ more) = .ok (add f a, rs.length)) items as) :
    Runs (sectionLoop record 0) items fun f => as.foldl add f where
  full f rows rest hl := sectionLoop_lists hl as h f
  same e f := by subst e; cases h; rfl
  early f _ _ _ hc hq := sectionLoop_early record f hc hq

theorem Runs.ofRow {α : Type} {record : RawFile → Row → Py RawFile} {add : RawFile → α → RawFile} {rows : List Row} {as : List α}
    (h : List.Forall₂ (fun r a => ∀ f, record f r = .ok (add f a)) rows as) : Runs (ofRow record) (single rows) fun f => as.foldl add f := by
  refine Runs.loop ?_
  rw [single, List.forall₂_map_left_iff]
  refine h.imp fun r a ha f more r' rs e => ?_
  cases e
  rw [ha]; rfl

/-- Sections whose records leave no trace. -/
theorem Runs.ofRow_same {record : RawFile → Row → Py RawFile} {rows : List Row} (h : ∀ r ∈ rows, ∀ f, record f r = .ok f) :
    Runs (Raw.ofRow record) (single rows) id := by
  have hf : List.Forall₂ (fun r (_ : Unit) => ∀ f, record f r = .ok f) rows (rows.map fun _ => ()) := by
    rw [List.forall₂_map_right_iff, List.forall₂_same]
    exact h
  have := Runs.ofRow (add := fun f (_ : Unit) => f) hf
  convert this using 2 with f
  induction rows.map fun _ => () with
  | nil => rfl
  | cons a as ih => rw [List.foldl_cons, ← ih]

theorem Runs.loop_same {α : Type} {record : RawFile → Row → List Row → Py (RawFile × ℕ)} (l : List α) (rowsOf : α → List Row)
    (h : ∀ a ∈ l, ∀ f more r rs, rowsOf a = r :: rs → record f r (rs ++ more) = .ok (f, rs.length)) :
    Runs (sectionLoop record 0) (l.map rowsOf) id := by
  have hf : List.Forall₂ (fun it (_ : Unit) => ∀ f more r rs, it = r :: rs → record f r (rs ++ more) = .ok (f, rs.length)) (l.map rowsOf) (l.map fun _ => ()) := by
    rw [List.forall₂_map_right_iff, List.forall₂_map_left_iff, List.forall₂_same]
    exact h
  have := Runs.loop (add := fun f (_ : Unit) => f) hf
  convert this using 2 with f
  induction l.map fun _ => () with
  | nil => rfl
  | cons a as ih => rw [List.foldl_cons, ← ih]

theorem systemLoop_lists {items : List (List Row)} {rows rest : List Row} (h : Lists items rows rest) : (∀ it ∈ items, it.length = 1) →
    systemLoop rows = .ok (some rest) := by
  induction h with
  | @stop t rest ht =>
    intro _
    have h1 := ht.first
    have h2 := ht.isEnd
    match t, h1, h2 with
    | (c :: t) :: ts, h1, h2 =>
      cases h1
      rw [systemLoop, if_neg (by simp), if_pos h2]
  | comment hc _ ih =>
    intro hl
    obtain ⟨t, ts, rfl⟩ := hc
    have : isSectionEnd (('@' :: t) :: ts) = false := by
      obtain ⟨s, e, _⟩ := joined_cons ('@' :: t) ts
      rw [isSectionEnd, decide_eq_false_iff_not, e, List.cons_append]
      have : " /".toList = [' ', '/'] := rfl
      rw [this, cutAt_cons _ _ _ _ (by decide)]
      intro h
      rw [List.cons.injEq] at h
      exact absurd h.1 (by decide)
    rw [systemLoop, if_neg (by simp), if_neg (by rw [this]; decide)]
    exact ih hl
  | @item r rs items rows rest hr _ ih =>
    intro hl
    have h0 := hr.notEnd
    obtain ⟨c, t, ts, rfl, h1, h2, h3, _⟩ := hr
    have : rs = [] := by
      have := hl (((c :: t) :: ts) :: rs) (by simp)
      simpa using this
    subst this
    rw [systemLoop, if_neg (by simp [h2, h3]), if_neg (by rw [h0]; decide)]
    exact ih fun it hi => hl it (by simp [hi])

theorem systemLoop_early {cs rest : List Row} {q : Row} (hc : ∀ c ∈ cs, Comment c) (hq : FileEnd q) : systemLoop (cs ++ q :: rest) = .ok none := by
  induction cs with
  | nil =>
    obtain ⟨c, t, ts, rfl, h⟩ := hq
    rw [List.nil_append, systemLoop, if_pos]
    rcases h with rfl | rfl <;> simp
  | cons c cs ih =>
    obtain ⟨t, ts, rfl⟩ := hc c (by simp)
    have : isSectionEnd (('@' :: t) :: ts) = false := by
      obtain ⟨s, e, _⟩ := joined_cons ('@' :: t) ts
      rw [isSectionEnd, decide_eq_false_iff_not, e, List.cons_append]
      have : " /".toList = [' ', '/'] := rfl
      rw [this, cutAt_cons _ _ _ _ (by decide)]
      intro h
      rw [List.cons.injEq] at h
      exact absurd h.1 (by decide)
    rw [List.cons_append, systemLoop, if_neg (by simp), if_neg (by rw [this]; decide)]
    exact ih fun d hd => hc d (by simp [hd])

theorem Runs.system (rows : List Row) : Runs (fun f rows => (systemLoop rows).map fun r => (f, r)) (single rows) id where
  full f rows' rest hl := by
    rw [systemLoop_lists hl fun it hi => by
      obtain ⟨r, _, rfl⟩ := List.mem_map.1 hi; rfl]
    rfl
  same _ _ := rfl
  early f cs q rest hc hq := by rw [systemLoop_early hc hq]; rfl

/-! ### All sections -/

theorem runSections_early (trailing : List Section) : ∀ (secs : List (Section × (RawFile → RawFile))) (items : List (List (List Row))),
    List.Forall₂ (fun s it => Runs s.1 it s.2) secs items → (∀ s ∈ items, s = []) → ∀ f : RawFile, secs.foldl (fun f s => s.2 f) f = f := by
  intro secs items h
  induction h with
  | nil => intro _ f; rfl
  | @cons s it secs items hs _ ih =>
    intro he f
    rw [List.foldl_cons, hs.same (he it (by simp))]
    exact ih (fun s h => he s (by simp [h])) f

theorem runSections_laysOut {tail : List Row → Prop} {trailing : List Section} (ht : ∀ f rows, tail rows → runSections trailing f rows = .ok f)
    {items : List (List (List Row))} {rows : List Row} (h : LaysOut tail items rows) :
    ∀ (secs : List (Section × (RawFile → RawFile))), List.Forall₂ (fun s it => Runs s.1 it s.2) secs items →
      ∀ f, runSections (secs.map Prod.fst ++ trailing) f rows = .ok (secs.foldl (fun f s => s.2 f) f) := by
  induction h with
  | done h =>
    intro secs hs f
    cases hs
    exact ht f _ h
  | @early items cs rest q hne he hc hq =>
    intro secs hs f
    rw [runSections_early trailing secs items hs he]
    cases hs with
    | nil => exact absurd rfl hne
    | @cons s it secs items hs _ =>
      rw [List.map_cons, List.cons_append, runSections, hs.early f cs q rest hc hq]
  | @sect items secs' rows rest h _ ih =>
    intro secs hs f
    cases hs with
    | @cons s _ secs _ hs hss =>
      rw [List.map_cons, List.cons_append, runSections, hs.full f rows rest h]
      exact ih secs hss (s.2 f)

/-! ### The rest of the file -/

/-- What may stand after the sections that are used, seen from a row on. -/
def Trail (skipped : Bool) (rows : List Row) : Prop :=
  ∃ pre q rest, rows = pre ++ q :: rest ∧ FileEnd q ∧ (∀ r ∈ pre, ∃ c t ts, r = (c :: t) :: ts) ∧ (∀ r ∈ pre.getLast?, ¬ Comment r) ∧
    (skipped = true → pre ≠ [])

theorem trailingLoop_trail : ∀ (rows : List Row) (skipped : Bool), Trail skipped rows →
    trailingLoop skipped rows = .ok none ∨ ∃ rest, trailingLoop skipped rows = .ok (some rest) ∧ Trail false rest := by
  intro rows
  induction rows with
  | nil =>
    rintro skipped ⟨pre, q, rest, e, _⟩
    simp at e
  | cons row rows ih =>
    rintro skipped ⟨pre, q, rest, e, hq, hp, hl, hs⟩
    cases pre with
    | nil =>
      rw [List.nil_append, List.cons.injEq] at e
      obtain ⟨rfl, rfl⟩ := e
      cases skipped with
      | true => exact absurd rfl (hs rfl)
      | false =>
        obtain ⟨c, h1, h2⟩ := hq.first
        left
        rw [trailingLoop]
        simp only [h1]
        rw [if_neg (by rcases h2 with rfl | rfl <;> decide), if_neg (by decide), if_pos h2]
    | cons p pre =>
      rw [List.cons_append, List.cons.injEq] at e
      obtain ⟨rfl, rfl⟩ := e
      obtain ⟨c, t, ts, rfl⟩ := hp row (by simp)
      have hp' : ∀ r ∈ pre, ∃ c t ts, r = (c :: t) :: ts := fun r hr => hp r (by simp [hr])
      have hl' : ∀ r ∈ pre.getLast?, ¬ Comment r := by
        intro r hr
        refine hl r ?_
        cases pre with
        | nil => cases hr
        | cons a pre => rw [List.getLast?_cons_cons]; exact hr
      have next : Trail false (pre ++ q :: rest) := ⟨pre, q, rest, rfl, hq, hp', hl', fun h => by cases h⟩
      rw [trailingLoop]
      simp only [firstChar]
      by_cases hc : c = '@'
      · subst hc
        rw [if_pos rfl]
        refine ih true ⟨pre, q, rest, rfl, hq, hp', hl', fun _ e => ?_⟩
        subst e
        exact hl (('@' :: t) :: ts) rfl ⟨t, ts, rfl⟩
      · rw [if_neg hc]
        split
        · exact ih false next
        · split
          · exact .inl rfl
          · split
            · exact .inr ⟨_, rfl, next⟩
            · exact ih false next

theorem runSections_trail (n : ℕ) : ∀ (f : RawFile) (rows : List Row), Trail false rows →
    runSections (List.replicate n fun f rows => (trailingLoop false rows).map fun r => (f, r)) f rows = .ok f := by
  induction n with
  | zero => intro f rows _; rfl
  | succ n ih =>
    intro f rows h
    rw [List.replicate_succ, runSections]
    rcases trailingLoop_trail rows false h with e | ⟨rest, e, hr⟩
    · rw [e]; rfl
    · rw [e]
      exact ih f rest hr

/-! ### Dictionaries -/

theorem put_new {α κ : Type} [DecidableEq κ] (key : α → κ) (l : List α) (a : α) (h : key a ∉ l.map key) : put key l a = l ++ [a] := by
  rw [put, if_neg]
  intro hany
  obtain ⟨b, hb, e⟩ := List.any_eq_true.1 hany
  exact h (List.mem_map.2 ⟨b, hb, by simpa using e⟩)

theorem foldl_put {α κ : Type} [DecidableEq κ] (key : α → κ) : ∀ (as l : List α), ((l ++ as).map key).Nodup → as.foldl (put key) l = l ++ as := by
  intro as
  induction as with
  | nil => intro l _; simp
  | cons a as ih =>
    intro l h
    have h1 : key a ∉ l.map key := by
      rw [List.map_append, List.map_cons, List.nodup_append] at h
      intro hm
      exact h.2.2 _ hm _ (by simp) rfl
    rw [List.foldl_cons, put_new key l a h1, ih (l ++ [a]) (by simpa using h)]
    simp

/-- Records with different names have different keys. -/
theorem keys_nodup {α β κ : Type} {key : β → κ} {states : α → β → Prop} {same : α → α → Prop} {rs : List α} {as : List β}
    (h : List.Forall₂ states rs as) (hp : rs.Pairwise fun r r' => ¬ same r r') (hk : ∀ r r' a a', states r a → states r' a' → key a = key a' → same r r') :
    (as.map key).Nodup := by
  induction h with
  | nil => simp
  | @cons r a rs as h hs ih =>
    rw [List.pairwise_cons] at hp
    rw [List.map_cons, List.nodup_cons]
    refine ⟨fun hm => ?_, ih hp.2⟩
    obtain ⟨a', ha', e⟩ := List.mem_map.1 hm
    clear ih
    have : ∃ r' ∈ rs, states r' a' := by
      clear hp hm
      induction hs with
      | nil => cases ha'
      | @cons r1 a1 rs as h1 _ ih =>
        rcases List.mem_cons.1 ha' with rfl | h'
        · exact ⟨r1, by simp, h1⟩
        · obtain ⟨r', hr', h2⟩ := ih h'
          exact ⟨r', by simp [hr'], h2⟩
    obtain ⟨r', hr', h2⟩ := this
    exact hp.1 r' hr' (hk r r' a a' h h2 e.symm)

theorem exists_forall₂ {α β : Type} {P : α → β → Prop} {l : List α} (h : ∀ a ∈ l, ∃ b, P a b) : ∃ bs, List.Forall₂ P l bs := by
  induction l with
  | nil => exact ⟨[], .nil⟩
  | cons a l ih =>
    obtain ⟨b, hb⟩ := h a (by simp)
    obtain ⟨bs, hbs⟩ := ih fun c hc => h c (by simp [hc])
    exact ⟨b :: bs, .cons hb hbs⟩

end Verif.Raw
