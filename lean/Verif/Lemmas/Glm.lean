import Verif.Lemmas.Text

/-!
# Lemmas on reading rows
-/

namespace Verif.Glm

deriving instance DecidableEq for Except

variable {W : World}

theorem Word.notMem {w : Txt} (h : Word w) {c : Char} (hc : isSpace c = true ∨ c = '"' ∨ c = ';' ∨ c = '/' ∨ c = '}') : c ∉ w := by
  intro hm
  obtain ⟨h1, h2, h3, h4, h5⟩ := h.2 c hm
  rcases hc with e | e | e | e | e
  · rw [h1] at e; exact absurd e (by decide)
  · exact h2 e
  · exact h3 e
  · exact h4 e
  · exact h5 e

theorem Blank.notMem {s : Txt} (h : Blank s) {c : Char} (hc : isSpace c = false) : c ∉ s := fun hm => by
  rw [h c hm] at hc; exact absurd hc (by decide)

theorem strip_blank {s : Txt} (h : Blank s) : strip s = [] := by
  unfold strip stripBy
  rw [dropWhile_blank isSpace s h]
  rfl

/-- A row whose content begins with `a` and `c`, up to white space: what is left after the strip. -/
theorem strip_core (l a r : Txt) (c : Char) (hl : Blank l) (ha : ∀ x ∈ (a ++ [c]).head?, isSpace x = false)
    (hc : isSpace c = false) : strip (l ++ (a ++ c :: r)) = a ++ c :: (r.reverse.dropWhile isSpace).reverse :=
  stripBy_core isSpace l a r c hl ha hc

theorem slashes : "//".toList = ['/', '/'] := rfl

theorem uncommented_ignorable {r : Txt} (h : Ignorable r) : uncommented r = [] := by
  cases h with
  | blank _ h => rw [uncommented, strip_blank h]; rfl
  | comment l t h =>
    have := strip_core l ['/'] t '/' h (by simp; decide) (by decide)
    rw [uncommented, slashes, List.append_assoc]
    rw [show (['/', '/'] ++ t : Txt) = ['/'] ++ '/' :: t from rfl, this]
    rfl

theorem readRow_ignorable {r : Txt} (h : Ignorable r) (s : RState) : readRow W s r = .ok s := by
  rw [readRow, uncommented_ignorable h]
  rfl

/-- A row that is not a comment: what is left of it. The content up to the character `c` has no slash. -/
theorem uncommented_core (l a t : Txt) (c : Char) (hl : Blank l) (ha : ∀ x ∈ (a ++ [c]).head?, isSpace x = false)
    (hc : isSpace c = false) (hs : '/' ∉ a ++ [c]) :
    uncommented (l ++ (a ++ c :: t)) = a ++ c :: cutAt "//".toList ((t.reverse.dropWhile isSpace).reverse) := by
  have hne : (a ++ c :: (t.reverse.dropWhile isSpace).reverse) ≠ [] := by simp
  rw [uncommented, strip_core l a t c hl ha hc, if_neg]
  · rw [show a ++ c :: (t.reverse.dropWhile isSpace).reverse = (a ++ [c]) ++ (t.reverse.dropWhile isSpace).reverse by simp]
    rw [slashes, cutAt_append '/' ['/'] _ _ hs]
    simp
  · rw [slashes]
    cases a with
    | nil =>
      simp only [List.nil_append, List.isPrefixOf]
      have : '/' ≠ c := fun e => hs (by rw [e]; simp)
      simp [this]
    | cons x xs =>
      simp only [List.cons_append, List.isPrefixOf]
      have : '/' ≠ x := fun e => hs (by rw [e]; simp)
      simp [this]

theorem trailing_cut {t : Txt} (h : Trailing t) : Blank (cutAt "//".toList ((t.reverse.dropWhile isSpace).reverse)) := by
  rcases h with h | ⟨s, u, hs, rfl⟩
  · rw [dropEnd_blank isSpace t h]
    intro c hc
    exact absurd hc (by rw [slashes, cutAt_nil]; simp)
  · rw [slashes, List.append_assoc]
    have := dropEnd_append isSpace (s ++ ['/']) u '/' (by decide)
    rw [show s ++ (['/', '/'] ++ u) = s ++ ['/'] ++ '/' :: u by simp, this]
    rw [show s ++ ['/'] ++ '/' :: (u.reverse.dropWhile isSpace).reverse = s ++ (['/', '/'] ++ (u.reverse.dropWhile isSpace).reverse) by simp]
    rw [cutAt_append '/' ['/'] s _ (hs.notMem (by decide)), cutAt_pattern, List.append_nil]
    exact hs

/-- What is read of a header row. -/
theorem header_uncommented {cls row : Txt} (hc : Word cls) (h : HeaderRow cls row) :
    split (uncommented row) = ["object".toList, cls, "{".toList] := by
  obtain ⟨l, g, g', t, hl, hg, hg0, hg', hg0', ht, rfl⟩ := h
  have hs : '/' ∉ ("object".toList ++ g ++ cls ++ g') ++ ['{'] := by
    simp only [List.mem_append, not_or]
    exact ⟨⟨⟨⟨by decide, hg.notMem (by decide)⟩, hc.notMem (by simp)⟩, hg'.notMem (by decide)⟩, by decide⟩
  have := uncommented_core l ("object".toList ++ g ++ cls ++ g') t '{' hl
    (by intro x hx; have : x = 'o' := by simpa [eq_comm] using hx
        subst this; decide) (by decide) hs
  rw [show l ++ "object".toList ++ g ++ cls ++ g' ++ "{".toList ++ t = l ++ ("object".toList ++ g ++ cls ++ g' ++ '{' :: t) by simp, this]
  have hb := trailing_cut ht
  generalize cutAt "//".toList ((t.reverse.dropWhile isSpace).reverse) = u at hb ⊢
  rw [split, show "object".toList ++ g ++ cls ++ g' ++ '{' :: u = "object".toList ++ (g ++ (cls ++ (g' ++ ("{".toList ++ u)))) by simp]
  rw [splitAux_word [] _ (by decide), List.nil_append, splitAux_gap _ g _ (by decide) hg hg0]
  rw [splitAux_word [] cls fun c hm => (hc.2 c hm).1, List.nil_append, splitAux_gap cls g' _ hc.1 hg' hg0']
  rw [splitAux_word [] _ (by decide), List.nil_append, splitAux_end _ u (by decide) hb]

theorem splitOnAux_sep (sep : Char) (w s r : Txt) (h : sep ∉ s) : splitOnAux sep w (s ++ sep :: r) = (w ++ s) :: splitOnAux sep [] r := by
  induction s generalizing w with
  | nil => simp [splitOnAux]
  | cons c s ih =>
    rw [List.cons_append, splitOnAux, if_neg (fun e => h (by simp [e])), ih _ fun e => h (by simp [e])]
    simp

/-- A header row opens the object. -/
theorem readRow_header {o : Obj} {row tag : Txt} {as : List (Txt × Txt)} (ho : Writable W o) (hopen : Opens o tag as) (h : HeaderRow tag row)
    (s : RState) (hs : s.cur = none) :
    ∃ done, o.attrs = done ++ as ∧ readRow W s row = .ok { s with cls := o.cls, cur := some ⟨o.cls, done⟩ } := by
  obtain ⟨⟨hw, hcol, hskip⟩, ⟨ps, hps, hin⟩, -⟩ := ho
  cases hopen with
  | plain =>
    refine ⟨[], rfl, ?_⟩
    rw [readRow]
    simp only [header_uncommented hw h]
    rw [if_pos trivial, openObject, hs]
    simp only [splitOn_none ':' o.cls hcol, List.headD_cons]
    rw [if_neg hskip, hps]
  | numbered n as hn hc he =>
    refine ⟨[("name".toList, o.cls ++ ":".toList ++ n)], by simpa using he, ?_⟩
    have hword : Word (o.cls ++ ":".toList ++ n) := by
      refine ⟨by simp, fun c hm => ?_⟩
      simp only [List.mem_append] at hm
      rcases hm with (hm | hm) | hm
      · exact hw.2 c hm
      · have : c = ':' := by simpa using hm
        subst this; decide
      · exact hn.2 c hm
    have hsplit : splitOn ':' (o.cls ++ ":".toList ++ n) = [o.cls, n] := by
      rw [splitOn, show o.cls ++ ":".toList ++ n = o.cls ++ ':' :: n by simp, splitOnAux_sep ':' [] _ _ hcol, splitOnAux_none ':' [] n hc]
      rfl
    have hname : "name".toList ∈ (W.schema o.cls).getD [] := by
      rw [hps]
      exact hin ("name".toList, o.cls ++ ":".toList ++ n) (by rw [he]; simp)
    rw [readRow]
    simp only [header_uncommented hword h]
    rw [if_pos trivial, openObject, hs]
    simp only [hsplit, List.headD_cons]
    rw [if_neg hskip, hps]
    simp only [Obj.set, if_pos hname, bind, Except.bind, store]

theorem Quoted.facts {v q : Txt} (hv : Word v) (h : Quoted v q) :
    q ≠ [] ∧ (∀ c ∈ q, isSpace c = false) ∧ ';' ∉ q ∧ '/' ∉ q ∧ '}' ∉ q ∧ dropChar '"' q = v := by
  cases h with
  | plain =>
    exact ⟨hv.1, fun c hc => (hv.2 c hc).1, hv.notMem (by simp), hv.notMem (by simp), hv.notMem (by simp),
      dropChar_of_notMem _ _ (hv.notMem (by simp))⟩
  | quoted =>
    refine ⟨by simp, ?_, ?_, ?_, ?_, ?_⟩
    · intro c hc
      have : c = '"' ∨ c ∈ v := by
        simp only [List.mem_append] at hc
        rcases hc with (hc | hc) | hc
        · exact .inl (by simpa using hc)
        · exact .inr hc
        · exact .inl (by simpa using hc)
      rcases this with rfl | h
      · decide
      · exact (hv.2 c h).1
    · have := hv.notMem (c := ';') (by simp); simp [this]
    · have := hv.notMem (c := '/') (by simp); simp [this]
    · have := hv.notMem (c := '}') (by simp); simp [this]
    · have := dropChar_of_notMem '"' v (hv.notMem (by simp))
      unfold dropChar at this ⊢
      rw [List.filter_append, List.filter_append, this]
      simp

/-- What is read of an attribute row. -/
theorem attr_uncommented {k v row : Txt} (hk : Word k) (hv : Word v) (h : AttrRow k v row) :
    ∃ (x q : Txt), split (uncommented row) ≠ [] ∧ (split (uncommented row)).head? = some k ∧ cutAt ";".toList (uncommented row) = x ∧
      split x = [k, q] ∧ dropChar '"' q = v ∧ x.getLast? ≠ some '}' := by
  obtain ⟨l, g, q, b, r, hl, hg, hg0, hq, hb, rfl⟩ := h
  obtain ⟨q0, qs, qsemi, qslash, qbrace, qdrop⟩ := hq.facts hv
  obtain ⟨k0, krest, rfl⟩ : ∃ k0 krest, k = k0 :: krest := by
    cases k with
    | nil => exact absurd rfl hk.1
    | cons a b => exact ⟨a, b, rfl⟩
  have hs : '/' ∉ ((k0 :: krest) ++ g ++ q ++ b) ++ [';'] := by
    simp only [List.mem_append, not_or]
    exact ⟨⟨⟨⟨hk.notMem (by simp), hg.notMem (by decide)⟩, qslash⟩, hb.notMem (by decide)⟩, by decide⟩
  have hu := uncommented_core l ((k0 :: krest) ++ g ++ q ++ b) r ';' hl
    (by intro x hx; have : x = k0 := by simpa [eq_comm] using hx
        subst this; exact (hk.2 x (by simp)).1) (by decide) hs
  rw [show l ++ (k0 :: krest) ++ g ++ q ++ b ++ ";".toList ++ r = l ++ ((k0 :: krest) ++ g ++ q ++ b ++ ';' :: r) by simp, hu]
  generalize cutAt "//".toList ((r.reverse.dropWhile isSpace).reverse) = u
  have hsp : ∀ y, split ((k0 :: krest) ++ g ++ q ++ b ++ y) = (k0 :: krest) :: splitAux [] (q ++ (b ++ y)) := by
    intro y
    rw [split, show (k0 :: krest) ++ g ++ q ++ b ++ y = (k0 :: krest) ++ (g ++ (q ++ (b ++ y))) by simp]
    rw [splitAux_word [] _ fun c hm => (hk.2 c hm).1, List.nil_append, splitAux_gap _ g _ (by simp) hg hg0]
  refine ⟨(k0 :: krest) ++ g ++ q ++ b, q, ?_, ?_, ?_, ?_, qdrop, ?_⟩
  · rw [hsp]; simp
  · rw [hsp]; simp
  · rw [show ";".toList = [';'] from rfl, cutAt_append ';' [] ((k0 :: krest) ++ g ++ q ++ b) _ ?_]
    · rw [show (';' :: u : Txt) = [';'] ++ u from rfl, cutAt_pattern, List.append_nil]
    · simp only [List.mem_append, not_or]
      exact ⟨⟨⟨hk.notMem (by simp), hg.notMem (by decide)⟩, qsemi⟩, hb.notMem (by decide)⟩
  · have := hsp []
    rw [List.append_nil, List.append_nil] at this
    rw [this, splitAux_word [] q qs, List.nil_append, splitAux_end q b q0 hb]
  · intro hlast
    have hm := List.mem_of_getLast? hlast
    simp only [List.mem_append] at hm
    rcases hm with ((hm | hm) | hm) | hm
    · exact hk.notMem (by simp) hm
    · exact hg.notMem (by decide) hm
    · exact qbrace hm
    · exact hb.notMem (by decide) hm

/-- An attribute row sets the attribute. -/
theorem readRow_attr {o : Obj} {k v row : Txt} (hk : Word k) (hv : Word v) (hko : k ≠ "object".toList) (hks : k ≠ "schedule".toList)
    (hmem : k ∈ (W.schema o.cls).getD []) (h : AttrRow k v row) (s : RState) (hs : s.cur = some o) (hsch : s.sched = none) :
    readRow W s row = .ok { s with cur := some { o with attrs := store k v o.attrs } } := by
  obtain ⟨x, q, hne, hhead, hcut, hsplit, hdrop, hlast⟩ := attr_uncommented hk hv h
  rw [readRow]
  cases hsp : split (uncommented row) with
  | nil => exact absurd hsp hne
  | cons e es =>
    have : e = k := by rw [hsp] at hhead; simpa using hhead
    subst this
    simp only [hsp]
    rw [if_neg hko, if_neg hks]
    simp only [hs]
    have hrow : objectRow W s o (uncommented row) = .ok { s with cur := some { o with attrs := store e v o.attrs } } := by
      rw [objectRow]
      simp only [hcut, hsplit]
      have hval : attributeValue W s.cls [e, q] = .ok v := by
        simp [attributeValue, hdrop]
      rw [hval]
      simp only [bind, Except.bind, Obj.set, if_pos hmem]
      rw [if_neg hlast]
    rw [hrow]
    simp only [bind, Except.bind, hsch]

/-- What is read of a closing row. -/
theorem close_uncommented {row : Txt} (h : CloseRow row) :
    split (uncommented row) ≠ [] ∧ (∀ e, (split (uncommented row)).head? = some e → e.head? = some '}') ∧ cutAt ";".toList (uncommented row) = ['}'] := by
  obtain ⟨l, t, hl, ht, rfl⟩ := h
  have hu := uncommented_core l [] t '}' hl (by simp; decide) (by decide) (by decide)
  rw [show l ++ "}".toList ++ t = l ++ ([] ++ '}' :: t) by simp, hu, List.nil_append]
  have hcut : cutAt ";".toList ('}' :: cutAt "//".toList ((t.reverse.dropWhile isSpace).reverse)) = ['}'] := by
    rw [show ";".toList = [';'] from rfl, show ∀ y : Txt, '}' :: y = ['}'] ++ y from fun _ => rfl, cutAt_append ';' [] ['}'] _ (by decide)]
    rcases ht with ht | ⟨r, rfl⟩
    · rw [dropEnd_blank isSpace t ht, slashes, cutAt_nil, cutAt_nil]; rfl
    · have := dropEnd_append isSpace [] r ';' (by decide)
      rw [show ";".toList ++ r = [] ++ ';' :: r from rfl, this, List.nil_append]
      have h2 := cutAt_append '/' ['/'] [';'] (r.reverse.dropWhile isSpace).reverse (by decide)
      rw [slashes, show (';' :: (r.reverse.dropWhile isSpace).reverse : Txt) = [';'] ++ (r.reverse.dropWhile isSpace).reverse from rfl, h2]
      rw [cutAt_pattern]
      rfl
  refine ⟨?_, ?_, hcut⟩
  · rw [split, splitAux, if_neg (by decide)]
    intro hn
    have : ∀ (y w : Txt), w ≠ [] → splitAux w y ≠ [] := by
      intro y
      induction y with
      | nil => intro w hw; rw [splitAux, if_neg (by simpa using hw)]; simp
      | cons c y ih =>
        intro w hw
        rw [splitAux]
        split
        · rw [if_neg (by simpa using hw)]; simp
        · exact ih _ (by simp)
    exact this _ _ (by simp) hn
  · intro e he
    rw [split, splitAux, if_neg (by decide), List.nil_append] at he
    have : ∀ (y w : Txt), w.head? = some '}' → ∀ e, (splitAux w y).head? = some e → e.head? = some '}' := by
      intro y
      induction y with
      | nil =>
        intro w hw e he
        rw [splitAux, if_neg (by intro h0; simp at h0; rw [h0] at hw; simp at hw)] at he
        simp only [List.head?_cons, Option.some.injEq] at he
        rw [← he]; exact hw
      | cons c y ih =>
        intro w hw e he
        have hw0 : ¬ w.isEmpty = true := by intro h0; simp at h0; rw [h0] at hw; simp at hw
        rw [splitAux] at he
        split at he
        · simp only [List.head?_cons, Option.some.injEq] at he
          rw [← he]; exact hw
        · refine ih _ ?_ e he
          cases w with
          | nil => simp at hw
          | cons a w => simpa using hw
    exact this _ _ (by simp) e he

theorem lookup_of_mem {β : Type} {d : List (Txt × β)} {k : Txt} {v : β} (hn : (d.map Prod.fst).Nodup) (hm : (k, v) ∈ d) :
    lookup k d = some v := by
  induction d with
  | nil => cases hm
  | cons a d ih =>
    obtain ⟨k', v'⟩ := a
    rw [List.map_cons, List.nodup_cons] at hn
    rw [lookup]
    rcases List.mem_cons.1 hm with e | hm
    · obtain ⟨rfl, rfl⟩ := Prod.mk.injEq .. ▸ e
      rw [if_pos rfl]
    · rw [if_neg, ih hn.2 hm]
      rintro rfl
      exact hn.1 (List.mem_map.2 ⟨_, hm, rfl⟩)

theorem lookup_of_notMem {β : Type} {d : List (Txt × β)} {k : Txt} (h : k ∉ d.map Prod.fst) : lookup k d = none := by
  induction d with
  | nil => rfl
  | cons a d ih =>
    obtain ⟨k', v'⟩ := a
    rw [List.map_cons, List.mem_cons, not_or] at h
    rw [lookup, if_neg fun e => h.1 e.symm, ih h.2]

theorem store_new {β : Type} {d : List (Txt × β)} {k : Txt} (v : β) (h : k ∉ d.map Prod.fst) : store k v d = d ++ [(k, v)] := by
  induction d with
  | nil => rfl
  | cons a d ih =>
    obtain ⟨k', v'⟩ := a
    rw [List.map_cons, List.mem_cons, not_or] at h
    rw [store, if_neg fun e => h.1 e.symm, ih h.2]
    rfl

/-- The end of an object files it. -/
theorem closeObject_filed {o o' : Obj} {name : Txt} (ho : (o.attrs.map Prod.fst).Nodup) (hf : Filed W o (name, o')) (s : RState)
    (hi : s.ignore = false) : closeObject W s o = .ok { s with objs := store name o' s.objs, cur := none } := by
  rw [closeObject, hi]
  cases hf with
  | named _ h =>
    have : o.get "name".toList = .ok name := by rw [Obj.get, lookup_of_mem ho h]
    rw [this]; rfl
  | link f t h hf ht hs =>
    have h1 : o.get "name".toList = .error .attribute := by rw [Obj.get, lookup_of_notMem h]
    have h2 : o.get "from".toList = .ok f := by rw [Obj.get, lookup_of_mem ho hf]
    have h3 : o.get "to".toList = .ok t := by rw [Obj.get, lookup_of_mem ho ht]
    rw [h1, h2, h3]
    simp only [bind, Except.bind, Obj.set, if_pos hs, store_new _ h]
    rfl

/-- A closing row files the object. -/
theorem readRow_close {o o' : Obj} {row name : Txt} (ho : (o.attrs.map Prod.fst).Nodup) (hn : Filed W o (name, o')) (h : CloseRow row) (s : RState)
    (hs : s.cur = some o) (hi : s.ignore = false) (hsch : s.sched = none) :
    readRow W s row = .ok { s with objs := store name o' s.objs, cur := none } := by
  obtain ⟨hne, hhead, hcut⟩ := close_uncommented h
  rw [readRow]
  cases hsp : split (uncommented row) with
  | nil => exact absurd hsp hne
  | cons e es =>
    have he := hhead e (by rw [hsp]; rfl)
    have h1 : e ≠ "object".toList := by rintro rfl; exact absurd he (by decide)
    have h2 : e ≠ "schedule".toList := by rintro rfl; exact absurd he (by decide)
    simp only [hsp]
    rw [if_neg h1, if_neg h2]
    simp only [hs]
    have hrow : objectRow W s o (uncommented row) = .ok { s with objs := store name o' s.objs, cur := none } := by
      rw [objectRow]
      have : split (['}'] : Txt) = [['}']] := by decide
      simp only [hcut, this, bind, Except.bind]
      rw [if_pos (by rfl), closeObject_filed ho hn s hi]
    rw [hrow]
    simp only [bind, Except.bind, hsch]

/-- The body of an object sets its attributes in order. -/
theorem read_body {cls : Txt} {ps : List Txt} (hps : W.schema cls = some ps) {rows : List Txt} {as : List (Txt × Txt)} (hb : Body rows as)
    (hw : ∀ a ∈ as, a.1 ∈ ps ∧ Word a.1 ∧ Word a.2 ∧ a.1 ≠ "object".toList ∧ a.1 ≠ "schedule".toList) :
    ∀ (s : RState) (done : List (Txt × Txt)), ((done ++ as).map Prod.fst).Nodup → s.cur = some ⟨cls, done⟩ → s.sched = none →
      rows.foldlM (readRow W) s = .ok { s with cur := some ⟨cls, done ++ as⟩ } := by
  induction hb with
  | nil =>
    intro s done _ hs _
    rw [List.foldlM_nil, List.append_nil, ← hs]
    rfl
  | skip h _ ih =>
    intro s done hn hs hsch
    rw [List.foldlM_cons, readRow_ignorable h]
    exact ih hw s done hn hs hsch
  | @attr r rows k v as h _ ih =>
    intro s done hn hs hsch
    obtain ⟨hp, hk, hv, hko, hks⟩ := hw (k, v) (by simp)
    rw [List.foldlM_cons, readRow_attr hk hv hko hks (by simpa [hps] using hp) h s hs hsch]
    have hnew : k ∉ done.map Prod.fst := by
      intro hm
      rw [List.map_append, List.nodup_append] at hn
      exact hn.2.2 k hm k (by simp) rfl
    have := ih (fun a ha => hw a (by simp [ha])) { s with cur := some ⟨cls, store k v done⟩ } (done ++ [(k, v)]) (by simpa using hn)
      (by rw [store_new v hnew]) hsch
    simp only [List.append_assoc, List.singleton_append] at this
    exact this

/-- A header row inside an object. -/
theorem readRow_nested {row tag : Txt} {o : Obj} (ht : Word tag) (h : HeaderRow tag row) (s : RState) (hs : s.cur = some o) :
    readRow W s row = .ok { s with ignore := true } := by
  rw [readRow]
  simp only [header_uncommented ht h]
  rw [if_pos trivial, openObject, hs]

/-- The closing row of a nested object. -/
theorem readRow_close_nested {o : Obj} {row : Txt} (h : CloseRow row) (s : RState) (hs : s.cur = some o) (hi : s.ignore = true)
    (hsch : s.sched = none) : readRow W s row = .ok { s with ignore := false } := by
  obtain ⟨hne, hhead, hcut⟩ := close_uncommented h
  rw [readRow]
  cases hsp : split (uncommented row) with
  | nil => exact absurd hsp hne
  | cons e es =>
    have he := hhead e (by rw [hsp]; rfl)
    have h1 : e ≠ "object".toList := by rintro rfl; exact absurd he (by decide)
    have h2 : e ≠ "schedule".toList := by rintro rfl; exact absurd he (by decide)
    simp only [hsp]
    rw [if_neg h1, if_neg h2]
    simp only [hs]
    have hrow : objectRow W s o (uncommented row) = .ok { s with ignore := false, cur := some o } := by
      rw [objectRow]
      have : split (['}'] : Txt) = [['}']] := by decide
      simp only [hcut, this, bind, Except.bind]
      rw [if_pos (by rfl), closeObject, hi]
      simp
    rw [hrow]
    simp only [bind, Except.bind, hsch, ← hs]

/-- A file that writes objects down: they are filed under their names, in order. -/
theorem read_written {rows : List Txt} {os : List Obj} (hw : Written rows os) :
    ∀ (files : List (Txt × Obj)), (∀ o ∈ os, Writable W o) → List.Forall₂ (Filed W) os files → ∀ (s : RState),
      ((s.objs ++ files).map Prod.fst).Nodup → s.cur = none → s.ignore = false → s.sched = none →
      ∃ cls, rows.foldlM (readRow W) s = .ok { s with objs := s.objs ++ files, cls := cls } := by
  induction hw with
  | nil =>
    intro files _ hf s _ _ _ _
    cases hf
    exact ⟨s.cls, by simp [List.foldlM_nil, pure, Except.pure]⟩
  | skip h _ ih =>
    intro files ho hf s hn hc hi hsch
    rw [List.foldlM_cons, readRow_ignorable h]
    exact ih files ho hf s hn hc hi hsch
  | @object tag as h body c rows o os hopen hh hb hc' _ ih =>
    intro files hall hf s hn hc hi hsch
    cases hf with
    | @cons _ file _ files hfile hf =>
      obtain ⟨name, o'⟩ := file
      have ho := hall o (by simp)
      obtain ⟨ps, hps, hin⟩ := ho.known
      obtain ⟨done, hdone, hread⟩ := readRow_header ho hopen hh s hc
      rw [List.cons_append, List.foldlM_cons, hread]
      simp only [bind, Except.bind]
      have hbody := read_body hps hb (fun a ha => ⟨hin a (by rw [hdone]; simp [ha]), ho.words a (by rw [hdone]; simp [ha])⟩)
        { s with cls := o.cls, cur := some ⟨o.cls, done⟩ } done (by rw [← hdone]; exact ho.once) rfl hsch
      rw [List.foldlM_append, hbody, ← hdone]
      simp only [bind, Except.bind]
      have hclose := readRow_close (W := W) ho.once hfile hc' { s with cls := o.cls, cur := some ⟨o.cls, o.attrs⟩ } rfl hi hsch
      rw [List.foldlM_cons, hclose]
      simp only [bind, Except.bind]
      have hnew : name ∉ s.objs.map Prod.fst := by
        intro hm
        rw [List.map_append, List.nodup_append] at hn
        exact hn.2.2 name hm name (by simp) rfl
      obtain ⟨cls, hr⟩ := ih files (fun o ho => hall o (by simp [ho])) hf { s with cls := o.cls, objs := store name o' s.objs, cur := none }
        (by rw [store_new o' hnew]; simpa using hn) rfl hi hsch
      refine ⟨cls, ?_⟩
      rw [hr, store_new o' hnew, hc]
      simp

end Verif.Glm
