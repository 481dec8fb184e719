import Verif.Lemmas.Glm
import Verif.Spec.GlmInclude
import Verif.Model.GlmInclude

/-!
# Reading the files of a feeder
-/

namespace Verif.Glm

variable {W : World} {disk : Disk}

theorem fileRowsAux_row {r t : Txt} (hr : OneRow r) : ∀ w : Txt, fileRowsAux w (r ++ '\n' :: t) = (w ++ r) :: fileRowsAux [] t := by
  induction r with
  | nil =>
    intro w
    cases t with
    | nil => simp [fileRowsAux]
    | cons d cs => simp [fileRowsAux]
  | cons c r ih =>
    intro w
    have h1 : c ≠ '\n' := fun e => hr.1 (by simp [e])
    have h2 : c ≠ '\r' := fun e => hr.2 (by simp [e])
    have h3 : OneRow r := ⟨fun h => hr.1 (List.mem_cons_of_mem _ h), fun h => hr.2 (List.mem_cons_of_mem _ h)⟩
    cases r with
    | nil => simpa [fileRowsAux, h1, h2] using ih h3 (w ++ [c])
    | cons d r => simpa [fileRowsAux, h1, h2] using ih h3 (w ++ [c])

theorem fileRowsAux_dos {r t : Txt} (hr : OneRow r) : ∀ w : Txt, fileRowsAux w (r ++ '\r' :: '\n' :: t) = (w ++ r) :: fileRowsAux [] t := by
  induction r with
  | nil =>
    intro w
    simp [fileRowsAux]
  | cons c r ih =>
    intro w
    have h1 : c ≠ '\n' := fun e => hr.1 (by simp [e])
    have h2 : c ≠ '\r' := fun e => hr.2 (by simp [e])
    have h3 : OneRow r := ⟨fun h => hr.1 (List.mem_cons_of_mem _ h), fun h => hr.2 (List.mem_cons_of_mem _ h)⟩
    cases r with
    | nil => simpa [fileRowsAux, h1, h2] using ih h3 (w ++ [c])
    | cons d r => simpa [fileRowsAux, h1, h2] using ih h3 (w ++ [c])

theorem fileRowsAux_return {r t : Txt} (hr : OneRow r) (ht : t.head? ≠ some '\n') : ∀ w : Txt, fileRowsAux w (r ++ '\r' :: t) = (w ++ r) :: fileRowsAux [] t := by
  induction r with
  | nil =>
    intro w
    cases t with
    | nil => simp [fileRowsAux]
    | cons d t =>
      have hd : d ≠ '\n' := fun e => ht (by rw [e]; rfl)
      simp [fileRowsAux, hd]
  | cons c r ih =>
    intro w
    have h1 : c ≠ '\n' := fun e => hr.1 (by simp [e])
    have h2 : c ≠ '\r' := fun e => hr.2 (by simp [e])
    have h3 : OneRow r := ⟨fun h => hr.1 (List.mem_cons_of_mem _ h), fun h => hr.2 (List.mem_cons_of_mem _ h)⟩
    cases r with
    | nil => simpa [fileRowsAux, h1, h2] using ih h3 (w ++ [c])
    | cons d r => simpa [fileRowsAux, h1, h2] using ih h3 (w ++ [c])

theorem fileRowsAux_last {r : Txt} (hr : OneRow r) : ∀ w : Txt, w ++ r ≠ [] → fileRowsAux w r = [w ++ r] := by
  induction r with
  | nil =>
    intro w hw
    rw [List.append_nil] at hw
    simp [fileRowsAux, hw]
  | cons c r ih =>
    intro w _
    have h1 : c ≠ '\n' := fun e => hr.1 (by simp [e])
    have h2 : c ≠ '\r' := fun e => hr.2 (by simp [e])
    have h3 : OneRow r := ⟨fun h => hr.1 (List.mem_cons_of_mem _ h), fun h => hr.2 (List.mem_cons_of_mem _ h)⟩
    cases r with
    | nil => simp [fileRowsAux, h1, h2]
    | cons d r => simpa [fileRowsAux, h1, h2] using ih h3 (w ++ [c]) (by simp)

theorem fileRows_text {t : Txt} {rows : List Txt} (h : FileText t rows) : fileRows t = rows := by
  unfold fileRows
  induction h with
  | nil => rfl
  | last r hr hne => exact fileRowsAux_last hr [] hne
  | @row r e t rows hr he _ ih =>
    rcases he with rfl | rfl | ⟨rfl, hn⟩
    · rw [show r ++ "\n".toList ++ t = r ++ '\n' :: t by simp, fileRowsAux_row hr, ih]
      rfl
    · rw [show r ++ "\r\n".toList ++ t = r ++ '\r' :: '\n' :: t by simp, fileRowsAux_dos hr, ih]
      rfl
    · rw [show r ++ "\r".toList ++ t = r ++ '\r' :: t by simp, fileRowsAux_return hr hn, ih]
      rfl

theorem isInclude_iff {r : Txt} : isInclude r = true ↔ "#include".toList <+: r := by
  rw [isInclude, decide_eq_true_iff, List.prefix_iff_eq_take, eq_comm]
  rfl

theorem includedRows_none {rows : List Txt} (h : NoInclude rows) : includedRows disk rows = .ok [] := by
  induction rows with
  | nil => rfl
  | cons r rows ih =>
    rw [includedRows, if_neg (fun e => h r List.mem_cons_self (isInclude_iff.1 e))]
    exact ih fun x hx => h x (List.mem_cons_of_mem _ hx)

theorem includedRows_append {a b : List Txt} (h : NoInclude a) : includedRows disk (a ++ b) = includedRows disk b := by
  induction a with
  | nil => rfl
  | cons r rows ih =>
    rw [List.cons_append, includedRows, if_neg (fun e => h r List.mem_cons_self (isInclude_iff.1 e))]
    exact ih fun x hx => h x (List.mem_cons_of_mem _ hx)

/-- The first word of a row that does not begin with white space begins as the row. -/
theorem splitAux_head (s : Txt) : ∀ w : Txt, w ≠ [] → ∃ v es, splitAux w s = (w ++ v) :: es := by
  induction s with
  | nil =>
    intro w hw
    exact ⟨[], [], by simp [splitAux, hw]⟩
  | cons c s ih =>
    intro w hw
    rw [splitAux]
    split
    · exact ⟨[], splitAux [] s, by simp [hw]⟩
    · obtain ⟨v, es, h⟩ := ih (w ++ [c]) (by simp)
      exact ⟨c :: v, es, by rw [h]; simp⟩

theorem split_hash (s : Txt) : ∃ v es, split ('#' :: s) = ('#' :: v) :: es := by
  obtain ⟨v, es, h⟩ := splitAux_head s ['#'] (by simp)
  exact ⟨v, es, by rw [split, splitAux, if_neg (by decide)]; exact h⟩

theorem cutAt_hash (s : Txt) : ∃ v, cutAt "//".toList ('#' :: s) = '#' :: v := by
  have h : find "//".toList ('#' :: s) = (find "//".toList s).map (· + 1) := by
    rw [find, if_neg (by rw [slashes]; simp [List.isPrefixOf])]
  rw [cutAt, h]
  cases find "//".toList s with
  | none => exact ⟨s, rfl⟩
  | some i => exact ⟨s.take i, rfl⟩

theorem strip_hash (s : Txt) : ∃ v, strip ('#' :: s) = '#' :: v := by
  rw [strip, stripBy, List.dropWhile_cons_of_neg (by decide)]
  have : ∀ l : Txt, ∃ v, ((l ++ ['#']).dropWhile isSpace).reverse = '#' :: v := by
    intro l
    induction l with
    | nil => exact ⟨[], by decide⟩
    | cons c l ih =>
      rw [List.cons_append, List.dropWhile_cons]
      split
      · exact ih
      · exact ⟨(c :: l).reverse, by simp⟩
  rw [List.reverse_cons]
  exact this _

/-- Between objects a row that begins with `#` does nothing. -/
theorem readRow_hash (r : Txt) (s : RState) (hc : s.cur = none) (hs : s.sched = none) : readRow W s ('#' :: r) = .ok s := by
  obtain ⟨v1, h1⟩ := strip_hash r
  obtain ⟨v2, h2⟩ := cutAt_hash v1
  obtain ⟨v3, es, h3⟩ := split_hash v2
  have hu : uncommented ('#' :: r) = '#' :: v2 := by
    rw [uncommented, h1, h2, if_neg (by rw [slashes]; simp [List.isPrefixOf])]
  have e1 : ('#' :: v3 : Txt) ≠ "object".toList := fun e => absurd (List.cons.inj e).1 (by decide)
  have e2 : ('#' :: v3 : Txt) ≠ "schedule".toList := fun e => absurd (List.cons.inj e).1 (by decide)
  simp only [readRow, hu, h3, if_neg e1, if_neg e2, hc]
  simp only [bind, Except.bind, hs]

theorem splitRow_word (u s : Txt) (hu : ∀ c ∈ u, isSpace c = false) : ∀ w : Txt, splitAux w (u ++ s) = splitAux (w ++ u) s := by
  induction u with
  | nil => intro w; simp
  | cons c u ih =>
    intro w
    rw [List.cons_append, splitAux, if_neg (by rw [hu c List.mem_cons_self]; decide), ih fun x hx => hu x (List.mem_cons_of_mem _ hx)]
    simp

theorem splitRow_blank (s t : Txt) (hs : Blank s) : splitAux [] (s ++ t) = splitAux [] t := by
  induction s with
  | nil => rfl
  | cons c s ih =>
    rw [List.cons_append, splitAux, if_pos (hs c List.mem_cons_self), if_pos (by rfl)]
    exact ih fun x hx => hs x (List.mem_cons_of_mem _ hx)

theorem splitRow_end (w s t : Txt) (hw : w ≠ []) (hs : Blank s) (hne : s ≠ []) : splitAux w (s ++ t) = w :: splitAux [] t := by
  cases s with
  | nil => exact absurd rfl hne
  | cons c s =>
    rw [List.cons_append, splitAux, if_pos (hs c List.mem_cons_self), if_neg (by simp [hw]), splitRow_blank s t fun x hx => hs x (List.mem_cons_of_mem _ hx)]

theorem stripBy_inner (p : Char → Bool) (a b l : Txt) (ha : ∀ c ∈ a, p c = true) (hb : ∀ c ∈ b, p c = true) (hl : ∀ c ∈ l, p c = false) (hne : l ≠ []) :
    stripBy p (a ++ l ++ b) = l := by
  have h : ∀ a l : Txt, (∀ c ∈ a, p c = true) → (∀ x ∈ l.head?, p x = false) → l ≠ [] → (a ++ l).dropWhile p = l := by
    intro a l ha hl hne
    induction a with
    | nil =>
      cases l with
      | nil => rfl
      | cons c l => rw [List.nil_append, List.dropWhile_cons_of_neg (by rw [hl c rfl]; decide)]
    | cons c a ih =>
      rw [List.cons_append, List.dropWhile_cons_of_pos (ha c List.mem_cons_self)]
      exact ih fun x hx => ha x (List.mem_cons_of_mem _ hx)
  rw [stripBy, List.append_assoc, h a (l ++ b) ha (fun x hx => by
      cases l with
      | nil => exact absurd rfl hne
      | cons c l =>
        obtain rfl : c = x := by simpa using hx
        exact hl c List.mem_cons_self) (by simp [hne]), List.reverse_append,
    h b.reverse l.reverse (fun c hc => hb c (List.mem_reverse.1 hc)) (fun x hx => hl x (List.mem_reverse.1 (List.mem_of_mem_head? hx))) (by simp [hne]), List.reverse_reverse]

theorem include_row {location row : Txt} (h : IncludeRow location row) : (∃ r, row = '#' :: r) ∧ isInclude row = true ∧ includeLocation row = .ok location := by
  obtain ⟨g, q, e, s, hg, hgn, hln, hl, hq, he, hs, rfl⟩ := h
  refine ⟨⟨_, rfl⟩, isInclude_iff.2 ⟨g ++ q ++ e ++ s, by simp⟩, ?_⟩
  have hqe : ∃ a b : Txt, q ++ e = a ++ location ++ b ∧ (∀ c ∈ a, c = '"') ∧ ∀ c ∈ b, c = '"' ∨ c = ';' := by
    cases hq with
    | plain =>
      rcases he with rfl | rfl
      · exact ⟨[], [], by simp, by simp, by simp⟩
      · exact ⟨[], [';'], by simp, by simp, by simp⟩
    | quoted =>
      rcases he with rfl | rfl
      · exact ⟨['"'], ['"'], by simp, by simp, by simp⟩
      · exact ⟨['"'], ['"', ';'], by simp, by simp, by simp⟩
  obtain ⟨a, b, hab, ha, hb⟩ := hqe
  have hword : ∀ c ∈ q ++ e, isSpace c = false := by
    rw [hab]
    intro c hc
    simp only [List.mem_append] at hc
    rcases hc with (hc | hc) | hc
    · rw [ha c hc]; decide
    · exact (hl c hc).1
    · rcases hb c hc with rfl | rfl <;> decide
  have hne : q ++ e ≠ [] := by
    rw [hab]
    simp [hln]
  have hsplit : split ("#include".toList ++ g ++ q ++ e ++ s) = ["#include".toList, q ++ e] := by
    have h1 : "#include".toList ++ g ++ q ++ e ++ s = "#include".toList ++ (g ++ ((q ++ e) ++ s)) := by simp only [List.append_assoc]
    rw [h1, split, splitRow_word _ _ (by decide), List.nil_append, splitRow_end _ _ _ (by decide) hg hgn, splitRow_word _ _ hword, List.nil_append]
    congr 1
    cases s with
    | nil => rw [splitAux, if_neg (by simpa using hne)]
    | cons c s =>
      have := splitRow_end (q ++ e) (c :: s) [] hne hs (by simp)
      rw [List.append_nil] at this
      rw [this]
      rfl
  rw [includeLocation, hsplit]
  simp only
  rw [hab, stripBy_inner _ a b location (fun c hc => by rw [ha c hc]; decide) (fun c hc => by rcases hb c hc with rfl | rfl <;> decide) (fun c hc => by simp [(hl c hc).2]) hln]

theorem forall₂_parted {α β : Type} {R : α → β → Prop} : ∀ {a b : List α} {c : List β}, List.Forall₂ R (a ++ b) c → ∃ c1 c2, List.Forall₂ R a c1 ∧ List.Forall₂ R b c2 ∧ c = c1 ++ c2
  | [], _, c, h => ⟨[], c, .nil, h, rfl⟩
  | _ :: _, _, _, .cons hx h => by
    obtain ⟨c1, c2, h1, h2, rfl⟩ := forall₂_parted h
    exact ⟨_ :: c1, c2, .cons hx h1, h2, rfl⟩

/-- The rows of a file with its includes: the objects of the file itself are filed, in order. -/
theorem read_laid {rows : List Txt} {ps : List (Obj ⊕ Txt)} (hl : Laid rows ps) :
    ∀ (os : List Obj) (files : List (Txt × Obj)), ps.filterMap Sum.getLeft? = os → (∀ o ∈ os, Writable W o) → List.Forall₂ (Filed W) os files → ∀ (s : RState),
      ((s.objs ++ files).map Prod.fst).Nodup → s.cur = none → s.ignore = false → s.sched = none →
      ∃ cls, rows.foldlM (readRow W) s = .ok { s with objs := s.objs ++ files, cls := cls } := by
  have hinl : ∀ os : List Obj, (os.map (Sum.inl : Obj → Obj ⊕ Txt)).filterMap Sum.getLeft? = os := fun os => by
    rw [List.filterMap_map]
    exact List.filterMap_some
  induction hl with
  | @plain rows os hw hn =>
    intro os' files he ho hf s h1 h2 h3 h4
    rw [hinl] at he
    subst he
    exact read_written hw files ho hf s h1 h2 h3 h4
  | @more rows rest os r location ps hw hn hr hl ih =>
    intro os' files he ho hf s h1 h2 h3 h4
    rw [List.filterMap_append, hinl, List.filterMap_cons_none rfl] at he
    subst he
    obtain ⟨f1, f2, hf1, hf2, rfl⟩ := forall₂_parted hf
    obtain ⟨cls, e1⟩ := read_written hw f1 (fun o h => ho o (List.mem_append_left _ h)) hf1 s
      (by rw [← List.append_assoc, List.map_append] at h1; exact (List.nodup_append.1 h1).1) h2 h3 h4
    obtain ⟨⟨r', rfl⟩, -, -⟩ := include_row hr
    obtain ⟨cls', e2⟩ := ih _ f2 rfl (fun o h => ho o (List.mem_append_right _ h)) hf2 { s with objs := s.objs ++ f1, cls := cls } (by rw [List.append_assoc]; exact h1) h2 h3 h4
    refine ⟨cls', ?_⟩
    rw [List.foldlM_append, e1]
    simp only [bind, Except.bind, List.foldlM_cons]
    rw [readRow_hash r' { s with objs := s.objs ++ f1, cls := cls } h2 h4]
    simp only [e2, List.append_assoc]

theorem Written.append {a b : List Txt} {us vs : List Obj} (ha : Written a us) (hb : Written b vs) : Written (a ++ b) (us ++ vs) := by
  induction ha with
  | nil => exact hb
  | skip h _ ih => exact .skip h ih
  | object ho hh hbd hc _ ih =>
    rw [List.append_assoc, List.cons_append, ← List.cons_append]
    exact .object ho hh hbd hc ih

/-- A file that includes files which include none: the rows that are appended write down the objects of those, in order. -/
theorem included_written {rows : List Txt} {ps : List (Obj ⊕ Txt)} {os : List Obj} (hl : Laid rows ps) (hp : InPlace disk 1 ps os) :
    ∃ more us, includedRows disk rows = .ok more ∧ Written more us ∧ (ps.filterMap Sum.getLeft? ++ us).Perm os := by
  have hinl : ∀ os : List Obj, (os.map (Sum.inl : Obj → Obj ⊕ Txt)).filterMap Sum.getLeft? = os := fun os => by
    rw [List.filterMap_map]
    exact List.filterMap_some
  have hown : ∀ (n : ℕ) (vs : List Obj) (ps : List (Obj ⊕ Txt)) (os : List Obj), InPlace disk n (vs.map Sum.inl ++ ps) os → ∃ us, os = vs ++ us ∧ InPlace disk n ps us := by
    intro n vs
    induction vs with
    | nil => exact fun ps os h => ⟨os, rfl, h⟩
    | cons v vs ih =>
      intro ps os h
      cases h with
      | own h =>
        obtain ⟨us, rfl, hu⟩ := ih _ _ h
        exact ⟨us, rfl, hu⟩
  have hplain : ∀ {rows : List Txt} {qs : List (Obj ⊕ Txt)} {us : List Obj}, Laid rows qs → InPlace disk 0 qs us → Written rows us ∧ NoInclude rows := by
    intro rows qs us hl hq
    cases hl with
    | @plain _ vs hw hn =>
      obtain ⟨us', rfl, h⟩ := hown 0 vs [] us (by rwa [List.append_nil])
      cases h
      exact ⟨by rwa [List.append_nil], hn⟩
    | more hw hn hr hl =>
      obtain ⟨us', rfl, h⟩ := hown 0 _ _ us hq
      cases h
  induction hl generalizing os with
  | @plain rows vs hw hn =>
    obtain ⟨us, rfl, h⟩ := hown 1 vs [] os (by rwa [List.append_nil])
    cases h
    exact ⟨[], [], includedRows_none hn, .nil, by rw [hinl]⟩
  | @more rows rest vs r location ps hw hn hr hl ih =>
    obtain ⟨os', rfl, h⟩ := hown 1 _ _ os hp
    cases h with
    | @file _ _ t rows' qs _ us os ht hr' hl' hq h =>
      obtain ⟨more, us', e1, e2, e3⟩ := ih h
      obtain ⟨w1, -⟩ := hplain hl' hq
      refine ⟨rows' ++ more, us ++ us', ?_, w1.append e2, ?_⟩
      · obtain ⟨-, i1, i2⟩ := include_row hr
        rw [includedRows_append hn, includedRows, if_pos i1, i2]
        simp only [bind, Except.bind, openRows, ht, fileRows_text hr', e1]
      · rw [List.filterMap_append, hinl, List.filterMap_cons_none rfl, List.append_assoc]
        refine List.Perm.append_left vs ?_
        rw [← List.append_assoc]
        exact (List.perm_append_comm.append_right us').trans (by rw [List.append_assoc]; exact e3.append_left us)

/-- The rows that are appended write down the objects of the included files. -/
theorem included_rows {rows : List Txt} {ps : List (Obj ⊕ Txt)} {us : List Obj} (hl : Laid rows ps) (hi : Included disk ps us) :
    ∃ more, includedRows disk rows = .ok more ∧ Written more us := by
  have hown : ∀ (vs : List Obj) (ps : List (Obj ⊕ Txt)) (us : List Obj), Included disk (vs.map Sum.inl ++ ps) us → Included disk ps us := by
    intro vs
    induction vs with
    | nil => exact fun _ _ h => h
    | cons v vs ih =>
      intro ps us h
      cases h with
      | own h => exact ih _ _ h
  induction hl generalizing us with
  | @plain rows vs hw hn =>
    cases hown vs [] us (by rwa [List.append_nil])
    exact ⟨[], includedRows_none hn, .nil⟩
  | @more rows rest vs r location ps hw hn hr hl ih =>
    cases hown _ _ us hi with
    | @file _ t rows' _ ws us ht hr' hw' _ h =>
      obtain ⟨more, e1, e2⟩ := ih h
      refine ⟨rows' ++ more, ?_, hw'.append e2⟩
      obtain ⟨-, i1, i2⟩ := include_row hr
      rw [includedRows_append hn, includedRows, if_pos i1, i2]
      simp only [bind, Except.bind, openRows, ht, fileRows_text hr', e1]

end Verif.Glm
