import Verif.Lemmas.Glm

/-!
# C81–C83: reading the rows of a GridLAB-D file
-/

namespace Verif.Glm

variable {W : World}

/-! ### C81 -/

/-- **C81.** A file that writes down objects, one row per attribute, reads back as exactly these objects: in the order of the
file, each under its name, with its class and with the attributes that were written, whatever white space, quotes, comments
and blank rows are used. -/
theorem C81_written {rows : List Txt} {os : List Obj} {files : List (Txt × Obj)} (hw : Written rows os) (ho : ∀ o ∈ os, Writable W o)
    (hf : List.Forall₂ (Filed W) os files) (hn : (files.map Prod.fst).Nodup) : readRows W rows = .ok (files, []) := by
  obtain ⟨cls, h⟩ := read_written hw files ho hf RState.init (by simpa [RState.init] using hn) rfl rfl rfl
  rw [readRows, h]
  rfl

/-- A schema with three classes. -/
def smallWorld : World where
  schema c := if c = "node".toList then some (["name", "phases", "bustype"].map String.toList)
    else if c = "overhead_line".toList then some (["name", "from", "to", "length", "phases"].map String.toList)
    else if c = "load".toList then some (["name", "parent", "phases", "constant_power_A"].map String.toList)
    else none
  cron _ := none
  str _ := []

/-- A node and a line, the line without a name, as they are written below. -/
def smallObjects : List Obj :=
  [⟨"node".toList, [("name".toList, "node:12".toList), ("phases".toList, "ABCN".toList)]⟩,
   ⟨"overhead_line".toList, [("from".toList, "node:12".toList), ("to".toList, "x".toList), ("length".toList, "50".toList)]⟩]

/-- The rows of the two objects. -/
def smallRows : List Txt :=
  ["// a feeder", "object node:12 { // the source", "\tphases \"ABCN\";", "};", "", "object overhead_line {", "  from node:12 ; // and",
   "  to x;to y", "  length 50;", "  // no name", "}"].map String.toList

/-- The hypotheses of `C81_written` are met by two objects, one named in its header, one link without a name. -/
example : readRows smallWorld smallRows = .ok
    ([("node:12".toList, ⟨"node".toList, [("name".toList, "node:12".toList), ("phases".toList, "ABCN".toList)]⟩),
      ("node:12-x".toList, ⟨"overhead_line".toList, [("from".toList, "node:12".toList), ("to".toList, "x".toList), ("length".toList, "50".toList),
        ("name".toList, "node:12-x".toList)]⟩)], []) := by
  have sp : ∀ s : Txt, (s.all isSpace) = true → Blank s := fun s h c hc => List.all_eq_true.1 h c hc
  have wd : ∀ w : Txt, (!w.isEmpty && w.all fun c => !isSpace c && c != '"' && c != ';' && c != '/' && c != '}') = true → Word w := by
    intro w h
    simp only [Bool.and_eq_true, Bool.not_eq_true', List.all_eq_true, bne_iff_ne, ne_eq] at h
    exact ⟨by simpa using h.1, fun c hc => by obtain ⟨⟨⟨⟨a, b⟩, c'⟩, d⟩, e⟩ := h.2 c hc; exact ⟨a, b, c', d, e⟩⟩
  refine C81_written (os := smallObjects) ?_ ?_ ?_ (by decide)
  · have header : ∀ (tag l g g' t : Txt), (l.all isSpace) = true → (g.all isSpace) = true → g ≠ [] → (g'.all isSpace) = true → g' ≠ [] → Trailing t →
        HeaderRow tag (l ++ "object".toList ++ g ++ tag ++ g' ++ "{".toList ++ t) :=
      fun tag l g g' t h1 h2 h3 h4 h5 h6 => ⟨l, g, g', t, sp _ h1, sp _ h2, h3, sp _ h4, h5, h6, rfl⟩
    have attr : ∀ (k v l g q s r : Txt), (l.all isSpace) = true → (g.all isSpace) = true → g ≠ [] → Quoted v q → (s.all isSpace) = true →
        AttrRow k v (l ++ k ++ g ++ q ++ s ++ ";".toList ++ r) :=
      fun k v l g q s r h1 h2 h3 h4 h5 => ⟨l, g, q, s, r, sp _ h1, sp _ h2, h3, h4, sp _ h5, rfl⟩
    refine .skip (.comment [] " a feeder".toList (sp _ rfl)) ?_
    refine .object (tag := "node:12".toList) (o := ⟨"node".toList, [("name".toList, "node:12".toList), ("phases".toList, "ABCN".toList)]⟩)
      (body := ["\tphases \"ABCN\";".toList]) (c := "};".toList)
      (.numbered "12".toList [("phases".toList, "ABCN".toList)] (wd _ rfl) (by decide) rfl)
      (header "node:12".toList [] " ".toList " ".toList " // the source".toList rfl rfl (by decide) rfl (by decide)
        (.inr ⟨" ".toList, " the source".toList, sp _ rfl, rfl⟩)) ?_ ?_ ?_
    · exact .attr (attr "phases".toList "ABCN".toList "\t".toList " ".toList "\"ABCN\"".toList [] [] rfl rfl (by decide) .quoted rfl) .nil
    · exact ⟨[], ";".toList, sp _ rfl, .inr ⟨[], rfl⟩, rfl⟩
    refine .skip (.blank [] (sp _ rfl)) ?_
    refine .object (tag := "overhead_line".toList) (o := ⟨"overhead_line".toList,
        [("from".toList, "node:12".toList), ("to".toList, "x".toList), ("length".toList, "50".toList)]⟩)
      (body := ["  from node:12 ; // and".toList, "  to x;to y".toList, "  length 50;".toList, "  // no name".toList]) (c := "}".toList)
      .plain (header "overhead_line".toList [] " ".toList " ".toList [] rfl rfl (by decide) rfl (by decide) (.inl (sp _ rfl))) ?_ ?_ .nil
    · refine .attr (attr "from".toList "node:12".toList "  ".toList " ".toList _ " ".toList " // and".toList rfl rfl (by decide) .plain rfl) ?_
      refine .attr (attr "to".toList "x".toList "  ".toList " ".toList _ [] "to y".toList rfl rfl (by decide) .plain rfl) ?_
      refine .attr (attr "length".toList "50".toList "  ".toList " ".toList _ [] [] rfl rfl (by decide) .plain rfl) ?_
      exact .skip (.comment "  ".toList " no name".toList (sp _ rfl)) .nil
    · exact ⟨[], [], sp _ rfl, .inl (sp _ rfl), rfl⟩
  · intro o ho
    rcases List.mem_cons.1 ho with rfl | ho
    · refine ⟨⟨wd _ rfl, by decide, by decide⟩, ⟨_, rfl, by decide⟩, ?_, by decide⟩
      intro a ha
      simp only [List.mem_cons, List.not_mem_nil, or_false] at ha
      rcases ha with rfl | rfl <;> exact ⟨wd _ rfl, wd _ rfl, by decide, by decide⟩
    · rcases List.mem_cons.1 ho with rfl | ho
      · refine ⟨⟨wd _ rfl, by decide, by decide⟩, ⟨_, rfl, by decide⟩, ?_, by decide⟩
        intro a ha
        simp only [List.mem_cons, List.not_mem_nil, or_false] at ha
        rcases ha with rfl | rfl | rfl <;> exact ⟨wd _ rfl, wd _ rfl, by decide, by decide⟩
      · cases ho
  · exact .cons (.named _ (by decide)) (.cons (.link "node:12".toList "x".toList (by decide) (by decide) (by decide) (by decide)) .nil)

/-! ### C82 -/

/-- **C82, partial.** A blank row or a row with only a comment can be put anywhere in any file without changing what is read. -/
theorem C82_rows_partial {r : Txt} (h : Ignorable r) (before after : List Txt) :
    readRows W (before ++ r :: after) = readRows W (before ++ after) := by
  rw [readRows, readRows, List.foldlM_append, List.foldlM_append]
  congr 2
  funext s
  rw [List.foldlM_cons, readRow_ignorable h]
  rfl

/-- **C82, partial.** A comment that follows the last character of a row, without white space before it, never changes what is
read. -/
theorem C82_comment_partial (l a t : Txt) (c : Char) (hl : Blank l) (ha : ∀ x ∈ (a ++ [c]).head?, isSpace x = false) (hc : isSpace c = false)
    (hs : '/' ∉ a ++ [c]) (before after : List Txt) :
    readRows W (before ++ (l ++ (a ++ [c]) ++ "//".toList ++ t) :: after) = readRows W (before ++ (l ++ (a ++ [c])) :: after) := by
  have h1 := uncommented_core l a ("//".toList ++ t) c hl ha hc hs
  have h2 := uncommented_core l a [] c hl ha hc hs
  have h : uncommented (l ++ (a ++ [c]) ++ "//".toList ++ t) = uncommented (l ++ (a ++ [c])) := by
    rw [show l ++ (a ++ [c]) ++ "//".toList ++ t = l ++ (a ++ c :: ("//".toList ++ t)) by simp, h1, h2]
    have h3 := dropEnd_append isSpace ['/'] t '/' (by decide)
    rw [show "//".toList ++ t = ['/'] ++ '/' :: t from rfl, h3]
    rw [show (['/'] ++ '/' :: (t.reverse.dropWhile isSpace).reverse : Txt) = "//".toList ++ (t.reverse.dropWhile isSpace).reverse from rfl, cutAt_pattern]
    rfl
  rw [readRows, readRows, List.foldlM_append, List.foldlM_append]
  congr 2
  funext s
  rw [List.foldlM_cons, List.foldlM_cons, readRow, readRow, h]

/-- **C82 fails.** A comment behind a closing brace: the object is not closed, the next object is taken for a nested one, and
its attributes overwrite those of the first. Of two nodes one is left, with the name of the second. -/
theorem C82_closing_comment_fails :
    readRows smallWorld (["object node {", "name a;", "} // end of a", "object node {", "name b;", "}", "}"].map String.toList) =
      .ok ([("b".toList, ⟨"node".toList, [("name".toList, "b".toList)]⟩)], []) ∧
    readRows smallWorld (["object node {", "name a;", "}", "object node {", "name b;", "}", "}"].map String.toList) =
      .ok ([("a".toList, ⟨"node".toList, [("name".toList, "a".toList)]⟩), ("b".toList, ⟨"node".toList, [("name".toList, "b".toList)]⟩)], []) := by
  constructor <;> decide +kernel

/-! ### C83 -/

/-- **C83 fails.** A nested object: its attributes are written onto the enclosing object, and it is not read as an object of
its own. -/
theorem C83_nested_fails :
    readRows smallWorld (["object node {", "name a;", "phases AN;", "object load {", "name b;", "phases BN;", "};", "}"].map String.toList) =
      .ok ([("b".toList, ⟨"node".toList, [("name".toList, "b".toList), ("phases".toList, "BN".toList)]⟩)], []) := by
  decide +kernel

/-- **C83, partial.** If no attribute of the nested object is also an attribute of the enclosing one, the enclosing object keeps
all its own attributes. Those of the nested object are added to it. -/
theorem C83_distinct_partial {o : Obj} {first inner last : List (Txt × Txt)} {h h' c c' tag name : Txt} {b1 b2 b3 : List Txt}
    (ho : Writable W ⟨o.cls, first ++ inner ++ last⟩) (hn : ("name".toList, name) ∈ first ++ last) (hh : HeaderRow o.cls h)
    (hb1 : Body b1 first) (ht : Word tag) (hh' : HeaderRow tag h') (hb2 : Body b2 inner) (hc' : CloseRow c') (hb3 : Body b3 last)
    (hc : CloseRow c) :
    readRows W (h :: b1 ++ h' :: b2 ++ c' :: b3 ++ [c]) = .ok ([(name, ⟨o.cls, first ++ inner ++ last⟩)], []) := by
  obtain ⟨ps, hps, hin⟩ := ho.known
  obtain ⟨done, hdone, h1⟩ := readRow_header ho .plain hh RState.init rfl
  obtain rfl : done = [] := by simpa using hdone
  have hw : ∀ as : List (Txt × Txt), (∀ a ∈ as, a ∈ first ++ inner ++ last) → ∀ a ∈ as, a.1 ∈ ps ∧ Word a.1 ∧ Word a.2 ∧ a.1 ≠ "object".toList ∧ a.1 ≠ "schedule".toList :=
    fun as has a ha => ⟨hin a (has a ha), ho.words a (has a ha)⟩
  have once := ho.once
  have h2 := read_body hps hb1 (hw _ fun a ha => by simp [ha]) { RState.init with cls := o.cls, cur := some ⟨o.cls, []⟩ } []
    (by rw [List.nil_append]; rw [List.append_assoc, List.map_append, List.nodup_append] at once; exact once.1) rfl rfl
  have h3 := readRow_nested (W := W) ht hh' { RState.init with cls := o.cls, cur := some ⟨o.cls, first⟩ } rfl
  have h4 := read_body hps hb2 (hw _ fun a ha => by simp [ha]) { RState.init with cls := o.cls, cur := some ⟨o.cls, first⟩, ignore := true } first
    (by rw [List.map_append, List.nodup_append] at once; exact once.1) rfl rfl
  have h5 := readRow_close_nested (W := W) hc' { RState.init with cls := o.cls, cur := some ⟨o.cls, first ++ inner⟩, ignore := true } rfl rfl rfl
  have h6 := read_body hps hb3 (hw _ fun a ha => by simp [ha]) { RState.init with cls := o.cls, cur := some ⟨o.cls, first ++ inner⟩, ignore := false }
    (first ++ inner) once rfl rfl
  have h7 := readRow_close (W := W) once (.named name ((List.mem_append.1 hn).elim
    (fun h => List.mem_append_left _ (List.mem_append_left _ h)) fun h => List.mem_append_right _ h)) hc
    { RState.init with cls := o.cls, cur := some ⟨o.cls, first ++ inner ++ last⟩, ignore := false } rfl rfl rfl
  rw [readRows]
  simp only [List.cons_append, List.append_assoc, List.foldlM_cons, List.foldlM_append, List.foldlM_nil]
  simp only [List.nil_append, List.append_assoc] at h1 h2 h3 h4 h5 h6 h7
  simp only [h1, h2, h3, h4, h5, h6, h7, bind, Except.bind, pure, Except.pure]
  rfl

/-- The hypotheses of `C83_distinct_partial` are met: a comment row and an attribute row before, a nested object with the
attribute `bustype`. -/
example : readRows smallWorld (["object node {", "name a;", "object recorder {", "bustype 3;", "}", "phases AN;", "}"].map String.toList) =
    .ok ([("a".toList, ⟨"node".toList, [("name".toList, "a".toList), ("bustype".toList, "3".toList), ("phases".toList, "AN".toList)]⟩)], []) := by
  decide +kernel

/-- A blank row and a row with a comment only, put into the rows above. -/
example : readRows smallWorld (smallRows.take 2 ++ "   ".toList :: smallRows.drop 2) = readRows smallWorld smallRows :=
  C82_rows_partial (.blank _ (fun c hc => by
    have : c ∈ [' ', ' ', ' '] := hc
    simp at this
    subst this; decide)) (smallRows.take 2) (smallRows.drop 2)

/-- A comment right after the semicolon. -/
example (before after : List Txt) : readRows smallWorld (before ++ "  length 50;// metres".toList :: after) =
    readRows smallWorld (before ++ "  length 50;".toList :: after) :=
  C82_comment_partial "  ".toList "length 50".toList " metres".toList ';' (fun c hc => by
    have : c ∈ [' ', ' '] := hc
    simp at this
    subst this; decide) (by decide) (by decide) (by decide) before after

end Verif.Glm
