import Verif.Lemmas.GlmInclude
import Verif.Props.GlmFile

/-!
# C150: a feeder in one file or in several
-/

namespace Verif.Glm

variable {W : World} {disk : Disk}

/-- **C150, one file.** A file without includes whose rows write down objects reads as exactly these objects, with either kind of line ends and with or without one at
the end of the file. -/
theorem C150_file {path t : Txt} {rows : List Txt} {os : List Obj} {files : List (Txt × Obj)} (hd : disk path = some t) (ht : FileText t rows) (hw : Written rows os)
    (hn : NoInclude rows) (ho : ∀ o ∈ os, Writable W o) (hf : List.Forall₂ (Filed W) os files) (hu : (files.map Prod.fst).Nodup) :
    readFile disk W path = .ok (files, []) := by
  obtain ⟨cls, h⟩ := read_written hw files ho hf RState.init (by simpa [RState.init] using hu) rfl rfl rfl
  simp only [readFile, openRows, hd, fileRows_text ht, includedRows_none hn, bind, Except.bind, List.append_nil, readRows, h]
  rfl

/-- **C150, the order.** A file that includes others, which include none, reads as its own objects followed by those of the included files, one file after another. -/
theorem C150_files {path t : Txt} {rows : List Txt} {ps : List (Obj ⊕ Txt)} {us : List Obj} {files : List (Txt × Obj)} (hd : disk path = some t) (ht : FileText t rows)
    (hl : Laid rows ps) (hi : Included disk ps us) (ho : ∀ o ∈ ps.filterMap Sum.getLeft? ++ us, Writable W o) (hf : List.Forall₂ (Filed W) (ps.filterMap Sum.getLeft? ++ us) files)
    (hu : (files.map Prod.fst).Nodup) : readFile disk W path = .ok (files, []) := by
  obtain ⟨more, e1, e2⟩ := included_rows hl hi
  obtain ⟨f1, f2, hf1, hf2, rfl⟩ := forall₂_parted hf
  obtain ⟨cls, h1⟩ := read_laid hl _ f1 rfl (fun o h => ho o (List.mem_append_left _ h)) hf1 RState.init
    (by rw [List.map_append] at hu; simpa [RState.init] using (List.nodup_append.1 hu).1) rfl rfl rfl
  obtain ⟨cls', h2⟩ := read_written e2 f2 (fun o h => ho o (List.mem_append_right _ h)) hf2 { RState.init with objs := RState.init.objs ++ f1, cls := cls }
    (by simpa [RState.init] using hu) rfl rfl rfl
  simp only [readFile, openRows, hd, fileRows_text ht, e1, bind, Except.bind, readRows, List.foldlM_append, h1]
  rw [h2]
  rfl

/-- **C150, partial: several files.** A file that includes others, which include none, reads as the same objects as if the others were written in the places where they
are included, each once. Missing: their order, see `C150_order_fails`, and files included by included files, see `C150_nested_fails`. -/
theorem C150_includes_partial {path t : Txt} {rows : List Txt} {ps : List (Obj ⊕ Txt)} {os : List Obj} {files : List (Txt × Obj)} (hd : disk path = some t)
    (ht : FileText t rows) (hl : Laid rows ps) (hp : InPlace disk 1 ps os) (ho : ∀ o ∈ os, Writable W o) (hf : List.Forall₂ (Filed W) os files)
    (hu : (files.map Prod.fst).Nodup) : ∃ files', files'.Perm files ∧ readFile disk W path = .ok (files', []) := by
  obtain ⟨more, us, e1, e2, e3⟩ := included_written hl hp
  obtain ⟨files', hf', hperm⟩ := List.perm_comp_forall₂ e3 hf
  obtain ⟨f1, f2, hf1, hf2, rfl⟩ := forall₂_parted hf'
  have ho' : ∀ o ∈ ps.filterMap Sum.getLeft? ++ us, Writable W o := fun o h => ho o (e3.subset h)
  have hu' : ((f1 ++ f2).map Prod.fst).Nodup := (hperm.map Prod.fst).nodup_iff.2 hu
  obtain ⟨cls, h1⟩ := read_laid hl _ f1 rfl (fun o h => ho' o (List.mem_append_left _ h)) hf1 RState.init
    (by rw [List.map_append] at hu'; simpa [RState.init] using (List.nodup_append.1 hu').1) rfl rfl rfl
  obtain ⟨cls', h2⟩ := read_written e2 f2 (fun o h => ho' o (List.mem_append_right _ h)) hf2 { RState.init with objs := RState.init.objs ++ f1, cls := cls }
    (by simpa [RState.init] using hu') rfl rfl rfl
  refine ⟨f1 ++ f2, hperm, ?_⟩
  simp only [readFile, openRows, hd, fileRows_text ht, e1, bind, Except.bind, readRows, List.foldlM_append, h1]
  rw [h2]
  rfl

/-! ### Writing -/

/-- The rows of an object in the plainest form. -/
def plainRows (o : Obj) : List Txt :=
  ("object ".toList ++ o.cls ++ " {".toList) :: o.attrs.map (fun a => a.1 ++ " ".toList ++ a.2 ++ ";".toList) ++ ["}".toList]

/-- The text of rows. -/
def plainText (rows : List Txt) : Txt := rows.flatMap (· ++ "\n".toList)

theorem plain_written (os : List Obj) : Written (os.flatMap plainRows) os := by
  have sp : ∀ s : Txt, (s.all isSpace) = true → Blank s := fun s h c hc => List.all_eq_true.1 h c hc
  induction os with
  | nil => exact .nil
  | cons o os ih =>
    rw [List.flatMap_cons, plainRows, List.append_assoc]
    refine Written.object (tag := o.cls) (as := o.attrs) (o := o) .plain ⟨[], " ".toList, " ".toList, [], sp _ rfl, sp _ rfl, by decide, sp _ rfl, by decide, .inl (sp _ rfl), ?_⟩ ?_
      ⟨[], [], sp _ rfl, .inl (sp _ rfl), rfl⟩ ih
    · simp
    · generalize o.attrs = as
      induction as with
      | nil => exact .nil
      | cons a as ih => exact .attr (k := a.1) (v := a.2) ⟨[], " ".toList, a.2, [], [], sp _ rfl, sp _ rfl, by decide, .plain, sp _ rfl, by simp⟩ ih

theorem plain_text {rows : List Txt} (h : ∀ r ∈ rows, OneRow r) : FileText (plainText rows) rows := by
  induction rows with
  | nil => exact .nil
  | cons r rows ih => exact .row (h r List.mem_cons_self) (.inl rfl) (ih fun x hx => h x (List.mem_cons_of_mem _ hx))

instance (s : Txt) : Decidable (Blank s) := inferInstanceAs (Decidable (∀ c ∈ s, isSpace c = true))
instance (w : Txt) : Decidable (Word w) := inferInstanceAs (Decidable (w ≠ [] ∧ ∀ c ∈ w, isSpace c = false ∧ c ≠ '"' ∧ c ≠ ';' ∧ c ≠ '/' ∧ c ≠ '}'))
instance (r : Txt) : Decidable (OneRow r) := inferInstanceAs (Decidable ('\n' ∉ r ∧ '\r' ∉ r))
instance (rows : List Txt) : Decidable (NoInclude rows) := inferInstanceAs (Decidable (∀ r ∈ rows, ¬ "#include".toList <+: r))

/-- Whether every object may be written. -/
def writableAll (keys : List Txt) (os : List Obj) : Prop := ∀ o ∈ os, (Word o.cls ∧ ':' ∉ o.cls ∧ o.cls ∉ skippedObjects) ∧ (∀ a ∈ o.attrs, a.1 ∈ keys) ∧
  (∀ a ∈ o.attrs, Word a.1 ∧ Word a.2 ∧ a.1 ≠ "object".toList ∧ a.1 ≠ "schedule".toList) ∧ (o.attrs.map Prod.fst).Nodup

instance (keys : List Txt) (os : List Obj) : Decidable (writableAll keys os) := by unfold writableAll; infer_instance

theorem writableAll.writable {keys : List Txt} {os : List Obj} (h : writableAll keys os) (hk : ∀ o ∈ os, W.schema o.cls = some keys) : ∀ o ∈ os, Writable W o :=
  fun o ho => ⟨(h o ho).1, ⟨keys, hk o ho, (h o ho).2.1⟩, (h o ho).2.2.1, (h o ho).2.2.2⟩

/-! ### A case -/

/-- A schema in which every class has the attributes of nodes. -/
def nodeWorld : World where
  schema _ := some (["name", "phases", "parent", "nominal_voltage"].map String.toList)
  cron _ := none
  str _ := []

/-- A node, and one that has it for its parent. -/
def parentNode : Obj := ⟨"node".toList, [("name".toList, "a".toList), ("phases".toList, "A".toList), ("nominal_voltage".toList, "2400".toList)]⟩
def childNode : Obj := ⟨"node".toList, [("name".toList, "b".toList), ("phases".toList, "A".toList), ("nominal_voltage".toList, "2400".toList), ("parent".toList, "a".toList)]⟩

/-- `f.glm` includes the file with the first node, then has the second. `g.glm` includes `f.glm`. `one.glm` has both nodes. -/
def nodeDisk : Disk := fun p =>
  if p = "f.glm".toList then some ("#include \"lib/n.glm\";\r\n".toList ++ plainText (plainRows childNode))
  else if p = "lib/n.glm".toList then some (plainText (plainRows parentNode))
  else if p = "g.glm".toList then some "#include f.glm".toList
  else if p = "one.glm".toList then some (plainText ([parentNode, childNode].flatMap plainRows))
  else none

/-- What `f.glm` means. -/
theorem nodeDisk_laid : ∃ t rows, nodeDisk "f.glm".toList = some t ∧ FileText t rows ∧ Laid rows [.inr "lib/n.glm".toList, .inl childNode] ∧
    InPlace nodeDisk 1 [.inr "lib/n.glm".toList, .inl childNode] [parentNode, childNode] := by
  refine ⟨_, "#include \"lib/n.glm\";".toList :: plainRows childNode, rfl, .row (r := "#include \"lib/n.glm\";".toList) (e := "\r\n".toList) (by decide +kernel) (.inr (.inl rfl))
    (plain_text (by decide +kernel)), ?_, ?_⟩
  · refine Laid.more (rows := []) (os := []) .nil (by decide) ⟨" ".toList, "\"lib/n.glm\"".toList, ";".toList, [], by decide, by decide, by decide, by decide +kernel, .quoted, .inr rfl,
      by decide, rfl⟩ (.plain (os := [childNode]) ?_ (by decide +kernel))
    have := plain_written [childNode]
    rwa [List.flatMap_singleton] at this
  · refine .file (us := [parentNode]) (qs := [.inl parentNode]) rfl (plain_text (by decide +kernel)) (.plain (os := [parentNode]) ?_ (by decide +kernel)) (.own (.nil _)) (.own (.nil _))
    have := plain_written [parentNode]
    rwa [List.flatMap_singleton] at this

theorem nodeDisk_writable : ∀ o ∈ [parentNode, childNode], Writable nodeWorld o :=
  writableAll.writable (keys := ["name", "phases", "parent", "nominal_voltage"].map String.toList) (by decide +kernel) fun _ _ => rfl

theorem nodeDisk_filed : List.Forall₂ (Filed nodeWorld) [parentNode, childNode] [("a".toList, parentNode), ("b".toList, childNode)] :=
  .cons (.named _ (by decide +kernel)) (.cons (.named _ (by decide +kernel)) .nil)

/-- `C150_file` on `one.glm`. -/
example : readFile nodeDisk nodeWorld "one.glm".toList = .ok ([("a".toList, parentNode), ("b".toList, childNode)], []) :=
  C150_file rfl (plain_text (by decide +kernel)) (plain_written _) (by decide +kernel) nodeDisk_writable nodeDisk_filed (by decide +kernel)

/-- `C150_files` on `f.glm`. -/
example : readFile nodeDisk nodeWorld "f.glm".toList = .ok ([("b".toList, childNode), ("a".toList, parentNode)], []) := by
  obtain ⟨t, rows, h1, h2, h3, -⟩ := nodeDisk_laid
  refine C150_files (us := [parentNode]) h1 h2 h3 (.file (vs := [parentNode]) (us := []) rfl (plain_text (by decide +kernel)) ?_ (by decide +kernel) (.own .nil))
    (fun o ho => nodeDisk_writable o ?_) (.cons (.named _ (by decide +kernel)) (.cons (.named _ (by decide +kernel)) .nil)) (by decide +kernel)
  · have := plain_written [parentNode]
    rwa [List.flatMap_singleton] at this
  · have : o ∈ [childNode, parentNode] := ho
    rw [List.mem_cons, List.mem_singleton] at this
    rw [List.mem_cons, List.mem_singleton]
    exact this.symm

/-- `C150_includes_partial` on `f.glm`. -/
example : ∃ files', files'.Perm [("a".toList, parentNode), ("b".toList, childNode)] ∧ readFile nodeDisk nodeWorld "f.glm".toList = .ok (files', []) := by
  obtain ⟨t, rows, h1, h2, h3, h4⟩ := nodeDisk_laid
  exact C150_includes_partial h1 h2 h3 h4 nodeDisk_writable nodeDisk_filed (by decide +kernel)

/-- **C150 fails** for the order: included objects come after all objects of the file. With a node in a file included at the top and its child below, the child is read
first, and the feeder is refused with a `KeyError`. Written in one file the same objects are accepted. -/
theorem C150_order_fails : ∃ (disk : Disk) (W : World) (path : Txt) (t : Txt) (rows : List Txt) (ps : List (Obj ⊕ Txt)) (os : List Obj) (files files' : List (Txt × Obj)),
    disk path = some t ∧ FileText t rows ∧ Laid rows ps ∧ InPlace disk 1 ps os ∧ List.Forall₂ (Filed W) os files ∧ (∃ g, parseGrid noLines files [] = .ok g) ∧
    readFile disk W path = .ok (files', []) ∧ parseGrid noLines files' [] = .error .key := by
  obtain ⟨t, rows, h1, h2, h3, h4⟩ := nodeDisk_laid
  refine ⟨nodeDisk, nodeWorld, _, t, rows, _, _, [("a".toList, parentNode), ("b".toList, childNode)], [("b".toList, childNode), ("a".toList, parentNode)], h1, h2, h3, h4,
    nodeDisk_filed, ?_, by decide +kernel, by decide +kernel⟩
  have h : (parseGrid noLines [("a".toList, parentNode), ("b".toList, childNode)] []).isOk = true := by decide +kernel
  cases hg : parseGrid noLines [("a".toList, parentNode), ("b".toList, childNode)] [] with
  | error e => rw [hg] at h; cases h
  | ok g => exact ⟨g, rfl⟩

/-- **C150 fails** for files included by included files: they are left out without a message. `g.glm` includes `f.glm`, which includes a file with a node; the node is not
read. -/
theorem C150_nested_fails : ∃ (disk : Disk) (W : World) (path : Txt) (t : Txt) (rows : List Txt) (ps : List (Obj ⊕ Txt)) (os : List Obj) (files : List (Txt × Obj)),
    disk path = some t ∧ FileText t rows ∧ Laid rows ps ∧ InPlace disk 2 ps os ∧ (∀ o ∈ os, Writable W o) ∧ os.length = 2 ∧ readFile disk W path = .ok (files, []) ∧
    files.length = 1 := by
  obtain ⟨t, rows, h1, h2, h3, h4⟩ := nodeDisk_laid
  refine ⟨nodeDisk, nodeWorld, "g.glm".toList, "#include f.glm".toList, ["#include f.glm".toList], [.inr "f.glm".toList], [parentNode, childNode], [("b".toList, childNode)], rfl,
    .last _ (by decide +kernel) (by decide +kernel), ?_, ?_, nodeDisk_writable, rfl, by decide +kernel, rfl⟩
  · exact Laid.more (rows := []) (os := []) .nil (by decide) ⟨" ".toList, "f.glm".toList, [], [], by decide, by decide, by decide, by decide +kernel, .plain, .inl rfl, by decide, rfl⟩
      (.plain (os := []) .nil (by decide))
  · exact InPlace.file (us := [parentNode, childNode]) (os := []) h1 h2 h3 h4 (.nil _)

end Verif.Glm
