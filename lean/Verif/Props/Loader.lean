import Verif.Spec.Loader
import Verif.Lemmas.Report

/-!
# Loading a file: C119
-/

namespace Verif

theorem lastPart_name {uri n : Txt} (h : NameAtEnd uri n) : lastPart uri = n := by
  obtain ⟨hn, pre, rfl⟩ := h
  unfold lastPart
  rw [List.splitOn_append_cons_of_beq _ _ (by simp), List.splitOn_eq_singleton hn]
  simp

theorem readerFor_glm {p : Txt} (h : HasExtension p "glm".toList) : readerFor p = .ok .glm := by
  obtain ⟨s, rfl⟩ := h
  rw [readerFor, if_pos ⟨s, [], by simp⟩]

theorem readerFor_raw {p : Txt} (h : HasExtension p "RAW".toList) (hg : ¬ ".glm".toList <:+: p) : readerFor p = .ok .raw := by
  obtain ⟨s, rfl⟩ := h
  rw [readerFor, if_neg hg, if_pos ⟨s, [], by simp⟩]

/-- **C119, what holds for files.** A file on the disk is given to the reader of its extension, with its own content, and no file is changed: those that end in `.glm` to the one for GridLAB-D, those
that end in `.RAW` and have no `.glm` elsewhere in their path to the one for RAW files. Missing: `.glm` within the path, and the extensions `.raw` and `.GLM`, see `C119_reader_fails`. -/
theorem C119_local_partial (disk : Disk) (web : Web) (tmp path t : Txt) (h : disk path = some t) :
    (HasExtension path "glm".toList → fromFile disk web tmp path = (.ok (.glm, t), disk)) ∧
    (HasExtension path "RAW".toList → ¬ ".glm".toList <:+: path → fromFile disk web tmp path = (.ok (.raw, t), disk)) ∧
    (fromFile disk web tmp path).2 = disk := by
  have hp : pullFile disk web tmp path = (.ok path, disk) := by rw [pullFile, if_pos (by simp [h])]
  refine ⟨fun he => ?_, fun he hg => ?_, ?_⟩
  · simp only [fromFile, hp, readerFor_glm he, h]
  · simp only [fromFile, hp, readerFor_raw he hg, h]
  · simp only [fromFile, hp]
    cases readerFor path with
    | error e => rfl
    | ok f => simp [h]

theorem pull_cases (disk : Disk) (web : Web) (tmp uri : Txt) (hd : disk uri = none) :
    (∃ e, pullFile disk web tmp uri = (.error e, disk)) ∨ (∃ e, pullFile disk web tmp uri = (.error e, Function.update disk (tmpPath tmp uri) none)) ∨
    (∃ t, web.status uri = .ok 200 ∧ web.body uri = .ok t ∧
      pullFile disk web tmp uri = (.ok (tmpPath tmp uri), Function.update (Function.update disk (tmpPath tmp uri) none) (tmpPath tmp uri) (some t))) := by
  unfold pullFile
  rw [if_neg (by simp [hd])]
  by_cases h1 : ("http://".toList <+: uri ∨ "https://".toList <+: uri)
  · rw [if_neg (not_not.2 h1)]
    cases web.status uri with
    | error e => exact .inl ⟨e, rfl⟩
    | ok s =>
      by_cases h2 : s = 200
      · subst h2
        simp only [ne_eq, not_true_eq_false, if_false]
        by_cases h3 : lastPart uri = []
        · rw [if_pos h3]; exact .inl ⟨_, rfl⟩
        · rw [if_neg h3]
          cases web.body uri with
          | error e => exact .inr (.inl ⟨e, rfl⟩)
          | ok t => exact .inr (.inr ⟨t, by simp, by simp, rfl⟩)
      · simp only [ne_eq, h2, not_false_eq_true, if_true]
        exact .inl ⟨_, rfl⟩
  · rw [if_pos h1]; exact .inl ⟨_, rfl⟩

/-- **C119, what holds for addresses.** What is loaded from an address is what the network delivers for it at that moment, never an older file of the same name; files other than the one of that name
in the temporary directory are not changed. What is neither a file nor an address is refused. -/
theorem C119_download_partial (disk : Disk) (web : Web) (tmp uri n : Txt) (hd : disk uri = none) :
    (¬ IsUrl uri → fromFile disk web tmp uri = (.error "Unknown file location", disk)) ∧
    (∀ f t, (fromFile disk web tmp uri).1 = .ok (f, t) → web.status uri = .ok 200 ∧ web.body uri = .ok t) ∧
    (IsUrl uri → NameAtEnd uri n → n ≠ [] → web.status uri = .ok 200 → ∀ t, web.body uri = .ok t → ∀ f, readerFor (tmp ++ '/' :: n) = .ok f →
      (fromFile disk web tmp uri).1 = .ok (f, t)) ∧
    (NameAtEnd uri n → ∀ p, p ≠ tmp ++ '/' :: n → (fromFile disk web tmp uri).2 p = disk p) := by
  have hs : (disk uri).isSome = false := by simp [hd]
  have hurl : IsUrl uri ↔ ("http://".toList <+: uri ∨ "https://".toList <+: uri) := by
    constructor
    · rintro ⟨r, h | h⟩
      · exact .inl ⟨r, h.symm⟩
      · exact .inr ⟨r, h.symm⟩
    · rintro (⟨r, h⟩ | ⟨r, h⟩)
      · exact ⟨r, .inl h.symm⟩
      · exact ⟨r, .inr h.symm⟩
  refine ⟨fun hu => ?_, ?_, ?_, ?_⟩
  · rw [hurl] at hu
    simp only [fromFile, pullFile, hs, Bool.false_eq_true, if_false, hu, not_false_eq_true, if_true]
  · intro f t h
    rcases pull_cases disk web tmp uri hd with ⟨e, he⟩ | ⟨e, he⟩ | ⟨t', hst, hb, he⟩
    · simp [fromFile, he] at h
    · simp [fromFile, he] at h
    · refine ⟨hst, ?_⟩
      simp only [fromFile, he] at h
      cases hr : readerFor (tmpPath tmp uri) with
      | error e => rw [hr] at h; cases h
      | ok f' =>
        rw [hr] at h
        simp only [Function.update_self, Except.ok.injEq, Prod.mk.injEq] at h
        rw [hb, h.2]
  · intro hu hn hne hst t hb f hf
    have hl := lastPart_name hn
    rw [hurl] at hu
    have hp : pullFile disk web tmp uri = (.ok (tmpPath tmp uri), Function.update (Function.update disk (tmpPath tmp uri) none) (tmpPath tmp uri) (some t)) := by
      simp only [pullFile, hs, Bool.false_eq_true, if_false, hu, not_true_eq_false, hst, hl, hne, hb, ne_eq]
    have hf' : readerFor (tmpPath tmp uri) = .ok f := by rw [tmpPath, hl]; exact hf
    simp only [fromFile, hp, hf', Function.update_self]
  · intro hn p hne
    have hl := lastPart_name hn
    have htp : tmpPath tmp uri = tmp ++ '/' :: n := by rw [tmpPath, hl]
    have hpull : (pullFile disk web tmp uri).2 p = disk p := by
      rcases pull_cases disk web tmp uri hd with ⟨e, he⟩ | ⟨e, he⟩ | ⟨t', -, -, he⟩ <;> rw [he]
      · simp [htp, Function.update_of_ne hne]
      · simp [htp, Function.update_of_ne hne]
    unfold fromFile
    split
    · rename_i e d he
      rw [he] at hpull; exact hpull
    · rename_i q d he
      rw [he] at hpull
      cases readerFor q with
      | error e => exact hpull
      | ok f =>
        simp only
        split <;> exact hpull

/-- **C119 fails** for some names: a RAW file in a directory whose name has `.glm` in it is given to the reader for GridLAB-D, and files that end in `.raw`, as PSS/E writes them, or `.GLM` are refused. -/
theorem C119_reader_fails (web : Web) (tmp t : Txt) : let disk : Disk := fun _ => some t
    (∃ path, Announces path .raw ∧ (fromFile disk web tmp path).1 = .ok (.glm, t)) ∧
    (∃ path, Announces path .raw ∧ (fromFile disk web tmp path).1 = .error "Unknown network file format") ∧
    (∃ path, Announces path .glm ∧ (fromFile disk web tmp path).1 = .error "Unknown network file format") := by
  refine ⟨⟨"/feeders.glm.d/case.RAW".toList, .inr ⟨"/feeders.glm.d/case".toList, by decide +kernel⟩, ?_⟩, ⟨"/case.raw".toList, .inl ⟨"/case".toList, by decide +kernel⟩, ?_⟩,
    ⟨"/feeder.GLM".toList, .inr ⟨"/feeder".toList, by decide +kernel⟩, ?_⟩⟩
  · have : readerFor "/feeders.glm.d/case.RAW".toList = .ok .glm := by decide +kernel
    simp only [fromFile, pullFile, Option.isSome_some, if_true, this]
  · have : readerFor "/case.raw".toList = .error "Unknown network file format" := by decide +kernel
    simp only [fromFile, pullFile, Option.isSome_some, if_true, this]
  · have : readerFor "/feeder.GLM".toList = .error "Unknown network file format" := by decide +kernel
    simp only [fromFile, pullFile, Option.isSome_some, if_true, this]

/-- **C119 fails** for files in the temporary directory: loading from an address destroys a file there that has the name at the end of the address, even if the download then fails. -/
theorem C119_overwrites_fails (old : Txt) : ∃ (disk : Disk) (web : Web) (uri p : Txt), disk p = some old ∧ disk uri = none ∧
    (fromFile disk web "/tmp".toList uri).1 = .error "timeout" ∧ (fromFile disk web "/tmp".toList uri).2 p = none := by
  have h1 : tmpPath "/tmp".toList "http://h/case.RAW".toList = "/tmp/case.RAW".toList := by decide +kernel
  have h2 : lastPart "http://h/case.RAW".toList ≠ [] := by decide +kernel
  have h3 : "http://".toList <+: "http://h/case.RAW".toList ∨ "https://".toList <+: "http://h/case.RAW".toList := by decide +kernel
  have h4 : "http://h/case.RAW".toList ≠ "/tmp/case.RAW".toList := by decide +kernel
  have hp : pullFile (fun q => if q = "/tmp/case.RAW".toList then some old else none) ⟨fun _ => .ok 200, fun _ => .error "timeout"⟩ "/tmp".toList
      "http://h/case.RAW".toList = (.error "timeout", Function.update (fun q => if q = "/tmp/case.RAW".toList then some old else none) "/tmp/case.RAW".toList none) := by
    unfold pullFile
    rw [if_neg (by simp only [if_neg h4]; simp), if_neg (not_not.2 h3)]
    simp only [ne_eq, not_true_eq_false, if_false, if_neg h2, h1]
  exact ⟨fun q => if q = "/tmp/case.RAW".toList then some old else none, ⟨fun _ => .ok 200, fun _ => .error "timeout"⟩, "http://h/case.RAW".toList,
    "/tmp/case.RAW".toList, if_pos rfl, if_neg h4, by simp only [fromFile, hp], by simp only [fromFile, hp, Function.update_self]⟩

/-- `C119_local_partial` on `/data/case.RAW`. -/
example (web : Web) (tmp t : Txt) : fromFile (fun _ => some t) web tmp "/data/case.RAW".toList = (.ok (.raw, t), fun _ => some t) :=
  (C119_local_partial (fun _ => some t) web tmp _ t rfl).2.1 ⟨"/data/case".toList, by decide +kernel⟩ (by decide +kernel)

/-- `C119_download_partial` on an address, with another file of that name in the temporary directory. -/
example (t old : Txt) : (fromFile (fun p => if p = "/tmp/case.RAW".toList then some old else none) ⟨fun _ => .ok 200, fun _ => .ok t⟩ "/tmp".toList
    "https://host/case.RAW".toList).1 = .ok (.raw, t) :=
  (C119_download_partial _ ⟨fun _ => .ok 200, fun _ => .ok t⟩ "/tmp".toList "https://host/case.RAW".toList "case.RAW".toList (if_neg (by decide +kernel))).2.2.1
    ⟨"host/case.RAW".toList, .inr (by decide +kernel)⟩ ⟨by decide +kernel, "https://host".toList, by decide +kernel⟩ (by decide +kernel) rfl t rfl .raw (by decide +kernel)

end Verif
