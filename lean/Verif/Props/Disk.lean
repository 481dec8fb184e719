import Verif.Spec.Disk
import Verif.Props.CommandLine

/-!
# C156: the files of a run hold its results, each under its own name
-/

namespace Verif

variable {σ R : Type}

/-! ### Names -/

theorem voltage_ne_power (a b : Txt) : a ++ "_voltage.csv".toList ≠ b ++ "_power.csv".toList := fun h => by
  have e1 : "_voltage.csv".toList.reverse = ['v', 's', 'c', '.', 'e', 'g', 'a', 't', 'l', 'o', 'v', '_'] := by decide
  have e2 : "_power.csv".toList.reverse = ['v', 's', 'c', '.', 'r', 'e', 'w', 'o', 'p', '_'] := by decide
  have := congrArg List.reverse h
  rw [List.reverse_append, List.reverse_append, e1, e2] at this
  simp only [List.cons_append, List.cons.injEq] at this
  exact absurd this.2.2.2.2.1 (by decide)

theorem hourText_inj {a b : ℤ} (h : hourText a = hourText b) : a = b := by
  have := hourOption_text a
  rw [h, hourOption_text b] at this
  exact (Except.ok.inj this).symm

theorem output_voltage (texts : R → Txt × Txt) (d : OutDisk) (f : Txt × R) (n : Txt) :
    OutDisk.output texts d f (n ++ "_voltage.csv".toList) = if n = f.1 then some (texts f.2).1 else d (n ++ "_voltage.csv".toList) := by
  unfold OutDisk.output OutDisk.put
  rw [if_neg (voltage_ne_power n f.1)]
  by_cases h : n = f.1
  · rw [if_pos (by rw [h]), if_pos h]
  · rw [if_neg (fun e => h (List.append_cancel_right e)), if_neg h]

theorem output_power (texts : R → Txt × Txt) (d : OutDisk) (f : Txt × R) (n : Txt) :
    OutDisk.output texts d f (n ++ "_power.csv".toList) = if n = f.1 then some (texts f.2).2 else d (n ++ "_power.csv".toList) := by
  unfold OutDisk.output OutDisk.put
  by_cases h : n = f.1
  · rw [if_pos (by rw [h]), if_pos h]
  · rw [if_neg (fun e => h (List.append_cancel_right e)), if_neg (fun e => voltage_ne_power f.1 n e.symm), if_neg h]

theorem output_other (texts : R → Txt × Txt) (d : OutDisk) (f : Txt × R) {q : Txt} (h1 : q ≠ f.1 ++ "_voltage.csv".toList) (h2 : q ≠ f.1 ++ "_power.csv".toList) :
    OutDisk.output texts d f q = d q := by
  unfold OutDisk.output OutDisk.put
  rw [if_neg h2, if_neg h1]

/-- **C156.** If the names of the files of a run are different, then after it each holds the texts of its own result, and every other file is as before. -/
theorem C156_written (texts : R → Txt × Txt) (files : List (Txt × R)) (hn : (files.map Prod.fst).Nodup) (d : OutDisk) :
    DiskWritten texts (fun n r => (n, r) ∈ files) d (d.after texts files) := by
  induction files generalizing d with
  | nil => exact ⟨fun n r v p h => absurd h List.not_mem_nil, fun q _ => rfl⟩
  | cons f fs ih =>
    rw [List.map_cons, List.nodup_cons] at hn
    have H := ih hn.2 (OutDisk.output texts d f)
    refine ⟨fun n r v p h hf => ?_, fun q hq => ?_⟩
    · rcases List.mem_cons.1 h with e | h
      · have hfr : ∀ n' r' v' p', (n', r') ∈ fs → FilesOf n' v' p' → (v ≠ v' ∧ v ≠ p') ∧ (p ≠ v' ∧ p ≠ p') := fun n' r' v' p' hm hf' => by
          have hne : n ≠ n' := fun e' => hn.1 (by rw [← congrArg Prod.fst e, e']; exact List.mem_map.2 ⟨(n', r'), hm, rfl⟩)
          rw [hf.1, hf.2, hf'.1, hf'.2]
          exact ⟨⟨fun e => hne (List.append_cancel_right e), voltage_ne_power _ _⟩, fun e => voltage_ne_power _ _ e.symm, fun e => hne (List.append_cancel_right e)⟩
        have h1 := H.others v fun n' r' v' p' hm hf' => (hfr n' r' v' p' hm hf').1
        have h2 := H.others p fun n' r' v' p' hm hf' => (hfr n' r' v' p' hm hf').2
        change OutDisk.after texts (OutDisk.output texts d f) fs v = _ ∧ OutDisk.after texts (OutDisk.output texts d f) fs p = _
        rw [h1, h2, hf.1, hf.2, output_voltage, output_power, if_pos (by rw [← e]), if_pos (by rw [← e]), ← e]
        exact ⟨rfl, rfl⟩
      · exact H.held n r v p h hf
    · change OutDisk.after texts (OutDisk.output texts d f) fs q = _
      rw [H.others q fun n r v p hm hf => hq n r v p (List.mem_cons_of_mem _ hm) hf]
      exact output_other texts d f (hq f.1 f.2 _ _ List.mem_cons_self ⟨rfl, rfl⟩).1 (hq f.1 f.2 _ _ List.mem_cons_self ⟨rfl, rfl⟩).2

/-- **C156, partial.** A run with a load file, hours `a` to `b` and an output name that ends without error: the two files of each of these hours hold the result shown for this
hour, and every other file on the disk is as before. Missing: hours that are not given and texts that are no integers, see `C131_no_end_fails` and `C131_refused_hour_fails`. -/
theorem C156_hours_partial (W : Surroundings σ R) (o : Options) (fuel : ℕ) (s : σ) (loads : List NamedLoad) (f : Txt) (cols : List Column) (a b : ℤ)
    (hf : o.loadfile = some f) (hr : W.readCsv f = .ok cols) (hn : (cols.map Column.name).Nodup) (ha : o.loadstart = some (hourText a))
    (hb : o.loadend = some (hourText b)) (m : MainEnd R) (h : commandRun W o fuel s loads = some m) (he : m.raised = none) (hm : m.errors = [])
    (n : Txt) (ho : o.outputfile = some n) (texts : R → Txt × Txt) (d : OutDisk) :
    m.shown.length = (b - a).toNat ∧
      DiskWritten texts (fun x r => ∃ hour, a ≤ hour ∧ hour < b ∧ x = n ++ '_' :: hourText hour ∧ m.shown[(hour - a).toNat]? = some r) d (d.after texts m.files) := by
  obtain ⟨hlen, hfiles⟩ := C131_hours_partial W o fuel s loads f cols a b hf hr hn ha hb m h he hm
  have hfs := hfiles n ho
  have hmem : ∀ x r, (x, r) ∈ m.files ↔ ∃ hour, a ≤ hour ∧ hour < b ∧ x = n ++ '_' :: hourText hour ∧ m.shown[(hour - a).toNat]? = some r := fun x r => by
    rw [hfs, List.mem_map]
    constructor
    · rintro ⟨⟨r', k⟩, hk, e⟩
      obtain ⟨e1, e2⟩ := Prod.mk.inj e
      have hk' := List.mk_mem_zipIdx_iff_getElem?.1 hk
      obtain ⟨hlt, -⟩ := List.getElem?_eq_some_iff.1 hk'
      refine ⟨a + k, by omega, by omega, e1.symm, ?_⟩
      rw [show (a + (k : ℤ) - a).toNat = k by omega, hk']
      exact congrArg some e2
    · rintro ⟨hour, h1, h2, rfl, h3⟩
      refine ⟨(r, (hour - a).toNat), List.mk_mem_zipIdx_iff_getElem?.2 h3, ?_⟩
      simp only
      rw [show a + ((hour - a).toNat : ℤ) = hour by omega]
  have hnd : (m.files.map Prod.fst).Nodup := by
    rw [hfs, List.map_map]
    have : (Prod.fst ∘ fun x : R × ℕ => (n ++ '_' :: hourText (a + x.2), x.1)) = (fun k : ℕ => n ++ '_' :: hourText (a + k)) ∘ Prod.snd := rfl
    rw [this, ← List.map_map, List.zipIdx_map_snd]
    refine List.Nodup.map (fun k k' e => ?_) List.nodup_range'
    have := hourText_inj (List.cons.inj (List.append_cancel_left e)).2
    omega
  refine ⟨hlen, ?_⟩
  have H := C156_written texts m.files hnd d
  exact ⟨fun x r v p hx => H.held x r v p ((hmem x r).2 hx), fun q hq => H.others q fun x r v p hx => hq x r v p ((hmem x r).1 hx)⟩

/-- **C156.** A plain run on a distribution network that solves and shows its result writes the two files of the output name, with this result, and no other file; without
output name, or with an empty one, it writes none. -/
theorem C156_plain (W : Surroundings σ R) (o : Options) (fuel : ℕ) (s : σ) (loads : List NamedLoad) (x : ℚ) (hx : factorOption o.loadFactor = .ok x)
    (hf : o.loadfile = none) (hw : o.swing = none) (ht : W.threePhase = true) (a b : ℤ) (ha : hourOption o.loadstart = .ok a)
    (hb : hourOption o.loadend = .ok b) (r : R) (hr : (W.solve s (loads.map (NamedLoad.scale x x))).1 = .ok r) (hd : W.display r o.verbose = none)
    (texts : R → Txt × Txt) (d : OutDisk) :
    ∃ m, commandRun W o fuel s loads = some m ∧ m.shown = [r] ∧ DiskWritten texts (fun n r' => o.outputfile = some n ∧ n ≠ [] ∧ r' = r) d (d.after texts m.files) := by
  refine ⟨_, C131_plain W o fuel s loads x hx hf hw ht a b ha hb r hr hd, rfl, ?_⟩
  have hm : ∀ n r', (n, r') ∈ writeFiles o.outputfile r [] ↔ o.outputfile = some n ∧ n ≠ [] ∧ r' = r := fun n r' => by
    unfold writeFiles
    cases ho : o.outputfile with
    | none => simp
    | some n' =>
      by_cases hn : n' = []
      · simp only [hn, if_true, List.not_mem_nil, false_iff]
        rintro ⟨e, h, -⟩
        exact h (Option.some.inj e).symm
      · simp only [hn, if_false, List.nil_append, List.mem_singleton, Prod.mk.injEq, Option.some.injEq]
        constructor
        · rintro ⟨rfl, rfl⟩
          exact ⟨rfl, hn, rfl⟩
        · rintro ⟨rfl, -, rfl⟩
          exact ⟨rfl, rfl⟩
  have hnd : ((writeFiles o.outputfile r []).map Prod.fst).Nodup := by
    unfold writeFiles
    cases o.outputfile with
    | none => exact List.nodup_nil
    | some n' =>
      by_cases hn : n' = []
      · simp [hn]
      · simp [hn]
  have H := C156_written texts _ hnd d
  exact ⟨fun n r' v p h => H.held n r' v p ((hm n r').2 h), fun q hq => H.others q fun n r' v p h => hq n r' v p ((hm n r').1 h)⟩

/-! ### All runs, also those that end in an error -/

/-- The files of hours that were solved. -/
def hourFiles (output : Option Txt) (l : List (ℤ × R)) : List (Txt × R) := match output with
  | none => []
  | some n => l.map fun x => (n ++ '_' :: hourText x.1, x.2)

theorem hoursLoop_files (C : TSConfig σ R) (cols : List Column) (fuel : ℕ) (hours : List ℤ) : ∀ (st st' : TSState σ R) (e : Option String),
    hoursLoop C cols fuel hours st = some (e, st') → ∃ l : List (ℤ × R), l.map Prod.fst <+: hours ∧ st'.files = st.files ++ hourFiles C.outputfile l := by
  have hnil : ∀ o : Option Txt, hourFiles o ([] : List (ℤ × R)) = [] := fun o => by cases o <;> rfl
  induction hours with
  | nil =>
    intro st st' e h
    cases h
    exact ⟨[], List.nil_prefix, by rw [hnil, List.append_nil]⟩
  | cons hour hours ih =>
    intro st st' e h
    rw [hoursLoop] at h
    split at h
    · cases h
    · cases h
      exact ⟨[], List.nil_prefix, by rw [hnil, List.append_nil]⟩
    · rename_i r s' ls' _
      obtain ⟨l, h1, h2⟩ := ih _ _ _ h
      refine ⟨(hour, r) :: l, List.cons_prefix_cons.2 ⟨rfl, h1⟩, ?_⟩
      rw [h2]
      cases hC : C.outputfile with
      | none => rfl
      | some n => simp [writeFiles, hourFiles]

theorem tsExecute_files (C : TSConfig σ R) (fuel : ℕ) (st st' : TSState σ R) (out : Except String (Returned R)) (h : tsExecute C fuel st = some (out, st')) :
    ∃ l : List (ℤ × R), l.map Prod.fst <+: hourRange C.start C.stop ∧ st'.files = st.files ++ hourFiles C.outputfile l := by
  have hnil : ∀ o : Option Txt, hourFiles o ([] : List (ℤ × R)) = [] := fun o => by cases o <;> rfl
  unfold tsExecute at h
  split at h
  · obtain ⟨⟨e, st2⟩, h1, h2⟩ := Option.map_eq_some_iff.1 h
    have : st' = st2 := by
      cases e <;> cases h2 <;> rfl
    rw [this]
    exact hoursLoop_files C _ fuel _ _ _ _ h1
  · refine ⟨[], List.nil_prefix, ?_⟩
    rw [hnil, List.append_nil]
    split at h
    · obtain ⟨⟨e, s2, ls⟩, h1, h2⟩ := Option.map_eq_some_iff.1 h
      cases e <;> cases h2 <;> rfl
    · cases h
      rfl

theorem plainEnd_files (W : Surroundings σ R) (o : Options) (errors : List String) (st : TSState σ R) :
    (plainEnd W o errors st).files = st.files ∨ ∃ n r, o.outputfile = some n ∧ (plainEnd W o errors st).files = st.files ++ [(n, r)] := by
  unfold plainEnd
  split
  · exact .inl rfl
  · split
    · exact .inl rfl
    · rename_i r _ _ _
      simp only
      unfold writeFiles
      cases ho : o.outputfile with
      | none => exact .inl rfl
      | some n =>
        by_cases hn : n = []
        · exact .inl (if_pos hn)
        · exact .inr ⟨n, r, rfl, if_neg hn⟩

/-- **C156: all runs.** However a run ends, it writes under its output name and the names of hours behind it only, and under no name twice: each of its files holds the result
written to it, every other file is as before, and without output name nothing on the disk changes. -/
theorem C156_runs (W : Surroundings σ R) (o : Options) (fuel : ℕ) (s : σ) (loads : List NamedLoad) (m : MainEnd R) (h : commandRun W o fuel s loads = some m)
    (texts : R → Txt × Txt) (d : OutDisk) :
    DiskWritten texts (fun x r => (x, r) ∈ m.files) d (d.after texts m.files) ∧
      (∀ x ∈ m.files, ∃ n, o.outputfile = some n ∧ (x.1 = n ∨ ∃ hour, x.1 = n ++ '_' :: hourText hour)) ∧ (o.outputfile = none → d.after texts m.files = d) := by
  have key : ∃ l : List (ℤ × R), (l.map Prod.fst).Nodup ∧ (m.files = hourFiles o.outputfile l ∨ ∃ n r, o.outputfile = some n ∧ m.files = hourFiles o.outputfile l ++ [(n, r)]) := by
    have hnil : ∀ o : Option Txt, hourFiles o ([] : List (ℤ × R)) = [] := fun o => by cases o <;> rfl
    have hrange : ∀ a b : ℤ, (hourRange a b).Nodup := fun a b => List.Nodup.map (fun k k' e => by simpa using e) List.nodup_range
    unfold commandRun at h
    split at h
    · cases h
      exact ⟨[], List.nodup_nil, .inl (hnil _).symm⟩
    · split at h
      · cases h
        refine ⟨[], List.nodup_nil, ?_⟩
        rw [hnil]
        exact plainEnd_files W o _ _
      · rename_i C s' loads' hp
        have hC : C.outputfile = o.outputfile := by
          unfold prepare at hp
          split at hp
          · cases hp
          · split at hp
            · cases hp
            · split at hp
              · cases hp
              · split at hp
                · cases hp
                · split at hp
                  · cases hp
                  · split at hp
                    · cases hp
                    · cases hp
                      rfl
        obtain ⟨⟨out, st'⟩, h1, h2⟩ := Option.map_eq_some_iff.1 h
        obtain ⟨l, hl, hst⟩ := tsExecute_files C fuel _ _ _ h1
        rw [List.nil_append, hC] at hst
        refine ⟨l, (hrange _ _).sublist hl.sublist, ?_⟩
        have hplain : ∀ errors, (plainEnd W o errors st').files = hourFiles o.outputfile l ∨
            ∃ n r, o.outputfile = some n ∧ (plainEnd W o errors st').files = hourFiles o.outputfile l ++ [(n, r)] := fun errors => by
          have := plainEnd_files W o errors st'
          rwa [hst] at this
        simp only at h2
        split at h2
        · rw [← h2]; exact hplain _
        · rw [← h2]; exact hplain _
        · split at h2
          · rw [← h2]; exact hplain _
          · rw [← h2]; exact .inl hst
        · split at h2
          · rw [← h2]; exact hplain _
          · rw [← h2]; exact .inl hst
  obtain ⟨l, hl, hfiles⟩ := key
  cases ho : o.outputfile with
  | none =>
    rw [ho] at hfiles
    have hf : m.files = [] := by
      rcases hfiles with hf | ⟨n, r, e, -⟩
      · exact hf
      · cases e
    rw [hf]
    exact ⟨C156_written texts [] List.nodup_nil d, fun x hx => absurd hx List.not_mem_nil, fun _ => rfl⟩
  | some n =>
    rw [ho] at hfiles
    have hnd : ((hourFiles (some n) l).map Prod.fst).Nodup := by
      have : (hourFiles (some n) l).map Prod.fst = (l.map Prod.fst).map fun hour => n ++ '_' :: hourText hour := by
        simp [hourFiles, Function.comp_def]
      rw [this]
      exact List.Nodup.map (fun k k' e => hourText_inj (List.cons.inj (List.append_cancel_left e)).2) hl
    have hin : ∀ x ∈ hourFiles (some n) l, ∃ hour, x.1 = n ++ '_' :: hourText hour := fun x hx => by
      obtain ⟨y, -, rfl⟩ := List.mem_map.1 hx
      exact ⟨y.1, rfl⟩
    refine ⟨C156_written texts _ ?_ d, fun x hx => ⟨n, rfl, ?_⟩, fun e => by cases e⟩
    · rcases hfiles with hf | ⟨n', r, e, hf⟩
      · rw [hf]
        exact hnd
      · rw [hf, List.map_append, List.nodup_append]
        refine ⟨hnd, List.nodup_singleton _, fun a ha b hb => ?_⟩
        obtain ⟨x, hx, rfl⟩ := List.mem_map.1 ha
        obtain ⟨hour, e'⟩ := hin x hx
        rw [List.map_singleton, List.mem_singleton] at hb
        rw [hb, e', ← Option.some.inj e]
        intro hh
        have := congrArg List.length hh
        simp at this
    · rcases hfiles with hf | ⟨n', r, e, hf⟩
      · rw [hf] at hx
        exact .inr (hin x hx)
      · rw [hf] at hx
        rcases List.mem_append.1 hx with hx | hx
        · exact .inr (hin x hx)
        · rw [List.mem_singleton] at hx
          exact .inl (by rw [hx]; exact (Option.some.inj e).symm)

/-- **C156 fails for files of earlier runs.** Run hours `a` to `b`, then hours `a` to `c` with `c < b` under the same output name, perhaps for another network: the files of the
hours from `c` on still hold the results of the first run, beside those of the second. -/
theorem C156_stale_fails (W W' : Surroundings σ R) (o o' : Options) (fuel : ℕ) (s s' : σ) (loads loads' : List NamedLoad) (f f' : Txt) (cols cols' : List Column) (a b c : ℤ)
    (hf : o.loadfile = some f) (hr : W.readCsv f = .ok cols) (hn : (cols.map Column.name).Nodup) (ha : o.loadstart = some (hourText a))
    (hb : o.loadend = some (hourText b)) (m : MainEnd R) (h : commandRun W o fuel s loads = some m) (he : m.raised = none) (hm : m.errors = [])
    (hf' : o'.loadfile = some f') (hr' : W'.readCsv f' = .ok cols') (hn' : (cols'.map Column.name).Nodup) (ha' : o'.loadstart = some (hourText a))
    (hb' : o'.loadend = some (hourText c)) (m' : MainEnd R) (h' : commandRun W' o' fuel s' loads' = some m') (he' : m'.raised = none) (hm' : m'.errors = [])
    (n : Txt) (ho : o.outputfile = some n) (ho' : o'.outputfile = some n) (texts : R → Txt × Txt) (d : OutDisk) (hour : ℤ) (h1 : a ≤ hour) (h2 : c ≤ hour) (h3 : hour < b)
    (v p : Txt) (hv : FilesOf (n ++ '_' :: hourText hour) v p) :
    ∃ r, m.shown[(hour - a).toNat]? = some r ∧ ((d.after texts m.files).after texts m'.files) v = some (texts r).1 ∧
      ((d.after texts m.files).after texts m'.files) p = some (texts r).2 := by
  obtain ⟨hlen, H⟩ := C156_hours_partial W o fuel s loads f cols a b hf hr hn ha hb m h he hm n ho texts d
  obtain ⟨-, H'⟩ := C156_hours_partial W' o' fuel s' loads' f' cols' a c hf' hr' hn' ha' hb' m' h' he' hm' n ho' texts (d.after texts m.files)
  have hlt : (hour - a).toNat < m.shown.length := by omega
  refine ⟨m.shown[(hour - a).toNat], List.getElem?_eq_getElem hlt, ?_⟩
  have hne : ∀ x r' v' p', (∃ k, a ≤ k ∧ k < c ∧ x = n ++ '_' :: hourText k ∧ m'.shown[(k - a).toNat]? = some r') → FilesOf x v' p' → (v ≠ v' ∧ v ≠ p') ∧ (p ≠ v' ∧ p ≠ p') := by
    rintro x r' v' p' ⟨k, -, hk, rfl, -⟩ hx
    have hxn : n ++ '_' :: hourText hour ≠ n ++ '_' :: hourText k := fun e => by
      have := hourText_inj (List.cons.inj (List.append_cancel_left e)).2
      omega
    rw [hv.1, hv.2, hx.1, hx.2]
    exact ⟨⟨fun e => hxn (List.append_cancel_right e), voltage_ne_power _ _⟩, fun e => voltage_ne_power _ _ e.symm, fun e => hxn (List.append_cancel_right e)⟩
  rw [H'.others v fun x r' v' p' hx hf => (hne x r' v' p' hx hf).1, H'.others p fun x r' v' p' hx hf => (hne x r' v' p' hx hf).2]
  exact H.held _ _ v p ⟨hour, h1, h3, rfl, List.getElem?_eq_getElem hlt⟩ hv

/-- **C156 fails for names that end like an hour.** A plain run with the output name `n_hour` overwrites what a time series with the output name `n` wrote for this hour. -/
theorem C156_overwritten_fails (W : Surroundings σ R) (o : Options) (fuel : ℕ) (s : σ) (loads : List NamedLoad) (x : ℚ) (hx : factorOption o.loadFactor = .ok x)
    (hf : o.loadfile = none) (hw : o.swing = none) (ht : W.threePhase = true) (a b : ℤ) (ha : hourOption o.loadstart = .ok a)
    (hb : hourOption o.loadend = .ok b) (r : R) (hr : (W.solve s (loads.map (NamedLoad.scale x x))).1 = .ok r) (hd : W.display r o.verbose = none)
    (texts : R → Txt × Txt) (d : OutDisk) (n : Txt) (hour : ℤ) (ho : o.outputfile = some (n ++ '_' :: hourText hour)) (v p : Txt) (hv : FilesOf (n ++ '_' :: hourText hour) v p) :
    ∃ m, commandRun W o fuel s loads = some m ∧ (d.after texts m.files) v = some (texts r).1 ∧ (d.after texts m.files) p = some (texts r).2 := by
  obtain ⟨m, e, -, H⟩ := C156_plain W o fuel s loads x hx hf hw ht a b ha hb r hr hd texts d
  exact ⟨m, e, H.held _ r v p ⟨ho, by simp, rfl⟩ hv⟩

/-! ### Cases -/

/-- Texts for results that are lists of numbers. -/
noncomputable def listTexts (r : List ℝ) : Txt × Txt := (r.flatMap (fixedText 3), r.flatMap (fixedText 2))

/-- Two hours on an empty disk: four files. -/
example : ∃ m, commandRun daySurroundings dayOptions 1 () dayLoads = some m ∧ ∃ r3 r4, m.shown = [r3, r4] ∧
    (OutDisk.after listTexts (fun _ => none) m.files) "o_3_voltage.csv".toList = some (listTexts r3).1 ∧
    (OutDisk.after listTexts (fun _ => none) m.files) "o_4_power.csv".toList = some (listTexts r4).2 ∧
    (OutDisk.after listTexts (fun _ => none) m.files) "o_voltage.csv".toList = none := by
  obtain ⟨m, hm, h1, h2⟩ := day_run
  obtain ⟨hl, H⟩ := C156_hours_partial daySurroundings dayOptions 1 () dayLoads ['l'] [⟨"cl_7A".toList, fun h => some h⟩] 3 5 rfl rfl (by decide) (by decide)
    (by decide) m hm h1 h2 ['o'] rfl listTexts (fun _ => none)
  obtain ⟨r3, r4, e⟩ : ∃ x y, m.shown = [x, y] := List.length_eq_two.1 hl
  refine ⟨m, hm, r3, r4, e, ?_, ?_, ?_⟩
  · exact (H.held _ r3 "o_3_voltage.csv".toList "o_3_power.csv".toList ⟨3, le_rfl, by norm_num, rfl, by rw [e]; rfl⟩ ⟨by decide +kernel, by decide +kernel⟩).1
  · exact (H.held _ r4 "o_4_voltage.csv".toList "o_4_power.csv".toList ⟨4, by norm_num, by norm_num, rfl, by rw [e]; rfl⟩ ⟨by decide +kernel, by decide +kernel⟩).2
  · refine (H.others "o_voltage.csv".toList fun x r v p hx hf => ?_)
    obtain ⟨hour, h3, h5, rfl, -⟩ := hx
    have hh : hour = 3 ∨ hour = 4 := by omega
    rw [hf.1, hf.2]
    clear hf hm h1 h2 hl H e
    rcases hh with rfl | rfl <;> exact ⟨by decide +kernel, by decide +kernel⟩

theorem short_day_run : ∃ m, commandRun daySurroundings { dayOptions with loadend := some ['4'] } 1 () dayLoads = some m ∧ m.raised = none ∧ m.errors = [] := by
  have h3 : hourOption (some ['3']) = .ok 3 := by decide +kernel
  have h4 : hourOption (some ['4']) = .ok 4 := by decide +kernel
  have h1 : factorOption (some ['1']) = .ok 1 := by decide +kernel
  have hR : hourRange 3 4 = [3] := by decide
  unfold commandRun
  rw [show ({ dayOptions with loadend := some ['4'] } : Options).loadFactor = some ['1'] from rfl, h1]
  simp only
  have hp : ∀ l, prepare daySurroundings { dayOptions with loadend := some ['4'] } () l = (.ok ⟨daySurroundings.solve, daySurroundings.gens, daySurroundings.mark,
      some [⟨"cl_7A".toList, fun h => some h⟩], 3, 4, none, none, some ['o']⟩, (), l) := by
    intro l
    unfold prepare
    rw [show ({ dayOptions with loadend := some ['4'] } : Options).loadstart = some ['3'] from rfl, show ({ dayOptions with loadend := some ['4'] } : Options).loadend = some ['4'] from rfl,
      h3, h4]
    rfl
  rw [hp]
  simp [tsExecute, hR, hoursLoop, executePowerflow, balanceLoop, adjustGenerators, daySurroundings, Except.bind]

/-- A later run for the hour 3 only leaves the file of the hour 4 as it was. -/
example : ∃ m m', commandRun daySurroundings dayOptions 1 () dayLoads = some m ∧ commandRun daySurroundings { dayOptions with loadend := some ['4'] } 1 () dayLoads = some m' ∧
    ∃ r, m.shown[1]? = some r ∧
    ((OutDisk.after listTexts (fun _ => none) m.files).after listTexts m'.files) "o_4_voltage.csv".toList = some (listTexts r).1 := by
  obtain ⟨m, hm, h1, h2⟩ := day_run
  obtain ⟨m', h', he, hm'⟩ := short_day_run
  obtain ⟨r, e1, e2, -⟩ := C156_stale_fails daySurroundings daySurroundings dayOptions { dayOptions with loadend := some ['4'] } 1 () () dayLoads dayLoads ['l'] ['l']
    [⟨"cl_7A".toList, fun h => some h⟩] [⟨"cl_7A".toList, fun h => some h⟩] 3 5 4 rfl rfl (by decide) (by decide) (by decide) m hm h1 h2 rfl rfl (by decide) (by decide) (by decide)
    m' h' he hm' ['o'] rfl rfl listTexts (fun _ => none) 4 (by norm_num) le_rfl (by norm_num) "o_4_voltage.csv".toList "o_4_power.csv".toList
    ⟨by decide +kernel, by decide +kernel⟩
  exact ⟨m, m', hm, h', r, e1, e2⟩

/-- A plain run with the output name `o_3` on a disk with any files. -/
example (d : OutDisk) : ∃ m, commandRun daySurroundings { dayOptions with loadfile := none, outputfile := some ['o', '_', '3'] } 1 () dayLoads = some m ∧
    (d.after listTexts m.files) "o_3_voltage.csv".toList = some (listTexts [5 * 1]).1 := by
  obtain ⟨m, e, h, -⟩ := C156_overwritten_fails daySurroundings { dayOptions with loadfile := none, outputfile := some ['o', '_', '3'] } 1 () dayLoads 1 (by decide +kernel) rfl rfl rfl
    3 5 (by decide +kernel) (by decide +kernel) [5 * 1] (by simp [daySurroundings, dayLoads, NamedLoad.scale]) rfl listTexts d ['o'] 3 (by decide +kernel)
    "o_3_voltage.csv".toList "o_3_power.csv".toList ⟨by decide +kernel, by decide +kernel⟩
  exact ⟨m, e, h⟩

/-- Two results under different names. -/
example (d : OutDisk) (r r' : List ℝ) : (d.after listTexts [(['a'], r), (['b'], r')]) "a_power.csv".toList = some (listTexts r).2 :=
  ((C156_written listTexts [(['a'], r), (['b'], r')] (show [['a'], ['b']].Nodup by decide) d).held ['a'] r "a_voltage.csv".toList "a_power.csv".toList List.mem_cons_self
    ⟨by decide +kernel, by decide +kernel⟩).2

/-- Without `--outputfile` no file changes, with hours or without. -/
example (W : Surroundings Unit (List ℝ)) (m : MainEnd (List ℝ)) (d : OutDisk) (h : commandRun W { dayOptions with outputfile := none } 1 () dayLoads = some m) :
    d.after listTexts m.files = d :=
  (C156_runs W _ 1 () dayLoads m h listTexts d).2.2 rfl

/-- The files of two hours: nothing else changed. -/
example : ∃ m, commandRun daySurroundings dayOptions 1 () dayLoads = some m ∧ m.files.length = 2 ∧ ∀ (d : OutDisk) (x : Txt × List ℝ), x ∈ m.files →
    (d.after listTexts m.files) (x.1 ++ "_power.csv".toList) = some (listTexts x.2).2 := by
  obtain ⟨m, hm, h1, h2⟩ := day_run
  obtain ⟨h3, h4⟩ := C131_hours_partial daySurroundings dayOptions 1 () dayLoads ['l'] [⟨"cl_7A".toList, fun h => some h⟩] 3 5 rfl rfl (by decide) (by decide)
    (by decide) m hm h1 h2
  refine ⟨m, hm, by rw [h4 ['o'] rfl, List.length_map, List.length_zipIdx, h3]; rfl, fun d x hx => ?_⟩
  exact ((C156_runs daySurroundings dayOptions 1 () dayLoads m hm listTexts d).1.held x.1 x.2 _ _ hx ⟨rfl, rfl⟩).2

end Verif
