import Verif.Lemmas.RawFile

/-!
# The version of a file is the one of its case identification
-/

namespace Verif.Raw

theorem bind_ok {α β : Type} {x : Py α} {g : α → Py β} {y : β} (h : (x >>= g) = .ok y) : ∃ a, x = .ok a ∧ g a = .ok y := by
  cases x with
  | error e => cases h
  | ok a => exact ⟨a, rfl, h⟩

theorem map_ok {α β : Type} {x : Py α} {g : α → β} {y : β} (h : x.map g = .ok y) : ∃ a, x = .ok a ∧ g a = y := by
  cases x with
  | error e => cases h
  | ok a => exact ⟨a, rfl, Except.ok.inj h⟩

/-- The section leaves the version. -/
def KeepsRev (s : Section) : Prop := ∀ f rows f' r, s f rows = .ok (f', r) → f'.rev = f.rev

theorem sectionLoop_rev {record : RawFile → Row → List Row → Py (RawFile × ℕ)} (h : ∀ f row rest f' k, record f row rest = .ok (f', k) → f'.rev = f.rev) :
    ∀ (rows : List Row) (n : ℕ) (f f' : RawFile) (r : Option (List Row)), sectionLoop record n f rows = .ok (f', r) → f'.rev = f.rev := by
  intro rows
  induction rows with
  | nil => intro n f f' r e; cases n <;> cases e
  | cons row rest ih =>
    intro n f f' r e
    cases n with
    | succ n => exact ih n f f' r e
    | zero =>
      rw [sectionLoop] at e
      split at e
      · cases e
      · split at e
        · exact ih _ _ _ _ e
        · split at e
          · cases e; rfl
          · split at e
            · cases e; rfl
            · split at e
              · cases e
              · rename_i f1 k hk
                rw [ih _ _ _ _ e, h _ _ _ _ _ hk]

theorem ofRow_rev {record : RawFile → Row → Py RawFile} (h : ∀ f row f', record f row = .ok f' → f'.rev = f.rev) : KeepsRev (ofRow record) := by
  intro f rows f' r e
  refine sectionLoop_rev ?_ rows 0 f f' r e
  intro f row rest f' k e
  obtain ⟨a, ha, e⟩ := map_ok e
  cases e
  exact h _ _ _ ha

theorem sections_rev (v : ℤ) : ∀ s ∈ sections v, KeepsRev s := by
  have bus : KeepsRev (busSection v) := ofRow_rev fun f row f' e => by obtain ⟨a, -, e⟩ := bind_ok e; cases e; rfl
  have load : KeepsRev (loadSection v) := ofRow_rev fun f row f' e => by obtain ⟨a, -, e⟩ := bind_ok e; cases e; rfl
  have fixed : KeepsRev fixedSection := ofRow_rev fun f row f' e => by obtain ⟨a, -, e⟩ := bind_ok e; cases e; rfl
  have gen : KeepsRev (genSection v) := ofRow_rev fun f row f' e => by obtain ⟨a, -, e⟩ := bind_ok e; cases e; rfl
  have branch : KeepsRev (branchSection v) := ofRow_rev fun f row f' e => by obtain ⟨a, -, e⟩ := bind_ok e; cases e; rfl
  have skip : KeepsRev skipSection := ofRow_rev fun f row f' e => by cases e; rfl
  have check : ∀ l, KeepsRev (checkSection l) := fun l => ofRow_rev fun f row f' e => by obtain ⟨a, -, e⟩ := map_ok e; exact e ▸ rfl
  have three : ∀ n l, KeepsRev (sectionLoop (checkThree n l) 0) := fun n l f rows f' r e => by
    refine sectionLoop_rev (fun f row rest f' k e => ?_) rows 0 f f' r e
    unfold checkThree at e
    split at e
    · obtain ⟨a, -, e⟩ := bind_ok e
      obtain ⟨a, -, e⟩ := bind_ok e
      obtain ⟨a, -, e⟩ := bind_ok e
      cases e; rfl
    · cases e
  have xfmr : KeepsRev (xfmrSection v) := fun f rows f' r e => by
    refine sectionLoop_rev (fun f row rest f' k e => ?_) rows 0 f f' r e
    unfold readTransformer at e
    obtain ⟨a, -, e⟩ := bind_ok e
    split at e <;> split at e
    · obtain ⟨a, -, e⟩ := bind_ok e
      cases e; rfl
    · cases e
    · obtain ⟨a, -, e⟩ := bind_ok e
      cases e; rfl
    · cases e
  have switched : KeepsRev (switchedSection v) := ofRow_rev fun f row f' e => by
    obtain ⟨a, -, e⟩ := bind_ok e
    split at e <;> cases e <;> rfl
  have correction : KeepsRev (correctionSection v) := ofRow_rev fun f row f' e => by
    split at e
    · cases e; rfl
    · obtain ⟨a, -, e⟩ := map_ok e; exact e ▸ rfl
  have multi : KeepsRev multiSection := ofRow_rev fun f row f' e => by obtain ⟨a, -, e⟩ := map_ok e; exact e ▸ rfl
  have system : KeepsRev (fun f rows => (systemLoop rows).map fun r => (f, r)) := fun f rows f' r e => by
    obtain ⟨a, -, e⟩ := map_ok e; cases e; rfl
  have trailing : KeepsRev (fun f rows => (trailingLoop false rows).map fun r => (f, r)) := fun f rows f' r e => by
    obtain ⟨a, -, e⟩ := map_ok e; cases e; rfl
  have one : ∀ (p : Prop) [Decidable p] (l : List Section), (∀ s ∈ l, KeepsRev s) → ∀ s ∈ (if p then l else []), KeepsRev s := fun p _ l h s hs => by
    split at hs
    · exact h s hs
    · cases hs
  have one' : ∀ (p : Prop) [Decidable p] (l : List Section), (∀ s ∈ l, KeepsRev s) → ∀ s ∈ (if p then [] else l), KeepsRev s := fun p _ l h s hs => by
    split at hs
    · cases hs
    · exact h s hs
  intro s hs
  unfold sections at hs
  rw [List.mem_append, List.mem_append, List.mem_append, List.mem_append, List.mem_append, List.mem_append, List.mem_append, List.mem_append,
    List.mem_append, List.mem_append] at hs
  rcases hs with (((((((((hs | hs) | hs) | hs) | hs) | hs) | hs) | hs) | hs) | hs) | hs
  · exact one _ _ (List.forall_mem_singleton.2 system) s hs
  · exact (List.forall_mem_cons.2 ⟨bus, List.forall_mem_singleton.2 load⟩) s hs
  · exact one' _ _ (List.forall_mem_singleton.2 fixed) s hs
  · exact (List.forall_mem_cons.2 ⟨gen, List.forall_mem_singleton.2 branch⟩) s hs
  · exact one _ _ (List.forall_mem_singleton.2 skip) s hs
  · refine List.forall_mem_cons.2 ⟨xfmr, List.forall_mem_cons.2 ⟨check _, List.forall_mem_cons.2 ⟨three _ _, List.forall_mem_singleton.2 (three _ _)⟩⟩⟩ s hs
  · exact one _ _ (List.forall_mem_singleton.2 switched) s hs
  · exact (List.forall_mem_cons.2 ⟨correction, List.forall_mem_cons.2 ⟨skip, List.forall_mem_cons.2 ⟨multi, List.forall_mem_cons.2 ⟨check _,
      List.forall_mem_cons.2 ⟨check _, List.forall_mem_cons.2 ⟨check _, List.forall_mem_singleton.2 (check _)⟩⟩⟩⟩⟩⟩) s hs
  · exact one' _ _ (List.forall_mem_singleton.2 switched) s hs
  · exact one _ _ (List.forall_mem_singleton.2 trailing) s hs
  · exact one _ _ (fun s hs => List.eq_of_mem_replicate hs ▸ trailing) s hs

theorem runSections_rev {ss : List Section} (h : ∀ s ∈ ss, KeepsRev s) : ∀ {f : RawFile} {rows : List Row} {f' : RawFile},
    runSections ss f rows = .ok f' → f'.rev = f.rev := by
  induction ss with
  | nil => intro f rows f' e; cases e; rfl
  | cons s ss ih =>
    intro f rows f' e
    rw [runSections] at e
    split at e
    · cases e
    · rename_i f1 e1
      cases e
      exact h s (by simp) _ _ _ _ e1
    · rename_i f1 rest e1
      rw [ih (fun s hs => h s (List.mem_cons_of_mem _ hs)) e, h s (by simp) _ _ _ _ e1]

/-- The case identification of the rows states the version. -/
theorem readRows_rev {header fields title1 title2 : Row} {first body : List Row} (hfirst : first = [] ∨ ∃ c, Comment c ∧ first = [c])
    (hh : HeaderRow header fields) (hf : Fits caseColumns 6 ["IC", "SBASE"] fields) {v : ℤ} (hv : Int' (some 33) (under caseColumns fields "REV") v) {f : RawFile}
    (h : readRows (first ++ header :: title1 :: title2 :: body) = .ok f) : f.rev = v := by
  have c1 : colAt caseColumns 1 "SBASE" .number = true := by decide +kernel
  obtain ⟨x, hx⟩ := (hf.holds c1).resolve_left (hf.filled "SBASE" (by simp))
  obtain ⟨q, -, hid⟩ := readIdentification_header hh hf (sbase := x) ⟨x, rfl, .inr hx⟩ hv
  rw [readRows_header hfirst hh hf hid] at h
  exact runSections_rev (sections_rev v) h

end Verif.Raw
