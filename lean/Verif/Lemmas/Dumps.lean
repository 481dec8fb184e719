import Verif.Lemmas.Cache
import Verif.Lemmas.Newton
import Verif.Model.Dumps
import Verif.Spec.Dumps

/-! Files written by the Newton loop, and reading them. -/

namespace Verif

theorem crLines_go (w l rest : Txt) (hl : '\r' ∉ l) : crLines.go w (l ++ '\r' :: rest) = (w ++ l) :: crLines.go [] rest := by
  induction l generalizing w with
  | nil => simp [crLines.go]
  | cons c l ih =>
    simp only [List.mem_cons, not_or] at hl
    rw [List.cons_append, crLines.go, if_neg (Ne.symm hl.1), ih _ hl.2]
    simp

theorem readDump_line (what value rest : Txt) (h1 : '\r' ∉ what) (h2 : ':' ∉ what) (h3 : '\r' ∉ value) :
    readDump (dumpLine what value ++ rest) = (what, value) :: readDump rest := by
  have e : dumpLine what value ++ rest = (what ++ ':' :: ' ' :: value) ++ '\r' :: rest := by simp [dumpLine]
  have hr : '\r' ∉ what ++ ':' :: ' ' :: value := by simp [h1, h3]
  unfold readDump crLines
  rw [e, crLines_go _ _ _ hr, List.map_cons]
  congr 1
  have ht : ∀ l : Txt, ':' ∉ l → (l ++ ':' :: ' ' :: value).takeWhile (· ≠ ':') = l ∧ (l ++ ':' :: ' ' :: value).dropWhile (· ≠ ':') = ':' :: ' ' :: value := by
    intro l hl
    induction l with
    | nil => simp
    | cons c l ih =>
      simp only [List.mem_cons, not_or] at hl
      have := ih hl.2
      simp [Ne.symm hl.1] at this ⊢
      exact this
  simp only [entryParts, List.nil_append]
  rw [(ht what h2).1, (ht what h2).2]
  rfl

theorem readDump_nil : readDump [] = [] := rfl

theorem readDump_flatMap {α : Type} (l : List α) (what value : α → Txt) (keep : α → Prop) [DecidablePred keep]
    (h : ∀ a ∈ l, keep a → '\r' ∉ what a ∧ ':' ∉ what a ∧ '\r' ∉ value a) (rest : Txt) :
    readDump ((l.flatMap fun a => if keep a then dumpLine (what a) (value a) else []) ++ rest) =
      ((l.filter fun a => keep a).map fun a => (what a, value a)) ++ readDump rest := by
  induction l with
  | nil => rfl
  | cons a l ih =>
    have ih := ih fun b hb => h b (List.mem_cons_of_mem _ hb)
    rw [List.flatMap_cons, List.append_assoc]
    by_cases hk : keep a
    · obtain ⟨h1, h2, h3⟩ := h a (List.mem_cons_self ..) hk
      rw [if_pos hk, readDump_line _ _ _ h1 h2 h3, ih]
      simp [hk]
    · rw [if_neg hk, List.nil_append, ih]
      simp [hk]

theorem indexText_digits (i : ℕ) : ∀ c ∈ indexText i, c.isDigit = true := fun c hc => Nat.isDigit_of_mem_toDigits (by norm_num) (by norm_num) hc

theorem indexText_not (i : ℕ) {c : Char} (h : c.isDigit = false) : c ∉ indexText i := fun hc => by
  rw [indexText_digits i c hc] at h; exact absurd h (by decide)

theorem indexText_inj {i j : ℕ} (h : indexText i = indexText j) : i = j := toDigits_injective h

/-! ### Names -/

theorem yName_inj {i j : ℕ} (h : yName i = yName j) : i = j := by
  have h := (List.cons.inj h).2
  have := indexText_inj (List.append_cancel_right h)
  omega

theorem jName_inj {i j : ℕ} (h : jName i = jName j) : i = j := by
  have h := (List.cons.inj h).2
  have := indexText_inj (List.append_cancel_right h)
  omega

theorem names_apart (i j : ℕ) : yName i ≠ jName j ∧ yName i ≠ vName ∧ yName i ≠ lookupName ∧ jName j ≠ vName ∧ jName j ≠ lookupName ∧ vName ≠ lookupName :=
  ⟨fun h => absurd (List.cons.inj h).1 (by decide), fun h => absurd (List.cons.inj h).1 (by decide), fun h => absurd (List.cons.inj h).1 (by decide),
    fun h => absurd (List.cons.inj h).1 (by decide), fun h => absurd (List.cons.inj h).1 (by decide), by decide⟩

theorem Files.write_same (fs : Files) (n t : Txt) : fs.write n t n = some t := if_pos rfl

theorem Files.write_other (fs : Files) {n m : Txt} (t : Txt) (h : m ≠ n) : fs.write n t m = fs m := if_neg h

/-! ### The loop -/

variable {σ : Type} {C : NRContext} {O : StamperOps σ} {tx : ℝ} {jl : ℕ → ℝ} {li : ℕ} {fmt : ℝ → Txt}

/-- The matrix file of a pass. -/
noncomputable def PassFacts.yText {it : ℕ} {st : NRState σ} (fmt : ℝ → Txt) (F : PassFacts C O tx jl li it st) : Txt := matrixText fmt F.done.Y.shape F.A

/-- The right-hand side of a pass. -/
noncomputable def PassFacts.rhs {it : ℕ} {st : NRState σ} (_ : PassFacts C O tx jl li it st) : ℕ → ℝ :=
  fun i => jl i + jOf (O.stampNonlinear st.stamper st.vPrev it).2 i

/-- The files after the system of a pass is written. -/
noncomputable def PassFacts.files {it : ℕ} {st : NRState σ} (fmt : ℝ → Txt) (F : PassFacts C O tx jl li it st) (fs : Files) : Files :=
  (fs.write (yName it) (F.yText fmt)).write (jName it) (vectorText fmt C.size F.rhs)

theorem dumpPass_fst (it : ℕ) (st : NRState σ) (fs : Files) : (dumpPass fmt C O tx jl li it st fs).1 = nrPass C O tx jl li it st := by
  unfold dumpPass nrPass
  simp only [bind, Except.bind]
  split <;> rename_i h1 <;> simp only [h1]
  split <;> rename_i h2 <;> simp only [h2]
  split <;> rename_i h3 <;> simp only [h3]
  split <;> rename_i h4 <;> simp only [h4]
  split_ifs <;> rfl

theorem dumpPass_files {it : ℕ} {st : NRState σ} {fs fs' : Files} {p : NRPass σ} (h : dumpPass fmt C O tx jl li it st fs = (.ok p, fs')) :
    ∃ F : PassFacts C O tx jl li it st,
      (Bails F.done.history ∧ p = .ret ⟨false, F.vNext, it⟩ F.done ∧ fs' = F.files fmt fs) ∨
      (¬ Bails F.done.history ∧ p = .ret ⟨true, F.vNext, it⟩ F.done ∧ fs' = (F.files fmt fs).write vName (vectorText fmt C.size F.vNext)) ∨
      ((∃ st', p = .next st') ∧ fs' = F.files fmt fs) := by
  unfold dumpPass at h
  simp only at h
  split at h
  · simp at h
  · split at h
    · simp at h
    · rename_i A hA
      split at h
      · simp at h
      · rename_i vNext hs
        split at h
        · simp at h
        · rename_i rd hrd
          refine ⟨⟨A, vNext, rd, hA, hs, hrd⟩, ?_⟩
          by_cases h1 : (st.history ++ [rd.maxResidual]).length % 50 = 0 ∧ 0 < slope (st.history ++ [rd.maxResidual])
          · rw [if_pos h1] at h
            simp only [Prod.mk.injEq, Except.ok.injEq] at h
            left; exact ⟨h1, h.1.symm, h.2.symm⟩
          · rw [if_neg h1] at h
            by_cases h2 : rd.maxResidual < C.tolerance
            · rw [if_pos h2] at h
              simp only [Prod.mk.injEq, Except.ok.injEq] at h
              right; left; exact ⟨h1, h.1.symm, h.2.symm⟩
            · rw [if_neg h2] at h
              simp only [Prod.mk.injEq, Except.ok.injEq] at h
              right; right; exact ⟨⟨_, h.1.symm⟩, h.2.symm⟩

theorem dumpLoop_fst (n it : ℕ) (st : NRState σ) (fs : Files) : (dumpLoop fmt C O tx jl li n it st fs).1 = nrLoop C O tx jl li n it st := by
  induction n generalizing it st fs with
  | zero => rfl
  | succ n ih =>
    have hp := dumpPass_fst (fmt := fmt) (C := C) (O := O) (tx := tx) (jl := jl) (li := li) it st fs
    unfold dumpLoop nrLoop
    simp only [bind, Except.bind]
    rw [← hp]
    rcases hd : dumpPass fmt C O tx jl li it st fs with ⟨_ | _ | _, fs'⟩
    · rfl
    · rfl
    · exact ih _ _ _

/-- The systems of the passes before `k` are on file. -/
def OnFile (fmt : ℝ → Txt) (C : NRContext) (O : StamperOps σ) (tx : ℝ) (jl : ℕ → ℝ) (li : ℕ) (st0 : NRState σ) (k : ℕ) (fs : Files) : Prop :=
  ∀ j < k, ∃ (st : NRState σ) (F : PassFacts C O tx jl li j st), NRReach C O tx jl li st0 j st ∧
    fs (yName j) = some (F.yText fmt) ∧ fs (jName j) = some (vectorText fmt C.size F.rhs)

theorem OnFile.step {st0 st : NRState σ} {k : ℕ} {fs : Files} (h : OnFile fmt C O tx jl li st0 k fs) (hr : NRReach C O tx jl li st0 k st)
    (F : PassFacts C O tx jl li k st) : OnFile fmt C O tx jl li st0 (k + 1) (F.files fmt fs) := by
  intro j hj
  rcases Nat.lt_succ_iff_lt_or_eq.1 hj with hlt | rfl
  · obtain ⟨st', G, h1, h2, h3⟩ := h j hlt
    refine ⟨st', G, h1, ?_, ?_⟩
    · rw [PassFacts.files, Files.write_other _ _ (names_apart j k).1, Files.write_other _ _ fun e => hlt.ne (yName_inj e), h2]
    · rw [PassFacts.files, Files.write_other _ _ fun e => hlt.ne (jName_inj e), Files.write_other _ _ (names_apart k j).1.symm, h3]
  · exact ⟨st, F, hr, by rw [PassFacts.files, Files.write_other _ _ (names_apart j j).1, Files.write_same], Files.write_same ..⟩

theorem OnFile.vWrite {st0 : NRState σ} {k : ℕ} {fs : Files} (h : OnFile fmt C O tx jl li st0 k fs) (t : Txt) :
    OnFile fmt C O tx jl li st0 k (fs.write vName t) := by
  intro j hj
  obtain ⟨st', G, h1, h2, h3⟩ := h j hj
  exact ⟨st', G, h1, by rw [Files.write_other _ _ (names_apart j j).2.1, h2], by rw [Files.write_other _ _ (names_apart j j).2.2.2.1, h3]⟩

/-- What a loop leaves on file. -/
theorem dumpLoop_files {st0 : NRState σ} (h0 : st0.history = []) (n : ℕ) {k : ℕ} {st st' : NRState σ} {fs fs' : Files} {r : NRResult}
    (hk : NRReach C O tx jl li st0 k st) (hn : 0 < k + n) (hf : OnFile fmt C O tx jl li st0 k fs)
    (h : dumpLoop fmt C O tx jl li n k st fs = (.ok (r, st'), fs')) :
    OnFile fmt C O tx jl li st0 (r.iter + 1) fs' ∧ (¬ Bails st'.history → fs' vName = some (vectorText fmt C.size r.v)) ∧
    (Bails st'.history → fs' vName = fs vName) ∧
    (∀ m, m ≠ vName → (∀ j ≤ r.iter, m ≠ yName j ∧ m ≠ jName j) → fs' m = fs m) ∧ k - 1 ≤ r.iter := by
  induction n generalizing k st fs with
  | zero =>
    simp only [dumpLoop, Prod.mk.injEq, Except.ok.injEq] at h
    obtain ⟨⟨rfl, rfl⟩, rfl⟩ := h
    obtain ⟨q1, _, q3⟩ := reach_history h0 hk
    have hb : ¬ Bails st.history := by have := q3 k (by omega) le_rfl; rwa [← q1, List.take_length] at this
    refine ⟨?_, fun _ => Files.write_same .., fun hb' => absurd hb' hb, fun m hm _ => Files.write_other _ _ hm, le_rfl⟩
    rw [show k - 1 + 1 = k by omega]
    exact hf.vWrite _
  | succ n ih =>
    unfold dumpLoop at h
    rcases hd : dumpPass fmt C O tx jl li k st fs with ⟨_ | p, fs1⟩
    · rw [hd] at h; simp at h
    · obtain ⟨F, hF⟩ := dumpPass_files hd
      rw [hd] at h
      have hfr : ∀ m, m ≠ yName k → m ≠ jName k → F.files fmt fs m = fs m := fun m m1 m2 => by
        rw [PassFacts.files, Files.write_other _ _ m2, Files.write_other _ _ m1]
      have hv : F.files fmt fs vName = fs vName := hfr _ (names_apart k k).2.1.symm (names_apart k k).2.2.2.1.symm
      rcases hF with ⟨hb, rfl, rfl⟩ | ⟨hb, rfl, rfl⟩ | ⟨⟨st2, rfl⟩, rfl⟩
      · simp only [Prod.mk.injEq, Except.ok.injEq] at h
        obtain ⟨⟨rfl, rfl⟩, rfl⟩ := h
        exact ⟨hf.step hk F, fun hb' => absurd hb hb', fun _ => hv, fun m _ hm => hfr m (hm k le_rfl).1 (hm k le_rfl).2, Nat.sub_le k 1⟩
      · simp only [Prod.mk.injEq, Except.ok.injEq] at h
        obtain ⟨⟨rfl, rfl⟩, rfl⟩ := h
        exact ⟨(hf.step hk F).vWrite _, fun _ => Files.write_same .., fun hb' => absurd hb' hb,
          fun m hm1 hm => by rw [Files.write_other _ _ hm1]; exact hfr m (hm k le_rfl).1 (hm k le_rfl).2, Nat.sub_le k 1⟩
      · have hp := dumpPass_fst (fmt := fmt) (C := C) (O := O) (tx := tx) (jl := jl) (li := li) k st fs
        rw [hd] at hp
        obtain ⟨i1, i2, i3, i4, hle⟩ := ih (hk.step hp.symm) (by omega) (hf.step hk F) h
        refine ⟨i1, i2, fun hb => (i3 hb).trans hv, fun m m1 m2 => ?_, by omega⟩
        exact (i4 m m1 m2).trans (hfr m (m2 k hle).1 (m2 k hle).2)

end Verif
