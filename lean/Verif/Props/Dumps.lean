import Verif.Lemmas.Dumps
import Verif.Props.Labels
import Verif.Props.Newton

/-!
# C129: the dumped matrices
-/

namespace Verif

variable {σ : Type} {C : NRContext} {O : StamperOps σ} {tx : ℝ} {fmt : ℝ → Txt}

/-- **C129, the result.** Dumping changes nothing but the files: the run returns or raises what it does without dumps. -/
theorem C129_result (map : List (Idx × Txt)) (m : σ) (vInit : ℕ → ℝ) (fs : Files) : (dumpRun fmt map C O m vInit tx fs).1 = nrRun C O m vInit tx := by
  unfold dumpRun nrRun
  by_cases h : C.maxIters = 0
  · rw [if_pos h, if_pos h]
  · rw [if_neg h, if_neg h]
    exact dumpLoop_fst ..

/-- **C129, the files, what holds.** After a run that returns, the lookup file holds the labels; for every iteration the `Y` and `J` files
hold the matrix and the right-hand side that were solved in it; and the voltage file holds the returned voltages, unless the run was given
up for lack of progress, when it is the old one. No other file is touched. -/
theorem C129_files_partial {map : List (Idx × Txt)} {m : σ} {vInit : ℕ → ℝ} {fs fs' : Files} {r : NRResult} {st : NRState σ}
    (h : dumpRun fmt map C O m vInit tx fs = (.ok (r, st), fs')) :
    fs' lookupName = some (lookupText map) ∧
    (∀ k ≤ r.iter, ∃ stk, RunReach C O m vInit tx k stk ∧ ∃ F : RunFacts C O m vInit tx k stk,
      C.solve F.A F.rhs = some F.vNext ∧ fs' (yName k) = some (matrixText fmt F.done.Y.shape F.A) ∧ fs' (jName k) = some (vectorText fmt C.size F.rhs)) ∧
    (¬ Bails st.history → fs' vName = some (vectorText fmt C.size r.v)) ∧
    (Bails st.history → fs' vName = fs vName) ∧
    ∀ n, n ≠ lookupName → n ≠ vName → (∀ k ≤ r.iter, n ≠ yName k ∧ n ≠ jName k) → fs' n = fs n := by
  unfold dumpRun at h
  by_cases h0 : C.maxIters = 0
  · rw [if_pos h0] at h; simp at h
  · rw [if_neg h0] at h
    obtain ⟨h1, h2, h3, h4, _⟩ := dumpLoop_files (st0 := nrStart O m vInit tx) rfl C.maxIters .start (by omega) (fun j hj => absurd hj (Nat.not_lt_zero j)) h
    have hna := fun k => names_apart k k
    refine ⟨?_, fun k hk => ?_, h2, fun hb => (h3 hb).trans (Files.write_other _ _ (hna 0).2.2.2.2.2), fun n n1 n2 n3 => ?_⟩
    · rw [h4 _ (hna 0).2.2.2.2.2.symm fun j _ => ⟨(hna j).2.2.1.symm, (hna j).2.2.2.2.1.symm⟩, Files.write_same]
    · obtain ⟨stk, F, f1, f2, f3⟩ := h1 k (by omega)
      exact ⟨stk, f1, F, F.sol, f2, f3⟩
    · rw [h4 n n2 n3, Files.write_other _ _ n1]

theorem dictOf_mem (m : List (Idx × Txt)) : ∀ k t, (k, t) ∈ dictOf m ↔ (m.reverse.find? fun x => x.1 == k).map Prod.snd = some t := by
  induction m using List.reverseRecOn with
  | nil => simp [dictOf]
  | append_singleton m x ih =>
    obtain ⟨kx, tx⟩ := x
    intro k t
    have e : dictOf (m ++ [(kx, tx)]) = if (dictOf m).any (fun y => y.1 == kx) then (dictOf m).map (fun y => if y.1 == kx then (y.1, tx) else y)
        else dictOf m ++ [(kx, tx)] := by
      unfold dictOf; rw [List.foldl_append]; rfl
    rw [e, List.reverse_append, List.reverse_singleton, List.singleton_append, List.find?_cons]
    by_cases hk : kx = k
    · subst hk
      simp only [beq_self_eq_true, Option.map_some, Option.some.injEq]
      split_ifs with ha
      · rw [List.any_eq_true] at ha
        obtain ⟨y, hy, hyk⟩ := ha
        rw [List.mem_map]
        constructor
        · rintro ⟨z, _, hz⟩
          split_ifs at hz with hc
          · exact (Prod.mk.inj hz).2
          · rw [hz] at hc; simp at hc
        · rintro rfl
          have : y.1 = kx := by simpa using hyk
          exact ⟨y, hy, by rw [if_pos hyk, this]⟩
      · rw [List.mem_append, List.mem_singleton]
        constructor
        · rintro (hc | hc)
          · exact absurd (List.any_eq_true.2 ⟨_, hc, by simp⟩) ha
          · exact (Prod.mk.inj hc).2.symm
        · rintro rfl; right; rfl
    · have hb : (kx == k) = false := by simpa using hk
      simp only [hb]
      rw [← ih k t]
      split_ifs with ha
      · rw [List.mem_map]
        constructor
        · rintro ⟨z, hz, hzk⟩
          split_ifs at hzk with hc
          · have h1 : z.1 = kx := by simpa using hc
            exact absurd (h1.symm.trans (Prod.mk.inj hzk).1) hk
          · rwa [← hzk]
        · intro hz
          refine ⟨_, hz, ?_⟩
          rw [if_neg]
          simpa using fun e => hk e.symm
      · rw [List.mem_append, List.mem_singleton]
        constructor
        · rintro (hc | hc)
          · exact hc
          · exact absurd (Prod.mk.inj hc).1.symm hk
        · exact Or.inl

theorem keyText_inj {a b : Idx} (h : keyText a = keyText b) : a = b := by
  have hn : ∀ i, "None".toList ≠ indexText i := fun i e => indexText_not i (c := 'N') (by decide) (by rw [← e]; decide)
  cases a <;> cases b
  · rfl
  · exact absurd h (hn _)
  · exact absurd h.symm (hn _)
  · exact congrArg _ (indexText_inj h)

theorem keyText_not {a : Idx} {c : Char} (h : c.isDigit = false) (h2 : c ∉ "None".toList) : c ∉ keyText a := by
  cases a
  · exact h2
  · exact indexText_not _ h

/-- **C129, reading.** A reader that splits the files into lines and the lines at the colon gets exactly the nonzero entries of the vector
or matrix with their positions, and from the lookup file the label that the solver prints for an index. -/
theorem C129_read (hfmt : ∀ x, '\r' ∉ fmt x) :
    (∀ n v i t, (indexText i, t) ∈ readDump (vectorText fmt n v) ↔ i < n ∧ v i ≠ 0 ∧ t = fmt (v i)) ∧
    (∀ n A i j t, (indexText i ++ ", ".toList ++ indexText j, t) ∈ readDump (matrixText fmt n A) ↔ i < n ∧ j < n ∧ A i j ≠ 0 ∧ t = fmt (A i j)) ∧
    (∀ map : List (Idx × Txt), (∀ x ∈ map, '\r' ∉ x.2) → ∀ i t, (indexText i, t) ∈ readDump (lookupText map) ↔ mapGet map i = some t) := by
  refine ⟨fun n v i t => ?_, fun n A i j t => ?_, fun map hm i t => ?_⟩
  · have := readDump_flatMap (List.range n) indexText (fun i => fmt (v i)) (fun i => v i ≠ 0)
      (fun a _ _ => ⟨indexText_not a (by decide), indexText_not a (by decide), hfmt _⟩) []
    rw [List.append_nil, readDump_nil, List.append_nil] at this
    rw [vectorText, this]
    simp only [List.mem_map, List.mem_filter, List.mem_range, decide_eq_true_eq, Prod.mk.injEq]
    constructor
    · rintro ⟨a, ⟨h1, h2⟩, h3, h4⟩
      rw [indexText_inj h3] at h1 h2 h4
      exact ⟨h1, h2, h4.symm⟩
    · rintro ⟨h1, h2, rfl⟩; exact ⟨i, ⟨h1, h2⟩, rfl, rfl⟩
  · have hflat : matrixText fmt n A = ((List.range n).flatMap fun i => (List.range n).map fun j => (i, j)).flatMap fun x =>
        if A x.1 x.2 ≠ 0 then dumpLine (indexText x.1 ++ ", ".toList ++ indexText x.2) (fmt (A x.1 x.2)) else [] := by
      rw [List.flatMap_assoc, matrixText]
      congr 1
      funext i
      rw [List.flatMap_map]
      congr 1
      funext j
      rw [show indexText i ++ ',' :: ' ' :: indexText j = indexText i ++ ", ".toList ++ indexText j from by rw [List.append_assoc]; rfl]
    have := readDump_flatMap ((List.range n).flatMap fun i => (List.range n).map fun j => (i, j))
      (fun x => indexText x.1 ++ ", ".toList ++ indexText x.2) (fun x => fmt (A x.1 x.2)) (fun x => A x.1 x.2 ≠ 0)
      (fun a _ _ => ⟨?_, ?_, hfmt _⟩) []
    · rw [List.append_nil, readDump_nil, List.append_nil] at this
      rw [hflat, this]
      simp only [List.mem_map, List.mem_filter, List.mem_flatMap, List.mem_range, decide_eq_true_eq, Prod.mk.injEq]
      constructor
      · rintro ⟨⟨a, b⟩, ⟨⟨a', h1, b', h2, h3⟩, h4⟩, h5, h6⟩
        obtain ⟨rfl, rfl⟩ := Prod.mk.inj h3
        simp only at h4 h5 h6
        have hsplit : ∀ (p q : ℕ), ((indexText p ++ ", ".toList ++ indexText q).takeWhile Char.isDigit = indexText p) ∧
            ((indexText p ++ ", ".toList ++ indexText q).dropWhile Char.isDigit = ", ".toList ++ indexText q) := by
          intro p q
          have hp := indexText_digits p
          rw [List.append_assoc]
          generalize indexText p = l at hp ⊢
          induction l with
          | nil => exact ⟨rfl, rfl⟩
          | cons c l ih =>
            have hc := hp c (List.mem_cons_self ..)
            obtain ⟨i1, i2⟩ := ih fun d hd => hp d (List.mem_cons_of_mem _ hd)
            exact ⟨by rw [List.cons_append, List.takeWhile_cons, if_pos hc, i1], by rw [List.cons_append, List.dropWhile_cons, if_pos hc, i2]⟩
        have e1 : indexText a' = indexText i := by rw [← (hsplit a' b').1, h5, (hsplit i j).1]
        have e2 : ", ".toList ++ indexText b' = ", ".toList ++ indexText j := by rw [← (hsplit a' b').2, h5, (hsplit i j).2]
        have e1 := indexText_inj e1
        have e2 := indexText_inj (List.append_cancel_left e2)
        subst e1; subst e2
        exact ⟨h1, h2, h4, h6.symm⟩
      · rintro ⟨h1, h2, h3, rfl⟩
        exact ⟨(i, j), ⟨⟨i, h1, j, h2, rfl⟩, h3⟩, rfl, rfl⟩
    · simp only [List.mem_append, not_or]
      exact ⟨⟨indexText_not _ (by decide), by decide⟩, indexText_not _ (by decide)⟩
    · simp only [List.mem_append, not_or]
      exact ⟨⟨indexText_not _ (by decide), by decide⟩, indexText_not _ (by decide)⟩
  · have hd : ∀ x ∈ dictOf map, '\r' ∉ x.2 := by
      rintro ⟨k, t⟩ hx
      rw [dictOf_mem] at hx
      cases hf : map.reverse.find? fun x => x.1 == k with
      | none => rw [hf] at hx; simp at hx
      | some y =>
        rw [hf] at hx
        have : y.2 = t := by simpa using hx
        rw [← this]
        exact hm y (List.mem_reverse.1 (List.mem_of_find?_eq_some hf))
    have := readDump_flatMap (dictOf map) (fun x => keyText x.1) Prod.snd (fun _ => True)
      (fun a ha _ => ⟨keyText_not (by decide) (by decide), keyText_not (by decide) (by decide), hd a ha⟩) []
    simp only [if_true, List.append_nil, readDump_nil] at this
    rw [lookupText, this, mapGet, ← dictOf_mem map (some i) t]
    simp only [List.mem_map, List.mem_filter, decide_true, and_true, Prod.mk.injEq]
    constructor
    · rintro ⟨⟨k, t'⟩, h1, h2, rfl⟩
      rwa [show k = some i from keyText_inj h2] at h1
    · intro h1; exact ⟨_, h1, rfl, rfl⟩

/-- **C129, names.** Different iterations have different files, and no file is used for two purposes. -/
theorem C129_names (i j : ℕ) : (yName i = yName j → i = j) ∧ (jName i = jName j → i = j) ∧ yName i ≠ jName j ∧ yName i ≠ vName ∧
    yName i ≠ lookupName ∧ jName j ≠ vName ∧ jName j ≠ lookupName ∧ vName ≠ lookupName :=
  ⟨yName_inj, jName_inj, names_apart i j⟩

/-! ### What fails -/

/-- A scripted run with one iteration. -/
theorem scripted_once (n : ℕ) (hn : n ≠ 0) : ∃ r st, nrRun (scriptedCtx n 1) (scripted fun _ => 0) 0 (fun _ => 0) 0 = .ok (r, st) ∧
    r.iter = 0 ∧ r.success = true ∧ ¬ Bails st.history := by
  have hp := scripted_pass (fun _ => 0) n 1 (jOf ((scripted fun _ => 0).stampLinear 0 0).2)
    (nrStart (scripted fun _ => 0) 0 (fun _ => 0) 0).Y.usage 0 (nrStart (scripted fun _ => 0) 0 (fun _ => 0) 0)
  simp only at hp
  have hb : ¬ Bails ((nrStart (scripted fun _ => 0) 0 (fun _ => 0) 0).history ++ [|(0 : ℝ)|]) := by
    rintro ⟨h, _⟩; simp [nrStart] at h
  rw [if_neg (show ¬ (_ ∧ _) from hb), if_pos (by simp)] at hp
  exact ⟨_, _, nrRun_of_ret (Nat.pos_of_ne_zero hn) .start hp, rfl, rfl, hb⟩

/-- **C129, disagreement: given up.** A run that is given up for lack of progress returns voltages but does not write them: the voltage
file is that of an earlier run, or missing. -/
theorem C129_given_up_fails : ∃ (C : NRContext) (O : StamperOps ℕ) (r : NRResult) (st : NRState ℕ), nrRun C O 0 (fun _ => 0) 0 = .ok (r, st) ∧
    ∀ fmt map fs, (dumpRun fmt map C O 0 (fun _ => 0) 0 fs).1 = .ok (r, st) ∧ (dumpRun fmt map C O 0 (fun _ => 0) 0 fs).2 vName = fs vName := by
  obtain ⟨C, O, r, st, h, _, x, hx, hlt⟩ := C22_converged_is_success_fails
  refine ⟨C, O, r, st, h, fun fmt map fs => ⟨(C129_result ..).trans h, ?_⟩⟩
  refine (C129_files_partial (r := r) (st := st) (Prod.ext ((C129_result ..).trans h) rfl)).2.2.2.1 ?_
  obtain ⟨_, ⟨k, st2, _, _, F, rfl, _, _, ⟨_, hb⟩ | ⟨hs, _⟩⟩ | ⟨hreach, rfl⟩⟩ := nrRun_end h
  · exact hb
  · simp_all
  · exact absurd hlt ((reach_history rfl hreach).2.1 x (List.mem_of_getElem? hx))

/-- **C129, disagreement: left over.** Files of later iterations of an earlier run stay: a run of one iteration into a directory with a
`Y6` file leaves that file, so the files of the directory do not tell the iterations of the run. -/
theorem C129_left_over_fails : ∃ (C : NRContext) (O : StamperOps ℕ) (r : NRResult) (st : NRState ℕ), nrRun C O 0 (fun _ => 0) 0 = .ok (r, st) ∧ r.iter = 0 ∧
    ∀ fmt map fs, (dumpRun fmt map C O 0 (fun _ => 0) 0 fs).1 = .ok (r, st) ∧
      (dumpRun fmt map C O 0 (fun _ => 0) 0 fs).2 (yName 5) = fs (yName 5) ∧ yName 5 = "Y6_output.txt".toList := by
  obtain ⟨r, st, h, h0, -, -⟩ := scripted_once 10 (by decide)
  refine ⟨_, _, r, st, h, h0, fun fmt map fs => ⟨(C129_result ..).trans h, ?_, by decide⟩⟩
  refine (C129_files_partial (r := r) (st := st) (Prod.ext ((C129_result ..).trans h) rfl)).2.2.2.2 _ (names_apart 5 5).2.2.1 (names_apart 5 5).2.1 ?_
  rw [h0]
  intro k hk
  have : k = 0 := by omega
  subst this
  exact ⟨fun e => absurd (yName_inj e) (by decide), (names_apart 5 0).1⟩

/-! ### Cases -/

/-- `C129_result`, `C129_files_partial`: the run of one iteration from an empty directory leaves its `Y1`, `J1`, `v` and lookup files. -/
example (fmt : ℝ → Txt) (map : List (Idx × Txt)) : ∃ fs r st, dumpRun fmt map (scriptedCtx 10 1) (scripted fun _ => 0) 0 (fun _ => 0) 0 (fun _ => none) = (.ok (r, st), fs) ∧
    (fs "Y1_output.txt".toList).isSome ∧ (fs "J1_output.txt".toList).isSome ∧ fs "v_output.txt".toList = some (vectorText fmt 1 r.v) ∧
    fs "lookup.txt".toList = some (lookupText map) := by
  obtain ⟨r, st, h, h0, -, hb⟩ := scripted_once 10 (by decide)
  have hd : dumpRun fmt map (scriptedCtx 10 1) (scripted fun _ => 0) 0 (fun _ => 0) 0 (fun _ => none) = (.ok (r, st), _) :=
    Prod.ext ((C129_result (fmt := fmt) map 0 (fun _ => 0) (fun _ => none)).trans h) rfl
  obtain ⟨f1, f2, f3, _⟩ := C129_files_partial hd
  obtain ⟨_, _, F, f4, f5, f6⟩ := f2 0 (by omega)
  exact ⟨_, r, st, hd, Option.isSome_iff_exists.2 ⟨_, f5⟩, Option.isSome_iff_exists.2 ⟨_, f6⟩, f3 hb, f1⟩

/-- `C129_read`: a vector with the entries 0, 2, 0 and a format that always writes `x` reads back as the one entry at place 1. -/
example (i : ℕ) (t : Txt) : (indexText i, t) ∈ readDump (vectorText (fun _ => "x".toList) 3 fun i => if i = 1 then 2 else 0) ↔ i = 1 ∧ t = "x".toList := by
  rw [(C129_read fun _ => by decide).1]
  constructor
  · rintro ⟨_, h2, h3⟩
    exact ⟨by by_contra hc; simp [hc] at h2, h3⟩
  · rintro ⟨rfl, h⟩; exact ⟨by decide, by norm_num, h⟩

/-- `C129_read`, lookup: of two labels for one index the later one is read. -/
example : ("7".toList, "b".toList) ∈ readDump (lookupText [(some 7, "a".toList), (none, "c".toList), (some 7, "b".toList)]) :=
  ((C129_read (fmt := fun _ => []) fun _ => by decide).2.2 _ (by decide) 7 "b".toList).2 (by decide)

/-- `C129_names`: the first and the eleventh iteration have the files `Y1_output.txt` and `Y11_output.txt`. -/
example : yName 0 = "Y1_output.txt".toList ∧ yName 10 = "Y11_output.txt".toList ∧ yName 0 ≠ yName 10 :=
  ⟨by decide, by decide, fun h => absurd ((C129_names 0 10).1 h) (by decide)⟩

end Verif
