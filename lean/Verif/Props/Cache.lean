import Verif.Spec.Cache
import Verif.Lemmas.Cache

/-!
# C114: the cache of derivatives
-/

namespace Verif

open Ex

theorem generateDerivs_right (s : Segment) : IsDerivatives s (generateDerivs s) where
  rows := by simp [generateDerivs, Segment.vars, Function.comp_def]
  slope := by
    intro r hr v hv
    obtain ⟨x, -, rfl⟩ := List.mem_map.1 hr
    exact hasDerivAt_eval x hv
  newton := by
    intro r hr v hn hd ht
    obtain ⟨x, -, rfl⟩ := List.mem_map.1 hr
    exact C01_stamps_are_newton_row _ hn _ v hd ht

/-- What holds of the objects of the running program. -/
def ObjectsRight (version : ℕ) (K : KnownSegments) (os : List SegmentObject) : Prop :=
  ∀ o ∈ os, K version o.seg ∧ ∀ d, o.memo = some d → d = generateDerivs o.seg

variable {pr : Ex → Txt} {sha : Txt → HexDigits} {version : ℕ} {K : KnownSegments}

theorem filled_update {dir : CacheDir} (hd : FilledByRuns pr sha version K dir) {s : Segment} (hs : K version s) :
    FilledByRuns pr sha version K (Function.update dir (pickleFile sha (lagrangeKey pr version s)) (some (.whole (generateDerivs s)))) := by
  intro f d h
  by_cases hf : f = pickleFile sha (lagrangeKey pr version s)
  · subst hf
    rw [Function.update_self] at h
    cases h
    exact ⟨version, s, hs, rfl, fun _ => rfl⟩
  · rw [Function.update_of_ne hf] at h
    exact hd f d h

theorem filled_torn {dir : CacheDir} (hd : FilledByRuns pr sha version K dir) (g : HexDigits) (p : Option Pickle) (hp : ∀ d, p ≠ some (.whole d)) :
    FilledByRuns pr sha version K (Function.update dir g p) := by
  intro f d h
  by_cases hf : f = g
  · subst hf
    rw [Function.update_self] at h
    exact absurd h (hp d)
  · rw [Function.update_of_ne hf] at h
    exact hd f d h

theorem generateAndPickle_right {dir : CacheDir} (hd : FilledByRuns pr sha version K dir) {o : SegmentObject} (hs : K version o.seg) (w : Writing) :
    ((∀ d, (generateAndPickle pr sha version generateDerivs w o dir).1 = .ok d → d = generateDerivs o.seg) ∧
      (generateAndPickle pr sha version generateDerivs w o dir).2.1 = ⟨o.seg, some (generateDerivs o.seg)⟩) ∧
      FilledByRuns pr sha version K (generateAndPickle pr sha version generateDerivs w o dir).2.2 := by
  cases w <;> simp only [generateAndPickle, tryPickle]
  · exact ⟨⟨fun d h => by injection h with h; exact h.symm, trivial⟩, filled_update hd hs⟩
  · exact ⟨⟨fun d h => by simp at h, trivial⟩, hd⟩
  · exact ⟨⟨fun d h => by simp at h, trivial⟩, filled_torn hd _ _ (by simp)⟩

theorem getDerivatives_right (hc : NoCollision pr sha K) (hf : Faithful pr K) {dir : CacheDir} (hd : FilledByRuns pr sha version K dir)
    {o : SegmentObject} (hs : K version o.seg) (hm : ∀ d, o.memo = some d → d = generateDerivs o.seg) (w : Writing) :
    (∀ d, (getDerivatives pr sha version generateDerivs w o dir).1 = .ok d → d = generateDerivs o.seg) ∧
      (getDerivatives pr sha version generateDerivs w o dir).2.1 = ⟨o.seg, some (generateDerivs o.seg)⟩ ∧
      FilledByRuns pr sha version K (getDerivatives pr sha version generateDerivs w o dir).2.2 := by
  have hg := generateAndPickle_right hd hs w
  unfold getDerivatives
  cases ho : o.memo with
  | some d =>
    obtain rfl := hm d ho
    refine ⟨fun d h => by cases h; rfl, ?_, hd⟩
    cases o; simp_all
  | none =>
    simp only
    split_ifs with hp
    · unfold tryUnpickle
      rw [if_pos hp]
      cases hx : dir (pickleFile sha (lagrangeKey pr version o.seg)) with
      | none => exact ⟨hg.1.1, hg.1.2, hg.2⟩
      | some p =>
        cases p with
        | torn => exact ⟨hg.1.1, hg.1.2, hg.2⟩
        | whole d =>
          obtain ⟨v, s, hk, hfile, hv⟩ := hd _ _ hx
          have he := hc _ _ _ _ hs hk hfile
          obtain ⟨h1, h2, h3, h4, h5⟩ := key_parts he
          have hl := hf _ _ _ _ hs hk h2
          have : o.seg = s := by
            generalize o.seg = t at *
            cases t; cases s; simp_all
          have hdd : d = generateDerivs o.seg := by rw [hv h1.symm, this]
          subst hdd
          refine ⟨fun d h => ?_, rfl, hd⟩
          cases h; rfl
    · exact ⟨hg.1.1, hg.1.2, hg.2⟩

/-- The segments made in the course of the events are known. -/
def MadeKnown (version : ℕ) (K : KnownSegments) (es : List CacheEvent) : Prop := ∀ s, CacheEvent.create s ∈ es → K version s

theorem cacheStep_right (hc : NoCollision pr sha K) (hf : Faithful pr K) {st : CacheState} (hd : FilledByRuns pr sha version K st.dir)
    (ho : ObjectsRight version K st.objects) (e : CacheEvent) (he : ∀ s, e = .create s → K version s) :
    (∀ s d, (cacheStep pr sha version generateDerivs st e).1 = some (s, .ok d) → d = generateDerivs s) ∧
      FilledByRuns pr sha version K (cacheStep pr sha version generateDerivs st e).2.dir ∧
      ObjectsRight version K (cacheStep pr sha version generateDerivs st e).2.objects := by
  cases e with
  | create s =>
    refine ⟨fun s d h => by simp [cacheStep] at h, hd, fun o h => ?_⟩
    rcases List.mem_append.1 h with h | h
    · exact ho o h
    · obtain rfl := List.mem_singleton.1 h
      exact ⟨he s rfl, fun d h => by simp at h⟩
  | ask i w =>
    simp only [cacheStep]
    cases hi : st.objects[i]? with
    | none => exact ⟨fun s d h => by simp at h, hd, ho⟩
    | some o =>
      have hm := List.mem_of_getElem? hi
      have hr := getDerivatives_right hc hf hd (ho o hm).1 (ho o hm).2 w
      refine ⟨fun s d h => ?_, hr.2.2, fun o' h => ?_⟩
      · simp only [Option.some.injEq, Prod.mk.injEq] at h
        rw [← h.1]
        exact hr.1 d h.2
      · rcases List.mem_or_eq_of_mem_set h with h | h
        · exact ho o' h
        · subst h
          rw [hr.2.1]
          exact ⟨(ho o hm).1, fun d h => by cases h; rfl⟩
  | restart => exact ⟨fun s d h => by simp [cacheStep] at h, hd, fun o h => by simp [cacheStep] at h⟩
  | damage f =>
    refine ⟨fun s d h => by simp [cacheStep] at h, fun g d h => ?_, ho⟩
    simp only [cacheStep] at h
    split_ifs at h
    · cases hg : st.dir g with
      | none => simp [hg] at h
      | some p => simp [hg] at h
    · exact hd g d h
  | remove f => exact ⟨fun s d h => by simp [cacheStep] at h, filled_torn hd _ _ (by simp), ho⟩

theorem cacheRun_right (hc : NoCollision pr sha K) (hf : Faithful pr K) (es : List CacheEvent) (he : MadeKnown version K es) {st : CacheState}
    (hd : FilledByRuns pr sha version K st.dir) (ho : ObjectsRight version K st.objects) :
    (∀ s d, (s, Except.ok d) ∈ (cacheRun pr sha version generateDerivs es st).1 → d = generateDerivs s) ∧
      FilledByRuns pr sha version K (cacheRun pr sha version generateDerivs es st).2.dir := by
  induction es generalizing st with
  | nil => exact ⟨fun s d h => by simp [cacheRun] at h, hd⟩
  | cons e es ih =>
    have h1 := cacheStep_right hc hf hd ho e fun s h => he s (h ▸ List.mem_cons_self)
    have h2 := ih (fun s h => he s (List.mem_cons_of_mem _ h)) h1.2.1 h1.2.2
    refine ⟨fun s d h => ?_, h2.2⟩
    simp only [cacheRun, List.mem_append] at h
    rcases h with h | h
    · exact h1.1 s d (by simpa using h)
    · exact h2.1 s d h

/-- **C114, what holds.** Whatever segments a program makes and asks for, however often it is started anew, and whatever files of the cache are
damaged, removed, cannot be written or are left by other versions: every answer is the derivatives of the segment asked for. Missing: it is
assumed that no two keys used on the machine share their first ten digits, that different Lagrangians print differently, and that code with the same
version number computed the same. -/
theorem C114_own_derivatives_partial (hc : NoCollision pr sha K) (hf : Faithful pr K) (dir : CacheDir) (hd : FilledByRuns pr sha version K dir)
    (es : List CacheEvent) (he : MadeKnown version K es) (s : Segment) (d : Derivs)
    (h : (s, Except.ok d) ∈ (cacheRun pr sha version generateDerivs es ⟨[], dir⟩).1) : IsDerivatives s d := by
  rw [(cacheRun_right hc hf es he hd (st := ⟨[], dir⟩) (by simp [ObjectsRight])).1 s d h]
  exact generateDerivs_right s

/-- **C114.** The directory stays usable: after any history it is again filled by runs of the program, so the guarantee extends to the programs
started later, with this version or another. -/
theorem C114_directory_stays_sound (hc : NoCollision pr sha K) (hf : Faithful pr K) (dir : CacheDir) (hd : FilledByRuns pr sha version K dir)
    (es : List CacheEvent) (he : MadeKnown version K es) :
    FilledByRuns pr sha version K (cacheRun pr sha version generateDerivs es ⟨[], dir⟩).2.dir :=
  (cacheRun_right hc hf es he hd (st := ⟨[], dir⟩) (by simp [ObjectsRight])).2

/-- **C114.** Keys tell segments apart: two segments with the same key, even of different versions, have the same version, printed Lagrangian,
constants, primals and duals, whatever the names of multipliers. -/
theorem C114_keys_tell_apart (v v' : ℕ) (s s' : Segment) (h : lagrangeKey pr v s = lagrangeKey pr v' s') :
    v = v' ∧ pr s.lagrange = pr s'.lagrange ∧ s.constants = s'.constants ∧ s.primals = s'.primals ∧ s.duals = s'.duals := key_parts h

theorem getDerivatives_error {gen : Segment → Derivs} {w : Writing} {o : SegmentObject} {dir : CacheDir} {e : String}
    (h : (getDerivatives pr sha version gen w o dir).1 = .error e) : w ≠ .succeeds := by
  rintro rfl
  unfold getDerivatives at h
  cases ho : o.memo with
  | some d => simp [ho] at h
  | none =>
    simp only [ho] at h
    split_ifs at h
    · split at h <;> simp [generateAndPickle, tryPickle] at h
    · simp [generateAndPickle, tryPickle] at h

/-- **C114.** A question is left unanswered only if the file could not be written at that moment: damaged or foreign files never stop a program. -/
theorem C114_only_writing_stops (gen : Segment → Derivs) (es : List CacheEvent) (st : CacheState) (s : Segment) (e : String)
    (h : (s, Except.error e) ∈ (cacheRun pr sha version gen es st).1) : ∃ i w, CacheEvent.ask i w ∈ es ∧ w ≠ .succeeds := by
  induction es generalizing st with
  | nil => simp [cacheRun] at h
  | cons ev es ih =>
    simp only [cacheRun, List.mem_append] at h
    rcases h with h | h
    · cases ev with
      | ask i w =>
        simp only [cacheStep] at h
        cases hi : st.objects[i]? with
        | none => simp [hi] at h
        | some o =>
          simp only [hi, Option.toList_some, List.mem_singleton, Prod.mk.injEq] at h
          exact ⟨i, w, List.mem_cons_self, getDerivatives_error h.2.symm⟩
      | _ => simp [cacheStep] at h
    · obtain ⟨i, w, hm, hw⟩ := ih _ h
      exact ⟨i, w, List.mem_cons_of_mem _ hm, hw⟩

/-- **C114.** And such a failure is met once only: the same object asked again answers. -/
theorem C114_asked_again (gen : Segment → Derivs) (st : CacheState) (i : ℕ) (o : SegmentObject) (ho : st.objects[i]? = some o) (w w' : Writing) :
    ∃ a d, (cacheRun pr sha version gen [.ask i w, .ask i w'] st).1 = [(o.seg, a), (o.seg, .ok d)] ∧ (∀ d', a = .ok d' → d' = d) ∧
      (∀ e, a = .error e → d = gen o.seg) := by
  have hi : i < st.objects.length := by
    by_contra h
    rw [List.getElem?_eq_none (by omega)] at ho; cases ho
  obtain ⟨d, h1, h2, h3⟩ : ∃ d, (getDerivatives pr sha version gen w o st.dir).2.1 = ⟨o.seg, some d⟩ ∧
      (∀ d', (getDerivatives pr sha version gen w o st.dir).1 = .ok d' → d' = d) ∧
      (∀ e, (getDerivatives pr sha version gen w o st.dir).1 = .error e → d = gen o.seg) := by
    have hg : ∃ d, (generateAndPickle pr sha version gen w o st.dir).2.1 = ⟨o.seg, some d⟩ ∧
      (∀ d', (generateAndPickle pr sha version gen w o st.dir).1 = .ok d' → d' = d) ∧
      (∀ e, (generateAndPickle pr sha version gen w o st.dir).1 = .error e → d = gen o.seg) := by
      cases w <;> exact ⟨gen o.seg, rfl, fun d' h => by simp_all [generateAndPickle, tryPickle], fun e h => rfl⟩
    unfold getDerivatives
    cases hm : o.memo with
    | some d => exact ⟨d, by cases o; simp_all, fun d' h => by cases h; rfl, fun e h => by cases h⟩
    | none =>
      simp only
      split_ifs
      · split
        · exact ⟨_, rfl, fun d' h => by cases h; rfl, fun e h => by cases h⟩
        · exact hg
      · exact hg
  refine ⟨(getDerivatives pr sha version gen w o st.dir).1, d, ?_, h2, h3⟩
  have h4 : ∀ st' : CacheState, st'.objects[i]? = some ⟨o.seg, some d⟩ → (cacheStep pr sha version gen st' (.ask i w')).1 = some (o.seg, .ok d) := by
    intro st' h
    simp [cacheStep, h, getDerivatives]
  have h5 : cacheStep pr sha version gen st (.ask i w) = (some (o.seg, (getDerivatives pr sha version gen w o st.dir).1),
      ⟨st.objects.set i ⟨o.seg, some d⟩, (getDerivatives pr sha version gen w o st.dir).2.2⟩) := by
    simp only [cacheStep, ho, h1]
  simp only [cacheRun, h5]
  rw [h4 _ (by simp [hi])]
  rfl

/-! ### What the assumptions exclude -/

/-- A one-line segment with a coefficient. -/
def scaledSegment (n : ℕ) : Segment := ⟨Ex.num n * (Ex.sym .LVr * Ex.sym .VrBus), [], [.VrBus], [.LVr]⟩

theorem scaled_not_derivatives {m n : ℕ} (h : m ≠ n) : ¬ IsDerivatives (scaledSegment n) (generateDerivs (scaledSegment m)) := by
  intro hd
  have hr : ((scaledSegment m).vars.map fun x => (x, (scaledSegment m).derivative x, (scaledSegment m).entries x))[0]? =
      some (.VrBus, (scaledSegment m).derivative .VrBus, (scaledSegment m).entries .VrBus) := rfl
  have h1 := hd.slope _ (List.mem_of_getElem? hr) (fun _ => 1) ⟨trivial, trivial, trivial⟩
  have h2 := hasDerivAt_eval (env := fun _ => (1 : ℝ)) (e := (scaledSegment n).lagrange) .VrBus ⟨trivial, trivial, trivial⟩
  have h3 := h1.unique h2
  have hv : ∀ k : ℕ, eval (fun _ => (1 : ℝ)) (diff .VrBus (scaledSegment k).lagrange) = k := by
    intro k
    have h4 : HasDerivAt (fun t : ℝ => (k : ℝ) * (1 * t)) ((k : ℝ) * (1 * 1)) 1 := ((hasDerivAt_id (1 : ℝ)).const_mul 1).const_mul _
    have h5 := hasDerivAt_eval (env := fun _ => (1 : ℝ)) (e := (scaledSegment k).lagrange) .VrBus ⟨trivial, trivial, trivial⟩
    have h6 : (fun t => eval (upd (fun _ => (1 : ℝ)) .VrBus t) (scaledSegment k).lagrange) = fun t : ℝ => (k : ℝ) * (1 * t) := by
      funext t
      simp [scaledSegment, HMul.hMul, Mul.mul, eval, upd]
    rw [h6] at h5
    have := h5.unique h4
    simpa using this
  have h4 : eval (fun _ => (1 : ℝ)) ((scaledSegment m).derivative .VrBus) = m := hv m
  rw [h4, hv n] at h3
  exact h (by exact_mod_cast h3)

/-- Two segments whose keys share ten digits: the second gets the derivatives of the first. -/
theorem collision_run {s s' : Segment} (h : pickleFile sha (lagrangeKey pr version s) = pickleFile sha (lagrangeKey pr version s')) (gen : Segment → Derivs) :
    (cacheRun pr sha version gen [.create s, .ask 0 .succeeds, .restart, .create s', .ask 0 .succeeds] ⟨[], fun _ => none⟩).1 =
      [(s, .ok (gen s)), (s', .ok (gen s))] := by
  simp [cacheRun, cacheStep, getDerivatives, hasPickle, tryUnpickle, generateAndPickle, tryPickle, h]

/-- **C114 fails.** Ten digits cannot tell all segments apart: for every printer, every hash and every version there are two segments such that a
program asking for the second, after a program asked for the first, is given derivatives that are not those of its segment. -/
theorem C114_ten_digits_fails (pr : Ex → Txt) (sha : Txt → HexDigits) (version : ℕ) : ∃ (s s' : Segment) (d : Derivs),
    (cacheRun pr sha version generateDerivs [.create s, .ask 0 .succeeds, .restart, .create s', .ask 0 .succeeds] ⟨[], fun _ => none⟩).1 =
      [(s, .ok d), (s', .ok d)] ∧ IsDerivatives s d ∧ ¬ IsDerivatives s' d := by
  have hfin : (Set.range fun n : ℕ => pickleFile sha (lagrangeKey pr version (scaledSegment n))).Finite := by
    refine (List.finite_length_le (Fin 16) 10).subset ?_
    rintro _ ⟨n, rfl⟩
    simp [pickleFile]
  have hni : ¬ Function.Injective fun n : ℕ => pickleFile sha (lagrangeKey pr version (scaledSegment n)) := fun hi =>
    Set.infinite_range_of_injective hi hfin
  simp only [Function.Injective, not_forall] at hni
  obtain ⟨m, n, he, hmn⟩ := hni
  exact ⟨scaledSegment m, scaledSegment n, generateDerivs (scaledSegment m), collision_run he _, generateDerivs_right _, scaled_not_derivatives hmn⟩

/-- **C114 fails.** A printer that rounds numbers, as sympy's does after fifteen digits, makes one key of two segments: the second is given the derivatives of the first. -/
theorem C114_rounded_numbers_fails (pr : Ex → Txt) (sha : Txt → HexDigits) (version : ℕ) (m n : ℕ) (h : m ≠ n)
    (hp : pr (scaledSegment m).lagrange = pr (scaledSegment n).lagrange) :
    ∃ d, (cacheRun pr sha version generateDerivs
      [.create (scaledSegment m), .ask 0 .succeeds, .restart, .create (scaledSegment n), .ask 0 .succeeds] ⟨[], fun _ => none⟩).1 =
      [(scaledSegment m, .ok d), (scaledSegment n, .ok d)] ∧ ¬ IsDerivatives (scaledSegment n) d := by
  refine ⟨_, collision_run ?_ _, scaled_not_derivatives h⟩
  unfold lagrangeKey
  rw [hp]
  rfl

/-- **C114 fails.** Changing what the code computes without changing `VERSION` leaves the old results in force: a program asking for a segment is given what the
older code stored. -/
theorem C114_version_not_raised_fails (pr : Ex → Txt) (sha : Txt → HexDigits) (version : ℕ) (old : Segment → Derivs) (s : Segment) :
    let dir := (cacheRun pr sha version old [.create s, .ask 0 .succeeds] ⟨[], fun _ => none⟩).2.dir
    (cacheRun pr sha version generateDerivs [.create s, .ask 0 .succeeds] ⟨[], dir⟩).1 = [(s, .ok (old s))] := by
  simp [cacheRun, cacheStep, getDerivatives, hasPickle, tryUnpickle, generateAndPickle, tryPickle]

/-! ### Worked cases -/

/-- A printer that shows the coefficient of the two segments below. -/
def coefficientText : Ex → Txt
  | .mul (.num q) _ => Nat.toDigits 10 q.num.natAbs
  | _ => []

/-- A hash that tells the two keys below apart. -/
def oneOrTwo (k : Txt) : HexDigits := if k = lagrangeKey coefficientText 6 (scaledSegment 1) then [1] else [2]

/-- The machine on which these two segments are used, with version 6. -/
def twoKnown : KnownSegments := fun v s => v = 6 ∧ (s = scaledSegment 1 ∨ s = scaledSegment 2)

theorem twoKnown_faithful : Faithful coefficientText twoKnown := by
  rintro v s v' s' ⟨-, rfl | rfl⟩ ⟨-, rfl | rfl⟩ h
  · rfl
  · exact absurd h (by decide +kernel)
  · exact absurd h (by decide +kernel)
  · rfl

theorem twoKnown_noCollision : NoCollision coefficientText oneOrTwo twoKnown := by
  have hne : lagrangeKey coefficientText 6 (scaledSegment 2) ≠ lagrangeKey coefficientText 6 (scaledSegment 1) := by
    intro h
    exact absurd (C114_keys_tell_apart 6 6 _ _ h).2.1 (by decide +kernel)
  rintro v s v' s' ⟨rfl, rfl | rfl⟩ ⟨rfl, rfl | rfl⟩ h
  · rfl
  · simp [oneOrTwo, hne] at h
  · simp [oneOrTwo, hne] at h
  · rfl

/-- A history with both segments, a damaged file and a new start meets the hypotheses of `C114_own_derivatives_partial` and
`C114_directory_stays_sound`: the segment asked after the damage gets its own derivatives. -/
example : IsDerivatives (scaledSegment 2) (generateDerivs (scaledSegment 2)) ∧
    FilledByRuns coefficientText oneOrTwo 6 twoKnown (cacheRun coefficientText oneOrTwo 6 generateDerivs
      [.create (scaledSegment 1), .create (scaledSegment 2), .ask 0 .succeeds, .ask 1 .breaksOff, .restart, .create (scaledSegment 2), .ask 0 .succeeds]
      ⟨[], fun _ => none⟩).2.dir := by
  have hk : MadeKnown 6 twoKnown [.create (scaledSegment 1), .create (scaledSegment 2), .ask 0 .succeeds, .ask 1 .breaksOff, .restart,
      .create (scaledSegment 2), .ask 0 .succeeds] := by
    intro s h
    simp only [List.mem_cons, CacheEvent.create.injEq, reduceCtorEq, List.not_mem_nil, or_false, false_or] at h
    rcases h with h | h | h
    · exact ⟨rfl, .inl h⟩
    · exact ⟨rfl, .inr h⟩
    · exact ⟨rfl, .inr h⟩
  have hd : FilledByRuns coefficientText oneOrTwo 6 twoKnown (fun _ => none) := fun f d h => by cases h
  refine ⟨C114_own_derivatives_partial twoKnown_noCollision twoKnown_faithful _ hd _ hk _ _ ?_,
    C114_directory_stays_sound twoKnown_noCollision twoKnown_faithful _ hd _ hk⟩
  have hne : lagrangeKey coefficientText 6 (scaledSegment 2) ≠ lagrangeKey coefficientText 6 (scaledSegment 1) := by
    intro h
    exact absurd (C114_keys_tell_apart 6 6 _ _ h).2.1 (by decide +kernel)
  simp [cacheRun, cacheStep, getDerivatives, hasPickle, tryUnpickle, generateAndPickle, tryPickle, pickleFile, oneOrTwo, hne]

/-- The key of a segment of the program: the line of `C114_keys_tell_apart` for one with a constant, two primals and two duals. -/
example : lagrangeKey (fun _ => "L".toList) 6 ⟨Ex.num 0, [.G], [.VrFrom, .ViFrom], [.LrFrom, .lam 12]⟩ =
    "6,L,(G,),(V_from,r, V_from,i),(lambda_from,r, lambda_12)".toList := by decide +kernel

/-- `C114_only_writing_stops` and `C114_asked_again`: a full disk is reported once. -/
example : ∃ d, (cacheRun coefficientText oneOrTwo 6 generateDerivs [.create (scaledSegment 1), .ask 0 .refused, .ask 0 .refused] ⟨[], fun _ => none⟩).1 =
    [(scaledSegment 1, .error "OSError"), (scaledSegment 1, .ok d)] := by
  obtain ⟨a, d, h, -, -⟩ := C114_asked_again (pr := coefficientText) (sha := oneOrTwo) (version := 6) generateDerivs
    ⟨[⟨scaledSegment 1, none⟩], fun _ => none⟩ 0 ⟨scaledSegment 1, none⟩ rfl .refused .refused
  have ha : a = .error "OSError" := by
    have := congrArg List.head? h
    simp [cacheRun, cacheStep, getDerivatives, hasPickle, generateAndPickle, tryPickle] at this
    exact this.symm
  subst ha
  exact ⟨d, h⟩

/-- Two Lagrangians that a rounding printer prints alike, as in `C114_rounded_numbers_fails`. -/
example : ∃ d, (cacheRun (fun _ => "1.00000000000000*lambda_Vr*Vr".toList) oneOrTwo 6 generateDerivs
    [.create (scaledSegment 1), .ask 0 .succeeds, .restart, .create (scaledSegment 2), .ask 0 .succeeds] ⟨[], fun _ => none⟩).1 =
    [(scaledSegment 1, .ok d), (scaledSegment 2, .ok d)] ∧ ¬ IsDerivatives (scaledSegment 2) d :=
  C114_rounded_numbers_fails _ _ 6 1 2 (by decide) rfl

end Verif
