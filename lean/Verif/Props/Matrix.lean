import Verif.Lemmas.Builder

/-!
# C04, C05, C06: what `MatrixBuilder` hands to the linear solver
-/

namespace Verif

open Builder

/-- Specification of C04: the matrix of an iteration is the sum of the linear stamps and that iteration's stamps. -/
def MatrixIsCurrent (lin : List Trip) (its : List (List Trip)) (last : List Trip) : Prop :=
  ∃ m, toMatrix false (newton lin (its ++ [last])) = .ok m ∧ ∀ i j, m i j = matOf (lin ++ last) i j

/-- **C04, disagreement.** There are stamp values for which the matrix of an iteration still contains an entry of an
earlier one: an entry that was 5 in the first iteration and is 0 in the second stays 5. -/
theorem C04_matrix_current_fails : ¬ ∀ lin its last, MatrixIsCurrent lin its last := by
  intro h
  obtain ⟨m, hm, hmat⟩ := h [] [[⟨0, 0, 5⟩]] [⟨0, 0, 0⟩]
  have h1 := hmat 0 0
  have : newton [] ([[(⟨0, 0, 5⟩ : Trip)]] ++ [[⟨0, 0, 0⟩]]) = ⟨[⟨0, 0, 5⟩], 0, 1⟩ := by
    simp [newton, newtonRound, stamps, stamp, clear, empty, usage]
  rw [this] at hm
  simp only [toMatrix] at hm
  injection hm with hm
  rw [← hm] at h1
  simp [matOf] at h1

/-- **C04, what holds.** If no earlier iteration had more non-zero nonlinear stamps than the last one, the matrix is
exactly current. Missing: the case where the number of non-zero stamps shrinks, in which C04 is false. -/
theorem C04_matrix_current_partial (lin : List Trip) (its : List (List Trip)) (last : List Trip)
    (hcount : ∀ it ∈ its, (nz it).length ≤ (nz last).length) : MatrixIsCurrent lin its last := by
  obtain ⟨h1, -, -, -, h5, h6⟩ := newton_spec lin (its ++ [last])
  obtain ⟨h5a, h5b⟩ := h5 last (by simp)
  refine ⟨_, rfl, fun i j => ?_⟩
  have hmax : (newton lin (its ++ [last])).maxIndex = (newton lin (its ++ [last])).index := by
    rw [h6, h5b]
    congr 1
    clear h1 h5 h5a h5b h6
    induction its with
    | nil => simp
    | cons it its ih =>
      simp only [List.cons_append, List.map_cons, List.foldr_cons]
      rw [ih fun x hx => hcount x (by simp [hx])]
      exact max_eq_right (hcount it (by simp))
  have hall : (newton lin (its ++ [last])).entries = nz lin ++ nz last := by
    rw [← h5a, ← hmax, h1.len, List.take_length]
  rw [hall, matOf_append, matOf_nz, matOf_nz, matOf_append]

/-- **C04, exact size of the error.** In every case the matrix is the current one plus the entries left above
`_index`; so it is current whenever that garbage cancels, and in general not otherwise. -/
theorem C04_error_is_stale_tail (lin : List Trip) (its : List (List Trip)) (last : List Trip) :
    ∃ m, toMatrix false (newton lin (its ++ [last])) = .ok m ∧
      ∀ i j, m i j = matOf (lin ++ last) i j
        + matOf ((newton lin (its ++ [last])).entries.drop ((nz lin).length + (nz last).length)) i j := by
  obtain ⟨h1, -, -, -, h5, -⟩ := newton_spec lin (its ++ [last])
  obtain ⟨h5a, h5b⟩ := h5 last (by simp)
  refine ⟨_, rfl, fun i j => ?_⟩
  conv_lhs => rw [← List.take_append_drop ((nz lin).length + (nz last).length) (newton lin (its ++ [last])).entries]
  rw [matOf_append]
  congr 1
  rw [← h5b, h5a, matOf_append, matOf_nz, matOf_nz, matOf_append]

example : ∀ it ∈ [[(⟨0, 0, 5⟩ : Trip), ⟨0, 1, 0⟩]], (nz it).length ≤ (nz [(⟨0, 0, 2⟩ : Trip), ⟨0, 1, 3⟩]).length := by
  intro it hit
  simp at hit
  subst hit
  simp [nz]

/-- **C05.** After any iterations, the first entries of the builder are the non-zero linear stamps in order, and they
are below the live index, so every matrix built contains them. -/
theorem C05_linear_stamps_survive (lin : List Trip) (its : List (List Trip)) :
    ∃ rest, (newton lin its).entries = lin.filter (fun t => t.val ≠ 0) ++ rest ∧
      (lin.filter fun t => t.val ≠ 0).length ≤ (newton lin its).index := by
  obtain ⟨-, h2, h3, -⟩ := newton_spec lin its
  refine ⟨(newton lin its).entries.drop (nz lin).length, ?_, h2⟩
  conv_lhs => rw [← List.take_append_drop (nz lin).length (newton lin its).entries]
  rw [h3]; rfl

/-! ### C06 -/

/-- Specification of one call on the list of live entries. -/
noncomputable def liveStep (l : List Trip) : Op → List Trip
  | .stamp t => if t.val = 0 then l else l ++ [t]
  | .clear r => l.take r

/-- Specification: the entries a history should leave. -/
noncomputable def liveAfter (ops : List Op) : List Trip := ops.foldl liveStep []

/-- Every `clear(r)` in the history keeps at most what is live at that moment. -/
def ClearsExisting (ops : List Op) : Prop :=
  ∀ pre r post, ops = pre ++ .clear r :: post → r ≤ (liveAfter pre).length

theorem run_live (ops : List Op) (h : ClearsExisting ops) :
    WF (run ops) ∧ (run ops).entries.take (run ops).index = liveAfter ops := by
  induction ops using List.reverseRecOn with
  | nil => exact ⟨wf_empty, rfl⟩
  | append_singleton ops o ih =>
    obtain ⟨h1, h2⟩ := ih fun pre r post hp => h pre r (post ++ [o]) (by simp [hp])
    have hrun : run (ops ++ [o]) = apply (run ops) o := by unfold run; rw [List.foldl_append]; rfl
    have hlive : liveAfter (ops ++ [o]) = liveStep (liveAfter ops) o := by
      unfold liveAfter; rw [List.foldl_append]; rfl
    rw [hrun, hlive]
    cases o with
    | stamp t =>
      refine ⟨wf_stamp h1 t, ?_⟩
      show ((run ops).stamp t).entries.take ((run ops).stamp t).index = _
      rw [live_stamp h1, h2]
      by_cases ht : t.val = 0 <;> simp [nz, ht, liveStep]
    | clear r =>
      have hr := h ops r [] rfl
      have hlen : (liveAfter ops).length ≤ (run ops).index := by
        rw [← h2, List.length_take]; exact min_le_left _ _
      refine ⟨wf_clear h1 (by have := h1.le; omega), ?_⟩
      show (run ops).entries.take r = (liveAfter ops).take r
      rw [← h2, List.take_take, Nat.min_eq_left (by omega)]

/-- **C06.** In debug mode, for every history whose clears keep existing entries, `to_matrix` either raises or returns
exactly the matrix of the live entries. -/
theorem C06_debug_never_garbage (ops : List Op) (h : ClearsExisting ops) :
    (∃ m, toMatrix true (run ops) = .error m) ∨
    ∃ m, toMatrix true (run ops) = .ok m ∧ ∀ i j, m i j = matOf (liveAfter ops) i j := by
  obtain ⟨h1, h2⟩ := run_live ops h
  unfold toMatrix
  by_cases hm : (run ops).maxIndex = (run ops).index
  · right
    refine ⟨_, by simp [hm]; rfl, fun i j => ?_⟩
    rw [← h2, ← hm, h1.len, List.take_length]
  · left
    exact ⟨_, by simp [hm]; rfl⟩

/-- A history with a shrinking iteration: allowed by C06's hypothesis; debug mode raises on it. -/
example : ClearsExisting [.stamp ⟨0, 0, 1⟩, .stamp ⟨0, 0, 5⟩, .clear 1] := by
  intro pre r post hp
  rcases pre with _ | ⟨a, _ | ⟨b, _ | ⟨c, pre⟩⟩⟩
  · simp at hp
  · simp at hp
  · simp at hp; obtain ⟨rfl, rfl, rfl, rfl⟩ := hp; simp [liveAfter, liveStep]
  · simp at hp

/-! ### Examples -/

/-- Two nonlinear iterations, the second with more non-zero stamps: the matrix is the current one. -/
example : MatrixIsCurrent [⟨1, 1, 7⟩] [[⟨0, 0, 5⟩, ⟨0, 1, 0⟩]] [⟨0, 0, 2⟩, ⟨0, 1, 3⟩] :=
  C04_matrix_current_partial _ _ _ (by intro it hit; simp at hit; subst hit; simp [nz])

/-- A linear stamp of 7 stays the first entry through two iterations; a stamp of zero is never stored. -/
example : ∃ rest, (newton [⟨1, 1, 7⟩, ⟨0, 0, 0⟩] [[⟨0, 0, 5⟩], []]).entries = ⟨1, 1, 7⟩ :: rest := by
  obtain ⟨rest, h, _⟩ := C05_linear_stamps_survive [⟨1, 1, 7⟩, ⟨0, 0, 0⟩] [[⟨0, 0, 5⟩], []]
  refine ⟨rest, h.trans ?_⟩
  simp

end Verif
