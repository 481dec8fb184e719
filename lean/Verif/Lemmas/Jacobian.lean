import Verif.Lemmas.Assembly

/-! The assembled matrix is the derivative of the network equations in every direction. -/

namespace Verif

open Ex

/-- Derivative of an expression along a curve of environments. -/
theorem hasDerivAt_curve {env : ℝ → Env} {d : Env} {s0 : ℝ} {vars : List Sym} (hn : vars.Nodup)
    (hd : ∀ y, HasDerivAt (fun s => env s y) (d y) s0) (hs : ∀ y, y ∉ vars → d y = 0) {e : Ex} (h : Defined (env s0) e) :
    HasDerivAt (fun s => eval (env s) e) (vars.map fun y => eval (env s0) (diff y e) * d y).sum s0 := by
  induction e with
  | num q =>
    have : (vars.map fun y => eval (env s0) (diff y (num q)) * d y).sum = 0 := by simp [diff]
    rw [this]; exact hasDerivAt_const s0 (q : ℝ)
  | sym x =>
    have : (vars.map fun y => eval (env s0) (diff y (sym x)) * d y).sum = d x := by
      by_cases hx : x ∈ vars
      · rw [← sum_map_ite_eq vars hn x hx d]
        congr 1
        apply List.map_congr_left
        intro y _
        by_cases hy : y = x
        · simp [diff, hy]
        · simp [diff, hy, Ne.symm hy]
      · rw [hs x hx]
        apply List.sum_eq_zero
        intro z hz
        obtain ⟨y, hy, rfl⟩ := List.mem_map.1 hz
        have : y ≠ x := fun h => hx (h ▸ hy)
        simp [diff, this]
    rw [this]; exact hd x
  | add a b iha ihb =>
    have : (vars.map fun y => eval (env s0) (diff y (add a b)) * d y).sum =
        (vars.map fun y => eval (env s0) (diff y a) * d y).sum + (vars.map fun y => eval (env s0) (diff y b) * d y).sum := by
      rw [← List.sum_map_add]; simp [diff, add_mul]
    rw [this]; exact (iha h.1).fun_add (ihb h.2)
  | mul a b iha ihb =>
    have : (vars.map fun y => eval (env s0) (diff y (mul a b)) * d y).sum =
        (vars.map fun y => eval (env s0) (diff y a) * d y).sum * eval (env s0) b +
        eval (env s0) a * (vars.map fun y => eval (env s0) (diff y b) * d y).sum := by
      rw [← List.sum_map_mul_right, ← List.sum_map_mul_left, ← List.sum_map_add]
      congr 1; apply List.map_congr_left; intro y _; simp [diff]; ring
    rw [this]; exact (iha h.1).fun_mul (ihb h.2)
  | pow a n iha =>
    have h2 : eval (env s0) a ≠ 0 ∨ 0 ≤ n := h.2.symm
    have h3 := (hasDerivAt_zpow n _ h2).comp s0 (iha h.1)
    have : (vars.map fun y => eval (env s0) (diff y (pow a n)) * d y).sum =
        n * eval (env s0) a ^ (n - 1) * (vars.map fun y => eval (env s0) (diff y a) * d y).sum := by
      rw [← List.sum_map_mul_left]
      congr 1; apply List.map_congr_left; intro y _; simp [diff]; ring
    rw [this]; exact h3
  | sin a iha =>
    have : (vars.map fun y => eval (env s0) (diff y (sin a)) * d y).sum =
        Real.cos (eval (env s0) a) * (vars.map fun y => eval (env s0) (diff y a) * d y).sum := by
      rw [← List.sum_map_mul_left]
      congr 1; apply List.map_congr_left; intro y _; simp [diff]; ring
    rw [this]; exact (iha h).sin
  | cos a iha =>
    have : (vars.map fun y => eval (env s0) (diff y (cos a)) * d y).sum =
        -Real.sin (eval (env s0) a) * (vars.map fun y => eval (env s0) (diff y a) * d y).sum := by
      rw [← List.sum_map_mul_left]
      congr 1; apply List.map_congr_left; intro y _; simp [diff]; ring
    rw [this]; exact (iha h).cos

/-- What one emitted stamp adds to `A w`. -/
def dirVal (w : ℕ → ℝ) (e : ℕ × Option ℕ × ℝ) : ℝ :=
  match e.2.1 with
  | some c => e.2.2 * w c
  | none => 0

/-- `A w` of row `i`, from the list of emitted stamps. -/
def dirRow (w : ℕ → ℝ) (l : List (ℕ × Option ℕ × ℝ)) (i : ℕ) : ℝ := ((l.filter fun e => e.1 = i).map (dirVal w)).sum

theorem dirRow_append (w : ℕ → ℝ) (a b : List (ℕ × Option ℕ × ℝ)) (i : ℕ) : dirRow w (a ++ b) i = dirRow w a i + dirRow w b i := by
  simp [dirRow]

theorem dirRow_perm (w : ℕ → ℝ) {a b : List (ℕ × Option ℕ × ℝ)} (h : a.Perm b) (i : ℕ) : dirRow w a i = dirRow w b i :=
  ((h.filter _).map _).sum_eq

theorem dirRow_eq (w : ℕ → ℝ) (l : List (ℕ × Option ℕ × ℝ)) (i : ℕ) : dirRow w l i = linRow w l i + jOf l i := by
  induction l with
  | nil => simp [dirRow, linRow, jOf]
  | cons e l ih =>
    obtain ⟨r, c, x⟩ := e
    have h1 : dirRow w ((r, c, x) :: l) i = (if r = i then dirVal w (r, c, x) else 0) + dirRow w l i := by
      unfold dirRow; rw [List.filter_cons]; by_cases h : r = i <;> simp [h]
    have h2 : jOf ((r, c, x) :: l) i = (if r = i ∧ c = none then x else 0) + jOf l i := by
      unfold jOf; rw [List.filter_cons]; by_cases h : r = i ∧ c = none <;> simp [h]
    rw [h1, h2, linRow_cons, ih]
    cases c with
    | none => by_cases h : r = i <;> simp [h, dirVal, linVal] <;> ring
    | some c => by_cases h : r = i <;> simp [h, dirVal, linVal] <;> ring

theorem sum_matOf_dir (n : ℕ) (w : ℕ → ℝ) (l : List (ℕ × Option ℕ × ℝ)) (hl : ∀ e ∈ l, ∀ c, e.2.1 = some c → c < n) (i : ℕ) :
    (∑ j ∈ Finset.range n, Builder.matOf (tripsOf l) i j * w j) = dirRow w l i := by
  have := sum_matOf n w l hl i
  rw [dirRow_eq]; linarith

theorem entries_dirVal {p : Placed} {w : ℕ → ℝ} {x : Sym} {r : ℕ} (env : Env) (hr : p.details.row x = some r)
    (es : List Entry) :
    (((es.filterMap (p.place x)).map fun s => (s.row, s.col, eval env s.expr.entry.expr)).map (dirVal w)).sum
      = (es.map fun e => match e.col with | some y => eval env e.expr * readIdx w (p.details.varMap y) | none => 0).sum := by
  induction es with
  | nil => rfl
  | cons e es ih =>
    rw [List.map_cons, List.sum_cons, ← ih, List.filterMap_cons]
    unfold Placed.place
    simp only [hr]
    cases hc : e.col with
    | none => simp [dirVal]
    | some y =>
      cases hm : p.details.varMap y with
      | none => simp [readIdx, hm]
      | some c => simp [readIdx, dirVal, hm]

theorem sum_entries_dir (env d : Env) (vars : List Sym) (hn : vars.Nodup) (es : List Entry)
    (hes : ∀ e ∈ es, ∀ y, e.col = some y → y ∈ vars) :
    (es.map fun e => match e.col with | some y => eval env e.expr * d y | none => 0).sum
      = (vars.map fun y => entrySum env es (some y) * d y).sum := by
  induction es with
  | nil => simp [entrySum]
  | cons e es ih =>
    rw [List.map_cons, List.sum_cons, ih fun a ha => hes a (by simp [ha])]
    have hcons : ∀ c, entrySum env (e :: es) c = (if e.col = c then eval env e.expr else 0) + entrySum env es c := by
      intro c; unfold entrySum; rw [List.filter_cons]; by_cases h : e.col = c <;> simp [h]
    simp only [hcons, add_mul, List.sum_map_add]
    cases hc : e.col with
    | none => simp
    | some y =>
      have hy := hes e (by simp) y hc
      have : (vars.map fun z => (if some y = some z then eval env e.expr else 0) * d z).sum = eval env e.expr * d y := by
        rw [← sum_map_ite_eq vars hn y hy (fun z => eval env e.expr * d z)]
        congr 1
        apply List.map_congr_left
        intro z _
        by_cases h : y = z
        · subst h; simp
        · simp [h, Ne.symm h]
      rw [this]

/-- The vector moved in direction `w`. -/
def along (v w : ℕ → ℝ) (s : ℝ) : ℕ → ℝ := fun k => v k + s * w k

@[simp] theorem along_zero (v w : ℕ → ℝ) : along v w 0 = v := by funext k; simp [along]

/-- The rate of change of a part's symbols when the vector moves in direction `w`. -/
noncomputable def Placed.rate (p : Placed) (w : ℕ → ℝ) : Env := fun s =>
  if s ∈ p.details.seg.vars then readIdx w (p.details.varMap s) else 0

theorem env_rate {p : Placed} {t : ℝ} {v w : ℕ → ℝ} (hd : ∀ x ∈ p.details.seg.vars, x ∉ p.details.seg.constants) (y : Sym) :
    HasDerivAt (fun s => p.env t (along v w s) y) (p.rate w y) 0 := by
  by_cases hy : y ∈ p.details.seg.vars
  · have : (fun s => p.env t (along v w s) y) = fun s => readIdx (along v w s) (p.details.varMap y) := by
      funext s; exact Placed.env_var hd hy
    rw [this]
    unfold Placed.rate; rw [if_pos hy]
    cases p.details.varMap y with
    | none => exact hasDerivAt_const _ _
    | some c =>
      show HasDerivAt (fun s => v c + s * w c) (w c) 0
      simpa using ((hasDerivAt_id' (0 : ℝ)).mul_const (w c)).const_add (v c)
  · have : (fun s => p.env t (along v w s) y) = fun _ => p.env t v y := by
      funext s
      unfold Placed.env Part.env Placed.point Placed.part
      simp [hy]
    rw [this]
    unfold Placed.rate; rw [if_neg hy]
    exact hasDerivAt_const _ _

theorem entrySum_eq_diff {p : Placed} {t : ℝ} {v : ℕ → ℝ} (hr : p.Regular t v) (x : Sym) {y : Sym} (hy : y ∈ p.details.seg.vars) :
    entrySum (p.env t v) (p.details.seg.entries x) (some y) = eval (p.env t v) (diff y (p.details.seg.derivative x)) :=
  ((segment_newton hr x).slope y hy).unique (hasDerivAt_eval y (defined_diff x hr.defined))

theorem rowTotal_cons (e : ℕ × ℝ) (l : List (ℕ × ℝ)) (i : ℕ) : rowTotal (e :: l) i = (if e.1 = i then e.2 else 0) + rowTotal l i := by
  unfold rowTotal; rw [List.filter_cons]; by_cases h : e.1 = i <;> simp [h]

theorem part_jacobian {p : Placed} {t : ℝ} {v : ℕ → ℝ} (hr : p.Regular t v) (w : ℕ → ℝ) (i : ℕ) :
    HasDerivAt (fun s => rowTotal (p.equations t (along v w s)) i)
      (dirRow w (p.stamps.map fun s => (s.row, s.col, eval (p.env t v) s.expr.entry.expr)) i) 0 := by
  unfold Placed.stamps Placed.equations
  generalize p.details.firstOrder = xs
  induction xs with
  | nil => exact hasDerivAt_const _ _
  | cons x xs ih =>
    rw [List.flatMap_cons, List.map_append, dirRow_append]
    have hsplit : ∀ s, rowTotal ((x :: xs).filterMap (fun x => (p.details.row x).map fun r =>
        (r, eval (p.env t (along v w s)) (p.details.seg.derivative x)))) i
      = (if p.details.row x = some i then eval (p.env t (along v w s)) (p.details.seg.derivative x) else 0) +
        rowTotal (xs.filterMap (fun x => (p.details.row x).map fun r =>
          (r, eval (p.env t (along v w s)) (p.details.seg.derivative x)))) i := by
      intro s
      rw [List.filterMap_cons]
      cases h : p.details.row x with
      | none => simp
      | some r => simp only [Option.map_some, rowTotal_cons, Option.some.injEq]
    simp only [hsplit]
    refine HasDerivAt.fun_add ?_ ih
    cases hx : p.details.row x with
    | none =>
      have : (p.details.seg.entries x).filterMap (p.place x) = [] := by
        rw [List.filterMap_eq_nil_iff]; intro e _; simp [Placed.place, hx]
      simp only [this, List.map_nil, reduceCtorEq, if_false]
      exact hasDerivAt_const _ _
    | some r =>
      have hrow : ∀ s ∈ (p.details.seg.entries x).filterMap (p.place x), s.row = r := by
        intro s hs
        obtain ⟨e, _, he⟩ := List.mem_filterMap.1 hs
        unfold Placed.place at he
        simp only [hx] at he
        split at he
        · injection he with he; subst he; rfl
        · obtain ⟨c, _, rfl⟩ := Option.map_eq_some_iff.1 he; rfl
      have hcols : ∀ e ∈ p.details.seg.entries x, ∀ y, e.col = some y → y ∈ p.details.seg.vars :=
        (C01_entry_columns p.details.seg.vars (p.details.seg.derivative x)).1
      by_cases hri : r = i
      · have hf : List.filter (fun e : ℕ × Option ℕ × ℝ => decide (e.1 = i))
            (((p.details.seg.entries x).filterMap (p.place x)).map fun s => (s.row, s.col, eval (p.env t v) s.expr.entry.expr))
            = ((p.details.seg.entries x).filterMap (p.place x)).map fun s => (s.row, s.col, eval (p.env t v) s.expr.entry.expr) := by
          rw [List.filter_eq_self]
          intro e he
          obtain ⟨s, hs, rfl⟩ := List.mem_map.1 he
          simp [hrow s hs, hri]
        unfold dirRow
        rw [hf, entries_dirVal (p.env t v) hx]
        have e1 : ((p.details.seg.entries x).map fun e => match e.col with
            | some y => eval (p.env t v) e.expr * readIdx w (p.details.varMap y) | none => 0).sum
            = ((p.details.seg.entries x).map fun e => match e.col with
            | some y => eval (p.env t v) e.expr * p.rate w y | none => 0).sum := by
          congr 1
          apply List.map_congr_left
          intro e he
          cases hc : e.col with
          | none => rfl
          | some y => simp only [Placed.rate, if_pos (hcols e he y hc)]
        rw [e1, sum_entries_dir _ (p.rate w) _ hr.nodup _ hcols]
        have e2 : (p.details.seg.vars.map fun y => entrySum (p.env t v) (p.details.seg.entries x) (some y) * p.rate w y).sum
            = (p.details.seg.vars.map fun y => eval (p.env t v) (diff y (p.details.seg.derivative x)) * p.rate w y).sum := by
          congr 1
          apply List.map_congr_left
          intro y hy
          rw [entrySum_eq_diff hr x hy]
        rw [e2]
        simp only [hri, if_true]
        have := hasDerivAt_curve (env := fun s => p.env t (along v w s)) (d := p.rate w) (s0 := 0) hr.nodup
          (fun y => env_rate hr.disj y) (fun y hy => by unfold Placed.rate; rw [if_neg hy])
          (e := p.details.seg.derivative x) (by rw [along_zero]; exact defined_diff x hr.defined)
        simpa using this
      · have hf : List.filter (fun e : ℕ × Option ℕ × ℝ => decide (e.1 = i))
            (((p.details.seg.entries x).filterMap (p.place x)).map fun s => (s.row, s.col, eval (p.env t v) s.expr.entry.expr)) = [] := by
          rw [List.filter_eq_nil_iff]
          intro e he
          obtain ⟨s, hs, rfl⟩ := List.mem_map.1 he
          simp [hrow s hs, hri]
        unfold dirRow
        rw [hf]
        simp only [Option.some.injEq, hri, if_false, List.map_nil, List.sum_nil]
        exact hasDerivAt_const _ _

/-- All stamps of all parts, per row: `A w` is the derivative of the network equation in direction `w`. -/
theorem network_jacobian (ps : List Placed) (t : ℝ) (v : ℕ → ℝ) (hr : ∀ p ∈ ps, p.Regular t v) (w : ℕ → ℝ) (i : ℕ) :
    HasDerivAt (fun s => networkEq ps t (along v w s) i)
      (dirRow w ((ps.flatMap fun p => p.emitted t v true) ++ (ps.flatMap fun p => p.emitted t v false)) i) 0 := by
  unfold networkEq
  induction ps with
  | nil => exact hasDerivAt_const _ _
  | cons p ps ih =>
    have ih' := ih fun q hq => hr q (by simp [hq])
    simp only [List.flatMap_cons, dirRow_append, rowTotal_append] at ih' ⊢
    have h1 := part_jacobian (hr p (by simp)) w i
    rw [← dirRow_perm w (emitted_both p t v) i, dirRow_append] at h1
    have h2 := h1.fun_add ih'
    refine h2.congr_deriv ?_
    abel

/-- Columns of everything emitted are columns of variables. -/
theorem emitted_cols (ps : List Placed) (t : ℝ) (v : ℕ → ℝ) (n : ℕ)
    (hn : ∀ p ∈ ps, ∀ x ∈ p.details.seg.vars, ∀ c, p.details.varMap x = some c → c < n) :
    ∀ e ∈ (ps.flatMap fun p => p.emitted t v true) ++ (ps.flatMap fun p => p.emitted t v false), ∀ c, e.2.1 = some c → c < n := by
  intro e hmem k hk
  have : ∃ p ∈ ps, ∃ s ∈ p.stamps, s.col = e.2.1 := by
    rcases List.mem_append.1 hmem with h | h <;>
    · obtain ⟨p, hp, h⟩ := List.mem_flatMap.1 h
      obtain ⟨s, hs, rfl⟩ := List.mem_map.1 h
      exact ⟨p, hp, s, (List.mem_filter.1 hs).1, rfl⟩
  obtain ⟨p, hp, s, hs, hcol⟩ := this
  rw [hk] at hcol
  unfold Placed.stamps at hs
  obtain ⟨x, _, h⟩ := List.mem_flatMap.1 hs
  obtain ⟨en, hen, h⟩ := List.mem_filterMap.1 h
  unfold Placed.place at h
  split at h
  · simp at h
  · split at h
    · injection h with h; subst h; simp at hcol
    · rename_i y hce
      obtain ⟨c', hc', rfl⟩ := Option.map_eq_some_iff.1 h
      simp only [Option.some.injEq] at hcol
      subst hcol
      exact hn p hp y ((C01_entry_columns p.details.seg.vars (p.details.seg.derivative x)).1 en hen y hce) _ hc'

end Verif
