import Verif.Lemmas.GlmInner
import Verif.Lemmas.RawFlow
import Verif.Spec.GlmFlow
import Verif.Props.GlmTransformers

/-!
# From the equations of the network to the circuit of the file
-/

namespace Verif.Glm

variable {M : Type}

/-! ### Lines -/

theorem linePieces_cons (m : DModel M) (ms : List (DModel M)) : linePieces (m :: ms) = linePieces [m] ++ linePieces ms := by
  cases m <;> rfl

/-- The line `l` of the network is the object `o`. -/
def IsLine (readLine : LineReader M) (objs : List (Txt × Obj)) (o : Obj) (l : DLine M) : Prop :=
  l.frm = o.attr "from".toList ∧ l.to_ = o.attr "to".toList ∧ LineRead readLine objs o (l.phases, l.data)

theorem linePieces_other {readLine : LineReader M} {schedules : List (Txt × Txt)} {objs objs' : List (Txt × Obj)} {name : Txt} {o : Obj}
    {ms : List (DModel M)} (h : ReadAs readLine schedules objs name o ms objs') (hc : isLineObj o = false) : linePieces ms = [] := by
  cases h with
  | config => rfl
  | node => rfl
  | triplexMeter => rfl
  | transformer => rfl
  | load h t ph l =>
    obtain ⟨l, n⟩ := l
    cases n <;> rfl
  | fuse => rfl
  | switch => rfl
  | line h =>
    exfalso
    rw [isLineObj, decide_eq_false_iff_not] at hc
    apply hc
    rcases h with h | h | h <;> (rw [h]; decide)
  | capacitor => rfl
  | regulator => rfl

theorem class_cases {o : Obj} (h : isLineObj o = true) :
    o.cls = "overhead_line".toList ∨ o.cls = "triplex_line".toList ∨ o.cls = "underground_line".toList := by
  rw [isLineObj, decide_eq_true_iff] at h
  simpa only [List.map_cons, List.map_nil, List.mem_cons, List.not_mem_nil, or_false] using h

theorem FileRead.lines {readLine : LineReader M} {schedules : List (Txt × Txt)} {objs : List (Txt × Obj)} {s : DState M}
    {groups : List (List (DModel M))} {g : Grid M} (h : FileRead readLine schedules objs s groups g) (hk : (objs.map Prod.fst).Nodup) :
    List.Forall₂ (IsLine readLine objs) (declaredLines objs) g.lines := by
  rw [h.placed.lines]
  have e : declaredLines objs = objs.flatMap fun x => if isLineObj x.2 then [x.2] else [] := by
    rw [declaredLines]
    generalize objs = l
    induction l with
    | nil => rfl
    | cons x l ih =>
      rw [List.map_cons, List.filter_cons, List.flatMap_cons, ih]
      split <;> rfl
  rw [e]
  refine h.pieces hk rfl linePieces_cons (fun m => by cases m <;> rfl) fun name o0 o objs1 objs2 ms hmem hso hsame hr => ?_
  have hcl : isLineObj o = isLineObj o0 := by rw [isLineObj, isLineObj, hso.cls]
  by_cases hc : isLineObj o0 = true
  · rw [if_pos hc]
    have hlist := class_cases (hcl.trans hc)
    cases hr with
    | line h t ph d objs' ht hph hd =>
      refine .cons ⟨attr_from hso, attr_to hso, objs1, _, o, t, ph, hsame, hso, ?_, hph, hd⟩ .nil
      rw [← hso.attr _ phases_notWritten]
      exact ht
    | config h => exfalso; rcases hlist with e | e | e <;> (rw [e] at h; revert h; decide)
    | node h => exfalso; rcases hlist with e | e | e <;> (rw [e] at h; revert h; decide)
    | triplexMeter h => exfalso; rcases hlist with e | e | e <;> (rw [e] at h; revert h; decide)
    | transformer h => exfalso; rcases hlist with e | e | e <;> (rw [e] at h; revert h; decide)
    | load h =>
      exfalso
      rw [isLoadObj, decide_eq_true_iff] at h
      rcases h with h | ⟨h, _⟩ <;> rcases hlist with e | e | e <;> (rw [e] at h; revert h; decide)
    | fuse h => exfalso; rcases hlist with e | e | e <;> (rw [e] at h; revert h; decide)
    | switch h => exfalso; rcases hlist with e | e | e <;> (rw [e] at h; revert h; decide)
    | capacitor h => exfalso; rcases hlist with e | e | e <;> (rw [e] at h; revert h; decide)
    | regulator h => exfalso; rcases hlist with e | e | e <;> (rw [e] at h; revert h; decide)
  · rw [if_neg hc, linePieces_other hr (by rw [hcl]; simpa using hc)]
    exact .nil

/-! ### Terminals -/

/-- The reference `k` is the terminal `t`. -/
def TermBus (objs : List (Txt × Obj)) (g : Grid M) : Term → Ref → Prop
  | none, k => k = none
  | some x, k => ∃ b, k = some b ∧ FileAt objs g x.1 x.2 b

/-- Bus number `b` is phase `p` of the place `r`. -/
def Place (objs : List (Txt × Obj)) (g : Grid M) (r : Txt) (p : Char) (b : ℕ) : Prop := FileRoot objs r r ∧ FileAt objs g r p b

/-- What is needed of the places of a file and their voltages. -/
structure Places (objs : List (Txt × Obj)) (g : Grid M) (V : Txt → Char → ℂ) (U : Ref → ℂ) : Prop where
  root : ∀ n r r', FileRoot objs n r → FileRoot objs n r' → r = r'
  one : ∀ name p b b', FileAt objs g name p b → FileAt objs g name p b' → b = b'
  zero : U none = 0
  volt : ∀ name p b, FileAt objs g name p b → V name p = U (some b)

theorem fileRoot_self {objs : List (Txt × Obj)} {n r : Txt} (h : FileRoot objs n r) : FileRoot objs r r := by
  induction h with
  | own name o h hn hp => exact .own name o h hn hp
  | child _ _ _ _ _ _ _ _ ih => exact ih

section Places

variable {objs : List (Txt × Obj)} {g : Grid M} {V : Txt → Char → ℂ} {U : Ref → ℂ}

theorem termBus_of {name : Txt} {p : Option Char} {k : Ref} (h : FileTerm objs g (some name) p k) : TermBus objs g (termOf name p) k := by
  cases p with
  | none => exact h
  | some p =>
    obtain ⟨b, hb, n, hn, h⟩ := h
    cases hn
    exact ⟨b, hb, h⟩

theorem Places.termVolt (hc : Places objs g V U) {t : Term} {k : Ref} (h : TermBus objs g t k) : voltAt V t = U k := by
  cases t with
  | none =>
    have : k = none := h
    rw [this, hc.zero]
    rfl
  | some x =>
    obtain ⟨b, rfl, h⟩ := h
    exact hc.volt _ _ _ h

theorem Places.at_iff (hc : Places objs g V U) {t : Term} {k : Ref} (h : TermBus objs g t k) {r : Txt} {p : Char} {b : ℕ}
    (hP : Place objs g r p b) : (∃ n, t = some (n, p) ∧ FileRoot objs n r) ↔ k = some b := by
  constructor
  · rintro ⟨n, rfl, hn⟩
    obtain ⟨b', rfl, r', x, hr, hx⟩ := h
    have e := hc.root _ _ _ hr hn
    subst e
    rw [hc.one r' p b' b ⟨r', x, hP.1, hx⟩ hP.2]
  · intro hk
    cases t with
    | none => rw [show k = none from h] at hk; cases hk
    | some y =>
      obtain ⟨b', hb', r', x, hr, hx, hn, hph, hv⟩ := h
      rw [hk] at hb'
      cases hb'
      obtain ⟨r2, x2, hr2, hx2, hn2, hph2, hv2⟩ := hP.2
      rw [hx] at hx2
      cases hx2
      have e := hc.root _ _ _ hr2 hP.1
      obtain ⟨n, q⟩ := y
      refine ⟨n, ?_, ?_⟩
      · rw [show q = p from hph.symm.trans hph2]
      · rw [← e, ← hn2, hn]; exact hr

theorem drawnAt_nil (r : Txt) (p : Char) : drawnAt objs r p [] = 0 := rfl

theorem drawnAt_append (r : Txt) (p : Char) (l l' : List (Term × ℂ)) : drawnAt objs r p (l ++ l') = drawnAt objs r p l + drawnAt objs r p l' := by
  rw [drawnAt, List.map_append, List.sum_append]
  rfl

theorem Places.drawn_cons (hc : Places objs g V U) {t : Term} {k : Ref} (h : TermBus objs g t k) {r : Txt} {p : Char} {b : ℕ}
    (hP : Place objs g r p b) (z : ℂ) (l : List (Term × ℂ)) :
    drawnAt objs r p ((t, z) :: l) = (if k = some b then z else 0) + drawnAt objs r p l := by
  rw [drawnAt, List.map_cons, List.sum_cons]
  have := hc.at_iff h hP
  by_cases hk : k = some b
  · rw [if_pos hk, if_pos (this.2 hk)]
    rfl
  · rw [if_neg hk, if_neg (fun he => hk (this.1 he))]
    rfl

theorem outer_ne {name : Txt} {p : Char} {b k : ℕ} (h : FileAt objs g name p b) (hk : Inner g k) : b ≠ k := by
  rintro rfl
  obtain ⟨r, x, _, hx, _, _, hv⟩ := h
  obtain ⟨y, hy, hv'⟩ := hk
  rw [hx] at hy
  cases hy
  rw [hv] at hv'
  cases hv'

/-- The currents `l` by terminals are the currents `D` by buses, at all places. -/
def Carries (objs : List (Txt × Obj)) (g : Grid M) (l : List (Term × ℂ)) (D : List (Ref × ℂ)) : Prop :=
  ∀ r p b, Place objs g r p b → drawnAt objs r p l = busSum b D

/-- The currents `D` do not touch the inner buses outside of `ks`. -/
def Quiet (g : Grid M) (ks : List ℕ) (D : List (Ref × ℂ)) : Prop := ∀ k, Inner g k → k ∉ ks → busSum k D = 0

theorem quiet_term {t : Term} {r : Ref} (h : TermBus objs g t r) {k : ℕ} (hk : Inner g k) : r ≠ some k := by
  rintro rfl
  cases t with
  | none => cases h
  | some x =>
    obtain ⟨b, e, h⟩ := h
    cases e
    exact outer_ne h hk rfl

theorem Place.not_inner {r : Txt} {p : Char} {b : ℕ} (h : Place objs g r p b) {k : ℕ} (hk : Inner g k) : (some k : Ref) ≠ some b := by
  intro e
  cases e
  exact outer_ne h.2 hk rfl

end Places

theorem stiff_zero (g b : ℝ) : stiff 0 g b = ⟨g, b⟩ := by simp [stiff]

theorem faded_zero (g b : ℝ) : faded 0 g b = ⟨g, b⟩ := by simp [faded]

theorem turns_zero (a : ℝ) : turns 0 a 0 = (a : ℂ) := by
  apply Complex.ext <;> simp [turns, ratioAt]

end Verif.Glm
