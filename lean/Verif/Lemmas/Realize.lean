import Verif.Lemmas.KirchhoffNetwork

/-!
# Every choice of voltages and own values is read from some solution vector
-/

namespace Verif

variable {L : Library}

theorem laws_length' (e : Element) (t t' : ℝ) (V V' : Ref → ℂ) (w w' : List ℝ) :
    (e.laws t V w).length = (e.laws t' V' w').length := by
  cases e with
  | switch f u s => cases s <;> rfl
  | _ => rfl

/-- Own values of an element: a window of the vector. -/
theorem place_window (hL : L.Loaded) (nodes : List Node) (e : Element) (n : ℕ) (v : ℕ → ℝ) :
    (e.place L false nodes n).2 = n + (e.laws 0 (fun _ => 0) []).length ∧
    ((Element.unknowns L false e).map (unknownIdx (e.place L false nodes n).1)).map (readIdx v) =
      (fresh n (e.laws 0 (fun _ => 0) []).length).map (readIdx v) := by
  have h := (place_own hL nodes e n 0 v).1
  obtain ⟨m, h1, h2⟩ := place_fresh hL false nodes e n
  rw [laws_length' e 0 0 _ (fun _ => 0) _ []] at h
  refine ⟨h, ?_⟩
  rw [h2]
  have : m = (e.laws 0 (fun _ => 0) []).length := by omega
  rw [this]

theorem map_fresh_eq (v : ℕ → ℝ) (n : ℕ) (w : List ℝ) (h : ∀ j < w.length, v (n + j) = w.getD j 0) :
    (fresh n w.length).map (readIdx v) = w := by
  apply List.ext_getElem?
  intro k
  unfold fresh
  rw [List.map_map, List.getElem?_map]
  by_cases hk : k < w.length
  · rw [List.getElem?_range' hk, List.getElem?_eq_getElem hk]
    have := h k hk
    rw [List.getD_eq_getElem?_getD, List.getElem?_eq_getElem hk] at this
    simpa [readIdx] using this
  · rw [List.getElem?_eq_none (by simpa using hk), List.getElem?_eq_none (by simpa using hk)]
    rfl

theorem placeElements_realize (hL : L.Loaded) (nodes : List Node) (v : ℕ → ℝ) : ∀ (es : List (Element × List ℝ)) (n : ℕ),
    (∀ x ∈ es, x.2.length = (x.1.laws 0 (fun _ => 0) []).length) →
    (∀ j < (es.flatMap Prod.snd).length, v (n + j) = (es.flatMap Prod.snd).getD j 0) →
    List.zipWith (fun e ps => (e, ((Element.unknowns L false e).map (unknownIdx ps)).map (readIdx v))) (es.map Prod.fst)
      (placeElements L false nodes n (es.map Prod.fst)).1 = es := by
  intro es
  induction es with
  | nil => intro n _ _; rfl
  | cons x es ih =>
    intro n hlen hv
    obtain ⟨h1, h2⟩ := place_window hL nodes x.1 n v
    have hx := hlen x (List.mem_cons_self ..)
    have hw : (fresh n (x.1.laws 0 (fun _ => 0) []).length).map (readIdx v) = x.2 := by
      rw [← hx]
      refine map_fresh_eq v n x.2 fun j hj => ?_
      have := hv j (by simp only [List.flatMap_cons, List.length_append]; omega)
      rw [this, List.flatMap_cons, List.getD_eq_getElem?_getD, List.getElem?_append_left hj, ← List.getD_eq_getElem?_getD]
    simp only [List.map_cons, placeElements, List.zipWith_cons_cons]
    rw [h2, hw]
    congr 1
    rw [h1, ← hx]
    refine ih (n + x.2.length) (fun y hy => hlen y (List.mem_cons_of_mem _ hy)) ?_
    intro j hj
    have := hv (x.2.length + j) (by simp only [List.flatMap_cons, List.length_append]; omega)
    rw [add_assoc, this, List.flatMap_cons, List.getD_eq_getElem?_getD, List.getElem?_append_right (by omega),
      Nat.add_sub_cancel_left, ← List.getD_eq_getElem?_getD]

/-- **Every choice of voltages and own values is read from some vector.** -/
theorem exists_values (hL : L.Loaded) (N : Network) (ho : N.optimization = none) (V : ℕ → ℂ) (es : List (Element × List ℝ))
    (hfst : es.map Prod.fst = N.elements) (hlen : ∀ x ∈ es, x.2.length = (x.1.laws 0 (fun _ => 0) []).length) :
    ∃ v, (∀ k < N.buses, (N.assign L).voltages v (some k) = V k) ∧ (N.assign L).owned L N v = es := by
  set own := es.flatMap Prod.snd with hown
  set v : ℕ → ℝ := fun i => if i < 2 * N.buses then (if i % 2 = 0 then (V (i / 2)).re else (V (i / 2)).im)
    else own.getD (i - 2 * N.buses) 0 with hv
  have hopt : N.opt = false := by simp [Network.opt, ho]
  have hb := assignBuses_plain N.buses 0
  simp only [Nat.mul_zero, Nat.zero_add] at hb
  have hnodes : (N.assign L).nodes = (List.range' 0 N.buses).map plainNode := by
    show (assignBuses N.opt N.buses 0).1 = _
    rw [hopt, hb]
  have hparts : (N.assign L).parts =
      (placeElements L false ((List.range' 0 N.buses).map plainNode) (2 * N.buses) N.elements).1 := by
    show (placeElements L N.opt (assignBuses N.opt N.buses 0).1 (assignBuses N.opt N.buses 0).2 N.elements).1 = _
    rw [hopt, hb]
  refine ⟨v, ?_, ?_⟩
  · intro k hk
    unfold Assignment.voltages
    rw [hnodes]
    have hn : nodeAt ((List.range' 0 N.buses).map plainNode) (some k) = plainNode k := by
      simp [nodeAt, List.getD_eq_getElem?_getD, List.getElem?_range' hk]
    rw [hn]
    apply Complex.ext
    · simp only [Node.volt, plainNode, readIdx, hv]
      rw [if_pos (by omega), if_pos (by omega)]
      congr 2
      omega
    · simp only [Node.volt, plainNode, readIdx, hv]
      rw [if_pos (by omega), if_neg (by omega)]
      congr 2
      omega
  · unfold Assignment.owned
    rw [hparts, hopt, ← hfst]
    refine placeElements_realize hL _ v es _ hlen ?_
    intro j hj
    simp only [hv]
    rw [if_neg (by omega)]
    congr 1
    omega

theorem placeElements_length (nodes : List Node) (opt : Bool) (es : List Element) : ∀ n,
    (placeElements L opt nodes n es).1.length = es.length := by
  induction es with
  | nil => intro n; rfl
  | cons e es ih => intro n; simp [placeElements, ih]

theorem owned_fst (N : Network) (v : ℕ → ℝ) : ((N.assign L).owned L N v).map Prod.fst = N.elements := by
  have hl : (N.assign L).parts.length = N.elements.length := placeElements_length _ _ _ _
  unfold Assignment.owned
  rw [List.map_zipWith]
  simp only
  generalize (N.assign L).parts = ps at hl
  generalize N.elements = es at hl
  induction es generalizing ps with
  | nil => simp
  | cons e es ih =>
    cases ps with
    | nil => simp at hl
    | cons p ps => simp only [List.zipWith_cons_cons, ih ps (by simpa using hl)]

end Verif
