import Verif.Model.Start
import Verif.Lemmas.TwinEquations
import Verif.Props.Placement

/-! Assignments to the start vector. -/

namespace Verif

open Ex

theorem writeAll_cons (v : ℕ → ℝ) (w : Idx × ℝ) (ws : List (Idx × ℝ)) :
    writeAll v (w :: ws) = writeAll (writeAt v w.1 w.2) ws := rfl

theorem writeAll_keep {i : ℕ} {ws : List (Idx × ℝ)} (h : ∀ w ∈ ws, ∃ m, w.1 = some m ∧ m ≠ i) (v : ℕ → ℝ) :
    writeAll v ws i = v i := by
  induction ws generalizing v with
  | nil => rfl
  | cons w ws ih =>
    rw [writeAll_cons, ih fun w hw => h w (List.mem_cons_of_mem _ hw)]
    obtain ⟨m, hm, hi⟩ := h w List.mem_cons_self
    simp only [writeAt, hm]
    exact if_neg fun e => hi e.symm

theorem writeAll_value {i : ℕ} {x : ℝ} {ws : List (Idx × ℝ)} (h : ∀ w ∈ ws, ∃ m, w.1 = some m ∧ (m = i → w.2 = x)) (v : ℕ → ℝ)
    (hv : v i = x ∨ ∃ w ∈ ws, w.1 = some i) : writeAll v ws i = x := by
  induction ws generalizing v with
  | nil => rcases hv with hv | ⟨w, hw, -⟩; exacts [hv, absurd hw List.not_mem_nil]
  | cons w ws ih =>
    rw [writeAll_cons]
    refine ih (fun w hw => h w (List.mem_cons_of_mem _ hw)) _ ?_
    obtain ⟨m, hm, hi⟩ := h w List.mem_cons_self
    by_cases e : m = i
    · left
      simp only [writeAt, hm]
      rw [if_pos e.symm, hi e]
    · rcases hv with hv | ⟨w', hw', e'⟩
      · left
        simp only [writeAt, hm]
        rw [if_neg fun h => e h.symm, hv]
      · rcases List.mem_cons.1 hw' with rfl | hw'
        · rw [hm] at e'; exact absurd (Option.some.inj e') e
        · exact .inr ⟨w', hw', e'⟩

theorem mem_zipWith_flatten {α β γ : Type} {f : α → β → List γ} {as : List α} {bs : List β} {c : γ}
    (h : c ∈ (List.zipWith f as bs).flatten) : ∃ k, ∃ (ha : k < as.length) (hb : k < bs.length), c ∈ f as[k] bs[k] := by
  obtain ⟨l, hl, hc⟩ := List.mem_flatten.1 h
  obtain ⟨k, hk, rfl⟩ := List.mem_iff_getElem.1 hl
  rw [List.length_zipWith] at hk
  refine ⟨k, by omega, by omega, ?_⟩
  rwa [List.getElem_zipWith] at hc

theorem mem_zipWith_flatten_of {α β γ : Type} {f : α → β → List γ} {as : List α} {bs : List β} {c : γ} {k : ℕ}
    (ha : k < as.length) (hb : k < bs.length) (h : c ∈ f as[k] bs[k]) : c ∈ (List.zipWith f as bs).flatten := by
  refine List.mem_flatten.2 ⟨_, List.mem_iff_getElem.2 ⟨k, ?_, ?_⟩, h⟩
  · rw [List.length_zipWith]; omega
  · rw [List.getElem_zipWith]

/-- The indices of bus `k`, in either mode. -/
def busNode (opt : Bool) (k : ℕ) : Node := if opt then optNode k else plainNode k

/-- Number of indices of a bus. -/
def busWidth (opt : Bool) : ℕ := if opt then 4 else 2

theorem assign_nodes (L : Library) (N : Network) : (N.assign L).nodes = (List.range' 0 N.buses).map (busNode N.opt) := by
  show (assignBuses N.opt N.buses 0).1 = _
  cases h : N.opt with
  | true => have := assignBuses_opt N.buses 0; rw [Nat.mul_zero] at this; rw [this]; rfl
  | false => have := assignBuses_plain N.buses 0; rw [Nat.mul_zero] at this; rw [this]; rfl

theorem assign_base (N : Network) : (assignBuses N.opt N.buses 0).2 = busWidth N.opt * N.buses := by
  cases h : N.opt with
  | true => have := assignBuses_opt N.buses 0; rw [Nat.mul_zero] at this; rw [this]; simp [busWidth]
  | false => have := assignBuses_plain N.buses 0; rw [Nat.mul_zero] at this; rw [this]; simp [busWidth]

/-- Own unknowns of the elements come after those of the buses. -/
theorem element_index {L : Library} (hL : L.Loaded) (N : Network) {e : Element} {ps : List Placed}
    (h : (e, ps) ∈ N.elements.zip (N.assign L).parts) {u : ℕ × Sym} (hu : u ∈ Element.unknowns L N.opt e) :
    ∃ m, unknownIdx ps u = some m ∧ busWidth N.opt * N.buses ≤ m := by
  obtain ⟨m, -, hp⟩ := placeElements_fresh hL N.opt (assignBuses N.opt N.buses 0).1 N.elements (assignBuses N.opt N.buses 0).2
  have hmem : unknownIdx ps u ∈ (List.zipWith (fun e ps => (Element.unknowns L N.opt e).map (unknownIdx ps)) N.elements
      (N.assign L).parts).flatten := by
    obtain ⟨k, hk, hz⟩ := List.mem_iff_getElem.1 h
    rw [List.length_zip] at hk
    rw [List.getElem_zip, Prod.mk.injEq] at hz
    refine mem_zipWith_flatten_of (k := k) (by omega) (by omega) ?_
    rw [hz.1, hz.2]
    exact List.mem_map_of_mem hu
  have := hp.mem_iff.1 hmem
  simp only [fresh, List.mem_map, List.mem_range'_1] at this
  obtain ⟨j, hj, e⟩ := this
  exact ⟨j, e.symm, by rw [← assign_base]; exact hj.1⟩

theorem placedGens_index {L : Library} (hL : L.Loaded) (N : Network) {ps : List Placed} (h : ps ∈ N.placedGens L)
    (flat : Bool) (g : Generator) : ∀ w ∈ genWrites L N.opt flat ps g, ∃ m, w.1 = some m ∧ busWidth N.opt * N.buses ≤ m := by
  obtain ⟨x, hx, he⟩ := List.mem_filterMap.1 h
  obtain ⟨e, q⟩ := x
  cases e <;> simp only [reduceCtorEq, Option.some.injEq] at he
  subst he
  obtain ⟨k, h1, h2, -⟩ := gen_shape hL
  intro w hw
  unfold genWrites at hw
  rw [List.mem_append] at hw
  rcases hw with hw | hw
  · rw [List.mem_singleton] at hw
    subst hw
    exact element_index hL N hx (by simp [Element.unknowns, twoTerminalUnknowns])
  · cases ho : N.opt with
    | false => simp [ho] at hw
    | true =>
      simp only [ho, if_true, List.mem_singleton] at hw
      subst hw
      have : (L.gen.duals[4]?).bind (fun d => unknownIdx q (0, d)) = unknownIdx q (0, .lam k) := by rw [h2]; rfl
      rw [this, ← ho]
      refine element_index hL N hx ?_
      rw [ho]
      simp [Element.unknowns, twoTerminalUnknowns, h2]

theorem placedSlacks_index {L : Library} (hL : L.Loaded) (N : Network) {ps : List Placed} (h : ps ∈ N.placedSlacks L)
    (flat : Bool) (s : ℝ × ℝ) : ∀ w ∈ slackWrites flat ps s, ∃ m, w.1 = some m ∧ busWidth N.opt * N.buses ≤ m := by
  obtain ⟨x, hx, he⟩ := List.mem_filterMap.1 h
  obtain ⟨e, q⟩ := x
  cases e <;> simp only [reduceCtorEq, Option.some.injEq] at he
  subst he
  intro w hw
  simp only [slackWrites, List.mem_cons, List.not_mem_nil, or_false] at hw
  rcases hw with rfl | rfl <;> exact element_index hL N hx (by simp [Element.unknowns, twoTerminalUnknowns])

/-- The assignments of `generate_v_init` below the end of the bus indices are those of the buses. -/
theorem txInit_bus {L : Library} (hL : L.Loaded) (N : Network) (flat : Bool) {buses : List (ℝ × ℝ)} (gens : List Generator)
    (slacks : List (ℝ × ℝ)) {i : ℕ} (hi : i < busWidth N.opt * N.buses) :
    txInit L N flat buses gens slacks i =
      writeAll (fun _ => 0) (List.zipWith (busWrites N.opt flat) (N.assign L).nodes buses).flatten i := by
  unfold txInit
  rw [List.append_assoc]
  unfold writeAll
  rw [List.foldl_append]
  refine writeAll_keep (v := List.foldl _ _ _) ?_ |>.trans rfl
  intro w hw
  rcases List.mem_append.1 hw with hw | hw
  · obtain ⟨k, ha, hb, hm⟩ := mem_zipWith_flatten hw
    obtain ⟨m, h1, h2⟩ := placedGens_index hL N (List.getElem_mem ha) _ _ _ hm
    exact ⟨m, h1, by omega⟩
  · obtain ⟨k, ha, hb, hm⟩ := mem_zipWith_flatten hw
    obtain ⟨m, h1, h2⟩ := placedSlacks_index hL N (List.getElem_mem ha) _ _ _ hm
    exact ⟨m, h1, by omega⟩

/-- An assignment of a bus, with the number of the bus. -/
theorem mem_busWrites {L : Library} {N : Network} {flat : Bool} {buses : List (ℝ × ℝ)} {w : Idx × ℝ}
    (h : w ∈ (List.zipWith (busWrites N.opt flat) (N.assign L).nodes buses).flatten) :
    ∃ j, ∃ hj : j < buses.length, j < N.buses ∧ w ∈ busWrites N.opt flat (busNode N.opt j) buses[j] := by
  obtain ⟨j, ha, hb, hm⟩ := mem_zipWith_flatten h
  simp only [assign_nodes, List.length_map, List.length_range'] at ha
  refine ⟨j, hb, ha, ?_⟩
  simpa [assign_nodes] using hm

theorem busWrites_mem {L : Library} {N : Network} {flat : Bool} {buses : List (ℝ × ℝ)} {w : Idx × ℝ} {j : ℕ}
    (hj : j < buses.length) (hN : j < N.buses) (h : w ∈ busWrites N.opt flat (busNode N.opt j) buses[j]) :
    w ∈ (List.zipWith (busWrites N.opt flat) (N.assign L).nodes buses).flatten := by
  refine mem_zipWith_flatten_of (k := j) (by simpa [assign_nodes] using hN) hj ?_
  simpa [assign_nodes] using h

theorem assign_nodeAt (L : Library) (N : Network) {k : ℕ} (hk : k < N.buses) :
    nodeAt (N.assign L).nodes (some k) = busNode N.opt k := by
  show (N.assign L).nodes.getD k Node.ground = _
  rw [assign_nodes, List.getD_eq_getElem?_getD, List.getElem?_map, List.getElem?_range' hk]
  simp

theorem dxInit_range (opt : Bool) (buses : List (ℝ × ℝ)) : ∀ (n : ℕ) (v : ℕ → ℝ), (∀ i, busWidth opt * n ≤ i → v i = 0) →
    let u := (((List.range' n buses.length).map (busNode opt)).zip buses).foldl
      (fun v b => keepAt (keepAt v b.1.vr b.2.1) b.1.vi b.2.2) v
    (∀ i, i < busWidth opt * n → u i = v i) ∧
    (∀ k (hk : k < buses.length), u (busWidth opt * (n + k)) = buses[k].1 ∧ u (busWidth opt * (n + k) + 1) = buses[k].2) ∧
    ∀ i, 2 ≤ i % busWidth opt → u i = v i := by
  induction buses with
  | nil => intro n v _; exact ⟨fun _ _ => rfl, fun k hk => absurd hk (by simp), fun _ _ => rfl⟩
  | cons b bs ih =>
    intro n v hv
    have hw : 2 ≤ busWidth opt := by cases opt <;> simp [busWidth]
    set v' := keepAt (keepAt v (busNode opt n).vr b.1) (busNode opt n).vi b.2 with hv'
    have e1 : (busNode opt n).vr = some (busWidth opt * n) := by cases opt <;> rfl
    have e2 : (busNode opt n).vi = some (busWidth opt * n + 1) := by cases opt <;> rfl
    have h1 : v' (busWidth opt * n) = b.1 := by
      rw [hv', e1, e2]
      simp [keepAt, hv _ le_rfl]
    have h2 : v' (busWidth opt * n + 1) = b.2 := by
      rw [hv', e1, e2]
      simp [keepAt, hv _ (Nat.le_succ _)]
    have h3 : ∀ i, i ≠ busWidth opt * n → i ≠ busWidth opt * n + 1 → v' i = v i := by
      intro i a c
      rw [hv', e1, e2]
      simp [keepAt, a, c]
    obtain ⟨i1, i2, i3⟩ := ih (n + 1) v' fun i hi => by
      have : busWidth opt * (n + 1) = busWidth opt * n + busWidth opt := by ring
      rw [h3 i (by omega) (by omega)]
      exact hv i (by omega)
    have e : (((List.range' n (b :: bs).length).map (busNode opt)).zip (b :: bs)).foldl
        (fun v b => keepAt (keepAt v b.1.vr b.2.1) b.1.vi b.2.2) v =
      (((List.range' (n + 1) bs.length).map (busNode opt)).zip bs).foldl
        (fun v b => keepAt (keepAt v b.1.vr b.2.1) b.1.vi b.2.2) v' := by
      rw [List.length_cons, List.range'_succ, List.map_cons, List.zip_cons_cons, List.foldl_cons]
    simp only [e]
    have hm : busWidth opt * (n + 1) = busWidth opt * n + busWidth opt := by ring
    refine ⟨fun i hi => ?_, fun k hk => ?_, fun i hi => ?_⟩
    · rw [i1 i (by omega), h3 i (by omega) (by omega)]
    · cases k with
      | zero =>
        refine ⟨?_, ?_⟩
        · exact (i1 (busWidth opt * n) (by omega)).trans h1
        · exact (i1 (busWidth opt * n + 1) (by omega)).trans h2
      | succ k =>
        have := i2 k (by simpa using hk)
        rw [show n + (k + 1) = n + 1 + k by ring]
        exact this
    · rw [i3 i hi]
      refine h3 i ?_ ?_
      · rintro rfl; rw [Nat.mul_mod_right] at hi; omega
      · rintro rfl
        rw [Nat.mul_add_mod] at hi
        have : 1 % busWidth opt ≤ 1 := Nat.mod_le _ _
        omega

end Verif
