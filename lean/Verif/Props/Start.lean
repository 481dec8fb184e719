import Verif.Lemmas.Start

/-!
# C57: the start vector
-/

namespace Verif

open Ex

/-- **C57, transmission networks.** For every network and either start option: the entries of every bus voltage hold its
initial values, or 1 and 0 from a flat start, and in optimization mode the entry of the first multiplier holds `1e-4`. Nothing
written for generators and slacks gets in the way.

Missing for the full claim: the second multiplier (`C57_second_multiplier_fails`) and distribution networks in optimization
mode (`C57_distribution_multipliers_fails`). -/
theorem C57_bus_entries_partial {L : Library} (hL : L.Loaded) (N : Network) (flat : Bool) {buses : List (ℝ × ℝ)}
    (hb : buses.length = N.buses) (gens : List Generator) (slacks : List (ℝ × ℝ)) {k : ℕ} (hk : k < N.buses) :
    ∃ r i, (nodeAt (N.assign L).nodes (some k)).vr = some r ∧ (nodeAt (N.assign L).nodes (some k)).vi = some i ∧
      txInit L N flat buses gens slacks r = (if flat then 1 else (buses[k]'(hb ▸ hk)).1) ∧
      txInit L N flat buses gens slacks i = (if flat then 0 else (buses[k]'(hb ▸ hk)).2) ∧
      (N.opt = true → ∃ l, (nodeAt (N.assign L).nodes (some k)).lr = some l ∧
        txInit L N flat buses gens slacks l = 1 / 10000) := by
  rw [assign_nodeAt L N hk]
  have hkb : k < buses.length := hb ▸ hk
  have key : ∀ i x, i < busWidth N.opt * N.buses →
      (∀ j (hj : j < buses.length), j < N.buses → ∀ w ∈ busWrites N.opt flat (busNode N.opt j) buses[j],
        ∃ m, w.1 = some m ∧ (m = i → w.2 = x)) →
      (∃ w ∈ busWrites N.opt flat (busNode N.opt k) buses[k], w.1 = some i) →
      txInit L N flat buses gens slacks i = x := by
    intro i x hi h ⟨w, hw, hwi⟩
    rw [txInit_bus hL N flat gens slacks hi]
    refine writeAll_value (fun w hw => ?_) _ (.inr ⟨w, busWrites_mem hkb hk hw, hwi⟩)
    obtain ⟨j, hj, hN, hm⟩ := mem_busWrites hw
    exact h j hj hN w hm
  cases ho : N.opt with
  | false =>
    rw [ho] at key
    refine ⟨2 * k, 2 * k + 1, rfl, rfl, key _ _ (by simp only [busWidth]; simp; omega) ?_ ⟨(some (2 * k), _), List.mem_cons_self, rfl⟩,
      key _ _ (by simp only [busWidth]; simp; omega) ?_ ⟨(some (2 * k + 1), _), List.mem_cons_of_mem _ List.mem_cons_self, rfl⟩, by simp⟩
    all_goals
      intro j hj hN w hw
      simp only [busWrites, busNode, plainNode, Bool.false_eq_true, if_false, List.append_nil, List.mem_cons, List.not_mem_nil,
        or_false] at hw
      rcases hw with rfl | rfl
    · exact ⟨_, rfl, fun e => by have : j = k := by omega
                                 subst this; rfl⟩
    · exact ⟨_, rfl, fun e => by omega⟩
    · exact ⟨_, rfl, fun e => by omega⟩
    · exact ⟨_, rfl, fun e => by have : j = k := by omega
                                 subst this; rfl⟩
  | true =>
    rw [ho] at key
    refine ⟨4 * k, 4 * k + 1, rfl, rfl, key _ _ (by simp only [busWidth]; simp; omega) ?_ ⟨(some (4 * k), _), List.mem_cons_self, rfl⟩,
      key _ _ (by simp only [busWidth]; simp; omega) ?_ ⟨(some (4 * k + 1), _), List.mem_cons_of_mem _ List.mem_cons_self, rfl⟩,
      fun _ => ⟨4 * k + 2, rfl, key _ _ (by simp only [busWidth]; simp; omega) ?_
        ⟨(some (4 * k + 2), _), List.mem_cons_of_mem _ (List.mem_cons_of_mem _ List.mem_cons_self), rfl⟩⟩⟩
    all_goals
      intro j hj hN w hw
      simp only [busWrites, busNode, optNode, if_true, List.mem_append, List.mem_cons, List.not_mem_nil, or_false] at hw
      rcases hw with (rfl | rfl) | (rfl | rfl)
    · exact ⟨_, rfl, fun e => by have : j = k := by omega
                                 subst this; rfl⟩
    · exact ⟨_, rfl, fun e => by omega⟩
    · exact ⟨_, rfl, fun e => by omega⟩
    · exact ⟨_, rfl, fun e => by omega⟩
    · exact ⟨_, rfl, fun e => by omega⟩
    · exact ⟨_, rfl, fun e => by have : j = k := by omega
                                 subst this; rfl⟩
    · exact ⟨_, rfl, fun e => by omega⟩
    · exact ⟨_, rfl, fun e => by omega⟩
    · exact ⟨_, rfl, fun e => by omega⟩
    · exact ⟨_, rfl, fun e => by omega⟩
    · exact ⟨_, rfl, fun _ => rfl⟩
    · exact ⟨_, rfl, fun _ => rfl⟩

/-- **C57 fails for the second multiplier.** In optimization mode no start vector of any network sets it: it is 0 at every
bus. -/
theorem C57_second_multiplier_fails {L : Library} (hL : L.Loaded) (N : Network) (ho : N.opt = true) (flat : Bool)
    (buses : List (ℝ × ℝ)) (gens : List Generator) (slacks : List (ℝ × ℝ)) {k : ℕ} (hk : k < N.buses) :
    ∃ l, (nodeAt (N.assign L).nodes (some k)).li = some l ∧ txInit L N flat buses gens slacks l = 0 := by
  rw [assign_nodeAt L N hk, ho]
  refine ⟨4 * k + 3, rfl, ?_⟩
  rw [txInit_bus hL N flat gens slacks (by simp only [busWidth, ho]; simp; omega)]
  rw [writeAll_keep]
  intro w hw
  obtain ⟨j, hj, hN, hm⟩ := mem_busWrites hw
  simp only [ho, busWrites, busNode, optNode, if_true, List.mem_append, List.mem_cons, List.not_mem_nil, or_false] at hm
  rcases hm with (rfl | rfl) | (rfl | rfl) <;> exact ⟨_, rfl, by omega⟩

/-- **C57, distribution networks.** The entries of every bus voltage hold its initial values. There is no flat start. -/
theorem C57_distribution_partial (L : Library) (N : Network) {buses : List (ℝ × ℝ)} (hb : buses.length = N.buses) {k : ℕ}
    (hk : k < N.buses) :
    ∃ r i, (nodeAt (N.assign L).nodes (some k)).vr = some r ∧ (nodeAt (N.assign L).nodes (some k)).vi = some i ∧
      dxInit L N buses r = (buses[k]'(hb ▸ hk)).1 ∧ dxInit L N buses i = (buses[k]'(hb ▸ hk)).2 := by
  rw [assign_nodeAt L N hk]
  have h := (dxInit_range N.opt buses 0 (fun _ => 0) fun _ _ => rfl).2.1 k (hb ▸ hk)
  have e : dxInit L N buses = (((List.range' 0 buses.length).map (busNode N.opt)).zip buses).foldl
        (fun v b => keepAt (keepAt v b.1.vr b.2.1) b.1.vi b.2.2) fun _ => 0 := by
    unfold dxInit; rw [assign_nodes, hb]
  rw [Nat.zero_add, ← e] at h
  exact ⟨busWidth N.opt * k, busWidth N.opt * k + 1, by cases N.opt <;> rfl, by cases N.opt <;> rfl, h⟩

/-- **C57 fails for distribution networks in optimization mode**: the start value of both multipliers is 0 at every bus of every
network. -/
theorem C57_distribution_multipliers_fails (L : Library) (N : Network) (ho : N.opt = true) {buses : List (ℝ × ℝ)}
    (hb : buses.length = N.buses) {k : ℕ} (hk : k < N.buses) :
    ∃ l l', (nodeAt (N.assign L).nodes (some k)).lr = some l ∧ (nodeAt (N.assign L).nodes (some k)).li = some l' ∧
      dxInit L N buses l = 0 ∧ dxInit L N buses l' = 0 := by
  rw [assign_nodeAt L N hk]
  have h := (dxInit_range N.opt buses 0 (fun _ => 0) fun _ _ => rfl).2.2
  have e : dxInit L N buses = (((List.range' 0 buses.length).map (busNode N.opt)).zip buses).foldl
        (fun v b => keepAt (keepAt v b.1.vr b.2.1) b.1.vi b.2.2) fun _ => 0 := by
    unfold dxInit; rw [assign_nodes, hb]
  rw [← e, ho] at h
  simp only [busWidth, if_true] at h
  rw [ho]
  exact ⟨4 * k + 2, 4 * k + 3, rfl, rfl, h _ (by omega), h _ (by omega)⟩

/-- Two buses and a generator in optimization mode: from given values the first bus starts at its own voltage and the second
multiplier of the second bus at 0. -/
example {L : Library} (hL : L.Loaded) :
    let N : Network := ⟨2, [.slack 0 1 0, .generator 1 (-1) 1], some .L2⟩
    (∃ r, (nodeAt (N.assign L).nodes (some 0)).vr = some r ∧
      txInit L N false [(1.05, 0.1), (1, -0.2)] [⟨-1, 1, 0, 1, -1⟩] [(0, 0)] r = 1.05) ∧
    ∃ l, (nodeAt (N.assign L).nodes (some 1)).li = some l ∧
      txInit L N false [(1.05, 0.1), (1, -0.2)] [⟨-1, 1, 0, 1, -1⟩] [(0, 0)] l = 0 := by
  intro N
  obtain ⟨r, i, h1, -, h2, -⟩ := C57_bus_entries_partial hL N false (buses := [(1.05, 0.1), (1, -0.2)]) rfl
    [⟨-1, 1, 0, 1, -1⟩] [(0, 0)] (k := 0) (by decide)
  exact ⟨⟨r, h1, h2⟩, C57_second_multiplier_fails hL N rfl false _ _ _ (by decide)⟩

/-- Two buses of a three-phase network. -/
example (L : Library) : ∃ r, (nodeAt (Network.assign L ⟨2, [.slack 0 100 0], none⟩).nodes (some 1)).vr = some r ∧
    dxInit L ⟨2, [.slack 0 100 0], none⟩ [(100, 0), (99, 1)] r = 99 := by
  obtain ⟨r, i, h1, -, h2, -⟩ := C57_distribution_partial L ⟨2, [.slack 0 100 0], none⟩ (buses := [(100, 0), (99, 1)]) rfl (k := 1) (by show 1 < 2; omega)
  exact ⟨r, h1, h2⟩

end Verif
