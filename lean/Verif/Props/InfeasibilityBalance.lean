import Verif.Spec.InfeasibilityBalance
import Verif.Props.Balance
import Verif.Props.Infeasibility

/-!
# C136: infeasibility currents bring in exactly the power that is missing
-/

namespace Verif

open Ex Devices ComplexConjugate

variable {L : Library}

/-- The rows of the plain equations are the bus sums and the laws, whatever their values. -/
theorem rows_split (hL : L.Loaded) (N : Network) (ho : N.optimization = none) (t : ℝ) (v : ℕ → ℝ) (g : ℕ → ℝ)
    (hg : ∀ i, networkEq (N.assign L).all t v i = g i) (hh : ∀ i, 2 * N.buses ≤ i → g i = 0) :
    let V := (N.assign L).voltages v
    let es := (N.assign L).owned L N v
    (∀ k < N.buses, busSum k (es.flatMap fun x => x.1.draws t V x.2) = ⟨g (2 * k), g (2 * k + 1)⟩) ∧
    ∀ x ∈ es, ∀ z ∈ x.1.laws t V x.2, z = 0 := by
  intro V es
  set D := es.flatMap fun x => x.1.draws t V x.2
  set W := es.flatMap fun x => x.1.laws t V x.2 with hW
  have h' : ∀ i, networkEq (N.assign L).all t v i = drawRow ((List.range' 0 N.buses).map plainNode) D i + lawRow (2 * N.buses) W i :=
    fun i => network_total hL N ho t v i
  refine ⟨fun k hk => ?_, fun x hx z hz => ?_⟩
  · obtain ⟨b1, b2⟩ := drawRow_bus N.buses k hk D
    have z1 := hg (2 * k)
    have z2 := hg (2 * k + 1)
    rw [h', b1] at z1
    rw [h', b2] at z2
    unfold lawRow at z1 z2
    rw [if_neg (by omega), add_zero] at z1
    rw [if_neg (by omega), add_zero] at z2
    exact Complex.ext z1 z2
  · have hz' : z ∈ W := by rw [hW]; exact List.mem_flatMap.2 ⟨x, hx, hz⟩
    obtain ⟨k, hk, rfl⟩ := List.getElem_of_mem hz'
    have z1 := hg (2 * N.buses + k)
    rw [hh _ (by omega), h', drawRow_high _ _ (by omega), zero_add] at z1
    unfold lawRow at z1
    rw [if_pos (by omega), Nat.add_sub_cancel_left, List.getD_eq_getElem?_getD, List.getElem?_eq_getElem hk] at z1
    exact z1

/-- **C136 in full.** At every solution of an infeasibility analysis, the complex power delivered by slacks, generators and voltage sources together with the
power the infeasibility currents bring in at the buses is the power the loads are specified to take plus the power taken by the admittances of the equipment. -/
theorem C136_balance (hL : L.Loaded) (N : Network) (hv : N.Valid) (o : OptKind) (ho : N.optimization = some o) (v : ℕ → ℝ) (h : N.Solved L 0 v)
    (hr : ∀ e ∈ N.elements, e.RegularAt 0 ((N.plain.assign L).voltages (N.primal v))) :
    let V := (N.plain.assign L).voltages (N.primal v)
    let es := (N.plain.assign L).owned L N.plain (N.primal v)
    (es.map fun x => x.1.delivers x.2).sum + ∑ k ∈ Finset.range N.buses, N.broughtIn o V v k =
      (es.map fun x => x.1.demands V).sum + (es.map fun x => x.1.loses V x.2).sum := by
  intro V es
  obtain ⟨hb, hl⟩ := rows_split hL N.plain rfl 0 (N.primal v) (fun r => -N.injection o v r) (C20_residual hL N o ho 0 v h) (by
    intro i hi
    have hi : 2 * N.buses ≤ i := hi
    unfold Network.injection
    rw [if_neg (by omega), neg_zero])
  have h0 : V none = 0 := rfl
  have hmem : ∀ x ∈ es, x.1 ∈ N.elements := fun x hx => by
    show x.1 ∈ N.plain.elements
    rw [← owned_fst (L := L) N.plain (N.primal v)]; exact List.mem_map_of_mem hx
  have hT := tellegen N.buses V h0 (es.flatMap fun x => x.1.draws 0 V x.2) (by
    intro d hd
    obtain ⟨x, hx, hd⟩ := List.mem_flatMap.1 hd
    exact draws_valid 0 V x.2 x.1 (hv _ (hmem x hx)) d hd)
  rw [Finset.sum_congr rfl (g := fun k => N.broughtIn o V v k) (fun k hk => by
    rw [show busSum k _ = _ from hb k (Finset.mem_range.1 hk)]
    unfold Network.broughtIn
    congr 2)] at hT
  rw [balance_sum_flatMap] at hT
  have hS : (es.map fun x => intake V x.2 x.1).sum = ∑ k ∈ Finset.range N.buses, N.broughtIn o V v k := hT
  have : es.map (fun x => intake V x.2 x.1) = es.map fun x => x.1.demands V + x.1.loses V x.2 - x.1.delivers x.2 :=
    List.map_congr_left fun x hx => element_intake h0 (hl x hx) (hr _ (hmem x hx))
  rw [this, sum_parts] at hS
  linear_combination -hS

/-- **C136, shortage.** If no resistance of the equipment is negative, the real power the infeasibility currents bring in is at least the real power demanded that is
not delivered. -/
theorem C136_shortage (hL : L.Loaded) (N : Network) (hv : N.Valid) (o : OptKind) (ho : N.optimization = some o) (v : ℕ → ℝ) (h : N.Solved L 0 v)
    (hr : ∀ e ∈ N.elements, e.RegularAt 0 ((N.plain.assign L).voltages (N.primal v))) (hp : ∀ e ∈ N.elements, e.Passive) :
    let V := (N.plain.assign L).voltages (N.primal v)
    let es := (N.plain.assign L).owned L N.plain (N.primal v)
    (es.map fun x => (x.1.demands V).re).sum - (es.map fun x => (x.1.delivers x.2).re).sum ≤ ∑ k ∈ Finset.range N.buses, (N.broughtIn o V v k).re := by
  intro V es
  have h := congrArg Complex.re (C136_balance hL N hv o ho v h hr)
  rw [Complex.add_re, Complex.add_re, sum_re, sum_re, sum_re, Complex.re_sum] at h
  have hn : 0 ≤ (es.map fun x => (x.1.loses V x.2).re).sum := by
    refine List.sum_nonneg fun z hz => ?_
    obtain ⟨x, hx, rfl⟩ := List.mem_map.1 hz
    exact loses_re (hp _ (by
      show x.1 ∈ N.plain.elements
      rw [← owned_fst (L := L) N.plain (N.primal v)]; exact List.mem_map_of_mem hx))
  have h' : (es.map fun x => (x.1.delivers x.2).re).sum + ∑ k ∈ Finset.range N.buses, (N.broughtIn o V v k).re =
      (es.map fun x => (x.1.demands V).re).sum + (es.map fun x => (x.1.loses V x.2).re).sum := h
  linarith

/-- The load without a source: the infeasibility current brings in the whole watt the load takes. -/
theorem loadOnly_broughtIn (hL : L.Loaded) :
    (loadOnly (some .L2)).broughtIn .L2 (((loadOnly none).assign L).voltages ((loadOnly (some .L2)).primal loadOnlyVec)) loadOnlyVec 0 = 1 := by
  have h := C136_balance hL (loadOnly (some .L2)) (loadOnly_valid _) .L2 rfl loadOnlyVec (loadOnly_solved hL 0) (by
    intro e he; simp [loadOnly] at he; subst he; exact Or.inl ⟨rfl, rfl⟩)
  have hV : ((loadOnly none).assign L).voltages ((loadOnly (some .L2)).primal loadOnlyVec) (some 0) = 1 := rfl
  have hV0 : ((loadOnly none).assign L).voltages ((loadOnly (some .L2)).primal loadOnlyVec) none = 0 := rfl
  have hes : ((loadOnly none).assign L).owned L (loadOnly none) ((loadOnly (some .L2)).primal loadOnlyVec) =
    [(.load (some 0) none ⟨0, 0, 0, 1, 0⟩, [])] := rfl
  rw [show (loadOnly (some .L2)).plain = loadOnly none from rfl, hes, show (loadOnly (some .L2)).buses = 1 from rfl] at h
  dsimp only at h
  rw [Finset.sum_range_one] at h
  simp only [List.map_cons, List.map_nil, List.sum_cons, List.sum_nil, Element.delivers, Element.demands, Element.loses, hV, hV0, takes] at h
  have e1 : (⟨0, 0⟩ : ℂ) = 0 := rfl
  have e2 : (⟨1, 0⟩ : ℂ) = 1 := rfl
  rw [e1, e2] at h
  simpa using h

/-- Beside `C136_balance` and `C136_shortage`: the shortage of this network is one watt, and it is brought in. -/
example (hL : L.Loaded) :
    (((loadOnly none).assign L).owned L (loadOnly none) ((loadOnly (some .L2)).primal loadOnlyVec) |>.map fun x =>
      (x.1.demands (((loadOnly none).assign L).voltages ((loadOnly (some .L2)).primal loadOnlyVec))).re).sum -
    (((loadOnly none).assign L).owned L (loadOnly none) ((loadOnly (some .L2)).primal loadOnlyVec) |>.map fun x => (x.1.delivers x.2).re).sum ≤ 1 := by
  have hs := C136_shortage hL (loadOnly (some .L2)) (loadOnly_valid _) .L2 rfl loadOnlyVec (loadOnly_solved hL 0) (by
    intro e he; simp [loadOnly] at he; subst he; exact Or.inl ⟨rfl, rfl⟩) (by
    intro e he; simp [loadOnly] at he; subst he; trivial)
  have hb := loadOnly_broughtIn hL
  rw [show (loadOnly (some .L2)).plain = loadOnly none from rfl, show (loadOnly (some .L2)).buses = 1 from rfl] at hs
  dsimp only at hs
  rw [Finset.sum_range_one, hb] at hs
  exact hs

/-- **C136 fails for the reported totals.** Powers reported for infeasibility currents should be the power brought in. One watt is brought in at a bus without a source,
and the totals reported are zero: the product of the real parts is reported as real power, with the sign of a load, and negative products are cut off
(`powerflowresults.py` 171-191). -/
theorem C136_reported_fails (hL : L.Loaded) :
    ∃ N : Network, N.Valid ∧ N.optimization = some .L2 ∧ ∃ v, N.Solved L 0 v ∧
      ∑ k ∈ Finset.range N.buses, N.broughtIn .L2 ((N.plain.assign L).voltages (N.primal v)) v k = 1 ∧
      infTotals N (N.assign L) v = some (0, 0) := by
  refine ⟨loadOnly (some .L2), loadOnly_valid _, rfl, loadOnlyVec, loadOnly_solved hL 0, ?_, ?_⟩
  · rw [show (loadOnly (some .L2)).buses = 1 from rfl, Finset.sum_range_one]
    exact loadOnly_broughtIn hL
  · have hV : ((loadOnly (some .L2)).assign L).voltages loadOnlyVec (some 0) = 1 := rfl
    have hI : (loadOnly (some .L2)).injection .L2 loadOnlyVec 0 = -1 := rfl
    have hI1 : (loadOnly (some .L2)).injection .L2 loadOnlyVec 1 = 0 := rfl
    rw [C35_totals_formula_partial hL _ .L2 rfl]
    have hB : (loadOnly (some .L2)).buses = 1 := rfl
    have c1 : cutSmall (-1) = 0 := by unfold cutSmall; rw [if_pos (by norm_num)]
    have c0 : cutSmall 0 = 0 := by unfold cutSmall; rw [if_pos (by norm_num)]
    simp [hB, hV, hI, hI1, OptKind.reportedSign, c1, c0]

end Verif
