import Verif.Lemmas.Units
import Verif.Props.Symmetry

/-!
# C134: the units a circuit is written in do not matter
-/

namespace Verif

open Ex Devices

variable {L : Library}

/-- **C134, what holds.** If all voltages are written as `a` times and all admittances as `k` times as large numbers, currents and powers accordingly, the
solutions are the same solutions in the new units, at every homotopy factor. Missing: fuses if admittances are written in other numbers, see
`C134_fuse_fails`. -/
theorem C134_solutions_partial (hL : L.Loaded) (N : Network) (hp : N.optimization = none) {a k : ℝ} (ha : a ≠ 0) (hN : k = 1 ∨ ∀ e ∈ N.elements, e.NoFuse)
    (t : ℝ) (v : ℕ → ℝ) (hz : ∀ i, networkEq (N.assign L).all t v i = 0) :
    ∃ v', (∀ i, networkEq ((N.rebase a k).assign L).all t v' i = 0) ∧
      (∀ b, ((N.rebase a k).assign L).voltages v' (some b) = a * (N.assign L).voltages v (some b)) ∧
      ((N.rebase a k).assign L).owned L (N.rebase a k) v' = ((N.assign L).owned L N v).map fun x => (x.1.rebase a k, x.1.rebaseOwn a k x.2) := by
  have hk := (C67_equations_are_kirchhoff hL N hp t v).1 hz
  have hw := owned_widths (L := L) N hp v
  have hmem : ∀ x ∈ (N.assign L).owned L N v, x.1 ∈ N.elements := fun x hx => by
    rw [← owned_fst (L := L) N v]; exact List.mem_map_of_mem hx
  obtain ⟨v', h1, h2⟩ := exists_values hL (N.rebase a k) hp (fun b => a * (N.assign L).voltages v (some b))
    (((N.assign L).owned L N v).map fun x => (x.1.rebase a k, x.1.rebaseOwn a k x.2)) (by
      show _ = N.elements.map (Element.rebase a k)
      rw [← owned_fst (L := L) N v, List.map_map, List.map_map]; rfl) (by
      intro x hx
      obtain ⟨y, hy, rfl⟩ := List.mem_map.1 hx
      rw [rebaseOwn_length _ _ _ _ (hw y hy), rebase_laws_length]
      exact hw y hy)
  have hV : ∀ b, ((N.rebase a k).assign L).voltages v' (some b) = a * (N.assign L).voltages v (some b) := fun b => by
    by_cases hlt : b < N.buses
    · exact h1 b hlt
    · rw [voltages_out N v (not_lt.1 hlt), voltages_out (N.rebase a k) v' (not_lt.1 hlt), mul_zero]
  refine ⟨v', (C67_equations_are_kirchhoff hL (N.rebase a k) hp t v').2 ?_, hV, h2⟩
  rw [h2]
  exact kirchhoff_rebase ha N.buses t _ _ (fun r => by cases r with
    | none => exact (mul_zero (a : ℂ)).symm
    | some b => exact hV b) _ (hN.imp id fun h x hx => h x.1 (hmem x hx)) hw hk

/-- **C134, the results.** Every result is the same in the new units: bus voltages and their magnitudes, the powers of generators and slacks, and the
powers of loads. -/
theorem C134_results_partial (hL : L.Loaded) (N : Network) (hp : N.optimization = none) {a k : ℝ} (ha : 0 < a) (hN : k = 1 ∨ ∀ e ∈ N.elements, e.NoFuse)
    (infos : List BusInfo) (success : Bool) (v : ℕ → ℝ) (hz : ∀ i, networkEq (N.assign L).all 0 v i = 0) :
    ∃ v', (∀ i, networkEq ((N.rebase a k).assign L).all 0 v' i = 0) ∧
      let R := Results.make N infos (N.assign L) success v
      let R' := Results.make (N.rebase a k) infos ((N.rebase a k).assign L) success v'
      (R'.buses.map fun b => (b.bus, b.mag, b.V)) = (R.buses.map fun b => (b.bus, a * b.mag, (a : ℂ) * b.V)) ∧
      R'.generators = R.generators.map (fun g => { g with P := a ^ 2 * k * g.P, Q := a ^ 2 * k * g.Q }) ∧
      R'.loads = R.loads.map fun l => { l with P := a ^ 2 * k * l.P, Q := a ^ 2 * k * l.Q } := by
  obtain ⟨v', h1, h2, h3⟩ := C134_solutions_partial hL N hp ha.ne' hN 0 v hz
  have hopt : N.opt = false := by simp [Network.opt, hp]
  have hopt' : (N.rebase a k).opt = false := hopt
  have hw := owned_widths (L := L) N hp v
  refine ⟨v', h1, ?_, ?_, ?_⟩
  · show ((busResults infos (N.rebase a k).opt _ v').map _) = (busResults infos N.opt _ v).map _
    have hnodes : ((N.rebase a k).assign L).nodes = (N.assign L).nodes := rfl
    rw [hnodes, hopt, hopt']
    unfold busResults
    rw [List.map_filterMap, List.map_filterMap]
    refine List.filterMap_congr fun x hx => ?_
    obtain ⟨⟨i, n⟩, b⟩ := x
    rw [List.mem_zipIdx_iff_getElem?, List.getElem?_zip_eq_some] at hx
    have hn : ∀ (M : Network) (x : ℕ → ℝ), (M.assign L).nodes[b]? = some n →
        (M.assign L).voltages x (some b) = ⟨readIdx x n.vr, readIdx x n.vi⟩ := fun M x hn => by
      show ((M.assign L).nodes.getD b Node.ground).volt x = _
      rw [List.getD_eq_getElem?_getD, hn]; rfl
    have e := h2 b
    rw [hn N v hx.2, hn (N.rebase a k) v' hx.2] at e
    dsimp only
    cases i.virtual with
    | true => rfl
    | false =>
      simp only [Bool.false_eq_true, if_false, Option.map_some, BusResult.make, Option.some.injEq, Prod.mk.injEq, true_and]
      refine ⟨?_, e⟩
      rw [e, norm_mul, Complex.norm_real, Real.norm_of_nonneg ha.le]
  · have e : ∀ M : Network, M.optimization = none → ∀ x, (Results.make M infos (M.assign L) success x).generators =
        pvResults M (M.assign L) x ++ slackResults M (M.assign L) x := fun M hM x => by
      show (_ ++ _ ++ (match M.optimization with
        | none => []
        | some k => infResults k (M.assign L) x)) = _
      rw [hM, List.append_nil]
    rw [e N hp, e (N.rebase a k) hp, List.map_append, pvResults_eq L, pvResults_eq L, slackResults_eq L, slackResults_eq L, h3, List.filterMap_map, List.filterMap_map,
      List.map_filterMap, List.map_filterMap]
    congr 1
    · refine List.filterMap_congr fun x hx => ?_
      have hl := hw x hx
      obtain ⟨x, w⟩ := x
      cases x with
      | generator b P Vset =>
        obtain ⟨q, rfl⟩ := List.length_eq_one_iff.1 hl
        rfl
      | _ => rfl
    · refine List.filterMap_congr fun x hx => ?_
      have hl := hw x hx
      obtain ⟨x, w⟩ := x
      cases x with
      | slack b vr vi =>
        obtain ⟨p, q, rfl⟩ := length_two hl
        simp only [Function.comp, Element.rebase, Element.rebaseOwn, Element.ownFactors, List.zipWith, pairAt, h2, Option.map_some, Option.some.injEq]
        simp only [List.getD_cons_zero, zero_add, List.getD_cons_succ, Complex.re_ofReal_mul, Complex.im_ofReal_mul]
        congr 1 <;> ring
      | _ => rfl
  · show loadResults (N.rebase a k) = (loadResults N).map _
    unfold loadResults Network.rebase
    rw [List.filterMap_map, List.map_filterMap]
    congr 1
    funext e
    cases e <;> rfl

theorem ex_noFuse : ∀ e ∈ exNet.elements, e.NoFuse := by
  intro e he; simp [exNet] at he; rcases he with rfl | rfl | rfl <;> trivial

/-- The network of C67 with voltages in tenths and admittances in thirds. -/
example (hL : L.Loaded) := C134_solutions_partial hL exNet rfl (a := 10) (k := 3) (by norm_num) (.inr ex_noFuse) 0 exVec
  ((C67_equations_are_kirchhoff hL exNet rfl 0 exVec).2 (exNet_kirchhoff hL))

example (hL : L.Loaded) := C134_results_partial hL exNet rfl (a := 10) (k := 3) (by norm_num) (.inr ex_noFuse) [⟨false, 1⟩, ⟨false, 1⟩] true exVec
  ((C67_equations_are_kirchhoff hL exNet rfl 0 exVec).2 (exNet_kirchhoff hL))

/-! ### Fuses -/

/-- A fuse before a shunt. -/
noncomputable def fusedShunt (g : ℝ) : Network := ⟨3, [.slack 0 1 0, .fuse (some 0) (some 1) (some 2), .shunt 2 g g], none⟩

theorem fusedShunt_rebase : (fusedShunt 10000).rebase 1 2 = fusedShunt 20000 := by
  simp only [fusedShunt, Network.rebase, Element.rebase, List.map_cons, List.map_nil, one_mul]
  norm_num

theorem fusedShunt_kirchhoff (g x : ℝ) (hg : 0 ≤ g) (hx : x * (10000 + g) = 10000) (V : Ref → ℂ) (w u : List ℝ) :
    Kirchhoff 3 0 V [(.slack 0 1 0, w), (.fuse (some 0) (some 1) (some 2), u), (.shunt 2 g g, [])] ↔
      V (some 0) = 1 ∧ V (some 1) = x ∧ V (some 2) = x ∧ pairAt w 0 = -(⟨1, 1⟩ * (g * x)) ∧ pairAt u 0 = ⟨1, 1⟩ * (g * x) := by
  have e1 : (⟨1, 0⟩ : ℂ) = 1 := by apply Complex.ext <;> simp
  have eg : ∀ g : ℝ, (⟨g, g⟩ : ℂ) = ⟨1, 1⟩ * g := fun g => by apply Complex.ext <;> simp
  have ef : (⟨10000, 10000⟩ : ℂ) = ⟨1, 1⟩ * 10000 := by rw [eg]; norm_num
  have hy : (⟨1, 1⟩ : ℂ) ≠ 0 := fun h => one_ne_zero (congrArg Complex.re h)
  have hs : stiff 0 10000 10000 = (⟨1, 1⟩ : ℂ) * 10000 := by rw [← ef]; simp [stiff]
  have hf : faded 0 g g = (⟨1, 1⟩ : ℂ) * g := by rw [← eg]; simp [faded]
  have hne : (10000 + g : ℂ) ≠ 0 := by
    have : (10000 + g : ℝ) ≠ 0 := by positivity
    exact_mod_cast this
  have hxc : (x : ℂ) * (10000 + g) = 10000 := by exact_mod_cast hx
  constructor
  · rintro ⟨h1, h2⟩
    have hb := h2 _ (List.mem_cons_self ..)
    have hc := h2 _ (List.mem_cons_of_mem _ (List.mem_cons_self ..))
    have hV : V (some 0) = 1 := by
      have a := hb _ (List.mem_cons_self ..)
      have b := hb _ (List.mem_cons_of_mem _ (List.mem_cons_self ..))
      have : V (some 0) - ⟨1, 0⟩ = 0 := Complex.ext a b
      rw [e1] at this
      exact sub_eq_zero.1 this
    have hW : V (some 1) = V (some 2) := by
      have a := hc _ (List.mem_cons_self ..)
      have b := hc _ (List.mem_cons_of_mem _ (List.mem_cons_self ..))
      have : -(V (some 1) - V (some 2)) = 0 := Complex.ext a b
      exact sub_eq_zero.1 (neg_eq_zero.1 this)
    have k0 := h1 0 (by norm_num)
    have k1 := h1 1 (by norm_num)
    have k2 := h1 2 (by norm_num)
    simp [Element.draws, branch, hs, hf] at k0 k1 k2
    rw [hV] at k0 k1
    have h3 : V (some 2) = x := by
      have : (⟨1, 1⟩ : ℂ) * ((10000 + g) * (V (some 2) - x)) = 0 := by
        rw [hW] at k1
        linear_combination k1 + k2 - (⟨1, 1⟩ : ℂ) * hxc
      exact sub_eq_zero.1 ((mul_eq_zero.1 ((mul_eq_zero.1 this).resolve_left hy)).resolve_left hne)
    rw [hW, h3] at k0
    rw [h3] at k2
    refine ⟨hV, hW.trans h3, h3, ?_, ?_⟩
    · linear_combination k0 + (⟨1, 1⟩ : ℂ) * hxc
    · linear_combination -k2
  · rintro ⟨h0, h1, h2, h3, h4⟩
    constructor
    · intro k hk
      interval_cases k <;> simp [Element.draws, branch, hs, hf, h0, h1, h2, h3, h4]
      · linear_combination -(⟨1, 1⟩ : ℂ) * hxc
      · linear_combination (⟨1, 1⟩ : ℂ) * hxc
      all_goals ring
    · intro y hy z hz
      simp only [List.mem_cons, List.not_mem_nil, or_false] at hy
      rcases hy with rfl | rfl | rfl
      · simp only [Element.laws, both, h0, e1, sub_self, List.mem_cons, List.not_mem_nil, or_false] at hz
        rcases hz with rfl | rfl <;> rfl
      · simp only [Element.laws, both, h1, h2, sub_self, neg_zero, List.mem_cons, List.not_mem_nil, or_false] at hz
        rcases hz with rfl | rfl <;> rfl
      · simp [Element.laws] at hz

/-- **C134 fails for fuses.** A fuse has a fixed series admittance of 10000 in whatever unit the admittances of the network are, so the same circuit with
admittances written twice as large has another solution: half the voltage of the slack behind the fuse in one case, a third in the other. -/
theorem C134_fuse_fails (hL : L.Loaded) : ∃ N : Network, N.optimization = none ∧
    (∃ v, ∀ i, networkEq (N.assign L).all 0 v i = 0) ∧ (∃ v, ∀ i, networkEq ((N.rebase 1 2).assign L).all 0 v i = 0) ∧
    (∀ v, (∀ i, networkEq (N.assign L).all 0 v i = 0) → (N.assign L).voltages v (some 2) = (1 / 2 : ℝ)) ∧
    ∀ v, (∀ i, networkEq ((N.rebase 1 2).assign L).all 0 v i = 0) → ((N.rebase 1 2).assign L).voltages v (some 2) = (1 / 3 : ℝ) := by
  have key : ∀ g x : ℝ, 0 ≤ g → x * (10000 + g) = 10000 → (∃ v, ∀ i, networkEq ((fusedShunt g).assign L).all 0 v i = 0) ∧
      ∀ v, (∀ i, networkEq ((fusedShunt g).assign L).all 0 v i = 0) → ((fusedShunt g).assign L).voltages v (some 2) = x := by
    intro g x hg hx
    constructor
    · obtain ⟨v, h1, h2⟩ := exists_values hL (fusedShunt g) rfl (fun b => if b = 0 then 1 else x)
        [(.slack 0 1 0, [-(g * x), -(g * x)]), (.fuse (some 0) (some 1) (some 2), [g * x, g * x]), (.shunt 2 g g, [])] rfl (by
          intro x hx
          simp only [List.mem_cons, List.not_mem_nil, or_false] at hx
          rcases hx with rfl | rfl | rfl <;> rfl)
      refine ⟨v, (C67_equations_are_kirchhoff hL (fusedShunt g) rfl 0 v).2 ?_⟩
      rw [h2]
      refine (fusedShunt_kirchhoff g x hg hx _ _ _).2 ⟨?_, ?_, ?_, ?_, ?_⟩
      · rw [h1 0 (by simp [fusedShunt])]; rfl
      · rw [h1 1 (by simp [fusedShunt])]; rfl
      · rw [h1 2 (by simp [fusedShunt])]; rfl
      · apply Complex.ext <;> simp [pairAt]
      · apply Complex.ext <;> simp [pairAt]
    · intro v hv
      have hk := (C67_equations_are_kirchhoff hL (fusedShunt g) rfl 0 v).1 hv
      obtain ⟨w, u, hw⟩ : ∃ w u, ((fusedShunt g).assign L).owned L (fusedShunt g) v =
        [(.slack 0 1 0, w), (.fuse (some 0) (some 1) (some 2), u), (.shunt 2 g g, [])] := ⟨_, _, rfl⟩
      rw [hw] at hk
      exact ((fusedShunt_kirchhoff g x hg hx _ w u).1 hk).2.2.1
  refine ⟨fusedShunt 10000, rfl, (key _ (1 / 2) (by norm_num) (by norm_num)).1, ?_, fun v hv => ?_, ?_⟩
  · rw [fusedShunt_rebase]; exact (key _ (1 / 3) (by norm_num) (by norm_num)).1
  · exact (key _ (1 / 2) (by norm_num) (by norm_num)).2 v hv
  · rw [fusedShunt_rebase]
    intro v hv
    exact (key _ (1 / 3) (by norm_num) (by norm_num)).2 v hv

end Verif
