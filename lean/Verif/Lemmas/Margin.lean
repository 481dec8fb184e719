import Verif.Spec.Margin
import Verif.Lemmas.Light
import Verif.Props.Unique

/-! Currents instead of constant powers. -/

namespace Verif

open Ex ComplexConjugate

variable {L : Library}

/-- Row `i` of a current `z` at the terminals of a load. -/
def Element.inject (nodes : List Node) (z : ℂ) (i : ℕ) : Element → ℝ
  | .load f u _ => nodeRow (nodeAt nodes f) z i - nodeRow (nodeAt nodes u) z i
  | _ => 0

theorem nodeRow_sub (n : Node) (z w : ℂ) (i : ℕ) : nodeRow n (z - w) i = nodeRow n z i - nodeRow n w i := by
  rw [sub_eq_add_neg, nodeRow_add, nodeRow_neg]; ring

theorem withCurrent_place (hL : L.Loaded) (nodes : List Node) (e : Element) (n : ℕ) (v : ℕ → ℝ) (c : ℂ) :
    ((e.withCurrent c).place L false nodes n).2 = (e.place L false nodes n).2 ∧
    ∀ i, rowTotal (((e.withCurrent c).place L false nodes n).1.flatMap fun p => p.equations 0 v) i =
      rowTotal ((e.place L false nodes n).1.flatMap fun p => p.equations 0 v) i +
        e.inject nodes (c - conj (e.power / e.across fun r => (nodeAt nodes r).volt v)) i := by
  cases e with
  | load f u l =>
    have h1 := place_kirchhoff hL nodes (Element.load f u l) n 0 v [] (by simp [Element.laws])
    have h2 := place_kirchhoff hL nodes (Element.load f u ⟨0, 0, l.Z, l.IP + c.re, l.IQ + c.im⟩) n 0 v [] (by simp [Element.laws])
    simp only [Element.laws, List.length_nil, add_zero] at h1 h2
    refine ⟨h2.1.trans h1.1.symm, fun i => ?_⟩
    show rowTotal (((Element.load f u ⟨0, 0, l.Z, l.IP + c.re, l.IQ + c.im⟩).place L false nodes n).1.flatMap _) i = _
    rw [h1.2 i, h2.2 i]
    have e0 : (⟨0, 0⟩ : ℂ) = 0 := rfl
    have e1 : (⟨l.IP + c.re, l.IQ + c.im⟩ : ℂ) = ⟨l.IP, l.IQ⟩ + c := by apply Complex.ext <;> simp
    simp only [Element.draws, drawRow_branch, Element.inject, Element.power, Element.across, nodeRow_neg, nodeRow_add, nodeRow_sub, e0, e1, zero_div, map_zero]
    have e2 : ∀ N : Node, nodeRow N 0 i = 0 := fun N => by unfold nodeRow; simp
    rw [e2, e2]
    ring
  | _ => exact ⟨rfl, fun i => by simp [Element.withCurrent, Element.inject]⟩

/-- Row `i` of the currents `z` at the terminals of the loads. -/
noncomputable def injections (nodes : List Node) (es : List Element) (z : ℕ → ℂ) (i : ℕ) : ℝ :=
  (es.mapIdx fun k e => e.inject nodes (z k) i).sum

theorem withCurrents_placeElements (hL : L.Loaded) (nodes : List Node) (es : List Element) (n : ℕ) (v : ℕ → ℝ) (c : ℕ → ℂ) :
    (placeElements L false nodes n (es.mapIdx fun k e => e.withCurrent (c k))).2 = (placeElements L false nodes n es).2 ∧
    ∀ i, networkEq (placeElements L false nodes n (es.mapIdx fun k e => e.withCurrent (c k))).1.flatten 0 v i =
      networkEq (placeElements L false nodes n es).1.flatten 0 v i +
        injections nodes es (fun k => c k - conj (((es[k]?.map Element.power).getD 0) / ((es[k]?.map (Element.across fun r => (nodeAt nodes r).volt v)).getD 0))) i := by
  induction es generalizing n c with
  | nil => exact ⟨rfl, fun i => by simp [placeElements, injections]⟩
  | cons e es ih =>
    obtain ⟨a1, a2⟩ := withCurrent_place hL nodes e n v (c 0)
    obtain ⟨c1, c2⟩ := ih (e.place L false nodes n).2 fun k => c (k + 1)
    simp only [placeElements, List.mapIdx_cons, a1, List.flatten_cons]
    refine ⟨c1, fun i => ?_⟩
    have split : ∀ a b : List Placed, networkEq (a ++ b) 0 v i = rowTotal (a.flatMap fun p => p.equations 0 v) i + networkEq b 0 v i := fun a b => by
      unfold networkEq
      rw [List.flatMap_append, rowTotal_append]
    rw [split, split, a2 i, c2 i]
    simp only [injections, List.mapIdx_cons, List.sum_cons, List.getElem?_cons_zero, List.getElem?_cons_succ, Option.map_some, Option.getD_some]
    ring

section
variable {N : Network} (ho : N.optimization = none)
include ho

theorem withCurrents_all (c : ℕ → ℂ) : ((N.withCurrents c).assign L).all =
    (placeElements L false (N.assign L).nodes (assignBuses false N.buses 0).2 (N.elements.mapIdx fun k e => e.withCurrent (c k))).1.flatten := by
  have hop : N.opt = false := by simp [Network.opt, ho]
  have hop' : (N.withCurrents c).opt = false := by simp [Network.opt, Network.withCurrents, ho]
  have ho' : (N.withCurrents c).optimization = none := ho
  unfold Assignment.all Network.assign
  simp only [ho', List.append_nil, hop, hop']
  rfl

theorem withCurrents_size (hL : L.Loaded) (c : ℕ → ℂ) : ((N.withCurrents c).assign L).size = (N.assign L).size := by
  have hop : N.opt = false := by simp [Network.opt, ho]
  have hop' : (N.withCurrents c).opt = false := by simp [Network.opt, Network.withCurrents, ho]
  have ho' : (N.withCurrents c).optimization = none := ho
  unfold Network.assign
  simp only [ho', ho, hop, hop']
  exact (withCurrents_placeElements hL _ N.elements _ (fun _ => 0) c).1

theorem withCurrents_equations (hL : L.Loaded) (c : ℕ → ℂ) (v : ℕ → ℝ) (i : ℕ) :
    networkEq ((N.withCurrents c).assign L).all 0 v i = networkEq (N.assign L).all 0 v i +
      injections (N.assign L).nodes N.elements (fun k => c k - conj (N.power k / N.across ((N.assign L).voltages v) k)) i := by
  rw [withCurrents_all ho, (plain_all ho 0).2]
  exact (withCurrents_placeElements hL _ N.elements _ v c).2 i

end

theorem withCurrents_voltages (N : Network) (c : ℕ → ℂ) (v : ℕ → ℝ) : ((N.withCurrents c).assign L).voltages v = (N.assign L).voltages v := rfl

theorem injections_none (nodes : List Node) (es : List Element) (i : ℕ) : injections nodes es (fun _ => 0) i = 0 := by
  unfold injections
  refine List.sum_eq_zero fun x hx => ?_
  obtain ⟨k, hk, rfl⟩ := List.mem_mapIdx.1 hx
  cases es[k] <;> simp [Element.inject, nodeRow]

/-- Where the fixed currents are those of the powers, a vector solves the network with the powers when it solves the one with the currents. -/
theorem solved_currents (hL : L.Loaded) {N : Network} (ho : N.optimization = none) {c : ℕ → ℂ} {x : ℕ → ℝ}
    (hc : ∀ k, c k = conj (N.power k / N.across ((N.assign L).voltages x) k)) : (N.withCurrents c).SolvedBy L x ↔ N.SolvedBy L x := by
  refine ((C67_equations_are_kirchhoff hL (N.withCurrents c) ho 0 x).symm.trans (forall_congr' fun i => ?_)).trans
    (C67_equations_are_kirchhoff hL N ho 0 x)
  rw [withCurrents_equations ho hL]
  have : (fun k => c k - conj (N.power k / N.across ((N.assign L).voltages x) k)) = fun _ => 0 := funext fun k => sub_eq_zero.2 (hc k)
  rw [this, injections_none, add_zero]

theorem withCurrents_zero (N : Network) : N.withCurrents (fun _ => 0) = N.factor 0 0 := by
  unfold Network.withCurrents Network.factor
  congr 1
  apply List.ext_getElem?
  intro k
  rw [List.getElem?_mapIdx, List.getElem?_map]
  congr 1
  funext e
  cases e <;> simp [Element.withCurrent, Element.factor]

theorem withCurrents_valid {N : Network} (h : N.Valid) (c : ℕ → ℂ) : (N.withCurrents c).Valid := by
  intro e he
  obtain ⟨k, hk, rfl⟩ := List.mem_mapIdx.1 he
  have := h _ (List.getElem_mem hk)
  cases hE : N.elements[k] <;> rw [hE] at this <;> exact this

theorem withCurrent_rigid (es : List Element) (c : ℕ → ℂ) :
    (es.mapIdx fun k e => e.withCurrent (c k)).flatMap Element.rigid = (es.map (Element.factor 0 0)).flatMap Element.rigid := by
  induction es generalizing c with
  | nil => rfl
  | cons e es ih =>
    rw [List.mapIdx_cons, List.flatMap_cons, List.map_cons, List.flatMap_cons, ih fun k => c (k + 1)]
    congr 1
    cases e <;> rfl

theorem withCurrent_joins {e : Element} {a b : Ref} (c : ℂ) (h : (e.factor 0 0).Joins a b) : (e.withCurrent c).Joins a b := by
  cases e <;> exact h

/-- What is held does not depend on fixed currents. -/
theorem withCurrents_held {N : Network} (c : ℕ → ℂ) {r : Ref} (h : Held (N.factor 0 0).elements r) : Held (N.withCurrents c).elements r := by
  have mem : ∀ {e}, e ∈ (N.factor 0 0).elements → ∃ (e' : Element) (k : ℕ), e = e'.factor 0 0 ∧ e'.withCurrent (c k) ∈ (N.withCurrents c).elements := fun {e} he => by
    obtain ⟨e', he', rfl⟩ := List.mem_map.1 he
    obtain ⟨k, hk, rfl⟩ := List.getElem_of_mem he'
    exact ⟨_, k, rfl, List.mem_mapIdx.2 ⟨k, hk, rfl⟩⟩
  have winding : ∀ {fp fn tp tn tr ang g b}, Element.transformer fp fn tp tn tr ang g b ∈ (N.factor 0 0).elements →
      Element.transformer fp fn tp tn tr ang g b ∈ (N.withCurrents c).elements := fun {fp fn tp tn tr ang g b} he => by
    obtain ⟨e', k, h1, h2⟩ := mem he
    cases e' with
    | transformer => rw [h1]; exact h2
    | _ => simp [Element.factor] at h1
  induction h with
  | ground => exact .ground
  | forth he hj _ ih =>
    obtain ⟨e', k, rfl, h2⟩ := mem he
    exact .forth h2 (withCurrent_joins _ hj) ih
  | back he hj _ ih =>
    obtain ⟨e', k, rfl, h2⟩ := mem he
    exact .back h2 (withCurrent_joins _ hj) ih
  | primary he _ _ _ a b d => exact .primary (winding he) a b d
  | primaryNeg he _ _ _ a b d => exact .primaryNeg (winding he) a b d
  | secondary he _ _ _ a b d => exact .secondary (winding he) a b d
  | secondaryNeg he _ _ _ a b d => exact .secondaryNeg (winding he) a b d

theorem withCurrents_sturdy {N : Network} (h : (N.factor 0 0).Sturdy) (c : ℕ → ℂ) : (N.withCurrents c).Sturdy where
  plain := h.plain
  resistive := fun e he => by
    obtain ⟨k, hk, rfl⟩ := List.mem_mapIdx.1 he
    have := h.resistive _ (List.mem_map_of_mem (List.getElem_mem hk))
    cases hE : N.elements[k] <;> rw [hE] at this <;> first | exact this | exact ⟨rfl, rfl, this.2.2⟩
  held := fun k hk => withCurrents_held c (h.held k hk)
  loopless := by
    show Loopless ((N.elements.mapIdx fun k e => e.withCurrent (c k)).flatMap Element.rigid)
    rw [withCurrent_rigid]
    exact h.loopless

/-! ### The response to currents -/

theorem inject_sub (nodes : List Node) (e : Element) (z w : ℂ) (i : ℕ) : e.inject nodes (z - w) i = e.inject nodes z i - e.inject nodes w i := by
  cases e <;> simp [Element.inject, nodeRow_sub]
  ring

theorem injections_sub (nodes : List Node) (es : List Element) (z w : ℕ → ℂ) (i : ℕ) :
    injections nodes es (fun k => z k - w k) i = injections nodes es z i - injections nodes es w i := by
  unfold injections
  induction es generalizing z w with
  | nil => simp
  | cons e es ih =>
    rw [List.mapIdx_cons, List.mapIdx_cons, List.mapIdx_cons, List.sum_cons, List.sum_cons, List.sum_cons,
      ih (fun k => z (k + 1)) fun k => w (k + 1), inject_sub]
    ring

theorem nodeRow_le (n : Node) (z : ℂ) (i : ℕ) : |nodeRow n z i| ≤ 2 * ‖z‖ := by
  have h1 := Complex.abs_re_le_norm z
  have h2 := Complex.abs_im_le_norm z
  unfold nodeRow
  refine (abs_add_le _ _).trans ?_
  have h3 := norm_nonneg z
  have h4 : |(0 : ℝ)| = 0 := abs_zero
  split_ifs <;> linarith

theorem inject_le (nodes : List Node) (e : Element) (z : ℂ) (i : ℕ) : |e.inject nodes z i| ≤ 4 * ‖z‖ := by
  cases e with
  | load f u l =>
    have h1 := nodeRow_le (nodeAt nodes f) z i
    have h2 := nodeRow_le (nodeAt nodes u) z i
    have := abs_sub (nodeRow (nodeAt nodes f) z i) (nodeRow (nodeAt nodes u) z i)
    show |_ - _| ≤ _
    linarith
  | _ => simp [Element.inject]

theorem injections_le (nodes : List Node) (es : List Element) (z : ℕ → ℂ) (i : ℕ) :
    |injections nodes es z i| ≤ ∑ k ∈ Finset.range es.length, 4 * ‖z k‖ := by
  unfold injections
  induction es generalizing z with
  | nil => simp
  | cons e es ih =>
    rw [List.mapIdx_cons, List.sum_cons, List.length_cons, Finset.sum_range_succ']
    have h1 := ih fun k => z (k + 1)
    have h2 := inject_le nodes e (z 0) i
    have := abs_add_le (e.inject nodes (z 0) i) (es.mapIdx fun k e => e.inject nodes (z (k + 1)) i).sum
    linarith

theorem volt_le (nd : Node) {n : ℕ} (x : Fin n → ℝ) : ‖nd.volt (stretch n x)‖ ≤ 2 * ‖x‖ := by
  have hr : ∀ i : Idx, |readIdx (stretch n x) i| ≤ ‖x‖ := fun i => by
    cases i with
    | none => simp [readIdx]
    | some k =>
      show |stretch n x k| ≤ _
      unfold stretch
      split_ifs with h
      · exact norm_le_pi_norm x ⟨k, h⟩
      · simp
  refine (Complex.norm_le_abs_re_add_abs_im _).trans ?_
  have h1 := hr nd.vr
  have h2 := hr nd.vi
  show |readIdx _ nd.vr| + |readIdx _ nd.vi| ≤ _
  linarith

theorem across_sub (N : Network) (V W : Ref → ℂ) (k : ℕ) : N.across V k - N.across W k = N.across (fun r => V r - W r) k := by
  unfold Network.across
  cases N.elements[k]? with
  | none => simp
  | some e =>
    cases e <;> simp [Element.across]
    ring

theorem across_le (N : Network) (V : Ref → ℂ) (k : ℕ) {B : ℝ} (hB : 0 ≤ B) (h : ∀ r, ‖V r‖ ≤ B) : ‖N.across V k‖ ≤ 2 * B := by
  unfold Network.across
  cases N.elements[k]? with
  | none => simpa using hB
  | some e =>
    cases e with
    | load f u l =>
      have := norm_sub_le (V f) (V u)
      have h1 := h f
      have h2 := h u
      show ‖V f - V u‖ ≤ _
      linarith
    | _ => simpa [Element.across] using hB

/-- The voltages of a network without its powers respond to the currents of the loads by finite amounts. -/
theorem exists_responds (hL : L.Loaded) {N : Network} (hv : N.Valid) (hN : (N.factor 0 0).Sturdy) :
    ∃ B : ℝ, 0 ≤ B ∧ N.Responds L fun _ _ => B := by
  have ho : N.optimization = none := hN.plain
  obtain ⟨n, hn⟩ : ∃ n, n = (N.assign L).size := ⟨_, rfl⟩
  have hsz : ∀ c, ((N.withCurrents c).assign L).size = n := fun c => (withCurrents_size (L := L) ho hL c).trans hn.symm
  obtain ⟨A, hA, haff⟩ := sturdy_affine hL (withCurrents_valid hv fun _ => 0) (withCurrents_sturdy hN _) (hsz fun _ => 0)
  obtain ⟨a, ha, hcA⟩ := injective_below hA
  refine ⟨16 / a, by positivity, fun c c' x x' hx hx' k hk => ?_⟩
  have hb : ∀ c, Below ((N.withCurrents c).assign L).all n := fun c p hp x hx i hi => by
    rw [← hsz c]; exact network_below hL (N.withCurrents c) p hp x hx i hi
  set nodes := (N.assign L).nodes with hnodes
  -- the equations with currents are those without plus the currents
  have heq : ∀ c (x : ℕ → ℝ) (i : Fin n), equationsMap ((N.withCurrents c).assign L).all 0 n (cutTo n x) i =
      equationsMap ((N.withCurrents fun _ => 0).assign L).all 0 n (cutTo n x) i + injections nodes N.elements c i := fun c x i => by
    show networkEq _ 0 _ i = networkEq _ 0 _ i + _
    rw [withCurrents_equations ho hL, withCurrents_equations ho hL, injections_sub, injections_sub, injections_none]
    ring
  have hzero : ∀ c (x : ℕ → ℝ), (N.withCurrents c).SolvedBy L x → equationsMap ((N.withCurrents c).assign L).all 0 n (cutTo n x) = 0 := fun c x h => by
    funext i
    show networkEq _ 0 _ i = 0
    rw [← networkEq_agree (hb c) 0 (stretch_agree x)]
    exact (C67_equations_are_kirchhoff hL (N.withCurrents c) ho 0 x).2 h i
  set S := ∑ j ∈ Finset.range N.elements.length, 4 * ‖c j - c' j‖ with hS
  have hS0 : 0 ≤ S := Finset.sum_nonneg fun j _ => by positivity
  have hd : ‖A (cutTo n x - cutTo n x')‖ ≤ S := by
    refine (pi_norm_le_iff_of_nonneg hS0).2 fun i => ?_
    have e1 := congrFun (haff (cutTo n x) (cutTo n x')) i
    have e2 := congrFun (hzero c x hx) i
    have e3 := congrFun (hzero c' x' hx') i
    rw [heq] at e2 e3
    rw [Pi.add_apply] at e1
    rw [Pi.zero_apply] at e2 e3
    have : A (cutTo n x - cutTo n x') i = -injections nodes N.elements (fun j => c j - c' j) i := by
      rw [injections_sub]; linarith
    rw [this, norm_neg]
    exact injections_le nodes N.elements _ i
  have hx1 := hcA (cutTo n x - cutTo n x')
  have hvolt : ∀ w, (N.assign L).voltages w = (N.assign L).voltages (stretch n (cutTo n w)) := fun w => volt_agree hL ho (hn ▸ stretch_agree w)
  rw [hvolt x, hvolt x', across_sub]
  have hstr : ∀ r, (N.assign L).voltages (stretch n (cutTo n x)) r - (N.assign L).voltages (stretch n (cutTo n x')) r =
      (nodeAt nodes r).volt (stretch n (cutTo n x - cutTo n x')) := fun r => by
    have hr : ∀ i : Idx, readIdx (stretch n (cutTo n x)) i - readIdx (stretch n (cutTo n x')) i = readIdx (stretch n (cutTo n x - cutTo n x')) i := fun i => by
      cases i with
      | none => simp [readIdx]
      | some k =>
        show stretch n _ k - stretch n _ k = stretch n _ k
        unfold stretch
        split_ifs <;> simp
    apply Complex.ext
    · exact hr _
    · exact hr _
  have h1 := across_le N (fun r => (N.assign L).voltages (stretch n (cutTo n x)) r - (N.assign L).voltages (stretch n (cutTo n x')) r) k (B := 2 * ‖cutTo n x - cutTo n x'‖) (by positivity) fun r => by
    show ‖_ - _‖ ≤ _
    rw [hstr r]; exact volt_le _ _
  refine h1.trans ?_
  have h2 : ‖cutTo n x - cutTo n x'‖ ≤ S / a := by
    rw [le_div_iff₀ ha, mul_comm]; exact hx1.trans hd
  calc 2 * (2 * ‖cutTo n x - cutTo n x'‖) ≤ 4 * (S / a) := by linarith
    _ = ∑ j ∈ Finset.range N.elements.length, 16 / a * ‖c j - c' j‖ := by
      rw [hS, div_eq_mul_inv, Finset.sum_mul, Finset.mul_sum]
      exact Finset.sum_congr rfl fun j _ => by ring

/-! ### The fixed point -/

section
variable {N : Network} {Z : ℕ → ℕ → ℝ} {D : ℕ → ℂ} {r : ℝ}

/-- Currents that the powers draw at voltages `u k` times `D k`. -/
noncomputable def Network.drawn (N : Network) (D : ℕ → ℂ) (u : ℕ → ℂ) (k : ℕ) : ℂ := conj (N.power k / (u k * D k))

theorem drawn_sub {u u' : ℕ → ℂ} {j : ℕ} {q d : ℝ} (hD : N.power j ≠ 0 → D j ≠ 0) (hq : 0 < q) (hu : q ≤ ‖u j‖) (hu' : q ≤ ‖u' j‖) (hd : ‖u j - u' j‖ ≤ d) :
    ‖N.drawn D u j - N.drawn D u' j‖ ≤ d / q ^ 2 * (‖N.power j‖ / ‖D j‖) := by
  have hd0 : 0 ≤ d := (norm_nonneg _).trans hd
  by_cases hp : N.power j = 0
  · simp [Network.drawn, hp]
  have hD := hD hp
  have h0 : u j ≠ 0 := fun h => by rw [h, norm_zero] at hu; linarith
  have h0' : u' j ≠ 0 := fun h => by rw [h, norm_zero] at hu'; linarith
  unfold Network.drawn
  rw [← map_sub, Complex.norm_conj]
  have e : N.power j / (u j * D j) - N.power j / (u' j * D j) = (u' j - u j) / (u j * u' j) * (N.power j / D j) := by
    field_simp
  rw [e, norm_mul, norm_div, norm_div, norm_mul]
  refine mul_le_mul_of_nonneg_right ?_ (by positivity)
  rw [norm_sub_rev]
  have : q ^ 2 ≤ ‖u j‖ * ‖u' j‖ := by rw [pow_two]; exact mul_le_mul hu hu' hq.le (norm_nonneg _)
  exact div_le_div₀ hd0 hd (by positivity) this

theorem drawn_le {u : ℕ → ℂ} {j : ℕ} {q : ℝ} (hq : 0 < q) (hu : q ≤ ‖u j‖) : ‖N.drawn D u j‖ ≤ 1 / q * (‖N.power j‖ / ‖D j‖) := by
  unfold Network.drawn
  rw [Complex.norm_conj, norm_div, norm_mul, div_mul_eq_div_div_swap, div_eq_mul_one_div (_ / _), mul_comm]
  exact mul_le_mul_of_nonneg_right (one_div_le_one_div_of_le hq hu) (by positivity)

/-- Moving the voltages by `d` moves the response by `4 r d`. -/
theorem response_step (hZ : N.Responds L Z) (hZ0 : ∀ k j, 0 ≤ Z k j)
    (hb : ∀ k, N.power k ≠ 0 → D k ≠ 0 ∧ ∑ j ∈ Finset.range N.elements.length, Z k j * (‖N.power j‖ / ‖D j‖) ≤ r * ‖D k‖)
    {u u' : ℕ → ℂ} {x x' : ℕ → ℝ} {d q : ℝ} (hq : 0 < q) (hu : ∀ k, q ≤ ‖u k‖) (hu' : ∀ k, q ≤ ‖u' k‖) (hd : ∀ k, ‖u k - u' k‖ ≤ d)
    (hx : (N.withCurrents (N.drawn D u)).SolvedBy L x) (hx' : (N.withCurrents (N.drawn D u')).SolvedBy L x') {k : ℕ} (hk : N.power k ≠ 0) :
    ‖N.across ((N.assign L).voltages x) k - N.across ((N.assign L).voltages x') k‖ ≤ d / q ^ 2 * (r * ‖D k‖) := by
  have hd0 : 0 ≤ d := (norm_nonneg _).trans (hd 0)
  have hlen : k < N.elements.length := by
    by_contra h
    exact hk (by simp [Network.power, List.getElem?_eq_none (not_lt.1 h)])
  refine (hZ _ _ x x' hx hx' k hlen).trans ?_
  refine le_trans (Finset.sum_le_sum fun j _ => mul_le_mul_of_nonneg_left (drawn_sub (fun h => (hb j h).1) hq (hu j) (hu' j) (hd j)) (hZ0 k j)) ?_
  calc ∑ j ∈ Finset.range N.elements.length, Z k j * (d / q ^ 2 * (‖N.power j‖ / ‖D j‖))
      = d / q ^ 2 * ∑ j ∈ Finset.range N.elements.length, Z k j * (‖N.power j‖ / ‖D j‖) := by
        rw [Finset.mul_sum]; exact Finset.sum_congr rfl fun j _ => by ring
    _ ≤ _ := mul_le_mul_of_nonneg_left (hb k hk).2 (by positivity)

theorem response_start (hZ : N.Responds L Z) (hZ0 : ∀ k j, 0 ≤ Z k j)
    (hb : ∀ k, N.power k ≠ 0 → D k ≠ 0 ∧ ∑ j ∈ Finset.range N.elements.length, Z k j * (‖N.power j‖ / ‖D j‖) ≤ r * ‖D k‖)
    {u : ℕ → ℂ} {x x0 : ℕ → ℝ} {q : ℝ} (hq : 0 < q) (hu : ∀ k, q ≤ ‖u k‖)
    (hx : (N.withCurrents (N.drawn D u)).SolvedBy L x) (hx' : (N.withCurrents fun _ => 0).SolvedBy L x0) {k : ℕ} (hk : N.power k ≠ 0) :
    ‖N.across ((N.assign L).voltages x) k - N.across ((N.assign L).voltages x0) k‖ ≤ 1 / q * (r * ‖D k‖) := by
  have hlen : k < N.elements.length := by
    by_contra h
    exact hk (by simp [Network.power, List.getElem?_eq_none (not_lt.1 h)])
  refine (hZ _ _ x x0 hx hx' k hlen).trans ?_
  have hj : ∀ j, ‖N.drawn D u j - 0‖ ≤ 1 / q * (‖N.power j‖ / ‖D j‖) := fun j => by rw [sub_zero]; exact drawn_le hq (hu j)
  refine le_trans (Finset.sum_le_sum fun j _ => mul_le_mul_of_nonneg_left (hj j) (hZ0 k j)) ?_
  calc ∑ j ∈ Finset.range N.elements.length, Z k j * (1 / q * (‖N.power j‖ / ‖D j‖))
      = 1 / q * ∑ j ∈ Finset.range N.elements.length, Z k j * (‖N.power j‖ / ‖D j‖) := by
        rw [Finset.mul_sum]; exact Finset.sum_congr rfl fun j _ => by ring
    _ ≤ _ := mul_le_mul_of_nonneg_left (hb k hk).2 (by positivity)

end

end Verif
