import Verif.Model.LoadFactor
import Verif.Lemmas.LightMethod
import Verif.Lemmas.Converge
import Verif.Lemmas.LoadFill
import Verif.Lemmas.Resistive
import Verif.Lemmas.RowsBelow

/-! Networks with light constant-power loads. -/

namespace Verif

open Ex ComplexConjugate

variable {L : Library}

/-! ### The equations are affine in the load factor -/

theorem factor_place (hL : L.Loaded) (nodes : List Node) (e : Element) (n : ℕ) (t : ℝ) (v : ℕ → ℝ) (s : ℝ) :
    ((e.factor s s).place L false nodes n).2 = (e.place L false nodes n).2 ∧
    ∀ i, rowTotal (((e.factor s s).place L false nodes n).1.flatMap fun p => p.equations t v) i =
      rowTotal (((e.factor 0 0).place L false nodes n).1.flatMap fun p => p.equations t v) i +
        s * (rowTotal ((e.place L false nodes n).1.flatMap fun p => p.equations t v) i -
          rowTotal (((e.factor 0 0).place L false nodes n).1.flatMap fun p => p.equations t v) i) := by
  cases e with
  | load f u l =>
    have key := fun a b : ℝ => place_kirchhoff hL nodes (Element.load f u { l with P := l.P * a, Q := l.Q * b }) n t v [] (by simp [Element.laws])
    simp only [Element.laws, List.length_nil, add_zero] at key
    have h1 := place_kirchhoff hL nodes (Element.load f u l) n t v [] (by simp [Element.laws])
    simp only [Element.laws, List.length_nil, add_zero] at h1
    refine ⟨(key s s).1.trans h1.1.symm, fun i => ?_⟩
    show rowTotal (((Element.load f u { l with P := l.P * s, Q := l.Q * s }).place L false nodes n).1.flatMap _) i =
      rowTotal (((Element.load f u { l with P := l.P * 0, Q := l.Q * 0 }).place L false nodes n).1.flatMap _) i + s * (_ -
        rowTotal (((Element.load f u { l with P := l.P * 0, Q := l.Q * 0 }).place L false nodes n).1.flatMap _) i)
    rw [(key s s).2 i, (key 0 0).2 i, h1.2 i]
    simp only [Element.draws, drawRow_branch, nodeRow_neg, nodeRow_add]
    have e : ∀ N : Node, nodeRow N (conj ((⟨l.P * s, l.Q * s⟩ : ℂ) / ((nodeAt nodes f).volt v - (nodeAt nodes u).volt v))) i =
        s * nodeRow N (conj ((⟨l.P, l.Q⟩ : ℂ) / ((nodeAt nodes f).volt v - (nodeAt nodes u).volt v))) i := fun N => by
      have e1 : (⟨l.P * s, l.Q * s⟩ : ℂ) = (s : ℂ) * ⟨l.P, l.Q⟩ := by
        apply Complex.ext <;> simp [mul_comm]
      rw [e1, mul_div_assoc, map_mul, Complex.conj_ofReal]
      unfold nodeRow
      split_ifs <;> simp <;> ring
    have e0 : ∀ N : Node, nodeRow N (conj ((⟨l.P * 0, l.Q * 0⟩ : ℂ) / ((nodeAt nodes f).volt v - (nodeAt nodes u).volt v))) i = 0 := fun N => by
      have e1 : (⟨l.P * 0, l.Q * 0⟩ : ℂ) = 0 := by apply Complex.ext <;> simp
      rw [e1, zero_div, map_zero]
      unfold nodeRow
      split_ifs <;> simp
    rw [e, e, e0, e0]
    ring
  | _ => exact ⟨rfl, fun i => by simp only [Element.factor, sub_self, mul_zero, add_zero]⟩

theorem factor_placeElements (hL : L.Loaded) (nodes : List Node) (es : List Element) (n : ℕ) (t : ℝ) (v : ℕ → ℝ) (s : ℝ) :
    (placeElements L false nodes n (es.map (Element.factor s s))).2 = (placeElements L false nodes n es).2 ∧
    ∀ i, networkEq (placeElements L false nodes n (es.map (Element.factor s s))).1.flatten t v i =
      networkEq (placeElements L false nodes n (es.map (Element.factor 0 0))).1.flatten t v i +
        s * (networkEq (placeElements L false nodes n es).1.flatten t v i -
          networkEq (placeElements L false nodes n (es.map (Element.factor 0 0))).1.flatten t v i) := by
  induction es generalizing n with
  | nil => exact ⟨rfl, fun i => by simp [placeElements]⟩
  | cons e es ih =>
    obtain ⟨a1, a2⟩ := factor_place hL nodes e n t v s
    obtain ⟨b1, _⟩ := factor_place hL nodes e n t v 0
    obtain ⟨c1, c2⟩ := ih (e.place L false nodes n).2
    simp only [placeElements, List.map_cons, a1, b1, List.flatten_cons]
    refine ⟨c1, fun i => ?_⟩
    have split : ∀ a b : List Placed, networkEq (a ++ b) t v i = rowTotal (a.flatMap fun p => p.equations t v) i + networkEq b t v i := fun a b => by
      unfold networkEq
      rw [List.flatMap_append, rowTotal_append]
    rw [split, split, split, a2 i, c2 i]
    ring

section
variable {N : Network} (ho : N.optimization = none)
include ho

theorem plain_all (s : ℝ) : ((N.factor s s).assign L).all =
    (placeElements L false (N.assign L).nodes (assignBuses false N.buses 0).2 (N.elements.map (Element.factor s s))).1.flatten ∧
    (N.assign L).all = (placeElements L false (N.assign L).nodes (assignBuses false N.buses 0).2 N.elements).1.flatten := by
  have hop : N.opt = false := by simp [Network.opt, ho]
  have hop' : (N.factor s s).opt = false := by simp [Network.opt, Network.factor, ho]
  have ho' : (N.factor s s).optimization = none := ho
  constructor
  · unfold Assignment.all Network.assign
    simp only [ho', List.append_nil, hop, hop']
    rfl
  · unfold Assignment.all Network.assign
    simp only [ho, List.append_nil, hop]

theorem factor_size (hL : L.Loaded) (s : ℝ) : ((N.factor s s).assign L).size = (N.assign L).size := by
  have hop : N.opt = false := by simp [Network.opt, ho]
  have hop' : (N.factor s s).opt = false := by simp [Network.opt, Network.factor, ho]
  have ho' : (N.factor s s).optimization = none := ho
  unfold Network.assign
  simp only [ho', ho, hop, hop']
  exact (factor_placeElements hL _ N.elements _ 0 (fun _ => 0) s).1

theorem factor_equations (hL : L.Loaded) (s t : ℝ) (v : ℕ → ℝ) (i : ℕ) :
    networkEq ((N.factor s s).assign L).all t v i = networkEq ((N.factor 0 0).assign L).all t v i +
      s * (networkEq (N.assign L).all t v i - networkEq ((N.factor 0 0).assign L).all t v i) := by
  rw [(plain_all ho s).1, (plain_all ho 0).1, (plain_all ho 0).2]
  exact (factor_placeElements hL _ N.elements _ t v s).2 i

end

theorem factor_voltages (N : Network) (s : ℝ) (v : ℕ → ℝ) : ((N.factor s s).assign L).voltages v = (N.assign L).voltages v := rfl

theorem factor_valid {N : Network} (h : N.Valid) (s : ℝ) : (N.factor s s).Valid := by
  intro e he
  obtain ⟨e', he', rfl⟩ := List.mem_map.1 he
  have := h e' he'
  cases e' <;> exact this

/-! ### Conditions on elements -/

theorem factor_regular {e : Element} {t : ℝ} {V : Ref → ℂ} (h : e.RegularAt t V) (s : ℝ) : (e.factor s s).RegularAt t V := by
  cases e with
  | load f u l =>
    rcases h with ⟨h1, h2⟩ | h
    · exact Or.inl ⟨by simp [h1], by simp [h2]⟩
    · exact Or.inr h
  | _ => exact h

theorem factor_steady {e : Element} {V : Ref → ℂ} {own own' : List ℝ} (hg : ∀ b P W, e ≠ .generator b P W) (h : e.SteadyAt V own) {s : ℝ} (hs : s ≠ 0) :
    (e.factor s s).SteadyAt V own' := by
  cases e with
  | generator b P W => exact absurd rfl (hg b P W)
  | load f u l =>
    rcases h with ⟨h1, h2⟩ | ⟨h1, h2⟩
    · exact Or.inl ⟨by simp [h1], by simp [h2]⟩
    · right
      have e1 : (⟨l.P * s, l.Q * s⟩ : ℂ) = (s : ℂ) * ⟨l.P, l.Q⟩ := by
        apply Complex.ext <;> simp [mul_comm]
      simp only [e1, mul_assoc]
      rw [Complex.re_ofReal_mul, Complex.im_ofReal_mul]
      exact ⟨mul_ne_zero hs h1, mul_ne_zero hs h2⟩
  | _ => exact h

theorem steady_regular {e : Element} {V : Ref → ℂ} {own : List ℝ} (hr : (e.factor 0 0).Resistive) (h : e.SteadyAt V own) : e.RegularAt 0 V := by
  cases e with
  | generator b P W => exact absurd hr (by simp [Element.factor, Element.Resistive])
  | load f u l =>
    rcases h with h | ⟨h1, _⟩
    · exact Or.inl h
    · refine Or.inr fun hc => h1 ?_
      rw [hc]; simp
  | centerTap f p s1 t1 s2 t2 ratio g0 b0 g1 b1 g2 b2 =>
    have := hr.1
    simpa [Element.RegularAt, ratioAt] using this
  | _ => trivial

theorem volt_continuous (nd : Node) (n : ℕ) : Continuous fun x : Fin n → ℝ => nd.volt (stretch n x) := by
  have hr : ∀ i : Idx, Continuous fun x : Fin n → ℝ => readIdx (stretch n x) i := by
    intro i
    cases i with
    | none => exact continuous_const
    | some k =>
      show Continuous fun x : Fin n → ℝ => stretch n x k
      unfold stretch
      split_ifs with h
      · exact continuous_apply _
      · exact continuous_const
  have e : (fun x : Fin n → ℝ => nd.volt (stretch n x)) = fun x => (readIdx (stretch n x) nd.vr : ℂ) + (readIdx (stretch n x) nd.vi : ℂ) * Complex.I := by
    funext x
    apply Complex.ext <;> simp [Node.volt]
  rw [e]
  exact (Complex.continuous_ofReal.comp (hr _)).add ((Complex.continuous_ofReal.comp (hr _)).mul continuous_const)

theorem steady_near {N : Network} {n : ℕ} {x0 : Fin n → ℝ} (hg : ∀ e ∈ N.elements, ∀ b P W, e ≠ .generator b P W)
    (h : ∀ e ∈ N.elements, e.SteadyAt ((N.assign L).voltages (stretch n x0)) []) :
    ∀ᶠ x in nhds x0, ∀ e ∈ N.elements, e.SteadyAt ((N.assign L).voltages (stretch n x)) [] := by
  generalize N.elements = es at hg h
  induction es with
  | nil => exact Filter.Eventually.of_forall fun _ e he => by simp at he
  | cons e es ih =>
    have h1 : ∀ᶠ x in nhds x0, e.SteadyAt ((N.assign L).voltages (stretch n x)) [] := by
      have he := h e (by simp)
      cases e with
      | generator b P W => exact absurd rfl (hg _ (by simp) b P W)
      | load f u l =>
        rcases he with he | ⟨h1, h2⟩
        · exact Filter.Eventually.of_forall fun _ => Or.inl he
        · have c : Continuous fun x : Fin n → ℝ => (⟨l.P, l.Q⟩ : ℂ) *
              (starRingEnd ℂ ((N.assign L).voltages (stretch n x) f - (N.assign L).voltages (stretch n x) u)) ^ 2 :=
            continuous_const.mul ((Complex.continuous_conj.comp ((volt_continuous _ n).sub (volt_continuous _ n))).pow 2)
          filter_upwards [(Complex.continuous_re.comp c).continuousAt.eventually_ne h1,
            (Complex.continuous_im.comp c).continuousAt.eventually_ne h2] with x a b
          exact Or.inr ⟨a, b⟩
      | _ => exact Filter.Eventually.of_forall fun _ => trivial
    filter_upwards [h1, ih (fun a ha => hg a (by simp [ha])) fun a ha => h a (by simp [ha])] with x a b c hc
    rcases List.mem_cons.1 hc with rfl | hc
    · exact a
    · exact b c hc

/-- Where all parts are filled no other vector has more filled stamps. -/
theorem filledStamps_le {ps : List Placed} {t : ℝ} {v w : ℕ → ℝ} (h : ∀ p ∈ ps, p.Filled t v) (hw : ∀ p ∈ ps, p.Regular t w) :
    filledStamps ps t w ≤ filledStamps ps t v := by
  unfold filledStamps
  induction ps with
  | nil => exact le_rfl
  | cons p l ih =>
    rw [List.flatMap_cons, List.flatMap_cons, List.filter_append, List.filter_append, List.length_append, List.length_append]
    refine Nat.add_le_add ?_ (ih (fun q hq => h q (by simp [hq])) fun q hq => hw q (by simp [hq]))
    unfold Placed.emitted
    rw [List.filter_map, List.filter_map, List.length_map, List.length_map, ← List.countP_eq_length_filter, ← List.countP_eq_length_filter]
    refine List.countP_mono_left fun s hs hne => ?_
    obtain ⟨hs1, hs2⟩ := List.mem_filter.1 hs
    simp only [Function.comp_apply, decide_eq_true_eq] at hne ⊢
    obtain ⟨n1, n2⟩ := hne
    refine ⟨n1, fun h0 => ?_⟩
    have hc : s.col ≠ none := fun hc => by rw [hc] at n1; simp at n1
    rcases h p (by simp) s hs1 (by simpa using hs2) hc with h1 | h1
    · cases hcol : s.col with
      | none => exact hc hcol
      | some c => simp_all
    · have := h1 w (hw p (by simp))
      cases hcol : s.col with
      | none => exact hc hcol
      | some c => simp_all

/-! ### Two passes -/

section
variable {C : NRContext} {opt : Bool} {ps : List Placed} {m : Stamper} {v0 : ℕ → ℝ} {it0 : ℤ} {vInit : ℕ → ℝ} {tx : ℝ}

theorem current_start : Current ps m tx (nrStart Stamper.ops m vInit tx) := ⟨[], by simp, fun ts => rfl⟩

theorem current_one (hr : Ready opt ps m v0 it0) (hit : it0 ≠ 0) (F : RunFacts C Stamper.ops m vInit tx 0 (nrStart Stamper.ops m vInit tx))
    (h : filledStamps ps tx vInit ≤ filledStamps ps tx F.carry) :
    Current ps m tx ⟨F.done.stamper, F.done.Y.clear (nrStart Stamper.ops m vInit tx).Y.usage, F.carry, F.done.history⟩ := by
  set st := nrStart Stamper.ops m vInit tx with hst
  obtain ⟨i1, _, i3⟩ := reach_at hr (.start : RunReach C Stamper.ops m vInit tx 0 st)
  obtain ⟨j1, j2⟩ := mid_at i1 i3
  rw [linPoint_fresh hit] at j2
  have p2 : (Stamper.ops.stampNonlinear st.stamper st.vPrev (0 : ℕ)).2.Perm (ps.flatMap fun p => p.emitted tx st.vPrev false) :=
    emit_perm j1 j2 false
  refine ⟨[tripsOf (Stamper.ops.stampNonlinear st.stamper st.vPrev (0 : ℕ)).2], fun it hi => ?_, fun ts => ?_⟩
  · rw [List.mem_singleton] at hi
    rw [hi, nz_perm p2, filled_trips]
    exact h
  · rfl

/-- A pass that goes through is a Newton step. -/
theorem fill_facts (hr : Ready opt ps m v0 it0) (hit : it0 ≠ 0) (hn : Below ps C.size) (hs : C.solve = idealSolve C.size)
    {k : ℕ} {st : NRState Stamper} (h : RunReach C Stamper.ops m vInit tx k st) (hreg : ∀ p ∈ ps, p.Regular tx st.vPrev)
    (hdf : DifferentiableAt ℝ (equationsMap ps tx C.size) (cutTo C.size st.vPrev)) (hc : Current ps m tx st)
    (F : RunFacts C Stamper.ops m vInit tx k st) :
    equationsMap ps tx C.size (cutTo C.size st.vPrev) +
      fderiv ℝ (equationsMap ps tx C.size) (cutTo C.size st.vPrev) (cutTo C.size F.vNext - cutTo C.size st.vPrev) = 0 := by
  have he : ExactSolver C.size C.solve := by rw [hs]; exact idealSolve_exact _
  have hm := F.mat
  unfold Builder.toMatrix at hm
  split_ifs at hm
  injection hm with hm
  have hsol := he _ _ _ F.sol
  rw [← hm] at hsol
  exact (fill_system hr hit hn h hreg hdf hc F.vNext).1 hsol

/-- Two passes: the first ends near `x0`, the second there too and below the tolerance. -/
theorem two_passes (hr : Ready opt ps m v0 it0) (hit : it0 ≠ 0) (hn : Below ps C.size) (hs : C.solve = idealSolve C.size)
    (hd : C.debug = true → ∀ p ∈ ps, p.RowsBelow C.size) (hsz : C.size ≠ 0) (hlim : C.limit = none) (hmax : 2 ≤ C.maxIters)
    {x0 : Fin C.size → ℝ} {ρ : ℝ} (hreg0 : ∀ p ∈ ps, p.Regular tx vInit)
    (hfirst : DifferentiableAt ℝ (equationsMap ps tx C.size) (cutTo C.size vInit) ∧
      Function.Injective (fderiv ℝ (equationsMap ps tx C.size) (cutTo C.size vInit)) ∧
      ∀ x, equationsMap ps tx C.size (cutTo C.size vInit) + fderiv ℝ (equationsMap ps tx C.size) (cutTo C.size vInit) (x - cutTo C.size vInit) = 0 →
        ‖x - x0‖ ≤ ρ)
    (hnext : ∀ w, ‖cutTo C.size w - x0‖ ≤ ρ → (∀ p ∈ ps, p.Regular tx w) ∧ (∀ p ∈ ps, p.Filled tx w) ∧
      DifferentiableAt ℝ (equationsMap ps tx C.size) (cutTo C.size w) ∧
      Function.Injective (fderiv ℝ (equationsMap ps tx C.size) (cutTo C.size w)) ∧
      ‖equationsMap ps tx C.size (cutTo C.size w)‖ < C.tolerance ∧
      ∀ x, equationsMap ps tx C.size (cutTo C.size w) + fderiv ℝ (equationsMap ps tx C.size) (cutTo C.size w) (x - cutTo C.size w) = 0 →
        ‖x - x0‖ ≤ ρ) :
    ∃ r st, nrRun C Stamper.ops m vInit tx = .ok (r, st) ∧ r.success = true ∧ r.iter ≤ 1 ∧ ‖cutTo C.size r.v - x0‖ ≤ ρ := by
  obtain ⟨d0, i0, n0⟩ := hfirst
  have hreach0 : RunReach C Stamper.ops m vInit tx 0 (nrStart Stamper.ops m vInit tx) := .start
  have hreg0' : ∀ p ∈ ps, p.Regular tx (nrStart Stamper.ops m vInit tx).vPrev := hreg0
  obtain ⟨p, hp⟩ := fill_through hr hit hn hs hd hsz hreach0 hreg0' d0 i0 current_start
  obtain ⟨F, hF⟩ := nrPass_cases hp
  have f0 : ‖cutTo C.size F.vNext - x0‖ ≤ ρ := n0 _ (fill_facts hr hit hn hs hreach0 hreg0' d0 current_start F)
  rcases hF with ⟨hb, _⟩ | ⟨_, ht, rfl⟩ | ⟨_, ht, rfl⟩
  · exact absurd hb.1 (by simp [nrStart])
  · exact ⟨_, _, nrRun_of_ret (by omega) hreach0 hp, rfl, by simp, f0⟩
  have hcarry : F.carry = F.vNext := by unfold PassFacts.carry; rw [hlim]
  obtain ⟨g1, g2, d1, i1, t1, n1⟩ := hnext F.carry (by rw [hcarry]; exact f0)
  have hreach1 : RunReach C Stamper.ops m vInit tx 1 _ := .step hreach0 hp
  have hc1 := current_one hr hit F (filledStamps_le g2 hreg0)
  obtain ⟨q, hq⟩ := fill_through hr hit hn hs hd hsz hreach1 g1 d1 i1 hc1
  obtain ⟨G, hG⟩ := nrPass_cases hq
  have e1 : ‖cutTo C.size G.vNext - x0‖ ≤ ρ := n1 _ (fill_facts hr hit hn hs hreach1 g1 d1 hc1 G)
  have e2 : G.rd.maxResidual < C.tolerance := by rw [near_residual hr hit hn hreach1 G]; exact t1
  rcases hG with ⟨hb, _⟩ | ⟨_, _, rfl⟩ | ⟨_, hno, _⟩
  · exact absurd hb.1 (by simp [nrStart, PassFacts.done])
  · exact ⟨_, _, nrRun_of_ret (by omega) hreach1 hq, rfl, le_rfl, e1⟩
  · exact absurd e2 hno

end

/-! ### The network -/

theorem sturdy_affine (hL : L.Loaded) {N : Network} (hv : N.Valid) (hN : N.Sturdy) {n : ℕ} (hn : (N.assign L).size = n) :
    ∃ A : (Fin n → ℝ) →L[ℝ] (Fin n → ℝ), Function.Injective A ∧
      ∀ x y, equationsMap (N.assign L).all 0 n x = equationsMap (N.assign L).all 0 n y + A (x - y) := by
  subst hn
  obtain ⟨M, b, hinj, hM⟩ := sturdy_matrix hL hv hN
  refine ⟨M.mulVecLin.toContinuousLinearMap, hinj, fun x y => ?_⟩
  funext i
  show networkEq _ 0 _ i = networkEq _ 0 _ i + M.mulVec (x - y) i
  rw [hM, hM, Matrix.mulVec_sub, Pi.sub_apply]
  ring

theorem small_factor {a₁ a₂ a₃ b₁ b₂ b₃ : ℝ} (h₁ : 0 ≤ a₁) (h₂ : 0 ≤ a₂) (h₃ : 0 ≤ a₃) (k₁ : 0 < b₁) (k₂ : 0 < b₂) (k₃ : 0 < b₃) :
    ∃ s0 > 0, s0 * a₁ ≤ b₁ ∧ s0 * a₂ ≤ b₂ ∧ s0 * a₃ ≤ b₃ := by
  have key : ∀ {a b s : ℝ}, 0 ≤ a → 0 < b → s ≤ b / (a + 1) → s * a ≤ b := fun {a b s} ha hb hs => by
    calc s * a ≤ b / (a + 1) * a := mul_le_mul_of_nonneg_right hs ha
      _ ≤ b := by rw [div_mul_eq_mul_div, div_le_iff₀ (by positivity)]; nlinarith
  refine ⟨min (b₁ / (a₁ + 1)) (min (b₂ / (a₂ + 1)) (b₃ / (a₃ + 1))), by positivity, key h₁ k₁ (min_le_left _ _),
    key h₂ k₂ ((min_le_right _ _).trans (min_le_left _ _)), key h₃ k₃ ((min_le_right _ _).trans (min_le_right _ _))⟩

/-- Voltages only depend on the entries below the size. -/
theorem volt_agree (hL : L.Loaded) {N : Network} (ho : N.optimization = none) {v w : ℕ → ℝ} (h : ∀ k < (N.assign L).size, v k = w k) :
    (N.assign L).voltages v = (N.assign L).voltages w := by
  funext r
  cases r with
  | none => rfl
  | some k =>
    have hb := assignBuses_below N.opt N.buses 0
    have he := (placeElements_below (opt := N.opt) hL N.elements hb.2).1
    have hsz : (N.assign L).size = (placeElements L N.opt (assignBuses N.opt N.buses 0).1 (assignBuses N.opt N.buses 0).2 N.elements).2 := by
      unfold Network.assign
      simp only [ho]
    have hnode : (nodeAt (N.assign L).nodes (some k)).Below (N.assign L).size := by
      show Node.Below _ ((assignBuses N.opt N.buses 0).1.getD k Node.ground)
      rw [List.getD_eq_getElem?_getD]
      cases hk : (assignBuses N.opt N.buses 0).1[k]? with
      | none => constructor <;> intro c hc <;> simp [Node.ground] at hc
      | some b => exact (hb.2 b (List.mem_of_getElem? hk)).mono (by rw [hsz]; exact he)
    have hread : ∀ i : Idx, (∀ c, i = some c → c < (N.assign L).size) → readIdx v i = readIdx w i := fun i hi => by
      cases i with
      | none => rfl
      | some c => exact h c (hi c rfl)
    show (nodeAt (N.assign L).nodes (some k)).volt v = (nodeAt (N.assign L).nodes (some k)).volt w
    unfold Node.volt
    rw [hread _ hnode.vr, hread _ hnode.vi]

section
variable {N : Network} {x0 : ℕ → ℝ} {n : ℕ}

/-- What is needed of the network with and without its loads. -/
structure LightFacts (L : Library) (N : Network) (x0 : ℕ → ℝ) (n : ℕ) (A : (Fin n → ℝ) →L[ℝ] (Fin n → ℝ)) : Prop where
  plain : N.optimization = none
  affine : ∀ x y, equationsMap ((N.factor 0 0).assign L).all 0 n x = equationsMap ((N.factor 0 0).assign L).all 0 n y + A (x - y)
  inj : Function.Injective A
  zero : equationsMap ((N.factor 0 0).assign L).all 0 n (cutTo n x0) = 0
  smooth : ContDiffAt ℝ 2 (equationsMap (N.assign L).all 0 n) (cutTo n x0)
  family : ∀ s x, equationsMap ((N.factor s s).assign L).all 0 n x = equationsMap ((N.factor 0 0).assign L).all 0 n x +
    s • (equationsMap (N.assign L).all 0 n x - equationsMap ((N.factor 0 0).assign L).all 0 n x)
  noGen : ∀ e ∈ N.elements, ∀ b P W, e ≠ .generator b P W
  resistive : ∀ e ∈ N.elements, (e.factor 0 0).Resistive
  below : ∀ s, Below ((N.factor s s).assign L).all n
  rows : ∀ s, ∀ p ∈ ((N.factor s s).assign L).all, p.RowsBelow n
  belowOne : Below (N.assign L).all n

theorem light_facts (hL : L.Loaded) (hv : N.Valid) (hN : (N.factor 0 0).Sturdy) (hn : (N.assign L).size = n)
    (hz : ∀ i < n, networkEq ((N.factor 0 0).assign L).all 0 x0 i = 0)
    (hreg : ∀ e ∈ N.elements, e.RegularAt 0 ((N.assign L).voltages x0)) : ∃ A, LightFacts L N x0 n A := by
  have ho : N.optimization = none := hN.plain
  have hsz := fun s => (factor_size (L := L) ho hL s).trans hn
  obtain ⟨A, hA, haff⟩ := sturdy_affine hL (factor_valid hv 0) hN (hsz 0)
  have hres : ∀ e ∈ N.elements, (e.factor 0 0).Resistive := fun e he => hN.resistive _ (List.mem_map_of_mem he)
  have hb1 : Below (N.assign L).all n := fun p hp x hx c hc => hn ▸ network_below hL N p hp x hx c hc
  have hbs : ∀ s, Below ((N.factor s s).assign L).all n := fun s p hp x hx c hc => by
    rw [← hsz s]; exact network_below hL (N.factor s s) p hp x hx c hc
  refine ⟨A, ho, haff, hA, ?_, ?_, fun s x => ?_, fun e he b P W hg => ?_, hres, hbs, fun s => ?_, hb1⟩
  · funext i
    show networkEq _ 0 _ i = 0
    rw [← networkEq_agree (hbs 0) 0 (stretch_agree x0)]
    exact hz i i.2
  · exact equationsMap_smooth (regular_agree hb1 0 (stretch_agree x0) (network_regular hL N hv 0 x0 hreg))
  · funext i
    exact factor_equations ho hL s 0 (stretch n x) i
  · have := hres e he
    rw [hg] at this
    exact this
  · rw [← hsz s]; exact network_rows_below hL _

/-- Runs on the network with a light load. -/
theorem light_run (hL : L.Loaded) (hv : N.Valid) (hN : (N.factor 0 0).Sturdy) (hn : (N.assign L).size = n) (hne : n ≠ 0)
    (hz : ∀ i < n, networkEq ((N.factor 0 0).assign L).all 0 x0 i = 0)
    (hst : ∀ e ∈ N.elements, e.SteadyAt ((N.assign L).voltages x0) []) {vInit : ℕ → ℝ}
    (hvi : ∀ e ∈ N.elements, e.RegularAt 0 ((N.assign L).voltages vInit)) {ε tol : ℝ} (hε : 0 < ε) (htol : 0 < tol) :
    ∃ s0 > 0, ∀ s : ℝ, s ≠ 0 → |s| ≤ s0 → ∀ m C, Stamper.build (N.factor s s).opt ((N.factor s s).assign L).all = .ok m →
      C.size = n → C.solve = idealSolve C.size → C.limit = none → tol ≤ C.tolerance → 2 ≤ C.maxIters →
      ∃ r st, nrRun C Stamper.ops m vInit 0 = .ok (r, st) ∧ r.success = true ∧ r.iter ≤ 1 ∧ Within C.size ε r.v x0 := by
  obtain ⟨A, hF⟩ := light_facts hL hv hN hn hz fun e he => steady_regular (hN.resistive _ (List.mem_map_of_mem he)) (hst e he)
  obtain ⟨c, hc, hcA⟩ := injective_below hF.inj
  have hcont : Continuous (equationsMap ((N.factor 0 0).assign L).all 0 n) := by
    have e : equationsMap ((N.factor 0 0).assign L).all 0 n = fun x => equationsMap ((N.factor 0 0).assign L).all 0 n 0 + A (x - 0) :=
      funext fun x => hF.affine x 0
    rw [e]; fun_prop
  -- bounds at the starting vector and near `x0`
  have hd0 : DifferentiableAt ℝ (equationsMap (N.assign L).all 0 n) (cutTo n vInit) :=
    (equationsMap_smooth (regular_agree hF.belowOne 0 (stretch_agree vInit) (network_regular hL N hv 0 vInit hvi))).differentiableAt (by norm_num)
  obtain ⟨K2, hK2, r2, hr2, hb2⟩ := bounded_near (A := A) hF.smooth hcont
  have hvolt : ∀ w, (N.assign L).voltages w = (N.assign L).voltages (stretch n (cutTo n w)) := fun w =>
    volt_agree hL hF.plain (by rw [hn]; exact stretch_agree w)
  obtain ⟨r3, hr3, hb3⟩ := Metric.nhds_basis_closedBall.eventually_iff.1
    (steady_near (L := L) (x0 := cutTo n x0) hF.noGen (by rw [← hvolt]; exact hst))
  obtain ⟨K, k1, k2, k3⟩ : ∃ K, ‖equationsMap (N.assign L).all 0 n (cutTo n vInit) - equationsMap ((N.factor 0 0).assign L).all 0 n (cutTo n vInit)‖ ≤ K ∧
      ‖fderiv ℝ (equationsMap (N.assign L).all 0 n) (cutTo n vInit) - A‖ ≤ K ∧ K2 ≤ K :=
    ⟨max (max _ _) K2, (le_max_left _ _).trans (le_max_left _ _), (le_max_right _ _).trans (le_max_left _ _), le_max_right _ _⟩
  have hK0 : 0 < K := lt_of_lt_of_le hK2 k3
  have hA0 := norm_nonneg A
  obtain ⟨ρ, hρ0, ρ1, ρ2, ρ3, ρ4⟩ : ∃ ρ > 0, ρ ≤ ε ∧ ρ ≤ tol / (4 * (‖A‖ + 1)) ∧ ρ ≤ r2 ∧ ρ ≤ r3 :=
    ⟨min (min ε (tol / (4 * (‖A‖ + 1)))) (min r2 r3), by positivity, (min_le_left _ _).trans (min_le_left _ _),
      (min_le_left _ _).trans (min_le_right _ _), (min_le_right _ _).trans (min_le_left _ _), (min_le_right _ _).trans (min_le_right _ _)⟩
  obtain ⟨R, R1, R2⟩ : ∃ R, ‖cutTo n vInit - cutTo n x0‖ ≤ R ∧ ρ ≤ R := ⟨max _ ρ, le_max_left _ _, le_max_right _ _⟩
  have hR0 : 0 < R := lt_of_lt_of_le hρ0 R2
  obtain ⟨s0, hs0, q1, q2, q3⟩ := small_factor hK0.le (by positivity : 0 ≤ 2 * (K * (1 + R))) hK0.le (half_pos hc) (mul_pos hc hρ0)
    (by positivity : 0 < tol / 4)
  refine ⟨s0, hs0, fun s hsne hs m C hm hCs hsolve hlim htl hmax => ?_⟩
  have w1 : |s| * K ≤ c / 2 := (mul_le_mul_of_nonneg_right hs hK0.le).trans q1
  have w2 : 2 * (|s| * K * (1 + R)) ≤ c * ρ := by
    have := (mul_le_mul_of_nonneg_right hs (by positivity : 0 ≤ 2 * (K * (1 + R)))).trans q2
    linarith
  have w3 : |s| * K ≤ tol / 4 := (mul_le_mul_of_nonneg_right hs hK0.le).trans q3
  obtain ⟨m', hm', hready⟩ := build_ready (N.factor s s).opt ((N.factor s s).assign L).all (network_wellPlaced hL _ (factor_valid hv s))
  obtain rfl : m' = m := by rw [hm] at hm'; injection hm' with h; exact h.symm
  have hregs : ∀ w, (∀ e ∈ N.elements, e.RegularAt 0 ((N.assign L).voltages w)) → ∀ p ∈ ((N.factor s s).assign L).all, p.Regular 0 w := fun w hw =>
    network_regular hL _ (factor_valid hv s) 0 w fun e he => by
      obtain ⟨e', he', rfl⟩ := List.mem_map.1 he
      exact factor_regular (hw e' he') s
  have hstep : ∀ {z : Fin n → ℝ} {T : ℝ}, T ≤ R → c * ‖z - cutTo n x0‖ ≤ 2 * (|s| * K * (1 + T)) → ‖z - cutTo n x0‖ ≤ ρ := fun {z T} hT hz => by
    have h1 : 2 * (|s| * K * (1 + T)) ≤ 2 * (|s| * K * (1 + R)) := by gcongr
    exact le_of_mul_le_mul_left (hz.trans (h1.trans w2)) hc
  obtain ⟨a1, a2, _, a4⟩ := light_step hF.affine hc hcA hF.zero hd0 k1 k2 R1 w1 (hF.family s)
  have hnext : ∀ w, ‖cutTo n w - cutTo n x0‖ ≤ ρ → (∀ p ∈ ((N.factor s s).assign L).all, p.Regular 0 w) ∧
      (∀ p ∈ ((N.factor s s).assign L).all, p.Filled 0 w) ∧
      DifferentiableAt ℝ (equationsMap ((N.factor s s).assign L).all 0 n) (cutTo n w) ∧
      Function.Injective (fderiv ℝ (equationsMap ((N.factor s s).assign L).all 0 n) (cutTo n w)) ∧
      ‖equationsMap ((N.factor s s).assign L).all 0 n (cutTo n w)‖ < C.tolerance ∧
      ∀ x, equationsMap ((N.factor s s).assign L).all 0 n (cutTo n w) +
        fderiv ℝ (equationsMap ((N.factor s s).assign L).all 0 n) (cutTo n w) (x - cutTo n w) = 0 → ‖x - cutTo n x0‖ ≤ ρ := by
    intro w hw
    obtain ⟨b1, b2, b3⟩ := hb2 _ (hw.trans ρ3)
    obtain ⟨c1, c2, c3, c4⟩ := light_step hF.affine hc hcA hF.zero b1 (b2.trans k3) (b3.trans k3) hw w1 (hF.family s)
    have hsteady : ∀ e ∈ N.elements, e.SteadyAt ((N.assign L).voltages w) [] := by
      have := hb3 (show cutTo n w ∈ Metric.closedBall _ r3 by rw [Metric.mem_closedBall, dist_eq_norm]; exact hw.trans ρ4)
      rw [hvolt w]; exact this
    have hreg := hregs w fun e he => steady_regular (hF.resistive e he) (hsteady e he)
    refine ⟨hreg, ?_, c1, c2, ?_, fun x hx => hstep R2 (c4 x hx)⟩
    · refine network_filled hL (N.factor s s) hF.plain 0 w hreg fun x hx => ?_
      have hmem : x.1 ∈ (N.factor s s).elements := by
        rw [← owned_fst (L := L) (N.factor s s) w]; exact List.mem_map_of_mem hx
      obtain ⟨e', he', hee⟩ := List.mem_map.1 hmem
      rw [← hee]
      exact factor_steady (hF.noGen e' he') (hsteady e' he') hsne
    · refine lt_of_le_of_lt c3 (lt_of_lt_of_le ?_ htl)
      rw [le_div_iff₀ (by positivity)] at ρ2
      nlinarith
  have b1 := hF.below s
  have b2 := hF.rows s
  have hfirst := And.intro a1 (And.intro a2 fun x hx => hstep le_rfl (a4 x hx))
  clear hF hcA hcont hd0 hb2 hb3 hvolt hst hz hstep a1 a2 a4 k1 k2 R1
  subst hCs
  obtain ⟨r, st, h1, h2, h3, h4⟩ := two_passes hready (by norm_num) b1 hsolve (fun _ => b2) hne hlim hmax (hregs vInit hvi) hfirst hnext
  exact ⟨r, st, h1, h2, h3, (within_iff hε.le _ _).2 (h4.trans ρ1)⟩

end

end Verif
