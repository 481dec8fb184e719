import Verif.Lemmas.Newton
import Verif.Lemmas.RowsBelow
import Verif.Spec.LinearSolve
import Verif.Lemmas.Builder
import Verif.Props.Assembly
import Mathlib.LinearAlgebra.Matrix.ToLin
import Mathlib.LinearAlgebra.FiniteDimensional.Basic

/-! The checks of debug mode pass when the linear system has one solution and the matrix is current. -/

namespace Verif

open Builder

/-- If the earlier rounds had as many nonzero stamps as the last one at most, the builder holds just the current stamps. -/
theorem newton_current (lin : List Trip) (its : List (List Trip)) (last : List Trip)
    (hcount : ∀ it ∈ its, (nz it).length ≤ (nz last).length) :
    (newton lin (its ++ [last])).maxIndex = (newton lin (its ++ [last])).index ∧
    (newton lin (its ++ [last])).entries = nz lin ++ nz last := by
  obtain ⟨h1, -, -, -, h5, h6⟩ := newton_spec lin (its ++ [last])
  obtain ⟨h5a, h5b⟩ := h5 last (by simp)
  have hmax : (newton lin (its ++ [last])).maxIndex = (newton lin (its ++ [last])).index := by
    rw [h6, h5b]
    congr 1
    clear h1 h5 h5a h5b h6
    induction its with
    | nil => simp
    | cons it its ih =>
      simp only [List.cons_append, List.map_cons, List.foldr_cons]
      rw [ih fun x hx => hcount x (by simp [hx])]
      exact max_eq_right (hcount it (by simp))
  exact ⟨hmax, by rw [← h5a, ← hmax, h1.len, List.take_length]⟩

/-- A square system with exactly one solution has no zero row and no zero column. -/
theorem unique_rows_cols {n : ℕ} {A : ℕ → ℕ → ℝ} {b x : ℕ → ℝ} (hx : Solves n A b x)
    (hu : ∀ z, Solves n A b z → ∀ i < n, z i = x i) (i : ℕ) (hi : i < n) : (∃ j < n, A i j ≠ 0) ∧ ∃ j < n, A j i ≠ 0 := by
  have hker : ∀ u : ℕ → ℝ, (∀ k < n, ∑ j ∈ Finset.range n, A k j * u j = 0) → ∀ k < n, u k = 0 := by
    intro u h k hk
    have := hu (fun j => x j + u j) (fun l hl => by
      have e : ∀ j, A l j * (x j + u j) = A l j * x j + A l j * u j := fun j => by ring
      simp only [e, Finset.sum_add_distrib]
      rw [hx l hl, h l hl, add_zero]) k hk
    simpa using this
  constructor
  · by_contra hc
    push Not at hc
    let M : Matrix (Fin n) (Fin n) ℝ := fun k j => A k j
    have hinj : Function.Injective (Matrix.toLin' M) := by
      rw [injective_iff_map_eq_zero]
      intro u hu
      funext k
      have := hker (fun j => if hj : j < n then u ⟨j, hj⟩ else 0) (fun l hl => by
        rw [← Fin.sum_univ_eq_sum_range (fun j => A l j * if hj : j < n then u ⟨j, hj⟩ else 0) n]
        have := congrFun hu ⟨l, hl⟩
        simp only [Matrix.toLin'_apply, Matrix.mulVec, dotProduct] at this
        simpa using this) k k.2
      simpa using this
    obtain ⟨u, hu⟩ := LinearMap.injective_iff_surjective.1 hinj (Pi.single ⟨i, hi⟩ 1)
    have := congrFun hu ⟨i, hi⟩
    simp only [Matrix.toLin'_apply, Matrix.mulVec, dotProduct, Pi.single_eq_same] at this
    rw [Finset.sum_eq_zero (fun j _ => by simp [M, hc j j.2])] at this
    exact zero_ne_one this
  · by_contra hc
    push Not at hc
    have := hker (fun j => if j = i then 1 else 0) (fun l hl => Finset.sum_eq_zero fun j _ => by
      by_cases hj : j = i
      · subst hj; simp [hc l hl]
      · simp [hj]) i hi
    simp at this

theorem maxNat_range {n : ℕ} (hn : n ≠ 0) {l : List ℕ} (h1 : ∀ a ∈ l, a < n) (h2 : n - 1 ∈ l) : maxNat l = n - 1 := by
  have hge : ∀ (l : List ℕ), ∀ a ∈ l, a ≤ maxNat l := by
    intro l
    induction l with
    | nil => simp
    | cons b l ih =>
      intro a ha
      show a ≤ max b (maxNat l)
      rcases List.mem_cons.1 ha with rfl | ha
      · exact le_max_left _ _
      · exact (ih a ha).trans (le_max_right _ _)
  have hle : ∀ (l : List ℕ), (∀ a ∈ l, a < n) → maxNat l ≤ n - 1 := by
    intro l
    induction l with
    | nil => intro _; exact Nat.zero_le _
    | cons b l ih =>
      intro h
      show max b (maxNat l) ≤ n - 1
      have := h b (by simp)
      exact max_le (by omega) (ih fun a ha => h a (by simp [ha]))
  exact le_antisymm (hle l h1) (hge l _ h2)

/-- `assert_valid` raises nothing for a matrix within `n` rows and columns that has an entry in each of them. -/
theorem assertValid_ok (debug : Bool) (b : Builder) {n : ℕ} (hn : n ≠ 0) (hlt : ∀ t ∈ b.entries, t.row < n ∧ t.col < n)
    (hr : ∀ i < n, ∃ t ∈ b.entries, t.row = i) (hc : ∀ i < n, ∃ t ∈ b.entries, t.col = i) : b.assertValid debug = .ok () := by
  have e1 : maxNat (b.entries.map Trip.row) = n - 1 := by
    obtain ⟨t, ht, e⟩ := hr (n - 1) (by omega)
    exact maxNat_range hn (by simpa using fun a ha => (hlt a ha).1) (List.mem_map.2 ⟨t, ht, e⟩)
  have e2 : maxNat (b.entries.map Trip.col) = n - 1 := by
    obtain ⟨t, ht, e⟩ := hc (n - 1) (by omega)
    exact maxNat_range hn (by simpa using fun a ha => (hlt a ha).2) (List.mem_map.2 ⟨t, ht, e⟩)
  have e3 : (List.range (n - 1 + 1)).all (fun r => (b.entries.map Trip.row).contains r) = true := by
    rw [List.all_eq_true]
    intro k hk
    obtain ⟨u, hu, e⟩ := hr k (by have := List.mem_range.1 hk; omega)
    exact List.contains_iff_mem.2 (List.mem_map.2 ⟨u, hu, e⟩)
  have e4 : (List.range (n - 1 + 1)).all (fun r => (b.entries.map Trip.col).contains r) = true := by
    rw [List.all_eq_true]
    intro k hk
    obtain ⟨u, hu, e⟩ := hc k (by have := List.mem_range.1 hk; omega)
    exact List.contains_iff_mem.2 (List.mem_map.2 ⟨u, hu, e⟩)
  have e5 : b.entries ≠ [] := by
    obtain ⟨t, ht, _⟩ := hr 0 (by omega)
    exact List.ne_nil_of_mem ht
  unfold Builder.assertValid
  cases debug with
  | false => rfl
  | true =>
    simp only [Bool.true_eq_false, if_false, e5, e1, e2, e3, e4, ne_eq, not_true_eq_false]

theorem matOf_entry {ts : List Trip} {i j : ℕ} (h : matOf ts i j ≠ 0) : ∃ t ∈ ts, t.row = i ∧ t.col = j := by
  by_contra hc
  push Not at hc
  apply h
  unfold matOf
  rw [List.filter_eq_nil_iff.2 (fun t ht => by simpa using hc t ht)]
  rfl

/-- The stamps of the parts lie within the matrix. -/
theorem emitted_below {ps : List Placed} {n : ℕ} (hn : ∀ p ∈ ps, p.Below n) (hr : ∀ p ∈ ps, p.RowsBelow n) (t : ℝ) (v : ℕ → ℝ) (lin : Bool) :
    ∀ e ∈ tripsOf (ps.flatMap fun p => p.emitted t v lin), e.row < n ∧ e.col < n := by
  intro e he
  unfold tripsOf at he
  obtain ⟨a, ha, h⟩ := List.mem_filterMap.1 he
  obtain ⟨c, hc, rfl⟩ := Option.map_eq_some_iff.1 h
  obtain ⟨p, hp, ha⟩ := List.mem_flatMap.1 ha
  unfold Placed.emitted at ha
  obtain ⟨s, hs, rfl⟩ := List.mem_map.1 ha
  obtain ⟨⟨x, hx, h1⟩, h2⟩ := (C08_no_ground_row p).1 s (List.mem_filter.1 hs).1
  obtain ⟨y, hy, hyc⟩ := h2 c hc
  exact ⟨hr p hp x hx _ h1, hn p hp y hy c hyc⟩

section
variable {C : NRContext} {σ : Type} {O : StamperOps σ} {tx : ℝ} {jl : ℕ → ℝ} {li : ℕ}

/-- A pass goes through if the checks pass and the solver succeeds. -/
theorem nrPass_through {it : ℕ} {st : NRState σ} (hs : C.size ≠ 0)
    (ha : (st.Y.stamps (tripsOf (O.stampNonlinear st.stamper st.vPrev it).2)).assertValid C.debug = .ok ())
    (hm : (st.Y.stamps (tripsOf (O.stampNonlinear st.stamper st.vPrev it).2)).maxIndex =
      (st.Y.stamps (tripsOf (O.stampNonlinear st.stamper st.vPrev it).2)).index) {v : ℕ → ℝ}
    (hv : C.solve (matOf (st.Y.stamps (tripsOf (O.stampNonlinear st.stamper st.vPrev it).2)).entries)
      (fun i => jl i + jOf (O.stampNonlinear st.stamper st.vPrev it).2 i) = some v) :
    ∃ p, nrPass C O tx jl li it st = .ok p := by
  unfold nrPass
  obtain ⟨n, hn⟩ := Nat.exists_eq_succ_of_ne_zero hs
  simp only [bind, Except.bind, ha, toMatrix, hm, ne_eq, not_true_eq_false, and_false, if_false, hv, hn, ResidualDetails.make]
  split
  · exact ⟨_, rfl⟩
  · split
    · exact ⟨_, rfl⟩
    · exact ⟨_, rfl⟩

end

end Verif
