import Verif.Lemmas.Join
import Verif.Lemmas.Light
import Verif.Props.Exchange

/-!
# C139: a closed switch makes two buses one
# C140: a bus in the middle or at the open end of a line changes nothing elsewhere
-/

namespace Verif

open Ex Devices

variable {L : Library}

/-- **C139, the switch removed.** Every solution of a network with a closed switch is a solution of the network in which the two buses are one: the voltages stay, and both ends of the
switch have the same voltage. -/
theorem C139_joined (hL : L.Loaded) (k : ℕ) (N M : Network) (h : Joined k N M) (t : ℝ) (y : ℕ → ℝ) (hy : ∀ i, networkEq (M.assign L).all t y i = 0) :
    (M.assign L).voltages y (some N.buses) = (M.assign L).voltages y (some k) ∧
      ∃ x, (∀ i, networkEq (N.assign L).all t x i = 0) ∧ ∀ j < N.buses, (N.assign L).voltages x (some j) = (M.assign L).voltages y (some j) := by
  obtain ⟨es, hM, hN⟩ := h.elements
  have hk := (C67_equations_are_kirchhoff hL M h.plain' t y).1 hy
  have hw := owned_widths (L := L) M h.plain' y
  obtain ⟨s, xs, ho, hs, hxs⟩ := List.map_eq_cons_iff.1 ((owned_fst M y).trans hM)
  obtain ⟨se, w⟩ := s
  cases hs
  rw [ho] at hk hw
  have hlaw : (M.assign L).voltages y (some N.buses) = (M.assign L).voltages y (some k) := by
    have := both_vanish.1 (hk.2 _ List.mem_cons_self)
    linear_combination this
  refine ⟨hlaw, ?_⟩
  obtain ⟨x, g1, g2⟩ := exists_values hL N h.plain (fun j => (M.assign L).voltages y (some j)) (xs.map fun x => (x.1.put (joinBus N.buses k), x.2))
    (by rw [hN, ← hxs, List.map_map, List.map_map]; rfl)
    (fun z hz => by
      obtain ⟨x, hx, rfl⟩ := List.mem_map.1 hz
      exact (hw x (List.mem_cons_of_mem _ hx)).trans (put_laws_length _ _).symm)
  have hV : ∀ r, (N.assign L).voltages x (Option.map (joinBus N.buses k) r) = (M.assign L).voltages y r := by
    intro r
    cases r with
    | none => rfl
    | some j =>
      show (N.assign L).voltages x (some (joinBus N.buses k j)) = _
      unfold joinBus
      split
      · rename_i e
        rw [e, hlaw]; exact g1 k h.inside
      · rename_i e
        by_cases hj : j < N.buses
        · exact g1 j hj
        · rw [voltages_out N x (by omega), voltages_out M y (by rw [h.buses]; omega)]
  refine ⟨x, (C67_equations_are_kirchhoff hL N h.plain t x).2 ?_, g1⟩
  rw [g2]
  rw [h.buses] at hk
  exact kirchhoff_join h.inside t _ _ hV w xs hk

/-- **C139, the switch inserted.** Every solution of the network with one bus is a solution of the network with two buses and a closed switch between them. -/
theorem C139_split (hL : L.Loaded) (k : ℕ) (N M : Network) (h : Joined k N M) (t : ℝ) (x : ℕ → ℝ) (hx : ∀ i, networkEq (N.assign L).all t x i = 0) :
    ∃ y, (∀ i, networkEq (M.assign L).all t y i = 0) ∧ (M.assign L).voltages y (some N.buses) = (N.assign L).voltages x (some k) ∧
      ∀ j < N.buses, (M.assign L).voltages y (some j) = (N.assign L).voltages x (some j) := by
  obtain ⟨es, hM, hN⟩ := h.elements
  have hk := (C67_equations_are_kirchhoff hL N h.plain t x).1 hx
  have hw := owned_widths (L := L) N h.plain x
  obtain ⟨xs, hxs, ho⟩ : ∃ xs : List (Element × List ℝ), xs.map Prod.fst = es ∧ (N.assign L).owned L N x = xs.map fun x => (x.1.put (joinBus N.buses k), x.2) := by
    have := (owned_fst (L := L) N x).trans hN
    revert this
    generalize (N.assign L).owned L N x = o
    clear hM hN hk hw
    induction es generalizing o with
    | nil => intro h; rw [List.map_nil, List.map_eq_nil_iff] at h; exact ⟨[], rfl, h⟩
    | cons e es ih =>
      intro h
      obtain ⟨a, o', rfl, ha, ho'⟩ := List.map_eq_cons_iff.1 h
      obtain ⟨xs, h1, h2⟩ := ih o' ho'
      refine ⟨(e, a.2) :: xs, by rw [List.map_cons, h1], ?_⟩
      rw [List.map_cons, ← h2, ← ha]
  rw [ho] at hk hw
  let V : Ref → ℂ := fun r => (N.assign L).voltages x (Option.map (joinBus N.buses k) r)
  obtain ⟨w, hwl, hk'⟩ := kirchhoff_part h.inside t V ((N.assign L).voltages x) (fun _ => rfl) xs hk
  obtain ⟨y, g1, g2⟩ := exists_values hL M h.plain' (fun j => V (some j)) ((.switch (some k) (some N.buses) .closed, w) :: xs)
    (by rw [hM, List.map_cons, hxs])
    (fun z hz => by
      rcases List.mem_cons.1 hz with rfl | hz
      · exact hwl
      · exact (hw _ (List.mem_map_of_mem hz)).trans (put_laws_length _ _))
  have hn : ∀ j < N.buses, V (some j) = (N.assign L).voltages x (some j) := fun j hj => by
    show (N.assign L).voltages x (some (joinBus N.buses k j)) = _
    rw [joinBus, if_neg (by omega)]
  have hV : (M.assign L).voltages y = V := by
    funext r
    cases r with
    | none => rfl
    | some j =>
      by_cases hj : j < M.buses
      · exact g1 j hj
      · rw [voltages_out M y (not_lt.1 hj)]
        rw [h.buses] at hj
        show 0 = (N.assign L).voltages x (some (joinBus N.buses k j))
        rw [joinBus, if_neg (by omega), voltages_out N x (by omega)]
  refine ⟨y, (C67_equations_are_kirchhoff hL M h.plain' t y).2 ?_, ?_, fun j hj => by rw [hV, hn j hj]⟩
  · rw [hV, g2, h.buses]; exact hk'
  · rw [hV]
    show (N.assign L).voltages x (some (joinBus N.buses k N.buses)) = _
    rw [joinBus, if_pos rfl]

/-- **C139, the run.** If the network with the switch is resistive, connected and without loops of ideal conductors, and so is the other, the solver returns the same voltages for both,
the same at both ends of the switch. -/
theorem C139_solved (hL : L.Loaded) (k : ℕ) (N M : Network) (h : Joined k N M) (hv : N.Valid) (hv' : M.Valid) (hN : N.Sturdy) (hM : M.Sturdy)
    (m m' : Stamper) (v0 v0' : ℕ → ℝ) (it0 it0' : ℤ)
    (hr : Ready N.opt (N.assign L).all m v0 it0) (hr' : Ready M.opt (M.assign L).all m' v0' it0') (txStepping txStepping' : Bool) (vInit vInit' : ℕ → ℝ) :
    ∃ r r', homotopyRun (solverRun (plainCtx (N.assign L).size)) txStepping m vInit = .ok r ∧
      homotopyRun (solverRun (plainCtx (M.assign L).size)) txStepping' m' vInit' = .ok r' ∧ r.success = true ∧ r'.success = true ∧
      (M.assign L).voltages r'.v (some N.buses) = (N.assign L).voltages r.v (some k) ∧
      ∀ j < N.buses, (M.assign L).voltages r'.v (some j) = (N.assign L).voltages r.v (some j) := by
  have hb : 0 < N.buses := lt_of_le_of_lt (Nat.zero_le _) h.inside
  obtain ⟨r, a1, a2, _, _, _, a3, _⟩ := C125_solved_partial hL N hv hN (size_of_bus hL h.plain hb) m v0 it0 hr (plainCtx _) rfl rfl rfl rfl
    (by norm_num [plainCtx]) (by norm_num [plainCtx]) txStepping vInit
  obtain ⟨r', b1, b2, _, _, _, _, b4⟩ := C125_solved_partial hL M hv' hM (size_of_bus hL h.plain' (by rw [h.buses]; omega)) m' v0' it0' hr' (plainCtx _) rfl rfl rfl rfl
    (by norm_num [plainCtx]) (by norm_num [plainCtx]) txStepping' vInit'
  obtain ⟨y, c1, c2, c3⟩ := C139_split hL k N M h 0 r.v ((C67_equations_are_kirchhoff hL N h.plain 0 r.v).2 a3)
  have hy := b4 y ((C67_equations_are_kirchhoff hL M h.plain' 0 y).1 c1)
  refine ⟨r, r', a1, b1, a2, b2, ?_, fun j hj => ?_⟩
  · rw [← volt_agree hL h.plain' hy]; exact c2
  · rw [← volt_agree hL h.plain' hy]; exact c3 j hj

/-! ### C140 -/

theorem below_of {N M : Network} {x y : ℕ → ℝ} (hb : M.buses = N.buses + 1) (h : ∀ j < N.buses, (M.assign L).voltages y (some j) = (N.assign L).voltages x (some j)) :
    SameBelow N.buses ((N.assign L).voltages x) ((M.assign L).voltages y) :=
  ⟨rfl, h, fun j hj => ⟨voltages_out N x hj, voltages_out M y (by rw [hb]; omega)⟩⟩

theorem not_new {n : ℕ} {r : Ref} (h : Ref.Valid n r) : r ≠ some n := by
  rintro rfl; exact lt_irrefl _ h

/-- **C140, removing a bus in the middle of a line.** The voltages of a network with a bus in the middle of a line and nothing else there solve the network with the one line of
admittance `y z / (y + z)`. -/
theorem C140_untapped (hL : L.Loaded) (f u : Ref) (y z : ℂ) (N M : Network) (h : Tapped f u y z N M) (t : ℝ) (ht : 1 + 20 * t ≠ 0) (v : ℕ → ℝ)
    (hv : ∀ i, networkEq (M.assign L).all t v i = 0) :
    (M.assign L).voltages v (some N.buses) = (y * (M.assign L).voltages v f + z * (M.assign L).voltages v u) / (y + z) ∧
      ∃ x, (∀ i, networkEq (N.assign L).all t x i = 0) ∧ ∀ j < N.buses, (N.assign L).voltages x (some j) = (M.assign L).voltages v (some j) := by
  obtain ⟨es, hM, hN, hes⟩ := h.elements
  have hk := (C67_equations_are_kirchhoff hL M h.plain' t v).1 hv
  have hw := owned_widths (L := L) M h.plain' v
  obtain ⟨⟨_, w1⟩, xs', ho, hs, hxs'⟩ := List.map_eq_cons_iff.1 ((owned_fst M v).trans hM)
  cases hs
  obtain ⟨⟨_, w2⟩, xs, rfl, hs, hxs⟩ := List.map_eq_cons_iff.1 hxs'
  cases hs
  rw [ho] at hk hw
  obtain ⟨x, g1, g2⟩ := exists_values hL N h.plain (fun j => (M.assign L).voltages v (some j)) ((.line f u (y * z / (y + z)).re (y * z / (y + z)).im 0, []) :: xs)
    (by rw [hN, List.map_cons, hxs])
    (fun e he => by
      rcases List.mem_cons.1 he with rfl | he
      · rfl
      · exact hw e (List.mem_cons_of_mem _ (List.mem_cons_of_mem _ he)))
  have hsb : SameBelow N.buses ((N.assign L).voltages x) ((M.assign L).voltages v) := below_of h.buses fun j hj => (g1 j hj).symm
  have hval : ∀ e ∈ xs, e.1.Valid N.buses := fun e he => hes e.1 (by rw [← hxs]; exact List.mem_map_of_mem he)
  obtain ⟨r1, r2⟩ := rest_draws hsb t xs hval
  have hkcl : ∀ j < N.buses + 1, busSum j (branch f (some N.buses) (y * (1 + 20 * t) * ((M.assign L).voltages v f - (M.assign L).voltages v (some N.buses)))) +
      (busSum j (branch (some N.buses) u (z * (1 + 20 * t) * ((M.assign L).voltages v (some N.buses) - (M.assign L).voltages v u))) +
        busSum j (xs.flatMap fun e => e.1.draws t ((M.assign L).voltages v) e.2)) = 0 := fun j hj => by
    have : busSum j _ = 0 := hk.1 j (by rw [h.buses]; exact hj)
    rw [List.flatMap_cons, List.flatMap_cons, Raw.busSum_append, Raw.busSum_append] at this
    dsimp only at this
    rw [line_sum, line_sum] at this
    exact this
  generalize hVn : (M.assign L).voltages v (some N.buses) = Vn at *
  have hf := not_new h.from'
  have hu := not_new h.to'
  have htc : (1 + 20 * t : ℂ) ≠ 0 := by exact_mod_cast ht
  have hn := hkcl N.buses (by omega)
  simp only [branch, busSum_cons, Raw.busSum_nil, r2, if_neg hf, if_neg hu, if_pos] at hn
  have hmid : Vn = (y * (M.assign L).voltages v f + z * (M.assign L).voltages v u) / (y + z) := by
    rw [eq_div_iff h.series]
    refine mul_left_cancel₀ htc ?_
    linear_combination hn
  refine ⟨hmid, x, (C67_equations_are_kirchhoff hL N h.plain t x).2 ?_, g1⟩
  rw [g2]
  refine ⟨fun j hj => ?_, fun e he => ?_⟩
  · show busSum j _ = 0
    rw [List.flatMap_cons, Raw.busSum_append]
    dsimp only
    rw [line_sum, ← r1 j hj, ← hsb.ref h.from', ← hsb.ref h.to']
    have hj' := hkcl j (by omega)
    have e : ∀ I : ℂ, (if (some N.buses : Ref) = some j then I else 0) = 0 := fun I => if_neg (by simp; omega)
    have i1 : y * (1 + 20 * t) * ((M.assign L).voltages v f - Vn) = y * z / (y + z) * (1 + 20 * t) * ((M.assign L).voltages v f - (M.assign L).voltages v u) := by
      rw [hmid]; field_simp [h.series]; ring
    have i2 : z * (1 + 20 * t) * (Vn - (M.assign L).voltages v u) = y * z / (y + z) * (1 + 20 * t) * ((M.assign L).voltages v f - (M.assign L).voltages v u) := by
      rw [hmid]; field_simp [h.series]; ring
    rw [i1, i2] at hj'
    simp only [branch, busSum_cons, Raw.busSum_nil, e, add_zero, zero_add] at hj' ⊢
    linear_combination hj'
  · rcases List.mem_cons.1 he with rfl | he
    · intro z hz; exact absurd hz List.not_mem_nil
    · have := hk.2 e (List.mem_cons_of_mem _ (List.mem_cons_of_mem _ he))
      rwa [rest_laws hsb t _ (hval e he)] at this

/-- **C140, a bus in the middle of a line.** A line may be cut by a bus: every solution stays, and the new bus takes the voltage in between, weighted with the admittances. -/
theorem C140_tapped (hL : L.Loaded) (f u : Ref) (y z : ℂ) (N M : Network) (h : Tapped f u y z N M) (t : ℝ) (x : ℕ → ℝ)
    (hx : ∀ i, networkEq (N.assign L).all t x i = 0) :
    ∃ v, (∀ i, networkEq (M.assign L).all t v i = 0) ∧
      (M.assign L).voltages v (some N.buses) = (y * (N.assign L).voltages x f + z * (N.assign L).voltages x u) / (y + z) ∧
      ∀ j < N.buses, (M.assign L).voltages v (some j) = (N.assign L).voltages x (some j) := by
  obtain ⟨es, hM, hN, hes⟩ := h.elements
  have hk := (C67_equations_are_kirchhoff hL N h.plain t x).1 hx
  have hw := owned_widths (L := L) N h.plain x
  obtain ⟨⟨_, w1⟩, xs, ho, hs, hxs⟩ := List.map_eq_cons_iff.1 ((owned_fst N x).trans hN)
  cases hs
  rw [ho] at hk hw
  let mid := (y * (N.assign L).voltages x f + z * (N.assign L).voltages x u) / (y + z)
  obtain ⟨v, g1, g2⟩ := exists_values hL M h.plain' (fun j => if j = N.buses then mid else (N.assign L).voltages x (some j))
    ((.line f (some N.buses) y.re y.im 0, []) :: (.line (some N.buses) u z.re z.im 0, []) :: xs)
    (by rw [hM, List.map_cons, List.map_cons, hxs])
    (fun e he => by
      rcases List.mem_cons.1 he with rfl | he
      · rfl
      rcases List.mem_cons.1 he with rfl | he
      · rfl
      · exact hw e (List.mem_cons_of_mem _ he))
  have hmid : (M.assign L).voltages v (some N.buses) = mid := by rw [g1 _ (by rw [h.buses]; omega), if_pos rfl]
  have hlow : ∀ j < N.buses, (M.assign L).voltages v (some j) = (N.assign L).voltages x (some j) := fun j hj => by
    rw [g1 _ (by rw [h.buses]; omega), if_neg (by omega)]
  have hsb : SameBelow N.buses ((N.assign L).voltages x) ((M.assign L).voltages v) := below_of h.buses hlow
  have hval : ∀ e ∈ xs, e.1.Valid N.buses := fun e he => hes e.1 (by rw [← hxs]; exact List.mem_map_of_mem he)
  obtain ⟨r1, r2⟩ := rest_draws hsb t xs hval
  refine ⟨v, (C67_equations_are_kirchhoff hL M h.plain' t v).2 ?_, hmid, hlow⟩
  rw [g2]
  have hf := not_new h.from'
  have hu := not_new h.to'
  have i1 : y * (1 + 20 * t) * ((N.assign L).voltages x f - mid) = y * z / (y + z) * (1 + 20 * t) * ((N.assign L).voltages x f - (N.assign L).voltages x u) := by
    simp only [mid]; field_simp [h.series]; ring
  have i2 : z * (1 + 20 * t) * (mid - (N.assign L).voltages x u) = y * z / (y + z) * (1 + 20 * t) * ((N.assign L).voltages x f - (N.assign L).voltages x u) := by
    simp only [mid]; field_simp [h.series]; ring
  refine ⟨fun j hj => ?_, fun e he => ?_⟩
  · show busSum j _ = 0
    rw [List.flatMap_cons, List.flatMap_cons, Raw.busSum_append, Raw.busSum_append]
    dsimp only
    rw [line_sum, line_sum, hmid, hsb.ref h.from', hsb.ref h.to', i1, i2]
    simp only [branch, busSum_cons, Raw.busSum_nil]
    by_cases hn : j = N.buses
    · subst hn
      rw [r2, if_neg hf, if_neg hu, if_pos rfl, if_pos rfl]; ring
    · have hj' : j < N.buses := by rw [h.buses] at hj; omega
      have : busSum j _ = 0 := hk.1 j hj'
      rw [List.flatMap_cons, Raw.busSum_append] at this
      dsimp only at this
      rw [line_sum, ← r1 j hj'] at this
      simp only [branch, busSum_cons, Raw.busSum_nil] at this
      have e : ∀ I : ℂ, (if (some N.buses : Ref) = some j then I else 0) = 0 := fun I => if_neg (by simp; omega)
      rw [e, e]; linear_combination this
  · rcases List.mem_cons.1 he with rfl | he
    · intro z hz; exact absurd hz List.not_mem_nil
    rcases List.mem_cons.1 he with rfl | he
    · intro z hz; exact absurd hz List.not_mem_nil
    · have := hk.2 e (List.mem_cons_of_mem _ he)
      rwa [← rest_laws hsb t _ (hval e he)] at this

/-- **C140, the open end of a line.** A bus with nothing but a line to it has the voltage of the other end, and the rest of the network does not notice it. -/
theorem C140_stub (hL : L.Loaded) (f : Ref) (y : ℂ) (N M : Network) (h : Stub f y N M) (t : ℝ) (ht : 1 + 20 * t ≠ 0) :
    (∀ v, (∀ i, networkEq (M.assign L).all t v i = 0) → (M.assign L).voltages v (some N.buses) = (M.assign L).voltages v f ∧
      ∃ x, (∀ i, networkEq (N.assign L).all t x i = 0) ∧ ∀ j < N.buses, (N.assign L).voltages x (some j) = (M.assign L).voltages v (some j)) ∧
    (∀ x, (∀ i, networkEq (N.assign L).all t x i = 0) → ∃ v, (∀ i, networkEq (M.assign L).all t v i = 0) ∧
      ∀ j < N.buses, (M.assign L).voltages v (some j) = (N.assign L).voltages x (some j)) := by
  have hf := not_new h.from'
  have htc : (1 + 20 * t : ℂ) ≠ 0 := by exact_mod_cast ht
  constructor
  · intro v hv
    have hk := (C67_equations_are_kirchhoff hL M h.plain' t v).1 hv
    have hw := owned_widths (L := L) M h.plain' v
    obtain ⟨⟨_, w1⟩, xs, ho, hs, hxs⟩ := List.map_eq_cons_iff.1 ((owned_fst M v).trans h.elements)
    cases hs
    rw [ho] at hk hw
    obtain ⟨x, g1, g2⟩ := exists_values hL N h.plain (fun j => (M.assign L).voltages v (some j)) xs hxs fun e he => hw e (List.mem_cons_of_mem _ he)
    have hsb : SameBelow N.buses ((N.assign L).voltages x) ((M.assign L).voltages v) := below_of h.buses fun j hj => (g1 j hj).symm
    have hval : ∀ e ∈ xs, e.1.Valid N.buses := fun e he => h.valid e.1 (by rw [← hxs]; exact List.mem_map_of_mem he)
    obtain ⟨r1, r2⟩ := rest_draws hsb t xs hval
    have hkcl : ∀ j < N.buses + 1, busSum j (branch f (some N.buses) (y * (1 + 20 * t) * ((M.assign L).voltages v f - (M.assign L).voltages v (some N.buses)))) +
        busSum j (xs.flatMap fun e => e.1.draws t ((M.assign L).voltages v) e.2) = 0 := fun j hj => by
      have : busSum j _ = 0 := hk.1 j (by rw [h.buses]; exact hj)
      rw [List.flatMap_cons, Raw.busSum_append] at this
      dsimp only at this
      rw [line_sum] at this
      exact this
    have hn := hkcl N.buses (by omega)
    simp only [branch, busSum_cons, Raw.busSum_nil, r2, if_neg hf, if_pos] at hn
    have hend : (M.assign L).voltages v (some N.buses) = (M.assign L).voltages v f := by
      refine mul_left_cancel₀ (mul_ne_zero h.live htc) ?_
      linear_combination hn
    refine ⟨hend, x, (C67_equations_are_kirchhoff hL N h.plain t x).2 ?_, g1⟩
    rw [g2]
    refine ⟨fun j hj => ?_, fun e he => ?_⟩
    · show busSum j _ = 0
      rw [← r1 j hj]
      have := hkcl j (by omega)
      rw [hend, sub_self, mul_zero] at this
      simpa only [branch, busSum_cons, Raw.busSum_nil, neg_zero, ite_self, zero_add] using this
    · have := hk.2 e (List.mem_cons_of_mem _ he)
      rwa [rest_laws hsb t _ (hval e he)] at this
  · intro x hx
    have hk := (C67_equations_are_kirchhoff hL N h.plain t x).1 hx
    obtain ⟨v, g1, g2⟩ := exists_values hL M h.plain' (fun j => if j = N.buses then (N.assign L).voltages x f else (N.assign L).voltages x (some j))
      ((.line f (some N.buses) y.re y.im 0, []) :: (N.assign L).owned L N x) (by rw [h.elements, List.map_cons, owned_fst])
      (fun e he => by
        rcases List.mem_cons.1 he with rfl | he
        · rfl
        · exact owned_widths (L := L) N h.plain x e he)
    have hmid : (M.assign L).voltages v (some N.buses) = (N.assign L).voltages x f := by rw [g1 _ (by rw [h.buses]; omega), if_pos rfl]
    have hlow : ∀ j < N.buses, (M.assign L).voltages v (some j) = (N.assign L).voltages x (some j) := fun j hj => by
      rw [g1 _ (by rw [h.buses]; omega), if_neg (by omega)]
    have hsb : SameBelow N.buses ((N.assign L).voltages x) ((M.assign L).voltages v) := below_of h.buses hlow
    have hval : ∀ e ∈ (N.assign L).owned L N x, e.1.Valid N.buses := fun e he => h.valid e.1 (by rw [← owned_fst (L := L) N x]; exact List.mem_map_of_mem he)
    obtain ⟨r1, r2⟩ := rest_draws hsb t _ hval
    refine ⟨v, (C67_equations_are_kirchhoff hL M h.plain' t v).2 ?_, hlow⟩
    rw [g2]
    refine ⟨fun j hj => ?_, fun e he => ?_⟩
    · show busSum j _ = 0
      rw [List.flatMap_cons, Raw.busSum_append]
      dsimp only
      rw [line_sum, hmid, hsb.ref h.from', sub_self, mul_zero]
      simp only [branch, busSum_cons, Raw.busSum_nil, neg_zero, ite_self, zero_add]
      by_cases hn : j = N.buses
      · subst hn; exact r2
      · have hj' : j < N.buses := by rw [h.buses] at hj; omega
        rw [r1 j hj']; exact hk.1 j hj'
    · rcases List.mem_cons.1 he with rfl | he
      · intro z hz; exact absurd hz List.not_mem_nil
      · have := hk.2 e he
        rwa [← rest_laws hsb t _ (hval e he)] at this

/-! ### The single line with a switch, a bus in its middle, an open end -/

/-- The resistance behind a closed switch. -/
noncomputable def switchedLine : Network :=
  ⟨3, [.switch (some 1) (some 2) .closed, .line (some 0) (some 1) 1 0 0, .slack 0 1 0, .shunt 2 1 0], none⟩

/-- The line cut in two of twice the admittance. -/
noncomputable def cutLine : Network :=
  ⟨3, [.line (some 0) (some 2) 2 0 0, .line (some 2) (some 1) 2 0 0, .slack 0 1 0, .shunt 1 1 0], none⟩

/-- A line from the resistance to nowhere. -/
noncomputable def openLine : Network :=
  ⟨3, [.line (some 1) (some 2) 1 0 0, .line (some 0) (some 1) 1 0 0, .slack 0 1 0, .shunt 1 1 0], none⟩

theorem switched_joined : Joined 1 singleLine switchedLine :=
  ⟨rfl, rfl, by norm_num [singleLine], rfl, _, rfl, rfl⟩

theorem cut_tapped : Tapped (some 0) (some 1) 2 2 singleLine cutLine where
  plain := rfl
  plain' := rfl
  buses := rfl
  series := by norm_num
  elements := by
    refine ⟨[.slack 0 1 0, .shunt 1 1 0], ?_, ?_, ?_⟩
    · simp [cutLine, singleLine]
    · rw [show (2 : ℂ) * 2 / (2 + 2) = 1 by norm_num]; simp [singleLine]
    · intro e he
      simp at he
      rcases he with rfl | rfl <;> simp [Element.Valid, singleLine]
  from' := by simp [Ref.Valid, singleLine]
  to' := by simp [Ref.Valid, singleLine]

theorem open_stub : Stub (some 1) 1 singleLine openLine where
  plain := rfl
  plain' := rfl
  buses := rfl
  live := one_ne_zero
  elements := by simp [openLine, singleLine]
  valid := single_valid
  from' := by simp [Ref.Valid, singleLine]

theorem switched_valid : switchedLine.Valid := by
  intro e he
  simp [switchedLine] at he
  rcases he with rfl | rfl | rfl | rfl <;> simp [Element.Valid, Ref.Valid, switchedLine]

theorem switched_sturdy : switchedLine.Sturdy where
  plain := rfl
  resistive := by
    intro e he
    simp [switchedLine] at he
    rcases he with rfl | rfl | rfl | rfl <;> simp [Element.Resistive]
  held := by
    have h0 : Held switchedLine.elements (some 0) := .forth (e := .slack 0 1 0) (a := none) (by simp [switchedLine]) ⟨rfl, rfl⟩ .ground
    have h1 : Held switchedLine.elements (some 1) := .forth (e := .line (some 0) (some 1) 1 0 0) (by simp [switchedLine]) ⟨rfl, rfl⟩ h0
    have h2 : Held switchedLine.elements (some 2) := .forth (e := .switch (some 1) (some 2) .closed) (by simp [switchedLine]) ⟨rfl, rfl⟩ h1
    intro k hk
    have hk : k < 3 := hk
    interval_cases k <;> assumption
  loopless := by
    show Loopless ([(some 1, some 2), (some 0, none)] : List (Ref × Ref))
    exact .leaf (l₁ := []) 1 (.leaf (l₁ := []) 0 .nil (by simp) (by simp)) (by simp) (by simp)

/-- A solution of the single line. -/
theorem single_solution (hL : L.Loaded) : ∃ x, ∀ i, networkEq (singleLine.assign L).all 0 x i = 0 := by
  obtain ⟨x, hx⟩ := (C125_unique_partial hL singleLine single_valid single_sturdy).1
  exact ⟨x, (C67_equations_are_kirchhoff hL singleLine rfl 0 x).2 hx⟩

/-- Beside `C139_split` and `C139_joined`: there and back. -/
example (hL : L.Loaded) : ∃ x y x', (∀ i, networkEq (singleLine.assign L).all 0 x i = 0) ∧ (∀ i, networkEq (switchedLine.assign L).all 0 y i = 0) ∧
    (switchedLine.assign L).voltages y (some 2) = (singleLine.assign L).voltages x (some 1) ∧
    (singleLine.assign L).voltages x' (some 1) = (switchedLine.assign L).voltages y (some 2) := by
  obtain ⟨x, hx⟩ := single_solution hL
  obtain ⟨y, hy, h1, _⟩ := C139_split hL 1 singleLine switchedLine switched_joined 0 x hx
  obtain ⟨h2, x', _, h3⟩ := C139_joined hL 1 singleLine switchedLine switched_joined 0 y hy
  refine ⟨x, y, x', hx, hy, h1, ?_⟩
  rw [h3 1 (by norm_num [singleLine])]
  exact h2.symm

/-- Beside `C139_solved`. -/
example (hL : L.Loaded) (vInit vInit' : ℕ → ℝ) : ∃ m m' r r', homotopyRun (solverRun (plainCtx (singleLine.assign L).size)) false m vInit = .ok r ∧
    homotopyRun (solverRun (plainCtx (switchedLine.assign L).size)) true m' vInit' = .ok r' ∧
    (switchedLine.assign L).voltages r'.v (some 2) = (singleLine.assign L).voltages r.v (some 1) := by
  obtain ⟨m, _, hr⟩ := build_ready singleLine.opt (singleLine.assign L).all (network_wellPlaced hL singleLine single_valid)
  obtain ⟨m', _, hr'⟩ := build_ready switchedLine.opt (switchedLine.assign L).all (network_wellPlaced hL switchedLine switched_valid)
  obtain ⟨r, r', h1, h2, _, _, h3, _⟩ := C139_solved hL 1 singleLine switchedLine switched_joined single_valid switched_valid single_sturdy switched_sturdy
    m m' _ _ _ _ hr hr' false true vInit vInit'
  exact ⟨m, m', r, r', h1, h2, h3⟩

/-- Beside `C140_tapped` and `C140_untapped`. -/
example (hL : L.Loaded) : ∃ x v x', (∀ i, networkEq (singleLine.assign L).all 0 x i = 0) ∧ (∀ i, networkEq (cutLine.assign L).all 0 v i = 0) ∧
    (cutLine.assign L).voltages v (some 2) = ((singleLine.assign L).voltages x (some 0) + (singleLine.assign L).voltages x (some 1)) / 2 ∧
    (singleLine.assign L).voltages x' (some 1) = (cutLine.assign L).voltages v (some 1) := by
  obtain ⟨x, hx⟩ := single_solution hL
  obtain ⟨v, hv, h1, _⟩ := C140_tapped hL _ _ _ _ singleLine cutLine cut_tapped 0 x hx
  obtain ⟨_, x', _, h3⟩ := C140_untapped hL _ _ _ _ singleLine cutLine cut_tapped 0 (by norm_num) v hv
  refine ⟨x, v, x', hx, hv, ?_, h3 1 (by norm_num [singleLine])⟩
  show (cutLine.assign L).voltages v (some singleLine.buses) = _
  rw [h1]; ring

/-- Beside `C140_stub`. -/
example (hL : L.Loaded) : ∃ x v, (∀ i, networkEq (singleLine.assign L).all 0 x i = 0) ∧ (∀ i, networkEq (openLine.assign L).all 0 v i = 0) ∧
    (openLine.assign L).voltages v (some 1) = (singleLine.assign L).voltages x (some 1) ∧
    (openLine.assign L).voltages v (some 2) = (openLine.assign L).voltages v (some 1) := by
  obtain ⟨x, hx⟩ := single_solution hL
  obtain ⟨h1, h2⟩ := C140_stub hL _ _ singleLine openLine open_stub 0 (by norm_num)
  obtain ⟨v, hv, h3⟩ := h2 x hx
  exact ⟨x, v, hx, hv, h3 1 (by norm_num [singleLine]), (h1 v hv).1⟩

end Verif
