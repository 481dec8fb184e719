import Verif.Lemmas.Converge
import Verif.Lemmas.LoadFill
import Verif.Lemmas.Feeder
import Verif.Props.Linear

/-!
# C123: the solver finds solutions it is started near

Full statement: started near enough to a solution at which the equations are not degenerate, the Newton run ends with success and with this
solution. Missing in the theorem: solutions near which the number of nonlinear matrix stamps that are not zero changes. There the builder may
leave stale entries in the matrix (`C04_fails`).
-/

namespace Verif

open Ex Devices

variable {L : Library}

/-- **C123, what holds.** Let `xs` be a solution of a network at which every device is regular, the equations are not degenerate, the fill
is steady and no limited voltage is at its limit. Then there is a radius `δ` so that a Newton run on a fresh stamper with the ideal linear solver,
with or without voltage limiting and debug mode, from any vector within `δ`:

* returns, with success, if the tolerance is above `B / 2 ^ 2 ^ K` and more than `K` iterations are allowed;
* returns a vector whose distance to `xs` is squared with every iteration done;
* returns a vector whose distance to `xs` is at most `G` times the square of the tolerance.

No other solution lies within `δ`. -/
theorem C123_converges_partial (hL : L.Loaded) (N : Network) (hv : N.Valid) (hne : (N.assign L).size ≠ 0) (tx : ℝ) (xs : ℕ → ℝ)
    (hz : ∀ i < (N.assign L).size, networkEq (N.assign L).all tx xs i = 0)
    (hr : ∀ e ∈ N.elements, e.RegularAt tx ((N.assign L).voltages xs))
    (hnd : Nondegenerate (N.assign L).size (networkEq (N.assign L).all tx) xs)
    (hf : SteadyFill (N.assign L).size (N.assign L).all tx xs) (bs : List (ℕ × ℕ)) (hb : OffLimits (N.assign L).size bs xs) :
    ∃ δ > 0, ∃ B > 0, ∃ G > 0,
      (∀ m C, Stamper.build N.opt (N.assign L).all = .ok m → C.size = (N.assign L).size → C.solve = idealSolve C.size →
        C.limit = none ∨ C.limit = some (applyLimiting bs) → ∀ K, B / 2 ^ 2 ^ K < C.tolerance → K < C.maxIters →
        ∀ vInit, Within C.size δ vInit xs →
        ∃ r st, nrRun C Stamper.ops m vInit tx = .ok (r, st) ∧ r.success = true ∧ r.iter ≤ K ∧
          Within C.size (2 * δ / 2 ^ 2 ^ (r.iter + 1)) r.v xs ∧ Within C.size (G * C.tolerance ^ 2) r.v xs) ∧
      ∀ y, Within (N.assign L).size δ y xs → (∀ i < (N.assign L).size, networkEq (N.assign L).all tx y i = 0) →
        ∀ i < (N.assign L).size, y i = xs i := by
  have hn : Below (N.assign L).all (N.assign L).size := fun p hp x hx c hc => network_below hL N p hp x hx c hc
  obtain ⟨ρ, hρ, hidle⟩ := limiting_idle hb
  obtain ⟨M, hM, B, hB, hle, hbasin⟩ := basin_exists hn (network_regular hL N hv tx xs hr) hz hnd hf hρ
  refine ⟨1 / (2 * M), by positivity, B * (1 / M), by positivity, M * B ^ 2, by positivity, ?_, ?_⟩
  · intro m C hm hs hsolve hlim K hK hmax vInit hvi
    obtain ⟨m', hm', hready⟩ := build_ready N.opt (N.assign L).all (network_wellPlaced hL N hv)
    obtain rfl : m' = m := by rw [hm] at hm'; injection hm' with h; exact h.symm
    have hrows : ∀ p ∈ (N.assign L).all, p.RowsBelow C.size := by rw [hs]; exact network_rows_below hL N
    rw [← hs] at hn hbasin hne hidle
    have hlim' : ∀ f, C.limit = some f → ∀ a b, Within C.size (1 / (2 * M)) a xs → Within C.size (1 / (2 * M)) b xs → f a b = a := by
      intro f hf a b ha hb
      rcases hlim with hlim | hlim
      · rw [hlim] at hf; cases hf
      · rw [hlim] at hf; injection hf with hf
        rw [← hf]
        exact hidle a b (fun i hi => (ha i hi).trans hle) (fun i hi => (hb i hi).trans hle)
    obtain ⟨r, st, h1, h2, h3, h4, h5⟩ := near_run hready (by norm_num) hn hM hB hbasin hsolve (fun _ => hrows) hlim' hne hvi (K := K)
      (lt_of_eq_of_lt (by rw [one_div_pow]; ring) hK) hmax
    refine ⟨r, st, h1, h2, h3, ?_, ?_⟩
    · rw [within_iff (by positivity)]
      refine h4.trans (le_of_eq ?_)
      rw [one_div_pow]; field_simp
    · rw [within_iff (by positivity)]
      exact h5.trans (le_of_eq (by ring))
  · intro y hy hy0 i hi
    have hb := hbasin y hy
    have hF : equationsMap (N.assign L).all tx (N.assign L).size (cutTo _ y) = 0 := by
      funext j
      show networkEq _ tx _ j = 0
      rw [← networkEq_agree hn tx (stretch_agree y)]; exact hy0 j j.2
    obtain ⟨s1, _⟩ := hb.step (cutTo _ y) (by rw [hF, sub_self, map_zero, add_zero])
    have hd := (within_iff (by positivity) y xs).1 hy
    rw [le_div_iff₀ (by positivity)] at hd
    have h0 : ‖cutTo (N.assign L).size y - cutTo _ xs‖ ≤ 0 := by
      nlinarith [norm_nonneg (cutTo (N.assign L).size y - cutTo _ xs)]
    have := congrFun (sub_eq_zero.1 (norm_le_zero_iff.1 h0)) ⟨i, hi⟩
    exact this

/-- **C123, whole solve.** From inside the radius of a solution at factor 0 the homotopy sequence is one Newton run. It reports success, and its
vector is as near to the solution as stated in `C123_converges_partial`. -/
theorem C123_solve_partial (hL : L.Loaded) (N : Network) (hv : N.Valid) (hne : (N.assign L).size ≠ 0) (xs : ℕ → ℝ)
    (hz : ∀ i < (N.assign L).size, networkEq (N.assign L).all 0 xs i = 0)
    (hr : ∀ e ∈ N.elements, e.RegularAt 0 ((N.assign L).voltages xs))
    (hnd : Nondegenerate (N.assign L).size (networkEq (N.assign L).all 0) xs)
    (hf : SteadyFill (N.assign L).size (N.assign L).all 0 xs) (bs : List (ℕ × ℕ)) (hb : OffLimits (N.assign L).size bs xs) :
    ∃ δ > 0, ∃ B > 0, ∃ G > 0, ∀ m C txStepping, Stamper.build N.opt (N.assign L).all = .ok m → C.size = (N.assign L).size →
      C.solve = idealSolve C.size → C.limit = none ∨ C.limit = some (applyLimiting bs) →
      ∀ K, B / 2 ^ 2 ^ K < C.tolerance → K < C.maxIters →
      ∀ vInit, Within C.size δ vInit xs →
      ∃ r, homotopyRun (solverRun C) txStepping m vInit = .ok r ∧ r.success = true ∧ r.calls.length = 1 ∧ r.tx = 0 ∧ r.iterations ≤ K ∧
        Within C.size (2 * δ / 2 ^ 2 ^ (r.iterations + 1)) r.v xs ∧ Within C.size (G * C.tolerance ^ 2) r.v xs := by
  obtain ⟨δ, hδ, B, hB, G, hG, h, -⟩ := C123_converges_partial hL N hv hne 0 xs hz hr hnd hf bs hb
  refine ⟨δ, hδ, B, hB, G, hG, fun m C txStepping hm hs hsolve hlim K hK hmax vInit hvi => ?_⟩
  obtain ⟨r, st, h1, h2, h3, h4⟩ := h m C hm hs hsolve hlim K hK hmax vInit hvi
  refine ⟨⟨r.success, r.v, r.iter, 0, st.stamper, [⟨vInit, 0, r⟩]⟩, ?_, h2, rfl, by simp [HomotopyResult.tx], h3, h4⟩
  simp only [homotopyRun, solverRun, h1, bind, Except.bind]
  rw [if_pos (Or.inl h2)]

/-! ### A feeder that meets the hypotheses

A slack of one volt, a line of one siemens and a load of `1/9 + j/3`. The voltage at the load is `2/3 + j/3`. -/

/-- The network. -/
noncomputable def reactiveNet : Network :=
  ⟨2, [.line (some 0) (some 1) 1 0 0, .slack 0 1 0, .load (some 1) none ⟨1 / 9, 1 / 3, 0, 0, 0⟩], none⟩

theorem reactive_valid : reactiveNet.Valid := by
  intro e he
  simp [reactiveNet] at he
  rcases he with rfl | rfl | rfl <;> simp [Element.Valid, Ref.Valid, reactiveNet]

/-- Its equations at homotopy factor 0. -/
noncomputable def reactiveEq (v : ℕ → ℝ) : ℕ → ℝ
  | 0 => v 0 - v 2 + v 4
  | 1 => v 1 - v 3 + v 5
  | 2 => v 2 - v 0 + (1 / 9 * v 2 + 1 / 3 * v 3) / (v 2 ^ 2 + v 3 ^ 2)
  | 3 => v 3 - v 1 + (1 / 9 * v 3 - 1 / 3 * v 2) / (v 2 ^ 2 + v 3 ^ 2)
  | 4 => v 0 - 1
  | 5 => v 1
  | _ => 0

/-- Its solution. -/
noncomputable def reactiveSol : ℕ → ℝ := fun i => if i = 0 then 1 else if i = 2 then 2 / 3 else if i = 3 then 1 / 3 else
  if i = 4 then -1 / 3 else if i = 5 then 1 / 3 else 0

theorem reactive_volt (v : ℕ → ℝ) :
    (reactiveNet.assign L).voltages v (some 0) = ⟨v 0, v 1⟩ ∧ (reactiveNet.assign L).voltages v (some 1) = ⟨v 2, v 3⟩ ∧
    (reactiveNet.assign L).voltages v none = 0 := by
  have hnodes : (reactiveNet.assign L).nodes = [plainNode 0, plainNode 1] := rfl
  unfold Assignment.voltages
  rw [hnodes]
  exact ⟨rfl, rfl, rfl⟩

theorem reactive_owned (hL : L.Loaded) (v : ℕ → ℝ) : (reactiveNet.assign L).owned L reactiveNet v =
    [(.line (some 0) (some 1) 1 0 0, []), (.slack 0 1 0, [v 4, v 5]), (.load (some 1) none ⟨1 / 9, 1 / 3, 0, 0, 0⟩, [])] := by
  obtain ⟨m, s1, s2, s3⟩ := slack_shape hL
  have hsp := twoTerminalDetails_spec (plainNode 0) Node.ground 4 false s1 s2 (by simp) (by simp [terminalDict])
  have h1 := hsp.2.2.2.2.1 .ISr (by simp)
  have h2 := hsp.2.2.2.2.1 .ISi (by simp)
  have e : (reactiveNet.assign L).owned L reactiveNet v =
    [(.line (some 0) (some 1) 1 0 0, []),
     (.slack 0 1 0, [readIdx v ((twoTerminalDetails L.slack (plainNode 0) Node.ground 4 false).1.varMap .ISr),
       readIdx v ((twoTerminalDetails L.slack (plainNode 0) Node.ground 4 false).1.varMap .ISi)]),
     (.load (some 1) none ⟨1 / 9, 1 / 3, 0, 0, 0⟩, [])] := rfl
  rw [e, h1, h2]
  simp [readIdx]

theorem reactive_rows (hL : L.Loaded) (v : ℕ → ℝ) (i : ℕ) :
    networkEq (reactiveNet.assign L).all 0 v i = reactiveEq v i := by
  have h := network_total hL reactiveNet rfl 0 v i
  simp only at h
  rw [h, reactive_owned hL]
  obtain ⟨v0, v1, vg⟩ := reactive_volt (L := L) v
  have hb : reactiveNet.buses = 2 := rfl
  rw [hb]
  have hS : ((⟨1 / 9, 1 / 3⟩ : ℂ) / ⟨v 2, v 3⟩) =
      ⟨(1 / 9 * v 2 + 1 / 3 * v 3) / (v 2 ^ 2 + v 3 ^ 2), -((1 / 9 * v 3 - 1 / 3 * v 2) / (v 2 ^ 2 + v 3 ^ 2))⟩ := by
    apply Complex.ext
    · rw [Complex.div_re]; simp [Complex.normSq_apply]; ring_nf
    · rw [Complex.div_im]; simp [Complex.normSq_apply]; ring_nf
  simp only [List.flatMap_cons, List.flatMap_nil, Element.draws, Element.laws, v0, v1, vg, sub_zero, hS]
  match i with
  | 0 =>
    rw [show drawRow _ _ 0 = _ from (drawRow_bus 2 0 (by omega) _).1]
    simp [lawRow, branch, busSum, stiff, faded, pairAt, reactiveEq]
  | 1 =>
    rw [show drawRow _ _ 1 = _ from (drawRow_bus 2 0 (by omega) _).2]
    simp [lawRow, branch, busSum, stiff, faded, pairAt, reactiveEq]
  | 2 =>
    rw [show drawRow _ _ 2 = _ from (drawRow_bus 2 1 (by omega) _).1]
    simp [lawRow, branch, busSum, stiff, faded, pairAt, reactiveEq]
  | 3 =>
    rw [show drawRow _ _ 3 = _ from (drawRow_bus 2 1 (by omega) _).2]
    simp [lawRow, branch, busSum, stiff, faded, pairAt, reactiveEq]
  | 4 => rw [drawRow_high 2 4 (by omega)]; simp [lawRow, both, reactiveEq]
  | 5 => rw [drawRow_high 2 5 (by omega)]; simp [lawRow, both, reactiveEq]
  | k + 6 => rw [drawRow_high 2 _ (by omega)]; simp [lawRow, both, reactiveEq]

theorem reactive_size (hL : L.Loaded) : (reactiveNet.assign L).size = 6 := by
  obtain ⟨m, s1, s2, s3⟩ := slack_shape hL
  have hsp := twoTerminalDetails_spec (plainNode 0) Node.ground 4 false s1 s2 (by simp) (by simp [terminalDict])
  obtain ⟨q1, q2, _⟩ := pq_shape hL
  have hsq := twoTerminalDetails_spec (own := []) (lams := []) (plainNode 1) Node.ground 6 false q1 q2 (by simp) (by simp)
  have e : (reactiveNet.assign L).size = (placeLoad L false (plainNode 1) Node.ground ⟨1 / 9, 1 / 3, 0, 0, 0⟩
      (twoTerminalDetails L.slack (plainNode 0) Node.ground 4 false).2).2 := rfl
  rw [e, hsp.2.2.2.2.2.2]
  have h6 := hsq.2.2.2.2.2.2
  unfold placeLoad placeTwoTerminal
  simp
  exact h6

theorem reactive_regular : ∀ e ∈ reactiveNet.elements, e.RegularAt 0 ((reactiveNet.assign L).voltages reactiveSol) := by
  intro e he
  obtain ⟨v0, v1, vg⟩ := reactive_volt (L := L) reactiveSol
  simp [reactiveNet] at he
  rcases he with rfl | rfl | rfl
  · trivial
  · trivial
  · right; rw [v1, vg]
    intro hh
    have := congrArg Complex.re hh
    simp [reactiveSol] at this

theorem reactive_solved (hL : L.Loaded) (i : ℕ) : networkEq (reactiveNet.assign L).all 0 reactiveSol i = 0 := by
  rw [reactive_rows hL]
  match i with
  | 0 | 1 | 2 | 3 | 4 | 5 => simp [reactiveEq, reactiveSol] <;> norm_num
  | k + 6 => rfl

theorem reactive_nondegenerate (hL : L.Loaded) : Nondegenerate 6 (networkEq (reactiveNet.assign L).all 0) reactiveSol := by
  intro u hu
  simp only [reactive_rows hL] at hu
  have hl : ∀ k, HasDerivAt (fun s : ℝ => reactiveSol k + s * u k) (u k) 0 := fun k => by
    simpa using ((hasDerivAt_id (0 : ℝ)).mul_const (u k)).const_add (reactiveSol k)
  have hq : HasDerivAt (fun s : ℝ => (reactiveSol 2 + s * u 2) ^ 2 + (reactiveSol 3 + s * u 3) ^ 2) (4 / 3 * u 2 + 2 / 3 * u 3) 0 := by
    refine (((hl 2).pow 2).add ((hl 3).pow 2)).congr_deriv ?_
    simp [reactiveSol]; ring
  have hne : (reactiveSol 2 + 0 * u 2) ^ 2 + (reactiveSol 3 + 0 * u 3) ^ 2 ≠ 0 := by simp [reactiveSol]; norm_num
  have e0 := (hu 0 (by omega)).unique (((hl 0).sub (hl 2)).add (hl 4))
  have e1 := (hu 1 (by omega)).unique (((hl 1).sub (hl 3)).add (hl 5))
  have e2 := (hu 2 (by omega)).unique (((hl 2).sub (hl 0)).add ((((hl 2).const_mul (1 / 9)).add ((hl 3).const_mul (1 / 3))).div hq hne))
  have e3 := (hu 3 (by omega)).unique (((hl 3).sub (hl 1)).add ((((hl 3).const_mul (1 / 9)).sub ((hl 2).const_mul (1 / 3))).div hq hne))
  have e4 := (hu 4 (by omega)).unique ((hl 0).sub_const 1)
  have e5 := (hu 5 (by omega)).unique (hl 1)
  simp [reactiveSol] at e2 e3
  norm_num at e2 e3
  have h2 : u 2 = 0 := by linarith
  have h3 : u 3 = 0 := by linarith
  intro i hi
  interval_cases i <;> linarith

theorem reactive_steady (hL : L.Loaded) : ∀ x ∈ (reactiveNet.assign L).owned L reactiveNet reactiveSol,
    x.1.SteadyAt ((reactiveNet.assign L).voltages reactiveSol) x.2 := by
  intro e he
  obtain ⟨v0, v1, vg⟩ := reactive_volt (L := L) reactiveSol
  rw [reactive_owned hL] at he
  simp at he
  rcases he with rfl | rfl | rfl
  · trivial
  · trivial
  · right; rw [v1, vg]
    simp [reactiveSol, pow_two]
    norm_num

theorem reactive_offLimits : OffLimits 6 [(0, 1), (2, 3)] reactiveSol := by
  intro b hb
  simp at hb
  rcases hb with rfl | rfl <;> simp [reactiveSol, abs_lt] <;> norm_num

/-- The feeder meets every hypothesis: near its solution, which is not the flat start, the solve succeeds. -/
example (hL : L.Loaded) : ∃ δ > 0, ∃ B > 0, ∀ m C txStepping, Stamper.build false (reactiveNet.assign L).all = .ok m → C.size = 6 →
    C.solve = idealSolve C.size → C.limit = some (applyLimiting [(0, 1), (2, 3)]) →
    ∀ K, B / 2 ^ 2 ^ K < C.tolerance → K < C.maxIters →
    ∀ vInit, Within 6 δ vInit reactiveSol →
    ∃ r, homotopyRun (solverRun C) txStepping m vInit = .ok r ∧ r.success = true ∧ Within 6 (2 * δ / 2 ^ 2 ^ (r.iterations + 1)) r.v reactiveSol := by
  have hs := reactive_size (L := L) hL
  obtain ⟨δ, hδ, B, hB, G, hG, h⟩ := C123_solve_partial hL reactiveNet reactive_valid (by rw [hs]; omega) reactiveSol
    (fun i _ => reactive_solved hL i) reactive_regular (by rw [hs]; exact reactive_nondegenerate hL)
    (steady_of_elements hL reactiveNet reactive_valid rfl 0 reactiveSol reactive_regular (reactive_steady hL)) [(0, 1), (2, 3)]
    (by rw [hs]; exact reactive_offLimits)
  refine ⟨δ, hδ, B, hB, fun m C txStepping hm hC h1 h3 K hK hmax vInit hv => ?_⟩
  obtain ⟨r, e1, e2, e3, e4, e5, e6, -⟩ := h m C txStepping hm (by rw [hC, hs]) h1 (Or.inr h3) K hK hmax vInit (by rw [hC]; exact hv)
  exact ⟨r, e1, e2, by rw [← hC]; exact e6⟩

/-- **C123 in terms of the elements.** Outside of infeasibility analysis, the steady fill follows from a condition on the voltages at constant
power loads and generators. -/
theorem C123_elements_partial (hL : L.Loaded) (N : Network) (hv : N.Valid) (ho : N.optimization = none) (hne : (N.assign L).size ≠ 0) (tx : ℝ)
    (xs : ℕ → ℝ) (hz : ∀ i < (N.assign L).size, networkEq (N.assign L).all tx xs i = 0)
    (hr : ∀ e ∈ N.elements, e.RegularAt tx ((N.assign L).voltages xs))
    (hs : ∀ x ∈ (N.assign L).owned L N xs, x.1.SteadyAt ((N.assign L).voltages xs) x.2)
    (hnd : Nondegenerate (N.assign L).size (networkEq (N.assign L).all tx) xs) (bs : List (ℕ × ℕ)) (hb : OffLimits (N.assign L).size bs xs) :
    ∃ δ > 0, ∃ B > 0, ∃ G > 0,
      (∀ m C, Stamper.build N.opt (N.assign L).all = .ok m → C.size = (N.assign L).size → C.solve = idealSolve C.size →
        C.limit = none ∨ C.limit = some (applyLimiting bs) → ∀ K, B / 2 ^ 2 ^ K < C.tolerance → K < C.maxIters →
        ∀ vInit, Within C.size δ vInit xs →
        ∃ r st, nrRun C Stamper.ops m vInit tx = .ok (r, st) ∧ r.success = true ∧ r.iter ≤ K ∧
          Within C.size (2 * δ / 2 ^ 2 ^ (r.iter + 1)) r.v xs ∧ Within C.size (G * C.tolerance ^ 2) r.v xs) ∧
      ∀ y, Within (N.assign L).size δ y xs → (∀ i < (N.assign L).size, networkEq (N.assign L).all tx y i = 0) →
        ∀ i < (N.assign L).size, y i = xs i :=
  C123_converges_partial hL N hv hne tx xs hz hr hnd (steady_of_elements hL N hv ho tx xs hr hs) bs hb

example (hL : L.Loaded) := C123_elements_partial hL reactiveNet reactive_valid rfl (by rw [reactive_size hL]; omega) 0 reactiveSol
  (fun i _ => reactive_solved hL i) reactive_regular (reactive_steady hL) (by rw [reactive_size hL]; exact reactive_nondegenerate hL)
  [(0, 1), (2, 3)] (by rw [reactive_size hL]; exact reactive_offLimits)

example (hL : L.Loaded) := C123_converges_partial hL reactiveNet reactive_valid (by rw [reactive_size hL]; omega) 0 reactiveSol
  (fun i _ => reactive_solved hL i) reactive_regular (by rw [reactive_size hL]; exact reactive_nondegenerate hL)
  (steady_of_elements hL reactiveNet reactive_valid rfl 0 reactiveSol reactive_regular (reactive_steady hL))
  [(0, 1), (2, 3)] (by rw [reactive_size hL]; exact reactive_offLimits)

/-! ### A generator

A slack of one volt, a line of one siemens and a generator that delivers `2/5` at one volt. Its voltage is `3/5 + 4j/5`. -/

/-- The network. -/
noncomputable def machineNet : Network := ⟨2, [.line (some 0) (some 1) 1 0 0, .slack 0 1 0, .generator 1 (-2 / 5) 1], none⟩

theorem machine_valid : machineNet.Valid := by
  intro e he
  simp [machineNet] at he
  rcases he with rfl | rfl | rfl <;> simp [Element.Valid, Ref.Valid, machineNet]

/-- Its equations at homotopy factor 0. -/
noncomputable def machineEq (v : ℕ → ℝ) : ℕ → ℝ
  | 0 => v 0 - v 2 + v 4
  | 1 => v 1 - v 3 + v 5
  | 2 => v 2 - v 0 + (-2 / 5 * v 2 + v 6 * v 3) / (v 2 ^ 2 + v 3 ^ 2)
  | 3 => v 3 - v 1 + (-2 / 5 * v 3 - v 6 * v 2) / (v 2 ^ 2 + v 3 ^ 2)
  | 4 => v 0 - 1
  | 5 => v 1
  | 6 => 1 - v 2 ^ 2 - v 3 ^ 2
  | _ => 0

/-- Its solution. -/
noncomputable def machineSol : ℕ → ℝ := fun i => if i = 0 then 1 else if i = 2 then 3 / 5 else if i = 3 then 4 / 5 else
  if i = 4 then -2 / 5 else if i = 5 then 4 / 5 else if i = 6 then 4 / 5 else 0

theorem machine_volt (v : ℕ → ℝ) :
    (machineNet.assign L).voltages v (some 0) = ⟨v 0, v 1⟩ ∧ (machineNet.assign L).voltages v (some 1) = ⟨v 2, v 3⟩ ∧
    (machineNet.assign L).voltages v none = 0 := by
  have hnodes : (machineNet.assign L).nodes = [plainNode 0, plainNode 1] := rfl
  unfold Assignment.voltages
  rw [hnodes]
  exact ⟨rfl, rfl, rfl⟩

theorem machine_owned (hL : L.Loaded) (v : ℕ → ℝ) : (machineNet.assign L).owned L machineNet v =
    [(.line (some 0) (some 1) 1 0 0, []), (.slack 0 1 0, [v 4, v 5]), (.generator 1 (-2 / 5) 1, [v 6])] := by
  obtain ⟨m, s1, s2, s3⟩ := slack_shape hL
  have hsp := twoTerminalDetails_spec (plainNode 0) Node.ground 4 false s1 s2 (by simp) (by simp [terminalDict])
  have h1 := hsp.2.2.2.2.1 .ISr (by simp)
  have h2 := hsp.2.2.2.2.1 .ISi (by simp)
  obtain ⟨k, g1, g2, g3⟩ := gen_shape hL
  have hsg := twoTerminalDetails_spec (plainNode 1) Node.ground 6 false g1 g2 (by simp) (by simp [terminalDict])
  have h3 := hsg.2.2.2.2.1 .Q (by simp)
  have h6 : (twoTerminalDetails L.slack (plainNode 0) Node.ground 4 false).2 = 6 := hsp.2.2.2.2.2.2
  have e : (machineNet.assign L).owned L machineNet v =
    [(.line (some 0) (some 1) 1 0 0, []),
     (.slack 0 1 0, [readIdx v ((twoTerminalDetails L.slack (plainNode 0) Node.ground 4 false).1.varMap .ISr),
       readIdx v ((twoTerminalDetails L.slack (plainNode 0) Node.ground 4 false).1.varMap .ISi)]),
     (.generator 1 (-2 / 5) 1, [readIdx v ((twoTerminalDetails L.gen (plainNode 1) Node.ground
       (twoTerminalDetails L.slack (plainNode 0) Node.ground 4 false).2 false).1.varMap .Q)])] := rfl
  rw [e, h6, h1, h2, h3]
  simp [readIdx]

theorem machine_size (hL : L.Loaded) : (machineNet.assign L).size = 7 := by
  obtain ⟨m, s1, s2, s3⟩ := slack_shape hL
  have hsp := twoTerminalDetails_spec (plainNode 0) Node.ground 4 false s1 s2 (by simp) (by simp [terminalDict])
  have h6 : (twoTerminalDetails L.slack (plainNode 0) Node.ground 4 false).2 = 6 := hsp.2.2.2.2.2.2
  have e : (machineNet.assign L).size = (twoTerminalDetails L.gen (plainNode 1) Node.ground
      (twoTerminalDetails L.slack (plainNode 0) Node.ground 4 false).2 false).2 := rfl
  rw [e, h6]
  exact (gen_total hL (plainNode 1) Node.ground 6 0 0 0 (fun _ => 0) 0).1

theorem machine_rows (hL : L.Loaded) (v : ℕ → ℝ) (i : ℕ) : networkEq (machineNet.assign L).all 0 v i = machineEq v i := by
  have h := network_total hL machineNet rfl 0 v i
  simp only at h
  rw [h, machine_owned hL]
  obtain ⟨v0, v1, vg⟩ := machine_volt (L := L) v
  have hb : machineNet.buses = 2 := rfl
  rw [hb]
  have hS : ((⟨-2 / 5, v 6⟩ : ℂ) / ⟨v 2, v 3⟩) =
      ⟨(-2 / 5 * v 2 + v 6 * v 3) / (v 2 ^ 2 + v 3 ^ 2), -((-2 / 5 * v 3 - v 6 * v 2) / (v 2 ^ 2 + v 3 ^ 2))⟩ := by
    apply Complex.ext
    · rw [Complex.div_re]; simp [Complex.normSq_apply]; ring_nf
    · rw [Complex.div_im]; simp [Complex.normSq_apply]; ring_nf
  have hw : [v 6].getD 0 0 = v 6 := rfl
  simp only [List.flatMap_cons, List.flatMap_nil, Element.draws, Element.laws, v0, v1, vg, sub_zero, hw, hS]
  match i with
  | 0 =>
    rw [show drawRow _ _ 0 = _ from (drawRow_bus 2 0 (by omega) _).1]
    simp [lawRow, branch, busSum, stiff, faded, pairAt, machineEq]
  | 1 =>
    rw [show drawRow _ _ 1 = _ from (drawRow_bus 2 0 (by omega) _).2]
    simp [lawRow, branch, busSum, stiff, faded, pairAt, machineEq]
  | 2 =>
    rw [show drawRow _ _ 2 = _ from (drawRow_bus 2 1 (by omega) _).1]
    simp [lawRow, branch, busSum, stiff, faded, pairAt, machineEq]
  | 3 =>
    rw [show drawRow _ _ 3 = _ from (drawRow_bus 2 1 (by omega) _).2]
    simp [lawRow, branch, busSum, stiff, faded, pairAt, machineEq]
  | 4 => rw [drawRow_high 2 4 (by omega)]; simp [lawRow, both, machineEq]
  | 5 => rw [drawRow_high 2 5 (by omega)]; simp [lawRow, both, machineEq]
  | 6 => rw [drawRow_high 2 6 (by omega)]; simp [lawRow, both, machineEq, Complex.normSq_apply]; ring
  | k + 7 => rw [drawRow_high 2 _ (by omega)]; simp [lawRow, both, machineEq]

theorem machine_regular : ∀ e ∈ machineNet.elements, e.RegularAt 0 ((machineNet.assign L).voltages machineSol) := by
  intro e he
  obtain ⟨v0, v1, vg⟩ := machine_volt (L := L) machineSol
  simp [machineNet] at he
  rcases he with rfl | rfl | rfl
  · trivial
  · trivial
  · show (machineNet.assign L).voltages machineSol (some 1) ≠ 0
    rw [v1]
    intro hh
    have := congrArg Complex.re hh
    simp [machineSol] at this

theorem machine_solved (hL : L.Loaded) (i : ℕ) : networkEq (machineNet.assign L).all 0 machineSol i = 0 := by
  rw [machine_rows hL]
  match i with
  | 0 | 1 | 2 | 3 | 4 | 5 | 6 => simp [machineEq, machineSol] <;> norm_num
  | k + 7 => rfl

theorem machine_nondegenerate (hL : L.Loaded) : Nondegenerate 7 (networkEq (machineNet.assign L).all 0) machineSol := by
  intro u hu
  simp only [machine_rows hL] at hu
  have hl : ∀ k, HasDerivAt (fun s : ℝ => machineSol k + s * u k) (u k) 0 := fun k => by
    simpa using ((hasDerivAt_id (0 : ℝ)).mul_const (u k)).const_add (machineSol k)
  have hq : HasDerivAt (fun s : ℝ => (machineSol 2 + s * u 2) ^ 2 + (machineSol 3 + s * u 3) ^ 2) (6 / 5 * u 2 + 8 / 5 * u 3) 0 := by
    refine (((hl 2).pow 2).add ((hl 3).pow 2)).congr_deriv ?_
    simp [machineSol]; ring
  have hne : (machineSol 2 + 0 * u 2) ^ 2 + (machineSol 3 + 0 * u 3) ^ 2 ≠ 0 := by simp [machineSol]; norm_num
  have e0 := (hu 0 (by omega)).unique (((hl 0).sub (hl 2)).add (hl 4))
  have e1 := (hu 1 (by omega)).unique (((hl 1).sub (hl 3)).add (hl 5))
  have e2 := (hu 2 (by omega)).unique (((hl 2).sub (hl 0)).add ((((hl 2).const_mul (-2 / 5)).add ((hl 6).mul (hl 3))).div hq hne))
  have e3 := (hu 3 (by omega)).unique (((hl 3).sub (hl 1)).add ((((hl 3).const_mul (-2 / 5)).sub ((hl 6).mul (hl 2))).div hq hne))
  have e4 := (hu 4 (by omega)).unique ((hl 0).sub_const 1)
  have e5 := (hu 5 (by omega)).unique (hl 1)
  have e6 := (hu 6 (by omega)).unique ((((hl 2).pow 2).const_sub 1).sub ((hl 3).pow 2))
  simp [machineSol] at e2 e3 e6
  norm_num at e2 e3 e6
  have h6 : u 6 = 0 := by linarith
  have h3 : u 3 = 0 := by linarith
  have h2 : u 2 = 0 := by linarith
  intro i hi
  interval_cases i <;> linarith

theorem machine_steady (hL : L.Loaded) : ∀ x ∈ (machineNet.assign L).owned L machineNet machineSol,
    x.1.SteadyAt ((machineNet.assign L).voltages machineSol) x.2 := by
  intro e he
  obtain ⟨v0, v1, vg⟩ := machine_volt (L := L) machineSol
  rw [machine_owned hL] at he
  simp at he
  rcases he with rfl | rfl | rfl
  · trivial
  · trivial
  · show _ ∧ _ ∧ _ ∧ _
    rw [v1]
    simp [machineSol, pow_two]
    norm_num

/-- With a generator the theorem applies too. -/
example (hL : L.Loaded) := C123_elements_partial hL machineNet machine_valid rfl (by rw [machine_size hL]; omega) 0 machineSol
  (fun i _ => machine_solved hL i) machine_regular (machine_steady hL) (by rw [machine_size hL]; exact machine_nondegenerate hL)
  [] (fun b hb => by simp at hb)

end Verif
