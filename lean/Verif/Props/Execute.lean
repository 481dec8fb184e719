import Verif.Model.Execute
import Verif.Props.DeviceControl
import Verif.Props.Islands
import Verif.Props.Results

/-!
# C144: what `PowerFlow.execute` returns
-/

namespace Verif

open Ex

variable {L : Library}

/-- Equations behind a returned success of one solve. -/
theorem solve_success (hL : L.Loaded) {C : NRContext} {txStepping : Bool} {vInit : ℕ → ℝ} {D : DxNet} (hv : D.network.Valid) {r : HomotopyResult Stamper}
    (hsol : D.solve L C txStepping vInit = .ok r) (hs : r.success = true) :
    (∀ i ∈ D.items, i.refuses = false) ∧ ∃ w, ∀ i < (D.network.assign L).size, |networkEq (D.network.assign L).all 0 w i| < C.tolerance := by
  unfold DxNet.solve at hsol
  split_ifs at hsol with hr0
  refine ⟨fun i hi => ?_, ?_⟩
  · by_contra hne
    exact hr0 (List.any_eq_true.2 ⟨i, hi, by simpa using hne⟩)
  · obtain ⟨m, hm, hr⟩ := build_ready D.network.opt (D.network.assign L).all (network_wellPlaced hL _ hv)
    rw [hm] at hsol
    simp only [bind, Except.bind] at hsol
    obtain ⟨c0, steps, e1, _, _, e4, _, _, _, ⟨cl, e5, _, e7, e8⟩, _⟩ := C23_homotopy _ _ _ _ _ hsol
    obtain ⟨w, hw⟩ := callChain_ready e4 hr cl e5 (by rw [← e7]; exact hs)
    rw [e8 hs] at hw
    exact ⟨w, hw⟩

/-- A run without device control is one solve. -/
theorem run_uncontrolled {C : NRContext} {txStepping : Bool} {vInit : ℕ → ℝ} {D D' : DxNet} {r : HomotopyResult Stamper}
    (h : (D.run L C txStepping false vInit).out = .ok (r, D')) : D' = D ∧ D.solve L C txStepping vInit = .ok r := by
  have e : (D.run L C txStepping false vInit).out = (D.solve L C txStepping vInit).map fun r => (r, D) := by
    unfold DxNet.run deviceRun
    rw [if_neg (by simp)]
    show (deviceLoop _ false vInit (9 + 1) D []).out = _
    rw [deviceLoop]
    rw [show (DxNet.ops L C txStepping).solve D vInit = D.solve L C txStepping vInit from rfl]
    cases D.solve L C txStepping vInit with
    | error e => rfl
    | ok r =>
      dsimp only
      split
      · rfl
      · rfl
  rw [h] at e
  cases hs : D.solve L C txStepping vInit with
  | error e' => rw [hs] at e; cases e
  | ok r' =>
    rw [hs] at e
    have := Except.ok.inj e
    cases this
    exact ⟨rfl, rfl⟩

/-- **C144.** Whatever `PowerFlow.execute` returns, with networkx finding the islands:
- the network has a named node and any two are joined by a path of elements,
- nodes joined without a transformer or regulator in between have nominal voltages within 20,
- the results are those of one vector, read in the network that is left behind,
- if they say success, no fuse is blown, all equations of that network are below the tolerance at some vector, and either device control is off and the network
  is the one given, or it is on and evaluating all devices at the returned vector changes nothing.
A run that meets the hypotheses is the example at the end of `RawExecute`, a loaded case that is solved. -/
theorem C144_execute (hL : L.Loaded) {S : PFSettings} {solve : (ℕ → ℕ → ℝ) → (ℕ → ℝ) → Option (ℕ → ℝ)} {cs vs : List (List Txt)} {G : PFNet} {R : Results} {D : DxNet}
    (hp : ProperEnds G.buses G.connected) (hc : IsIslands G.graph cs) (hv : IsEdgeIslands (G.graph.plainEdges G.connected) vs) (hval : G.net.network.Valid)
    (h : execute L S solve cs vs G = .ok (R, D)) :
    (∃ a, RealName G.buses a) ∧ (∀ a b, RealName G.buses a → RealName G.buses b → PathBetween G.buses G.connected a b) ∧
    (∀ a b, Relation.ReflTransGen (PlainLinked G.buses G.connected) a b → ∀ x y, FirstNamed G.buses a x → FirstNamed G.buses b y → |x.vnom - y.vnom| ≤ 20) ∧
    ∃ v, R = Results.make D.network (G.buses.map fun b => ⟨b.virtual, b.vnom⟩) (D.network.assign L) R.success v ∧
      (R.success = true → (∀ i ∈ D.items, i.refuses = false) ∧
        (∃ w, ∀ i < (D.network.assign L).size, |networkEq (D.network.assign L).all 0 w i| < S.tolerance) ∧
        if S.control then D.adjust L v = .ok (D, false) else D = G.net) := by
  unfold execute at h
  cases hch : executeChecks G.buses cs vs with
  | error e => rw [hch] at h; cases h
  | ok u =>
    rw [hch] at h
    simp only [bind, Except.bind] at h
    cases hrun : (G.net.run L (G.context L S solve) S.txStepping S.control (G.start L S)).out with
    | error e => rw [hrun] at h; cases h
    | ok p =>
      rw [hrun] at h
      obtain ⟨r, D'⟩ := p
      cases h
      have hone : (∃ a, RealName G.buses a) ∧ ∀ a b, RealName G.buses a → RealName G.buses b → PathBetween G.buses G.connected a b := by
        by_contra hn
        have := (C45_refused_iff G.buses G.connected hp cs vs hc).2 hn
        rw [hch] at this
        cases this
      refine ⟨hone.1, hone.2, fun a b hab x y hx hy => C46_spread G.buses G.connected hp cs vs hv hch a b hab x y hx hy, r.v, rfl, fun hs => ?_⟩
      have hs' : r.success = true := hs
      cases hctl : S.control with
      | true =>
        rw [hctl] at hrun
        obtain ⟨h1, h2, -, -, h5⟩ := C26_returned_solution hL _ _ _ _ _ hval r hrun hs'
        exact ⟨h2, h5, h1⟩
      | false =>
        rw [hctl] at hrun
        obtain ⟨rfl, hsol⟩ := run_uncontrolled hrun
        obtain ⟨h1, h2⟩ := solve_success hL hval hsol hs'
        exact ⟨h1, h2, rfl⟩

/-- **C144, refusals.** A network some two named nodes of which are not joined by a path is refused for that reason, whatever the settings and the solver. -/
theorem C144_islands_refused {S : PFSettings} {solve : (ℕ → ℕ → ℝ) → (ℕ → ℝ) → Option (ℕ → ℝ)} {cs vs : List (List Txt)} {G : PFNet}
    (hp : ProperEnds G.buses G.connected) (hc : IsIslands G.graph cs) {a b : Txt} (ha : RealName G.buses a) (hb : RealName G.buses b)
    (h : ¬ PathBetween G.buses G.connected a b) : execute L S solve cs vs G = .error "Detected multiple network islands." := by
  have := (C45_refused_iff G.buses G.connected hp cs vs hc).2 fun hn => h (hn.2 a b ha hb)
  unfold execute
  rw [this]
  rfl

/-- Two swing buses without any element between them. -/
noncomputable def twoSystems (a b : Txt) : PFNet where
  buses := [⟨a, false, 1⟩, ⟨b, false, 1⟩]
  starts := [(1, 0), (1, 0)]
  gens := []
  slacks := [(0, 0), (0, 0)]
  net := ⟨2, [.fixed (.slack 0 1 0), .fixed (.slack 1 1 0)], none, false⟩

theorem twoSystems_graph (a b : Txt) : (twoSystems a b).graph = ⟨graphNodes [⟨a, false, 1⟩, ⟨b, false, 1⟩], []⟩ := rfl

/-- **C144 fails for buses of the same name.** Two separate systems are refused if their buses have different names. If the names are the same - in a RAW file
they may be, and often are left blank - the check sees one node and the run goes ahead. -/
theorem C144_names_fails : ∀ {S : PFSettings} {solve : (ℕ → ℕ → ℝ) → (ℕ → ℝ) → Option (ℕ → ℝ)},
    (∀ e ∈ (twoSystems [] []).connected, ∀ f t, ¬ Joins e (some f) (some t)) ∧
    (∃ cs vs, IsIslands (twoSystems [] []).graph cs ∧ IsEdgeIslands ((twoSystems [] []).graph.plainEdges (twoSystems [] []).connected) vs ∧
      executeChecks (twoSystems [] []).buses cs vs = .ok ()) ∧
    ∀ a b : Txt, a ≠ b → ∀ cs vs, IsIslands (twoSystems a b).graph cs → execute L S solve cs vs (twoSystems a b) = .error "Detected multiple network islands." := by
  intro S solve
  have hj : ∀ a b, ∀ e ∈ (twoSystems a b).connected, ∀ f t, ¬ Joins e (some f) (some t) := by
    intro a b e he f t hj
    have : e = .slack 0 1 0 ∨ e = .slack 1 1 0 := by
      have e2 : (twoSystems a b).connected = [.slack 0 1 0, .slack 1 1 0] := rfl
      rw [e2] at he
      simpa using he
    rcases this with rfl | rfl <;> cases hj
  refine ⟨hj [] [], ⟨[[[]]], [], ?_, ?_, rfl⟩, fun a b hab cs vs hc => ?_⟩
  · have hn : ∀ x, x ∈ (twoSystems [] []).graph.nodes ↔ x = [] := by
      intro x
      rw [twoSystems_graph]
      simp [graphNodes]
    refine ⟨fun x hx => ⟨[[]], by simp, by rw [(hn x).1 hx]; simp⟩, ?_, by simp, ?_, by simp⟩
    · intro c hc x hx
      rw [List.mem_singleton.1 hc] at hx
      exact (hn x).2 (List.mem_singleton.1 hx)
    · intro c hc x hx y hy
      rw [List.mem_singleton.1 hc] at hx ⊢
      rw [(hn y).1 hy, List.mem_singleton.1 hx]
      exact ⟨fun _ => .refl, fun _ => List.mem_singleton.2 rfl⟩
  · have hn : (twoSystems [] []).graph.plainEdges (twoSystems [] []).connected = [] := rfl
    rw [hn]
    exact ⟨fun x ⟨e, he, _⟩ => absurd he (by simp), by simp, by simp, by simp, by simp⟩
  · refine C144_islands_refused (fun e he f t h => absurd h (hj a b e he f t)) hc (a := a) (b := b) ⟨_, List.mem_cons_self, rfl, rfl⟩
      ⟨⟨b, false, 1⟩, by show _ ∈ [_, _]; simp, rfl, rfl⟩ fun hp => ?_
    rcases Relation.ReflTransGen.cases_head hp with e | ⟨x, ⟨e, he, -, f, t, hjj, -⟩, -⟩
    · exact hab e
    · exact hj a b e he f t hjj

/-- Two systems with different names are refused, whichever way networkx lists their islands. -/
example {S : PFSettings} {solve : (ℕ → ℕ → ℝ) → (ℕ → ℝ) → Option (ℕ → ℝ)} : ∃ cs, IsIslands (twoSystems ['a'] ['b']).graph cs ∧
    ∀ vs, execute L S solve cs vs (twoSystems ['a'] ['b']) = .error "Detected multiple network islands." := by
  obtain ⟨cs, hc⟩ := islands_exist (twoSystems ['a'] ['b']).buses (twoSystems ['a'] ['b']).connected
  have hj : ∀ e ∈ (twoSystems ['a'] ['b']).connected, ∀ f t, ¬ Joins e (some f) (some t) := by
    intro e he f t hj
    have : e = .slack 0 1 0 ∨ e = .slack 1 1 0 := by
      rw [show (twoSystems ['a'] ['b']).connected = [.slack 0 1 0, .slack 1 1 0] from rfl] at he
      simpa using he
    rcases this with rfl | rfl <;> cases hj
  refine ⟨cs, hc, fun vs => C144_islands_refused (fun e he f t h => absurd h (hj e he f t)) hc (a := ['a']) (b := ['b'])
    ⟨_, List.mem_cons_self, rfl, rfl⟩ ⟨⟨['b'], false, 1⟩, by show _ ∈ [_, _]; simp, rfl, rfl⟩ fun hp => ?_⟩
  rcases Relation.ReflTransGen.cases_head hp with e | ⟨x, ⟨e, he, -, f, t, hjj, -⟩, -⟩
  · cases e
  · exact hj e he f t hjj

end Verif
