import Verif.Lemmas.GlmExecute
import Verif.Props.GlmRun
import Verif.Props.GlmNominal
import Verif.Props.RawExecute

/-!
# C146: `execute` on feeders

Which feeders `PowerFlow.execute` refuses, in terms of the names of the file, and what it returns for lightly loaded ones: from the objects of the file to the
results.
-/

namespace Verif.Glm

open ComplexConjugate

variable {M : Type} {L : Library} {readLine : LineReader M} {make : M → List (ℕ × ℕ) → Except String Element} {mats : M → (ℕ → ℕ → ℂ) × (ℕ → ℕ → ℝ)}
  {objs : List (Txt × Obj)} {schedules : List (Txt × Txt)} {g : Grid M} {D : DxNet}

/-- Positions of the members with a property, and these members. -/
theorem positions_filter {α : Type} (p : α → Bool) (l : List α) :
    List.Forall₂ (fun k y => l[k]? = some y ∧ p y = true) ((List.range l.length).filter fun k => ((l[k]?).map p).getD false) (l.filter p) := by
  induction l using List.reverseRecOn with
  | nil => exact .nil
  | append_singleton l a ih =>
    have e : (List.range l.length).filter (fun k => (((l ++ [a])[k]?).map p).getD false) = (List.range l.length).filter fun k => ((l[k]?).map p).getD false := by
      refine List.filter_congr fun k hk => ?_
      rw [List.getElem?_append_left (List.mem_range.1 hk)]
    rw [List.length_append, List.length_singleton, List.range_succ, List.filter_append, List.filter_append, e]
    have h1 : List.Forall₂ (fun k y => (l ++ [a])[k]? = some y ∧ p y = true) ((List.range l.length).filter fun k => ((l[k]?).map p).getD false) (l.filter p) := by
      refine ih.imp ?_
      rintro k y ⟨hk, hp⟩
      refine ⟨?_, hp⟩
      rw [List.getElem?_append_left (List.getElem?_eq_some_iff.1 hk).1]
      exact hk
    have hg : (l ++ [a])[l.length]? = some a := by rw [List.getElem?_append_right le_rfl, Nat.sub_self]; rfl
    have h2 : List.Forall₂ (fun k y => (l ++ [a])[k]? = some y ∧ p y = true) ([l.length].filter fun k => (((l ++ [a])[k]?).map p).getD false) ([a].filter p) := by
      cases hp : p a with
      | false =>
        rw [List.filter_cons_of_neg (p := fun k => (((l ++ [a])[k]?).map p).getD false) (by rw [hg]; simp [hp]), List.filter_cons_of_neg (p := p) (by simp [hp])]
        exact .nil
      | true =>
        rw [List.filter_cons_of_pos (p := fun k => (((l ++ [a])[k]?).map p).getD false) (by rw [hg]; simp [hp]), List.filter_cons_of_pos (p := p) hp]
        exact .cons ⟨hg, hp⟩ .nil
    exact List.rel_append h1 h2

/-- Scaled loads have the same connections. -/
theorem Parts.connectedAt {ds : List (List Char × M)} {lines : List Element} {regs : List Item} (hf : PlainFeeder objs) (hP : Parts mats objs ds g D lines regs)
    (hD : g.network make = .ok D) (s : ℝ) : (g.pf (D.factor s s)).connected = (D.network.factor s s).elements := by
  rw [pf_connected (factor_items (fun e => rfl) (hP.good hf hD)), DxNet.factor_network]

/-- **C146, islands.** A plain feeder is refused because of several islands exactly if it has no node or load without parent, or there are two of them between which
there is no way over lines, closed switches, fuses, regulators and transformers of the file. The load factor has no influence. -/
theorem C146_islands (hR : Keeps readLine objs) (hm : Makes make mats) (hf : PlainFeeder objs) (h : parseGrid readLine objs schedules = .ok g)
    (hD : g.network make = .ok D) (s : ℝ) {cs vs : List (List Txt)} (hc : IsIslands (g.pf (D.factor s s)).graph cs) :
    executeChecks (g.pf (D.factor s s)).buses cs vs = .error "Detected multiple network islands." ↔
      ¬ (ownPlaces objs ≠ [] ∧ ∀ x ∈ ownPlaces objs, ∀ y ∈ ownPlaces objs, FileJoined objs g.lineData x.1.1 y.1.1) := by
  obtain ⟨lines, regs, hds, hP⟩ := feeder_parts hR hm hf h hD
  have hcon := hP.connectedAt hf hD s
  have hpr : ProperEnds (g.pf (D.factor s s)).buses (g.pf (D.factor s s)).connected := by
    rw [hcon]
    exact hP.proper hf s
  rw [C45_refused_iff _ _ hpr cs vs hc, hcon]
  refine not_congr (and_congr ⟨?_, ?_⟩ ⟨fun hp x hx y hy => ?_, fun hp a b ha hb => ?_⟩)
  · rintro ⟨a, ha⟩
    obtain ⟨x, hx, -⟩ := (pf_realName hP.busesOf).1 ha
    exact List.ne_nil_of_mem hx
  · intro hne
    obtain ⟨x, hx⟩ := List.exists_mem_of_ne_nil _ hne
    exact ⟨x.1.1, (pf_realName hP.busesOf).2 ⟨x, hx, rfl⟩⟩
  · exact (hP.path hf s _ _).1 (hp _ _ ((pf_realName hP.busesOf).2 ⟨x, hx, rfl⟩) ((pf_realName hP.busesOf).2 ⟨y, hy, rfl⟩))
  · obtain ⟨x, hx, rfl⟩ := (pf_realName hP.busesOf).1 ha
    obtain ⟨y, hy, rfl⟩ := (pf_realName hP.busesOf).1 hb
    exact (hP.path hf s _ _).2 (hp x hx y hy)

/-- **C146, unconnected nodes.** A node or load without parent that no device leads to makes `execute` refuse the feeder if there is another one, whatever the settings. -/
theorem C146_alone (hR : Keeps readLine objs) (hm : Makes make mats) (hf : PlainFeeder objs) (h : parseGrid readLine objs schedules = .ok g)
    (hD : g.network make = .ok D) {x y : (Txt × Obj) × Char} (hx : x ∈ ownPlaces objs) (hy : y ∈ ownPlaces objs) (hxy : x.1.1 ≠ y.1.1)
    (ha : ∀ b, ¬ NextTo objs (FileStep objs g.lineData) x.1.1 b) (s : ℝ) (S : PFSettings) (solve : (ℕ → ℕ → ℝ) → (ℕ → ℝ) → Option (ℕ → ℝ)) {cs vs : List (List Txt)}
    (hc : IsIslands (g.pf (D.factor s s)).graph cs) :
    execute L S solve cs vs (g.pf (D.factor s s)) = .error "Detected multiple network islands." := by
  have := (C146_islands hR hm hf h hD s (vs := vs) hc).2 fun hj => by
    rcases Relation.ReflTransGen.cases_head (hj.2 x hx y hy) with e | ⟨b, hb, -⟩
    · exact hxy e
    · exact ha b hb
  unfold execute
  rw [this]
  rfl

/-- **C146, nominal voltages.** A plain feeder whose places are joined passes the checks if every place without parent that is the parent of another is a source, and
the nominal voltages of any two places joined without transformers and regulators differ by at most 9.5 volts. -/
theorem C146_accepted (hR : Keeps readLine objs) (hm : Makes make mats) (hf : PlainFeeder objs) (h : parseGrid readLine objs schedules = .ok g)
    (hD : g.network make = .ok D) (hne : ownPlaces objs ≠ []) (hj : ∀ x ∈ ownPlaces objs, ∀ y ∈ ownPlaces objs, FileJoined objs g.lineData x.1.1 y.1.1)
    (hown : ∀ x ∈ ownPlaces objs, isSwing x.1.2 = true ∨ x.1.1 ∉ parentNames objs)
    (hnom : ∀ x ∈ ownPlaces objs, ∀ y ∈ ownPlaces objs, PlainJoined objs g.lineData x.1.1 y.1.1 → ∀ u w, placeVoltage x.1.2 x.2 = some u → placeVoltage y.1.2 y.2 = some w →
      |u.magnitude - w.magnitude| ≤ 19 / 2) (s : ℝ) {cs vs : List (List Txt)} (hc : IsIslands (g.pf (D.factor s s)).graph cs)
    (hv : IsEdgeIslands ((g.pf (D.factor s s)).graph.plainEdges (g.pf (D.factor s s)).connected) vs) :
    executeChecks (g.pf (D.factor s s)).buses cs vs = .ok () := by
  have hnot := fun herr => (C146_islands hR hm hf h hD s (vs := vs) hc).1 herr ⟨hne, hj⟩
  have hlen : cs.length = 1 := by
    by_contra hn
    refine hnot ?_
    unfold executeChecks
    rw [if_pos hn]
  obtain ⟨lines, regs, hds, hP⟩ := feeder_parts hR hm hf h hD
  have hcon := hP.connectedAt hf hD s
  have hpr : ProperEnds (g.pf (D.factor s s)).buses (g.pf (D.factor s s)).connected := by
    rw [hcon]
    exact hP.proper hf s
  refine C46_accepts _ _ hpr cs vs hlen hv fun a b hab u w hu hw => ?_
  have hplain : PlainJoined objs g.lineData a b := by
    rw [hcon] at hab
    clear hu hw
    induction hab with
    | refl => exact .refl
    | tail _ hl ih =>
      obtain ⟨i, e, he, hl, ht, -⟩ := hl
      exact ih.tail ((hP.links hf s (List.mem_of_getElem? he) hl).2 ht)
  have hvolt : ∀ a z, FirstNamed (g.pf (D.factor s s)).buses a z → ∃ x ∈ ownPlaces objs, x.1.1 = a ∧ ∃ u, placeVoltage x.1.2 x.2 = some u ∧ z.vnom = u.magnitude := by
    rintro a z ⟨i, hz, hvz, rfl, -⟩
    obtain ⟨b, hb, rfl⟩ := List.mem_map.1 (List.mem_of_getElem? hz)
    have hmem : (b.name, b.phase, b.nominal) ∈ outerNominals g := by
      rw [outerNominals]
      refine List.mem_map.2 ⟨b, List.mem_filter.2 ⟨hb, ?_⟩, rfl⟩
      rw [show b.virtual = false from hvz]
      rfl
    obtain ⟨x, hx, e1, -, e3⟩ := forall₂_mem_right (C99_nominal_partial hR hf.outer hf.keys h) hmem
    exact ⟨x, hx, e1.symm, _, e3 (hown x hx), rfl⟩
  obtain ⟨x, hx, rfl, u', hu', e1⟩ := hvolt a u hu
  obtain ⟨y, hy, rfl, w', hw', e2⟩ := hvolt b w hw
  rw [e1, e2]
  exact hnom x hx y hy hplain u' w' hu' hw'

/-- **C146, the results.** Take a feeder as in C145 and C146_accepted whose loads of constant power have voltage at the start values of the buses. For every distance and
tolerance all small enough load factors but zero make `execute` return results that say success, with the devices as they were. They list every phase of every node and
load without parent once, in the order of the file, with a voltage within that distance of the circuit of the file with its constant power multiplied by the factor. -/
theorem C146_execute_partial (hL : L.Loaded) (hR : Keeps readLine objs) (hm : Makes make mats) (h : parseGrid readLine objs schedules = .ok g)
    (hD : g.network make = .ok D) (hs : SuppliedFeeder mats objs g.lineData) (hne : ownPlaces objs ≠ [])
    (hj : ∀ x ∈ ownPlaces objs, ∀ y ∈ ownPlaces objs, FileJoined objs g.lineData x.1.1 y.1.1)
    (hown : ∀ x ∈ ownPlaces objs, isSwing x.1.2 = true ∨ x.1.1 ∉ parentNames objs)
    (hnom : ∀ x ∈ ownPlaces objs, ∀ y ∈ ownPlaces objs, PlainJoined objs g.lineData x.1.1 y.1.1 → ∀ u w, placeVoltage x.1.2 x.2 = some u → placeVoltage y.1.2 y.2 = some w →
      |u.magnitude - w.magnitude| ≤ 19 / 2)
    {V0 : Txt → Char → ℂ} (h0 : FeederFlowAt mats objs g.lineData 0 V0) (hlive : LoadsLive objs V0) (hoff : LoadsOffAxes objs V0) {Vi : Txt → Char → ℂ}
    (hVi : ∀ name p b x, FileAt objs g name p b → g.buses[b]? = some x → Vi name p = ⟨x.start.value.1, x.start.value.2⟩) (hvi : LoadsLive objs Vi)
    (ε tol : ℝ) (hε : 0 < ε) (htol : 0 < tol) :
    ∃ s0 > 0, ∀ s : ℝ, s ≠ 0 → |s| ≤ s0 → ∀ S : PFSettings, tol ≤ S.tolerance → 2 ≤ S.maxIters →
      (S.control = true → declaredFuses objs = [] ∧ ∀ d ∈ declaredCaps objs, d.obj.attr "control".toList = some "MANUAL".toList) →
      ∀ cs vs, IsIslands (g.pf (D.factor s s)).graph cs →
      IsEdgeIslands ((g.pf (D.factor s s)).graph.plainEdges (g.pf (D.factor s s)).connected) vs →
      ∃ R V, execute L S (idealSolve ((D.factor s s).network.assign L).size) cs vs (g.pf (D.factor s s)) = .ok (R, D.factor s s) ∧ R.success = true ∧
        FeederFlowAt mats objs g.lineData s V ∧
        List.Forall₂ (fun b x => (∃ y, g.buses[b.bus]? = some y ∧ y.name = x.1.1 ∧ y.phase = x.2) ∧ ‖b.V - V x.1.1 x.2‖ ≤ ε) R.buses (ownPlaces objs) := by
  obtain ⟨lines, regs, hds, hP⟩ := feeder_parts hR hm hs.plain h hD
  have hpl : D.network.optimization = none := hP.plain
  have hthree : D.threePhase = true := by
    rw [Grid.network] at hD
    obtain ⟨lines, -, hD⟩ := bind_eq_ok hD
    obtain ⟨regs, -, hD⟩ := bind_eq_ok hD
    cases hD
    rfl
  obtain ⟨x1, hx1⟩ := List.exists_mem_of_ne_nil _ hne
  obtain ⟨s0, hs0, hrun⟩ := C145_run_partial hL hR hm h hD hs ⟨x1, mem_ownPlaces.1 hx1⟩ h0 hlive hoff (dxInit L D.network (g.buses.map fun b => b.start.value)) (Vi := Vi)
    (fun name p b hb => by
      obtain ⟨r, y, hr, hy, hrest⟩ := hb
      rw [pf_start hP.buses hy]
      exact hVi name p b y ⟨r, y, hr, hy, hrest⟩ hy) hvi ε tol hε htol
  refine ⟨s0, hs0, fun s hs1 hs2 S htl hmax hctl cs vs hc hv => ?_⟩
  have hok := C146_accepted hR hm hs.plain h hD hne hj hown hnom s hc hv
  have hfs := factor_size (N := D.network) (L := L) hpl hL s
  set G := g.pf (D.factor s s) with hG
  have hstart : G.start L S = dxInit L D.network (g.buses.map fun b => b.start.value) := by
    have e1 : G.start L S = dxInit L (D.factor s s).network (g.buses.map fun b => b.start.value) := by
      unfold PFNet.start
      rw [if_pos (show G.net.threePhase = true from hthree)]
      rfl
    rw [e1, DxNet.factor_network]
    unfold dxInit
    rw [assign_nodes, assign_nodes]
    rfl
  obtain ⟨r, V, hr1, hr2, hr3, -, hr4⟩ := hrun s hs1 hs2 (G.context L S (idealSolve ((D.factor s s).network.assign L).size)) S.txStepping S.control
    (by
      show idealSolve _ = _
      rw [DxNet.factor_network, hfs])
    (by
      show (if !G.net.threePhase && S.limiting then _ else none) = none
      rw [show G.net.threePhase = true from hthree]
      rfl) htl hmax hctl
  have hinf : (G.buses.map fun b => (⟨b.virtual, b.vnom⟩ : BusInfo)).length = g.buses.length := by
    rw [List.length_map]
    show (g.buses.map PhaseBus.object).length = _
    rw [List.length_map]
  have hpolar := C36_polar_partial (D.factor s s).network (G.buses.map fun b => ⟨b.virtual, b.vnom⟩) ((D.factor s s).network.assign L) r.success r.v (by
    rw [hinf, ← hP.buses]
    exact (assignBuses_proper _ _ _).1.symm)
  refine ⟨Results.make (D.factor s s).network (G.buses.map fun b => ⟨b.virtual, b.vnom⟩) ((D.factor s s).network.assign L) r.success r.v, V, ?_, hr2, hr3, ?_⟩
  · unfold execute
    rw [hok]
    simp only [bind, Except.bind, pure, Except.pure]
    rw [hstart, show G.net = D.factor s s from rfl, hr1]
  · generalize hRe : Results.make (D.factor s s).network (G.buses.map fun b => ⟨b.virtual, b.vnom⟩) ((D.factor s s).network.assign L) r.success r.v = R at *
    have hreal : realBuses (G.buses.map fun b => (⟨b.virtual, b.vnom⟩ : BusInfo)) =
        (List.range g.buses.length).filter fun k => ((g.buses[k]?).map fun x : PhaseBus => !x.virtual).getD false := by
      rw [realBuses, hinf]
      refine List.filter_congr fun k _ => ?_
      show ((((g.buses.map PhaseBus.object).map _)[k]?).map _).getD false = _
      rw [List.getElem?_map, List.getElem?_map]
      cases g.buses[k]? <;> rfl
    have hpos := positions_filter (fun x : PhaseBus => !x.virtual) g.buses
    rw [← hreal, ← hpolar.1] at hpos
    obtain ⟨s', groups, hr⟩ := parseGrid_read hR hs.plain.outer h
    have hout := hr.outerBuses hs.plain.keys
    have h1 : List.Forall₂ (fun (b : BusResult) (y : PhaseBus) => g.buses[b.bus]? = some y ∧ (!y.virtual) = true) R.buses (g.buses.filter fun x => !x.virtual) :=
      List.forall₂_map_left_iff.1 hpos
    have h2 : List.Forall₂ (fun (y : PhaseBus) (x : (Txt × Obj) × Char) => (y.name, y.phase) = (x.1.1, x.2)) (g.buses.filter fun x => !x.virtual) (ownPlaces objs) := by
      have : List.Forall₂ Eq (outerBuses g) ((ownPlaces objs).map fun x => (x.1.1, x.2)) := by
        rw [hout]
        exact List.forall₂_same.2 fun _ _ => rfl
      rw [outerBuses] at this
      exact List.forall₂_map_left_iff.1 (List.forall₂_map_right_iff.1 this)
    have h3 : List.Forall₂ (fun b x => b ∈ R.buses ∧ x ∈ ownPlaces objs ∧ ∃ y, (g.buses[b.bus]? = some y ∧ (!y.virtual) = true) ∧ (y.name, y.phase) = (x.1.1, x.2))
        R.buses (ownPlaces objs) := by
      have h4 : List.Forall₂ (fun b x => ∃ y, (g.buses[b.bus]? = some y ∧ (!y.virtual) = true) ∧ (y.name, y.phase) = (x.1.1, x.2)) R.buses (ownPlaces objs) := by
        clear hpos hout hpolar hRe
        revert h1 h2
        generalize g.buses.filter (fun x => !x.virtual) = ys
        generalize R.buses = bs
        generalize ownPlaces objs = xs
        intro h1 h2
        induction h1 generalizing xs with
        | nil => cases h2; exact .nil
        | cons ha _ ih =>
          cases h2 with
          | cons hb h2 => exact .cons ⟨_, ha, hb⟩ (ih _ h2)
      obtain ⟨hl, hz⟩ := List.forall₂_iff_zip.1 h4
      exact List.forall₂_iff_zip.2 ⟨hl, fun hm => ⟨(List.of_mem_zip hm).1, (List.of_mem_zip hm).2, hz hm⟩⟩
    refine h3.imp ?_
    rintro b x ⟨hb, hx, y, ⟨hy, hyv⟩, he⟩
    obtain ⟨e1, e2⟩ := Prod.mk.inj he
    refine ⟨⟨y, hy, e1, e2⟩, ?_⟩
    rw [(hpolar.2 b hb).1]
    obtain ⟨hx2, hxp⟩ := mem_ownPlaces.1 hx
    obtain ⟨b', hb'⟩ := hP.busesOf.have_ x hx2 hxp
    exact hr4 _ _ _ ⟨x.1.1, y, hb'.1, hy, e1, e2, by simpa using hyv⟩

/-! ### Feeders -/

theorem shortFeeder_own : ownPlaces shortFeeder = [(shortFeeder[0], 'A'), (shortFeeder[2], 'A')] := by decide +kernel

theorem shortFeeder_joined : ∀ x ∈ ownPlaces shortFeeder, ∀ y ∈ ownPlaces shortFeeder, FileJoined shortFeeder [(['A'], (100 : ℚ))] x.1.1 y.1.1 := by
  have h1 : FileRoot shortFeeder "n1".toList "n1".toList := .own _ shortFeeder[0].2 (by decide +kernel) (by decide +kernel) (by decide +kernel)
  have h2 : FileRoot shortFeeder "l_1".toList "l_1".toList := .own _ shortFeeder[2].2 (by decide +kernel) (by decide +kernel) (by decide +kernel)
  have hst : NextTo shortFeeder (FileStep shortFeeder [(['A'], (100 : ℚ))]) "n1".toList "l_1".toList :=
    ⟨_, _, Or.inl (.plain (.line (x := (shortFeeder[1].2, ['A'], 100)) (by rw [shortFeeder_lines]; exact List.mem_singleton.2 rfl) (List.cons_ne_nil _ _) rfl rfl)), h1, h2⟩
  rw [shortFeeder_own]
  intro x hx y hy
  rcases List.mem_cons.1 hx with rfl | hx
  · rcases List.mem_cons.1 hy with rfl | hy
    · exact .refl
    · rw [List.mem_singleton] at hy
      subst hy
      exact .single hst
  · rw [List.mem_singleton] at hx
    subst hx
    rcases List.mem_cons.1 hy with rfl | hy
    · exact .single (nextTo_symm hst)
    · rw [List.mem_singleton] at hy
      subst hy
      exact .refl

theorem shortFeeder_volts : ∀ x ∈ ownPlaces shortFeeder, placeVoltage x.1.2 x.2 = some (.nominal 2400 'A') ∧ x.1.1 ∉ parentNames shortFeeder := by decide +kernel

theorem shortFeeder_starts {g : Grid ℚ} (h : parseGrid oneLine shortFeeder [] = .ok g) : ∀ b ∈ g.buses, b.start = .nominal 2400 'A' := by
  have : (match parseGrid oneLine shortFeeder [] with
    | .ok g => decide (∀ b ∈ g.buses, b.start = .nominal 2400 'A')
    | .error _ => false) = true := by decide +kernel
  rw [h] at this
  exact of_decide_eq_true this

/-- The feeder with the load multiplied by a small factor is run to the end with the default settings, and the results list the source and the load. -/
example (hL : L.Loaded) : ∃ g D, parseGrid oneLine shortFeeder [] = .ok g ∧ g.network shortMake = .ok D ∧
    (∀ s cs vs, IsIslands (g.pf (D.factor s s)).graph cs → executeChecks (g.pf (D.factor s s)).buses cs vs ≠ .error "Detected multiple network islands.") ∧
    (∀ s cs vs, IsIslands (g.pf (D.factor s s)).graph cs → IsEdgeIslands ((g.pf (D.factor s s)).graph.plainEdges (g.pf (D.factor s s)).connected) vs →
      executeChecks (g.pf (D.factor s s)).buses cs vs = .ok ()) ∧
    ∃ s0 > 0, ∀ s : ℝ, s ≠ 0 → |s| ≤ s0 → ∃ cs vs R V,
      execute L ⟨1 / 100000, 20, true, false, false, true, true⟩ (idealSolve ((D.factor s s).network.assign L).size) cs vs (g.pf (D.factor s s)) = .ok (R, D.factor s s) ∧
      R.success = true ∧ FeederFlowAt shortMats shortFeeder g.lineData s V ∧ ∃ b1 b2, R.buses = [b1, b2] ∧ ‖b1.V - V "n1".toList 'A'‖ ≤ 1 ∧
        ‖b2.V - V "l_1".toList 'A'‖ ≤ 1 := by
  obtain ⟨g, D, hg, hD, hds⟩ := shortFeeder_network
  have hs : SuppliedFeeder shortMats shortFeeder g.lineData := hds ▸ shortFeeder_supplied
  have h0 : FeederFlowAt shortMats shortFeeder g.lineData 0 fun _ _ => 2400 := hds ▸ shortFeeder_idle
  have hlive : LoadsLive shortFeeder fun _ _ => 2400 := fun d hd _ _ => by
    rw [(shortFeeder_across _ d hd).2.2]
    norm_num
  have hoff : LoadsOffAxes shortFeeder fun _ _ => 2400 := fun d hd _ _ => by
    rw [(shortFeeder_across _ d hd).2.2, (shortFeeder_across (fun _ _ => 0) d hd).2.1]
    have : conj (2400 : ℂ) ^ 2 = ((5760000 : ℝ) : ℂ) := by
      rw [show (2400 : ℂ) = ((2400 : ℝ) : ℂ) by norm_num, Complex.conj_ofReal]
      norm_num
    rw [this, Complex.re_mul_ofReal, Complex.im_mul_ofReal]
    constructor <;> norm_num [toComplex]
  have hne : ownPlaces shortFeeder ≠ [] := by
    rw [shortFeeder_own]
    exact List.cons_ne_nil _ _
  have hj : ∀ x ∈ ownPlaces shortFeeder, ∀ y ∈ ownPlaces shortFeeder, FileJoined shortFeeder g.lineData x.1.1 y.1.1 := hds ▸ shortFeeder_joined
  have hnom : ∀ x ∈ ownPlaces shortFeeder, ∀ y ∈ ownPlaces shortFeeder, PlainJoined shortFeeder g.lineData x.1.1 y.1.1 → ∀ u w, placeVoltage x.1.2 x.2 = some u →
      placeVoltage y.1.2 y.2 = some w → |u.magnitude - w.magnitude| ≤ 19 / 2 := fun x hx y hy _ u w hu hw => by
    rw [(shortFeeder_volts x hx).1] at hu
    rw [(shortFeeder_volts y hy).1] at hw
    cases hu
    cases hw
    norm_num
  refine ⟨g, D, hg, hD, fun s cs vs hc herr => (C146_islands oneLine_keeps shortFeeder_makes shortFeeder_plain hg hD s hc).1 herr ⟨hne, hj⟩,
    fun s cs vs hc hv => C146_accepted oneLine_keeps shortFeeder_makes shortFeeder_plain hg hD hne hj (fun x hx => Or.inr (shortFeeder_volts x hx).2) hnom s hc hv, ?_⟩
  obtain ⟨s0, hs0, h⟩ := C146_execute_partial hL oneLine_keeps shortFeeder_makes hg hD hs hne hj (fun x hx => Or.inr (shortFeeder_volts x hx).2) hnom h0 hlive hoff (Vi := fun _ _ => 2400) (fun name p b x _ hx => by
        rw [shortFeeder_starts hg x (List.mem_of_getElem? hx)]
        apply Complex.ext
        · simp [Phasor.value, phaseAngle]
        · simp [Phasor.value, phaseAngle]) hlive 1 (1 / 100000) one_pos (by norm_num)
  refine ⟨s0, hs0, fun s hs1 hs2 => ?_⟩
  obtain ⟨cs, hc⟩ := islands_exist (g.pf (D.factor s s)).buses (g.pf (D.factor s s)).connected
  obtain ⟨vs, hv⟩ := edgeIslands_exist ((g.pf (D.factor s s)).graph.plainEdges (g.pf (D.factor s s)).connected)
  obtain ⟨R, V, h1, h2, h3, h4⟩ := h s hs1 hs2 ⟨1 / 100000, 20, true, false, false, true, true⟩ le_rfl (by norm_num) (fun _ => ⟨by decide +kernel, by
      rw [show declaredCaps shortFeeder = [] by decide +kernel]
      intro d hd
      cases hd⟩) cs vs hc hv
  refine ⟨cs, vs, R, V, h1, h2, h3, ?_⟩
  rw [shortFeeder_own] at h4
  revert h4
  generalize R.buses = bs
  intro h4
  cases h4 with
  | cons ha h4 =>
    cases h4 with
    | cons hb h4 =>
      cases h4
      exact ⟨_, _, rfl, ha.2, hb.2⟩

/-- The same with a node nothing leads to. -/
def splitFeeder : List (Txt × Obj) := shortFeeder ++ [fileObject "node" [("name", "n9"), ("phases", "A"), ("nominal_voltage", "2400")]]

theorem splitFeeder_network : ∃ g D, parseGrid oneLine splitFeeder [] = .ok g ∧ g.network shortMake = .ok D := by
  have : (match parseGrid oneLine splitFeeder [] with
    | .ok g => decide (g.regulators.length = 0 ∧ ∀ l ∈ g.lines, l.data = 100 ∧ (linePhases g l).map List.length = .ok 1)
    | .error _ => false) = true := by decide +kernel
  cases hg : parseGrid oneLine splitFeeder [] with
  | error e => rw [hg] at this; cases this
  | ok g =>
    rw [hg] at this
    obtain ⟨h1, h2⟩ := of_decide_eq_true this
    obtain ⟨ls, hls, -⟩ := mapM_except_ok (lineElement shortMake g) g.lines fun l hl => by
      obtain ⟨e1, e2⟩ := h2 l hl
      rw [lineElement]
      cases hb : linePhases g l with
      | error e => rw [hb] at e2; cases e2
      | ok bs =>
        rw [hb] at e2
        have hlen : bs.length = 1 := Except.ok.inj e2
        simp only [shortMake, e1]
        refine (C18_exact _ _ _ bs (by norm_num) hlen).1.2 ?_
        simp
    have hr : g.regulators = [] := List.length_eq_zero_iff.1 h1
    have hD : ∃ D, g.network shortMake = .ok D := by
      rw [Grid.network, hls, hr]
      exact ⟨_, rfl⟩
    obtain ⟨D, hD⟩ := hD
    exact ⟨g, D, rfl, hD⟩

theorem splitFeeder_plain : PlainFeeder splitFeeder where
  keys := by decide +kernel
  outer := outerFile_of_check (by decide +kernel)
  once := by
    have : ∀ x ∈ splitFeeder, isPlace x.2 = true → (placePhases x.2).Nodup := by decide +kernel
    exact fun name o hm => this (name, o) hm
  noBase := by
    have : ∀ x ∈ splitFeeder, isLoadObj x.2 = true → ∀ c ∈ loadEndings, x.2.attr ("base_power_".toList ++ c) = none := by decide +kernel
    exact fun name o hm => this (name, o) hm
  states := by
    have : ∀ x ∈ splitFeeder, isSwitchObj x.2 = false := by decide +kernel
    intro name o hm hs
    rw [this _ hm] at hs
    cases hs
  fuseStates := by
    have : ∀ x ∈ splitFeeder, isFuseObj x.2 = false := by decide +kernel
    intro name o hm hs
    rw [this _ hm] at hs
    cases hs
  fusesGood := by decide +kernel
  plain := by
    have : ∀ x ∈ splitFeeder, x.2.cls ∈ ["regulator", "transformer"].map String.toList → ∀ c ∈ configOf splitFeeder x.2, c.cls ∉ conductorClasses := by decide +kernel
    exact fun name o c hm hc h => this (name, o) hm hc c h
  noStray := by
    have : ∀ x ∈ splitFeeder, x.2.cls ≠ "regulator".toList := by decide +kernel
    exact fun name o hm hc => absurd hc (this _ hm)
  ownSources := by decide +kernel
  caps := by decide +kernel
  capsWye := by
    have : ∀ d ∈ declaredCaps splitFeeder, ∀ t ∈ d.obj.attr "phases".toList, 'D' ∉ t := by decide +kernel
    exact this
  taps := by
    have : declaredRegs splitFeeder = [] := by decide +kernel
    rw [this]
    intro d hd
    cases hd
  noShunts := by
    have : declaredXfmrs splitFeeder = [] := by decide +kernel
    rw [this]
    intro o c p q h
    cases h
  centerTaps := by
    have : declaredXfmrs splitFeeder = [] := by decide +kernel
    rw [this]
    intro o c h
    cases h

/-- No device leads to the last node. -/
theorem splitFeeder_alone (ds : List (List Char × ℚ)) (b : Txt) : ¬ NextTo splitFeeder (FileStep splitFeeder ds) "n9".toList b := by
  have hroot : ∀ n, FileRoot splitFeeder n "n9".toList → n = "n9".toList := by
    have hpar : ∀ x ∈ splitFeeder, x.2.attr "parent".toList = none := by decide +kernel
    intro n hn
    cases hn with
    | own => rfl
    | child _ o h _ q _ hp _ =>
      have := hpar _ h
      rw [show o.attr "parent".toList = none from this] at hp
      cases hp
  have hsw : declaredSwitches splitFeeder = [] := by decide +kernel
  have hfu : declaredFuses splitFeeder = [] := by decide +kernel
  have hre : declaredRegs splitFeeder = [] := by decide +kernel
  have hxf : declaredXfmrs splitFeeder = [] := by decide +kernel
  have hln : ∀ o ∈ declaredLines splitFeeder, o.attr "from".toList ≠ some "n9".toList ∧ o.attr "to".toList ≠ some "n9".toList := by decide +kernel
  have hstep : ∀ n m, FileStep splitFeeder ds n m → n ≠ "n9".toList ∧ m ≠ "n9".toList := by
    intro n m h
    cases h with
    | plain h =>
      cases h with
      | line hx _ ha hb =>
        obtain ⟨k1, k2⟩ := hln _ (List.of_mem_zip hx).1
        exact ⟨fun e => k1 (e ▸ ha), fun e => k2 (e ▸ hb)⟩
      | switch hd => rw [hsw] at hd; cases hd
      | fuse hd => rw [hfu] at hd; cases hd
    | reg hd => rw [hre] at hd; cases hd
    | coil hd => rw [hxf] at hd; cases hd
    | tap hd => rw [hxf] at hd; cases hd
  rintro ⟨n, m, hR, hn, -⟩
  have := hroot n hn
  rcases hR with h | h
  · exact (hstep _ _ h).1 this
  · exact (hstep _ _ h).2 this

/-- This feeder is refused with any settings. -/
example (S : PFSettings) (solve : (ℕ → ℕ → ℝ) → (ℕ → ℝ) → Option (ℕ → ℝ)) : ∃ g D, parseGrid oneLine splitFeeder [] = .ok g ∧ g.network shortMake = .ok D ∧
    ∀ s cs vs, IsIslands (g.pf (D.factor s s)).graph cs → execute L S solve cs vs (g.pf (D.factor s s)) = .error "Detected multiple network islands." := by
  obtain ⟨g, D, hg, hD⟩ := splitFeeder_network
  have hx : (splitFeeder[3], 'A') ∈ ownPlaces splitFeeder := by decide +kernel
  have hy : (splitFeeder[0], 'A') ∈ ownPlaces splitFeeder := by decide +kernel
  exact ⟨g, D, hg, hD, fun s cs vs hc => C146_alone oneLine_keeps shortFeeder_makes splitFeeder_plain hg hD hx hy (by decide +kernel)
    (splitFeeder_alone g.lineData) s S solve hc⟩

end Verif.Glm
