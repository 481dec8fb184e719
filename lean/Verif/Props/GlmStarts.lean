import Verif.Lemmas.GlmStarts
import Verif.Spec.GlmStarts
import Verif.Props.GlmExecute

/-!
# C147: where feeders start

The voltages `PowerFlow.execute` starts from, in terms of the file, and what they mean for its run.
-/

namespace Verif.Glm

open ComplexConjugate

variable {M : Type} {L : Library} {readLine : LineReader M} {make : M → List (ℕ × ℕ) → Except String Element} {mats : M → (ℕ → ℕ → ℂ) × (ℕ → ℕ → ℝ)}
  {objs : List (Txt × Obj)} {schedules : List (Txt × Txt)} {g : Grid M} {D : DxNet}

/-- Pairs follow a division of the second list. -/
theorem forall₂_cut {α β : Type} {R : α → β → Prop} {b : β} : ∀ {bs bs' : List β} {l : List α}, List.Forall₂ R l (bs ++ b :: bs') →
    ∃ as a as', l = as ++ a :: as' ∧ List.Forall₂ R as bs ∧ R a b ∧ List.Forall₂ R as' bs'
  | [], _, _, .cons h hs => ⟨[], _, _, rfl, .nil, h, hs⟩
  | _ :: _, _, _, .cons h hs => by
    obtain ⟨as, a, as', rfl, h1, h2, h3⟩ := forall₂_cut hs
    exact ⟨_ :: as, a, as', rfl, .cons h h1, h2, h3⟩

theorem unitAt_A : unitAt 'A' = 1 := by
  rw [unitAt, if_neg (by decide), if_neg (by decide), if_neg (by decide)]

theorem unitAt_B_im : (unitAt 'B').im < 0 := by
  rw [unitAt, if_pos rfl]
  have : (-(2 * (Real.pi : ℂ) / 3) * Complex.I) = ((-(2 * Real.pi / 3) : ℝ) : ℂ) * Complex.I := by push_cast; ring
  rw [this, Complex.exp_ofReal_mul_I_im, Real.sin_neg, neg_lt_zero]
  exact Real.sin_pos_of_pos_of_lt_pi (by positivity) (by linarith [Real.pi_pos])

theorem unitAt_C_im : 0 < (unitAt 'C').im := by
  rw [unitAt, if_neg (by decide), if_pos rfl]
  have : (2 * (Real.pi : ℂ) / 3 * Complex.I) = ((2 * Real.pi / 3 : ℝ) : ℂ) * Complex.I := by push_cast; ring
  rw [this, Complex.exp_ofReal_mul_I_im]
  exact Real.sin_pos_of_pos_of_lt_pi (by positivity) (by linarith [Real.pi_pos])

theorem declaredCaps_phase {d : DeclaredCap} (h : d ∈ declaredCaps objs) : d.phase ∈ ['A', 'B', 'C'] := by
  obtain ⟨x, -, hx⟩ := List.mem_flatMap.1 h
  split_ifs at hx
  · obtain ⟨p, hp, hx⟩ := List.mem_flatMap.1 hx
    split at hx
    · split_ifs at hx
      · rw [List.mem_singleton.1 hx]; exact hp
      · cases hx
    · cases hx
  · cases hx

theorem declaredPlaces_object {x : (Txt × Obj) × Char} (h : x ∈ declaredPlaces objs) : x.1 ∈ objs := by
  obtain ⟨y, hy, hx⟩ := List.mem_flatMap.1 h
  obtain ⟨p, -, rfl⟩ := List.mem_map.1 hx
  exact (List.mem_filter.1 hy).1

/-- **C147, the start.** The start value of every bus of a node is the voltage of the last capacitor of the file at its phase, else 120 V at 120 or 300 degrees on the legs of a
triplex node, else the voltage of the file. Names of the same place start alike. Missing: nodes that are no sources and are the parent of another node or meter. -/
theorem C147_start_partial (hR : Keeps readLine objs) (hm : Makes make mats) (hf : PlainFeeder objs) (h : parseGrid readLine objs schedules = .ok g)
    (hD : g.network make = .ok D) (hown : ∀ x ∈ ownPlaces objs, isSwing x.1.2 = true ∨ x.1.1 ∉ parentNames objs) :
    ∃ V, StartsAt objs V ∧ ∀ name p b x, FileAt objs g name p b → g.buses[b]? = some x → V name p = ⟨x.start.value.1, x.start.value.2⟩ := by
  obtain ⟨lines, regs, -, hP⟩ := feeder_parts hR hm hf h hD
  have hst := parseGrid_started hR hf.outer h
  classical
  let V : Txt → Char → ℂ := fun name p => if hb : ∃ b, FileAt objs g name p b then
    (((g.buses[hb.choose]?).map fun x : PhaseBus => (⟨x.start.value.1, x.start.value.2⟩ : ℂ)).getD 0) else 0
  have hV : ∀ name p b x, FileAt objs g name p b → g.buses[b]? = some x → V name p = ⟨x.start.value.1, x.start.value.2⟩ := by
    intro name p b x hb hx
    have hex : ∃ b, FileAt objs g name p b := ⟨b, hb⟩
    show (if hb : ∃ b, FileAt objs g name p b then _ else _) = _
    rw [dif_pos hex, hP.busesOf.one name p _ b hex.choose_spec hb, hx]
    rfl
  refine ⟨V, fun x hx => ?_, hV⟩
  obtain ⟨hxd, hxp⟩ := mem_ownPlaces.1 hx
  obtain ⟨b, hself, r, y, hr, hy, hyr, hyp, hyv⟩ := hP.busesOf.have_ x hxd hxp
  have hrx : r = x.1.1 := hP.busesOf.root _ _ _ hr hself
  have hall : ∀ n, FileRoot objs n x.1.1 → V n x.2 = ⟨y.start.value.1, y.start.value.2⟩ := fun n hn =>
    hV n x.2 b y ⟨x.1.1, y, hn, hy, by rw [hyr, hrx], hyp, hyv⟩ hy
  refine ⟨?_, fun n hn => by rw [hall n hn, hall _ hself]⟩
  rw [hall _ hself, phasor_complex]
  -- capacitors at the bus are capacitors at the place
  have hhere : ∀ d c, IsCap objs g d c → (c.bus = b ↔ CapHere objs x d) := by
    rintro d c ⟨⟨n, hn, hat⟩, -⟩
    constructor
    · intro hc
      obtain ⟨r', z, hr', hz, hz1, hz2, -⟩ := hat
      rw [hc, hy] at hz
      cases hz
      refine ⟨hz2.symm.trans hyp, n, hn, ?_⟩
      rw [← hrx, ← hyr, hz1]
      exact hr'
    · rintro ⟨hp, n', hn', hroot⟩
      rw [hn] at hn'
      cases hn'
      rw [hp] at hat
      exact hP.busesOf.one n x.2 _ _ hat ⟨x.1.1, y, hroot, hy, by rw [hyr, hrx], hyp, hyv⟩
  rcases hst b y hy hyv with ⟨h1, h2⟩ | ⟨cs, c, cs', h1, h2, h3, h4⟩
  · have hno : ∀ d ∈ declaredCaps objs, ¬ CapHere objs x d := fun d hd hd' => by
      obtain ⟨c, hc, hdc⟩ := forall₂_mem_left hP.caps hd
      exact h2 c hc ((hhere d c hdc).2 hd')
    rw [h1, hyp, startPhasor]
    by_cases e1 : x.2 = '1'
    · rw [if_pos e1]
      exact .leg1 e1 hno
    by_cases e2 : x.2 = '2'
    · rw [if_neg e1, if_pos e2]
      have : Phasor.complex (.given (60, -(10392 / 100))) = -toComplex (-60, 10392 / 100) := by
        rw [Phasor.complex]
        apply Complex.ext <;> simp [toComplex]
      rw [this]
      exact .leg2 e2 hno
    rw [if_neg e1, if_neg e2]
    refine .file e1 e2 hno ?_
    have hmem : (y.name, y.phase, y.nominal) ∈ outerNominals g :=
      List.mem_map.2 ⟨y, List.mem_filter.2 ⟨List.mem_of_getElem? hy, by rw [hyv]; rfl⟩, rfl⟩
    obtain ⟨x', hx', e3, e4, e5⟩ := forall₂_mem_right (C99_nominal_partial hR hf.outer hf.keys h) hmem
    have hx'' : x' ∈ ownPlaces objs := hx'
    have h5 := e5 (hown x' hx'')
    have : x'.1 = x.1 := by
      have k1 := declaredPlaces_object (mem_ownPlaces.1 hx'').1
      have k2 := declaredPlaces_object hxd
      have k3 : x'.1.1 = x.1.1 := e3.symm.trans (hyr.trans hrx)
      have k4 := List.inj_on_of_nodup_map hf.keys k1 k2 k3
      exact k4
    rw [this, ← e4] at h5
    rw [← hyp]
    exact h5
  · have hsplit := hP.caps
    rw [h1] at hsplit
    obtain ⟨as, d, as', e1, -, hdc, has'⟩ := forall₂_cut hsplit
    obtain ⟨t, ht, hv⟩ := hdc.2.2.1
    rw [h3, Phasor.complex, hyp]
    refine .cap e1 ((hhere d c hdc).1 h2) (fun d' hd' hh => ?_) ht hv hdc.2.2.2.1
    obtain ⟨c', hc', hdc'⟩ := forall₂_mem_left has' hd'
    exact h4 c' hc' ((hhere d' c' hdc').2 hh)

/-- A rated phase starts in the direction of its phase. -/
theorem StartOf.direction {x : (Txt × Obj) × Char} {z : ℂ} (h : StartOf objs x z) (hx : x.2 ∈ ['A', 'B', 'C'])
    (hr : ∃ m : ℚ, 0 < m ∧ placeVoltage x.1.2 x.2 = some (.nominal m x.2)) : ∃ m : ℝ, 0 < m ∧ z = m * unitAt x.2 := by
  cases h with
  | leg1 e => rw [e] at hx; exact absurd hx (by decide)
  | leg2 e => rw [e] at hx; exact absurd hx (by decide)
  | file _ _ _ hu =>
    obtain ⟨m, hm, e⟩ := hr
    rw [e] at hu
    cases hu
    exact ⟨m, by exact_mod_cast hm, by rw [Phasor.complex]; push_cast; rfl⟩
  | @cap _ _ _ _ v _ _ _ _ _ hv => exact ⟨((|v| : ℚ) : ℝ), by exact_mod_cast abs_pos.2 hv, by rw [Complex.ofReal_ratCast]⟩

theorem StartOf.leg {x : (Txt × Obj) × Char} {z : ℂ} (h : StartOf objs x z) :
    (x.2 = '1' → z = toComplex (-60, 10392 / 100)) ∧ (x.2 = '2' → z = -toComplex (-60, 10392 / 100)) := by
  cases h with
  | leg1 e => exact ⟨fun _ => rfl, fun e' => by rw [e] at e'; exact absurd e' (by decide)⟩
  | leg2 e => exact ⟨fun e' => by rw [e] at e'; exact absurd e' (by decide), fun _ => rfl⟩
  | file e1 e2 => exact ⟨fun e => absurd e e1, fun e => absurd e e2⟩
  | @cap ds ds' d _ _ e hh =>
    have := declaredCaps_phase (objs := objs) (d := d) (by rw [e]; simp)
    rw [hh.1] at this
    exact ⟨fun e => by rw [e] at this; exact absurd this (by decide), fun e => by rw [e] at this; exact absurd this (by decide)⟩

/-- What the phases of a declared load can be. -/
theorem declaredLoads_phases {d : DeclaredLoad} (h : d ∈ declaredLoads objs) :
    d.phases ∈ ([['A'], ['B'], ['C'], ['A', 'B'], ['B', 'C'], ['C', 'A'], ['1'], ['2'], ['1', '2']] : List Txt) := by
  obtain ⟨x, -, hx⟩ := List.mem_flatMap.1 h
  split_ifs at hx
  · obtain ⟨c, hc, hx⟩ := List.mem_flatMap.1 hx
    obtain ⟨a, -, hx⟩ := List.mem_flatMap.1 hx
    split at hx
    · split_ifs at hx
      · cases hx
      · rw [List.mem_singleton.1 hx]
        show endingPhases (saysDelta x.2) c ∈ _
        exact (by decide +kernel : ∀ c ∈ loadEndings, ∀ b, endingPhases b c ∈
          ([['A'], ['B'], ['C'], ['A', 'B'], ['B', 'C'], ['C', 'A'], ['1'], ['2'], ['1', '2']] : List Txt)) c hc _
    · cases hx
  · cases hx

/-- **C147, voltage at the start.** If the three phases have nominal voltages above zero wherever there are loads of constant power, every load of constant power is under
voltage at the start: no run begins with a division by zero. -/
theorem C147_live (hR : Keeps readLine objs) (hm : Makes make mats) (hf : PlainFeeder objs) (h : parseGrid readLine objs schedules = .ok g)
    (hD : g.network make = .ok D) (hr : LoadsRated objs) {V : Txt → Char → ℂ} (hV : StartsAt objs V) : LoadsLive objs V := by
  obtain ⟨lines, regs, -, hP⟩ := feeder_parts hR hm hf h hD
  intro d hd hk _
  have hplace : ∀ p b, FileAt objs g d.node p b → ∃ x ∈ ownPlaces objs, FileRoot objs d.node x.1.1 ∧ x.2 = p := by
    rintro p b ⟨r, y, hroot, hy, e1, e2, e3⟩
    obtain ⟨x, hx, hp, h1, h2⟩ := hP.busesOf.outer b y hy e3
    exact ⟨x, mem_ownPlaces.2 ⟨hx, hp⟩, by rw [h1, e1]; exact hroot, by rw [h2, e2]⟩
  have hvolt : ∀ p ∈ d.phases, (∃ b, FileAt objs g d.node p b) → (p ∈ ['A', 'B', 'C'] → ∃ m : ℝ, 0 < m ∧ V d.node p = m * unitAt p) ∧
      (p = '1' → V d.node p = toComplex (-60, 10392 / 100)) ∧ (p = '2' → V d.node p = -toComplex (-60, 10392 / 100)) := by
    rintro p hp ⟨b, hb⟩
    obtain ⟨x, hx, hroot, rfl⟩ := hplace p b hb
    obtain ⟨h1, h2⟩ := hV x hx
    rw [h2 _ hroot]
    exact ⟨fun h => h1.direction h (hr d hd hk x hx hroot hp h), h1.leg.1, h1.leg.2⟩
  obtain ⟨x, -, a, rest, e, hat, hterm, -⟩ := forall₂_mem_left hP.loads hd
  have hph := declaredLoads_phases hd
  have hpos : ∀ {m : ℝ} {u : ℂ}, 0 < m → u ≠ 0 → (m : ℂ) * u ≠ 0 := fun hm hu => mul_ne_zero (by exact_mod_cast hm.ne') hu
  have hB : unitAt 'B' ≠ 0 := fun e => by have := unitAt_B_im; rw [e] at this; simp at this
  have hC : unitAt 'C' ≠ 0 := fun e => by have := unitAt_C_im; rw [e] at this; simp at this
  have hleg : toComplex (-60, 10392 / 100) ≠ 0 := fun e => by
    have := congrArg Complex.re e
    simp [toComplex] at this
  rw [DeclaredLoad.across, e]
  have hsecond : ∀ q, rest = [q] → ∃ b, FileAt objs g d.node q b := by
    rintro q rfl
    obtain ⟨b, -, n, hn, hb⟩ := hterm
    cases hn
    exact ⟨b, hb⟩
  have hzero : voltAt V (termOf d.node ([] : List Char).head?) = 0 := rfl
  have hone : ∀ q : Char, voltAt V (termOf d.node [q].head?) = V d.node q := fun _ => rfl
  rw [e] at hph
  have hA1 : a ∈ d.phases := by rw [e]; exact List.mem_cons_self
  have hva := hvolt a hA1 ⟨_, hat⟩
  simp only [List.mem_cons, List.not_mem_nil, or_false, List.cons.injEq] at hph
  show V d.node a - voltAt V (termOf d.node rest.head?) ≠ 0
  have himA : ∀ {m : ℝ} {u : ℂ}, ((m : ℂ) * u).im = m * u.im := fun {m u} => by simp
  rcases hph with ⟨rfl, rfl⟩ | ⟨rfl, rfl⟩ | ⟨rfl, rfl⟩ | ⟨rfl, rfl⟩ | ⟨rfl, rfl⟩ | ⟨rfl, rfl⟩ | ⟨rfl, rfl⟩ | ⟨rfl, rfl⟩ | ⟨rfl, rfl⟩
  · obtain ⟨m, hm, hv⟩ := hva.1 (by decide)
    rw [hzero, sub_zero, hv, unitAt_A]
    exact hpos hm one_ne_zero
  · obtain ⟨m, hm, hv⟩ := hva.1 (by decide)
    rw [hzero, sub_zero, hv]
    exact hpos hm hB
  · obtain ⟨m, hm, hv⟩ := hva.1 (by decide)
    rw [hzero, sub_zero, hv]
    exact hpos hm hC
  · obtain ⟨m, hm, hv⟩ := hva.1 (by decide)
    obtain ⟨m', hm', hv'⟩ := (hvolt 'B' (by rw [e]; decide) (hsecond _ rfl)).1 (by decide)
    rw [hone, hv, hv', sub_ne_zero]
    intro he
    have := congrArg Complex.im he
    rw [himA, himA, unitAt_A, Complex.one_im, mul_zero] at this
    have := mul_neg_of_pos_of_neg hm' unitAt_B_im
    linarith
  · obtain ⟨m, hm, hv⟩ := hva.1 (by decide)
    obtain ⟨m', hm', hv'⟩ := (hvolt 'C' (by rw [e]; decide) (hsecond _ rfl)).1 (by decide)
    rw [hone, hv, hv', sub_ne_zero]
    intro he
    have := congrArg Complex.im he
    rw [himA, himA] at this
    have := mul_neg_of_pos_of_neg hm unitAt_B_im
    have := mul_pos hm' unitAt_C_im
    linarith
  · obtain ⟨m, hm, hv⟩ := hva.1 (by decide)
    obtain ⟨m', hm', hv'⟩ := (hvolt 'A' (by rw [e]; decide) (hsecond _ rfl)).1 (by decide)
    rw [hone, hv, hv', sub_ne_zero]
    intro he
    have := congrArg Complex.im he
    rw [himA, himA, unitAt_A, Complex.one_im, mul_zero] at this
    have := mul_pos hm unitAt_C_im
    linarith
  · rw [hzero, sub_zero, hva.2.1 rfl]
    exact hleg
  · rw [hzero, sub_zero, hva.2.2 rfl]
    exact neg_ne_zero.2 hleg
  · rw [hone, hva.2.1 rfl, (hvolt '2' (by rw [e]; decide) (hsecond _ rfl)).2.2 rfl, sub_neg_eq_add, ← two_mul]
    exact mul_ne_zero two_ne_zero hleg

/-- **C147, the run.** As C146_execute_partial, with nothing assumed about the start but that the three phases are rated wherever there are loads of constant power. -/
theorem C147_execute_partial (hL : L.Loaded) (hR : Keeps readLine objs) (hm : Makes make mats) (h : parseGrid readLine objs schedules = .ok g)
    (hD : g.network make = .ok D) (hs : SuppliedFeeder mats objs g.lineData) (hne : ownPlaces objs ≠ [])
    (hj : ∀ x ∈ ownPlaces objs, ∀ y ∈ ownPlaces objs, FileJoined objs g.lineData x.1.1 y.1.1)
    (hown : ∀ x ∈ ownPlaces objs, isSwing x.1.2 = true ∨ x.1.1 ∉ parentNames objs)
    (hnom : ∀ x ∈ ownPlaces objs, ∀ y ∈ ownPlaces objs, PlainJoined objs g.lineData x.1.1 y.1.1 → ∀ u w, placeVoltage x.1.2 x.2 = some u → placeVoltage y.1.2 y.2 = some w →
      |u.magnitude - w.magnitude| ≤ 19 / 2) (hr : LoadsRated objs)
    {V0 : Txt → Char → ℂ} (h0 : FeederFlowAt mats objs g.lineData 0 V0) (hlive : LoadsLive objs V0) (hoff : LoadsOffAxes objs V0)
    (ε tol : ℝ) (hε : 0 < ε) (htol : 0 < tol) :
    ∃ s0 > 0, ∀ s : ℝ, s ≠ 0 → |s| ≤ s0 → ∀ S : PFSettings, tol ≤ S.tolerance → 2 ≤ S.maxIters →
      (S.control = true → declaredFuses objs = [] ∧ ∀ d ∈ declaredCaps objs, d.obj.attr "control".toList = some "MANUAL".toList) →
      ∀ cs vs, IsIslands (g.pf (D.factor s s)).graph cs →
      IsEdgeIslands ((g.pf (D.factor s s)).graph.plainEdges (g.pf (D.factor s s)).connected) vs →
      ∃ R V, execute L S (idealSolve ((D.factor s s).network.assign L).size) cs vs (g.pf (D.factor s s)) = .ok (R, D.factor s s) ∧ R.success = true ∧
        FeederFlowAt mats objs g.lineData s V ∧
        List.Forall₂ (fun b x => (∃ y, g.buses[b.bus]? = some y ∧ y.name = x.1.1 ∧ y.phase = x.2) ∧ ‖b.V - V x.1.1 x.2‖ ≤ ε) R.buses (ownPlaces objs) := by
  obtain ⟨Vi, h1, h2⟩ := C147_start_partial hR hm hs.plain h hD hown
  exact C146_execute_partial hL hR hm h hD hs hne hj hown hnom h0 hlive hoff h2 (C147_live hR hm hs.plain h hD hr h1) ε tol hε htol

/-! ### Examples -/

/-- A feeder with a capacitor of another voltage, and a triplex node. -/
def mixedStarts : List (Txt × Obj) := [
  fileObject "node" [("name", "n1"), ("phases", "A"), ("bustype", "SWING"), ("nominal_voltage", "2400")],
  fileObject "overhead_line" [("name", "o"), ("phases", "A"), ("from", "n1"), ("to", "l_1"), ("length", "100")],
  fileObject "load" [("name", "l_1"), ("phases", "A"), ("nominal_voltage", "2400"), ("constant_power_A", "100+20j")],
  fileObject "capacitor" [("name", "c1"), ("parent", "l_1"), ("phases", "A"), ("phases_connected", "A"), ("control", "MANUAL"), ("switchA", "CLOSED"),
    ("capacitor_A", "50"), ("cap_nominal_voltage", "2300")],
  fileObject "triplex_node" [("name", "t1"), ("phases", "AS"), ("nominal_voltage", "240")]]

theorem mixedStarts_network : ∃ g D, parseGrid oneLine mixedStarts [] = .ok g ∧ g.network shortMake = .ok D := by
  have : (match parseGrid oneLine mixedStarts [] with
    | .ok g => decide (g.regulators.length = 0 ∧ ∀ l ∈ g.lines, l.data = 100 ∧ (linePhases g l).map List.length = .ok 1)
    | .error _ => false) = true := by decide +kernel
  cases hg : parseGrid oneLine mixedStarts [] with
  | error e => rw [hg] at this; cases this
  | ok g =>
    rw [hg] at this
    obtain ⟨h1, h2⟩ := of_decide_eq_true this
    obtain ⟨ls, hls, -⟩ := mapM_except_ok (lineElement shortMake g) g.lines fun l hl => by
      obtain ⟨e1, e2⟩ := h2 l hl
      rw [lineElement]
      cases hb : linePhases g l with
      | error e => rw [hb] at e2; cases e2
      | ok bs =>
        rw [hb] at e2
        have hlen : bs.length = 1 := Except.ok.inj e2
        simp only [shortMake, e1]
        refine (C18_exact _ _ _ bs (by norm_num) hlen).1.2 ?_
        simp
    have hr : g.regulators = [] := List.length_eq_zero_iff.1 h1
    have hD : ∃ D, g.network shortMake = .ok D := by
      rw [Grid.network, hls, hr]
      exact ⟨_, rfl⟩
    obtain ⟨D, hD⟩ := hD
    exact ⟨g, D, rfl, hD⟩

theorem mixedStarts_plain : PlainFeeder mixedStarts where
  keys := by decide +kernel
  outer := outerFile_of_check (by decide +kernel)
  once := by
    have : ∀ x ∈ mixedStarts, isPlace x.2 = true → (placePhases x.2).Nodup := by decide +kernel
    exact fun name o hm => this (name, o) hm
  noBase := by
    have : ∀ x ∈ mixedStarts, isLoadObj x.2 = true → ∀ c ∈ loadEndings, x.2.attr ("base_power_".toList ++ c) = none := by decide +kernel
    exact fun name o hm => this (name, o) hm
  states := by
    have : ∀ x ∈ mixedStarts, isSwitchObj x.2 = false := by decide +kernel
    intro name o hm hs
    rw [this _ hm] at hs
    cases hs
  fuseStates := by
    have : ∀ x ∈ mixedStarts, isFuseObj x.2 = false := by decide +kernel
    intro name o hm hs
    rw [this _ hm] at hs
    cases hs
  fusesGood := by decide +kernel
  plain := by
    have : ∀ x ∈ mixedStarts, x.2.cls ∈ ["regulator", "transformer"].map String.toList → ∀ c ∈ configOf mixedStarts x.2, c.cls ∉ conductorClasses := by decide +kernel
    exact fun name o c hm hc h => this (name, o) hm hc c h
  noStray := by
    have : ∀ x ∈ mixedStarts, x.2.cls ≠ "regulator".toList := by decide +kernel
    exact fun name o hm hc => absurd hc (this _ hm)
  ownSources := by decide +kernel
  caps := by decide +kernel
  capsWye := by
    have : ∀ d ∈ declaredCaps mixedStarts, ∀ t ∈ d.obj.attr "phases".toList, 'D' ∉ t := by decide +kernel
    exact this
  taps := by
    have : declaredRegs mixedStarts = [] := by decide +kernel
    rw [this]
    intro d hd
    cases hd
  noShunts := by
    have : declaredXfmrs mixedStarts = [] := by decide +kernel
    rw [this]
    intro o c p q h
    cases h
  centerTaps := by
    have : declaredXfmrs mixedStarts = [] := by decide +kernel
    rw [this]
    intro o c h
    cases h

theorem mixedStarts_rated : LoadsRated mixedStarts := by
  have : ∀ d ∈ declaredLoads mixedStarts, d.kind = .power → ∀ x ∈ ownPlaces mixedStarts, x.2 ∈ d.phases → x.2 ∈ ['A', 'B', 'C'] →
      placeVoltage x.1.2 x.2 = some (.nominal 2400 x.2) := by decide +kernel
  exact fun d hd hk x hx _ h1 h2 => ⟨2400, by norm_num, this d hd hk x hx h1 h2⟩

theorem mixedStarts_here : ∀ x ∈ ownPlaces mixedStarts, ∀ d ∈ declaredCaps mixedStarts, CapHere mixedStarts x d → x.1.1 = "l_1".toList := by
  have h1 : ∀ d ∈ declaredCaps mixedStarts, d.obj.attr "parent".toList = some "l_1".toList := by decide +kernel
  rintro x - d hd ⟨-, n, hn, hr⟩
  have h2 : ∀ y ∈ mixedStarts, y.1 = "l_1".toList → y.2.attr "parent".toList = none := by decide +kernel
  have hn' : n = "l_1".toList := (Option.some.inj (hn.symm.trans (h1 d hd)))
  revert hr
  generalize x.1.1 = r
  intro hr
  cases hr with
  | own => exact hn'
  | child _ o hm _ q _ hp _ =>
    rw [h2 _ hm hn'] at hp
    cases hp

/-- The source starts at the voltage of the file, the load at that of its capacitor, the triplex node at 120 V at 120 degrees. All loads have voltage. -/
example : ∃ g D V, parseGrid oneLine mixedStarts [] = .ok g ∧ g.network shortMake = .ok D ∧ StartsAt mixedStarts V ∧ LoadsLive mixedStarts V ∧
    V "n1".toList 'A' = 2400 ∧ V "l_1".toList 'A' = 2300 ∧ V "t1".toList '1' = toComplex (-60, 10392 / 100) := by
  obtain ⟨g, D, hg, hD⟩ := mixedStarts_network
  obtain ⟨V, hV, -⟩ := C147_start_partial oneLine_keeps shortFeeder_makes mixedStarts_plain hg hD (by decide +kernel)
  refine ⟨g, D, V, hg, hD, hV, C147_live oneLine_keeps shortFeeder_makes mixedStarts_plain hg hD mixedStarts_rated hV, ?_, ?_, ?_⟩
  · have hx : (mixedStarts[0], 'A') ∈ ownPlaces mixedStarts := by decide +kernel
    have h := (hV _ hx).1
    have hz : V "n1".toList 'A' = V mixedStarts[0].1 'A' := rfl
    rw [hz]
    revert h
    generalize V mixedStarts[0].1 'A' = z
    intro h
    cases h with
    | leg1 e => exact absurd e (by decide)
    | leg2 e => exact absurd e (by decide)
    | file _ _ _ hu =>
      rw [show placeVoltage mixedStarts[0].2 'A' = some (.nominal 2400 'A') by decide +kernel] at hu
      cases hu
      rw [Phasor.complex, unitAt_A]
      norm_num
    | cap e hh => exact absurd (mixedStarts_here _ hx _ (by rw [e]; simp) hh) (by decide +kernel)
  · have hx : (mixedStarts[2], 'A') ∈ ownPlaces mixedStarts := by decide +kernel
    have h := (hV _ hx).1
    have hz : V "l_1".toList 'A' = V mixedStarts[2].1 'A' := rfl
    rw [hz]
    revert h
    generalize V mixedStarts[2].1 'A' = z
    intro h
    have hcap : ∃ d ∈ declaredCaps mixedStarts, d.phase = 'A' ∧ d.obj.attr "parent".toList = some "l_1".toList := by decide +kernel
    have hroot : FileRoot mixedStarts "l_1".toList "l_1".toList := .own _ mixedStarts[2].2 (by decide +kernel) (by decide +kernel) (by decide +kernel)
    have hvolt : ∀ d ∈ declaredCaps mixedStarts, (d.obj.attr "cap_nominal_voltage".toList).bind pyFloat = some 2300 := by decide +kernel
    cases h with
    | leg1 e => exact absurd e (by decide)
    | leg2 e => exact absurd e (by decide)
    | file _ _ hno =>
      obtain ⟨d, hd, h1, h2⟩ := hcap
      exact absurd ⟨h1, _, h2, hroot⟩ (hno d hd)
    | @cap ds ds' d t v e hh _ ht hv =>
      have := hvolt d (by rw [e]; simp)
      rw [ht] at this
      have hv' : v = 2300 := by
        have h2 : pyFloat t = some 2300 := this
        rw [hv] at h2
        exact Option.some.inj h2
      subst hv'
      rw [unitAt_A]
      norm_num
  · have hx : (mixedStarts[4], '1') ∈ ownPlaces mixedStarts := by decide +kernel
    exact (hV _ hx).1.leg.1 rfl

/-- **C147 fails for the start at nominal voltage.** A triplex node of 240 V between its legs on phase A starts with its first leg at 120 V and 120 degrees, which is
the angle of phase C, and a bus with a capacitor rated for 2300 V starts there although its load says 2400 V. -/
theorem C147_nominal_fails : ∃ g, parseGrid oneLine mixedStarts [] = .ok g ∧
    (∃ x ∈ g.buses, x.name = "t1".toList ∧ x.phase = '1' ∧ x.nominal = .nominal 240 '1' ∧ x.start = .given (-60, 10392 / 100)) ∧
    ∃ x ∈ g.buses, x.name = "l_1".toList ∧ x.phase = 'A' ∧ x.nominal = .nominal 2400 'A' ∧ x.start = .nominal 2300 'A' := by
  have : (match parseGrid oneLine mixedStarts [] with
    | .ok g => decide ((∃ x ∈ g.buses, x.name = "t1".toList ∧ x.phase = '1' ∧ x.nominal = .nominal 240 '1' ∧ x.start = .given (-60, 10392 / 100)) ∧
      ∃ x ∈ g.buses, x.name = "l_1".toList ∧ x.phase = 'A' ∧ x.nominal = .nominal 2400 'A' ∧ x.start = .nominal 2300 'A')
    | .error _ => false) = true := by decide +kernel
  cases hg : parseGrid oneLine mixedStarts [] with
  | error e => rw [hg] at this; cases this
  | ok g =>
    rw [hg] at this
    exact ⟨g, rfl, of_decide_eq_true this⟩

/-- The short feeder, with nothing said about its start. -/
example (hL : L.Loaded) : ∃ g D, parseGrid oneLine shortFeeder [] = .ok g ∧ g.network shortMake = .ok D ∧
    ∃ s0 > 0, ∀ s : ℝ, s ≠ 0 → |s| ≤ s0 → ∃ cs vs R V,
      execute L ⟨1 / 100000, 20, true, false, false, true, true⟩ (idealSolve ((D.factor s s).network.assign L).size) cs vs (g.pf (D.factor s s)) = .ok (R, D.factor s s) ∧
      R.success = true ∧ FeederFlowAt shortMats shortFeeder g.lineData s V := by
  obtain ⟨g, D, hg, hD, hds⟩ := shortFeeder_network
  have hs : SuppliedFeeder shortMats shortFeeder g.lineData := hds ▸ shortFeeder_supplied
  have h0 : FeederFlowAt shortMats shortFeeder g.lineData 0 fun _ _ => 2400 := hds ▸ shortFeeder_idle
  have hlive : LoadsLive shortFeeder fun _ _ => 2400 := fun d hd _ _ => by
    rw [(shortFeeder_across _ d hd).2.2]
    norm_num
  have hoff : LoadsOffAxes shortFeeder fun _ _ => 2400 := fun d hd _ _ => by
    rw [(shortFeeder_across _ d hd).2.2, (shortFeeder_across (fun _ _ => 0) d hd).2.1]
    have : conj (2400 : ℂ) ^ 2 = ((5760000 : ℝ) : ℂ) := by
      rw [show (2400 : ℂ) = ((2400 : ℝ) : ℂ) by norm_num, Complex.conj_ofReal]
      norm_num
    rw [this, Complex.re_mul_ofReal, Complex.im_mul_ofReal]
    constructor <;> norm_num [toComplex]
  have hne : ownPlaces shortFeeder ≠ [] := by
    rw [shortFeeder_own]
    exact List.cons_ne_nil _ _
  have hj : ∀ x ∈ ownPlaces shortFeeder, ∀ y ∈ ownPlaces shortFeeder, FileJoined shortFeeder g.lineData x.1.1 y.1.1 := hds ▸ shortFeeder_joined
  have hnom : ∀ x ∈ ownPlaces shortFeeder, ∀ y ∈ ownPlaces shortFeeder, PlainJoined shortFeeder g.lineData x.1.1 y.1.1 → ∀ u w, placeVoltage x.1.2 x.2 = some u →
      placeVoltage y.1.2 y.2 = some w → |u.magnitude - w.magnitude| ≤ 19 / 2 := fun x hx y hy _ u w hu hw => by
    rw [(shortFeeder_volts x hx).1] at hu
    rw [(shortFeeder_volts y hy).1] at hw
    cases hu
    cases hw
    norm_num
  have hr : LoadsRated shortFeeder := by
    have : ∀ x ∈ ownPlaces shortFeeder, x.2 = 'A' := by decide +kernel
    intro d _ _ x hx _ _ _
    refine ⟨2400, by norm_num, ?_⟩
    have h1 := (shortFeeder_volts x hx).1
    rw [this x hx] at h1 ⊢
    exact h1
  refine ⟨g, D, hg, hD, ?_⟩
  obtain ⟨s0, hs0, h⟩ := C147_execute_partial hL oneLine_keeps shortFeeder_makes hg hD hs hne hj (fun x hx => Or.inr (shortFeeder_volts x hx).2) hnom hr h0 hlive hoff
    1 (1 / 100000) one_pos (by norm_num)
  refine ⟨s0, hs0, fun s hs1 hs2 => ?_⟩
  obtain ⟨cs, hc⟩ := islands_exist (g.pf (D.factor s s)).buses (g.pf (D.factor s s)).connected
  obtain ⟨vs, hv⟩ := edgeIslands_exist ((g.pf (D.factor s s)).graph.plainEdges (g.pf (D.factor s s)).connected)
  obtain ⟨R, V, h1, h2, h3, -⟩ := h s hs1 hs2 ⟨1 / 100000, 20, true, false, false, true, true⟩ le_rfl (by norm_num) (fun _ => ⟨by decide +kernel, by
      rw [show declaredCaps shortFeeder = [] by decide +kernel]
      intro d hd
      cases hd⟩) cs vs hc hv
  exact ⟨cs, vs, R, V, h1, h2, h3⟩

end Verif.Glm
