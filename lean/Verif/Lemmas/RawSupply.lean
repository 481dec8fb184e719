import Verif.Spec.RawSupply
import Verif.Spec.Resistive
import Verif.Model.LoadFactor
import Verif.Props.RawPowerFlow

/-!
# The loaded network of a supplied RAW case
-/

namespace Verif.Raw

theorem supplied_generators {c : Case} {o : Out} (hs : c.Supplied) (h : parseRaw c = .ok o) : o.generators = [] := by
  rcases ho : o.generators with _ | ⟨x, xs⟩
  · rfl
  · obtain ⟨-, h2, -⟩ := C48_only_in_service hs.plain.distinct h
    rcases h2 x (ho ▸ List.mem_cons_self ..) with ⟨g, hg, hi, hst, ht⟩ | ⟨r, hr, -, hreg⟩
    · exact absurd (hi ▸ ht) (hs.machines g hg hst)
    · exact absurd hreg (hs.switched r hr)

theorem supplied_genLoads {c : Case} (hs : c.Supplied) {g : GenState} (h1 : foldPy (genStep c) ⟨[], [], []⟩ c.generators = .ok g) :
    g.loads = [] := by
  rcases ho : g.loads with _ | ⟨x, xs⟩
  · rfl
  · obtain ⟨-, -, g3⟩ := gens_traced hs.plain.distinct h1
    obtain ⟨y, hy, hi, hst, ht⟩ := g3 x (ho ▸ List.mem_cons_self ..)
    exact absurd (hi ▸ ht) (hs.machines y hy hst)

/-- A conductance from a resistance. -/
theorem conductance_pos {r x G B : ℝ} (h : (⟨r, x⟩ : ℂ) * ⟨G, B⟩ = 1) (hr : 0 < r) : 0 < G := by
  have h1 := congrArg Complex.re h
  have h2 := congrArg Complex.im h
  simp only [Complex.mul_re, Complex.mul_im, Complex.one_re, Complex.one_im] at h1 h2
  have : r = G * (r ^ 2 + x ^ 2) := by linear_combination (-r) * h1 - x * h2
  have h3 : 0 < r ^ 2 + x ^ 2 := by positivity
  by_contra hG
  nlinarith [mul_nonneg_of_nonpos_of_nonpos (not_lt.1 hG) (neg_nonpos.2 h3.le)]

theorem slack_loopless : ∀ {l : List ℕ}, l.Nodup → Loopless (l.map fun k => (some k, none))
  | [], _ => .nil
  | k :: ks, h => by
    have := List.nodup_cons.1 h
    refine Loopless.leaf (l₁ := []) k (slack_loopless this.2) (fun b hb => ?_) (Or.inl ⟨rfl, by simp⟩)
    obtain ⟨j, hj, rfl⟩ := List.mem_map.1 hb
    refine ⟨fun e => this.1 ?_, by simp⟩
    rw [← Option.some.inj e]
    exact hj

theorem supplied_slack {c : Case} {o : Out} (hs : c.Supplied) (h : parseRaw c = .ok o) :
    (o.slack.map SlackAt.bus).Nodup ∧ ∀ k, c.Swing k → k ∈ o.slack.map SlackAt.bus := by
  obtain ⟨g, sw, fs, ls, bs, x2, top, x3, h1, -, -, -, -, -, -, -, ho⟩ := parseRaw_ok.1 h
  obtain ⟨s1, s2, s3⟩ := slack_inv hs.plain.distinct _ h1
  have hsl : o.slack = g.slack := by rw [ho]
  rw [hsl]
  refine ⟨s1, ?_⟩
  rintro k ⟨ht, g, hg, rfl, hst⟩
  exact s3 g hg hst ht

open Classical in
theorem supplied_lines {c : Case} {o : Out} (hs : c.Supplied) (h : parseRaw c = .ok o) :
    (∀ l ∈ o.branches, 0 < l.G) ∧ ∀ r ∈ c.branches, r.Served c → ∃ l ∈ o.branches, l.f = r.i ∧ l.t = r.j := by
  have h1 := C48_branches_once hs.plain.distinct h
  refine ⟨fun l hl => ?_, fun r hr hser => ?_⟩
  · obtain ⟨r, hr, -, -, hz, -⟩ := forall₂_mem_right h1 hl
    obtain ⟨hr, hser⟩ := List.mem_filter.1 hr
    exact conductance_pos hz (hs.lines r hr (by simpa using hser))
  · obtain ⟨l, hl, hf, ht, -⟩ := forall₂_mem_left h1 (List.mem_filter.2 ⟨hr, by simpa using hser⟩)
    exact ⟨l, hl, hf, ht⟩

open Classical in
theorem supplied_xfmrs {c : Case} {o : Out} (hs : c.Supplied) (h : parseRaw c = .ok o) :
    (∀ x ∈ o.xfmrs, x.tr ≠ 0 ∧ 0 < x.G) ∧ ∀ r ∈ c.two, r.Served c → ∃ x ∈ o.xfmrs, x.f = r.i ∧ x.t = r.j := by
  obtain ⟨xs, ys, hxy, hxs, hys⟩ := C48_two_winding_once hs.plain.distinct h
  refine ⟨fun x hx => ?_, fun r hr hser => ?_⟩
  · rw [hxy] at hx
    rcases List.mem_append.1 hx with hx | hx
    · obtain ⟨r, hr, hi, hf, ht⟩ := forall₂_mem_right hxs hx
      obtain ⟨hr, hser⟩ := List.mem_filter.1 hr
      have hser : r.Served c := by simpa using hser
      obtain ⟨-, hne, -⟩ := xfmr_current hs.plain hr hser hi hf ht
      refine ⟨fun h0 => hne (by rw [turns_zero, h0]; simp), ?_⟩
      obtain ⟨hcw, hw, hn1, hn2, -, -, hbase⟩ := hs.plain.two r hr hser
      obtain ⟨bi, hbi, hii, -⟩ := hser.2.1
      obtain ⟨bj, hbj, hjj, -⟩ := hser.2.2
      have hbi0 := hbase bi hbi (Or.inl hii)
      have hbj0 := hbase bj hbj (Or.inr hjj)
      obtain ⟨hV2, -, -, Z, hZ, hz, hy⟩ := C77_ratio hs.plain.distinct hi hbi hii hbj hjj hbi0 hbj0 hn1 hn2
        (windingVolts_spec hcw r.w1.windv r.w1.nomv bi.baskv) (windingVolts_spec hcw r.windv2 r.nomv2 bj.baskv)
      refine conductance_pos hy ?_
      have e := congrArg Complex.re hz
      rw [Complex.re_mul_ofReal] at e
      rw [show x.r = _ from e]
      have := div_ne_zero hV2 hbj0
      exact mul_pos (hs.two r hr hser Z hZ) (by positivity)
    · obtain ⟨r, hr, hst, -⟩ := hys x hx
      exact absurd (hs.plain.three r hr) hst
  · obtain ⟨x, hx, -, hf, ht⟩ := forall₂_mem_left hxs (List.mem_filter.2 ⟨hr, by simpa using hser⟩)
    exact ⟨x, hxy ▸ List.mem_append_left _ hx, hf, ht⟩

theorem supplied_shunts {c : Case} {o : Out} (hs : c.Supplied) (h : parseRaw c = .ok o) : ∀ x ∈ o.shunts, 0 ≤ x.G := by
  obtain ⟨g, sw, fs, ls, bs, x2, top, x3, -, hsw, hfs, -, -, -, -, -, rfl⟩ := parseRaw_ok.1 h
  intro x hx
  rcases List.mem_append.1 hx with hx | hx
  · have := foldPy_inv (P := fun s : List GenAt × List ShuntAt => ∀ x ∈ s.2, x.G = 0) (by
      intro a ha s s' hst i
      rcases switchedStep_cases hst with ⟨-, rfl⟩ | ⟨-, -, -, ⟨-, -, g, -, rfl⟩ | ⟨-, rfl⟩⟩
      · exact i
      · exact i
      · intro x hx
        rcases List.mem_append.1 hx with hx | hx
        · exact i x hx
        · rw [List.mem_singleton.1 hx]; simp) hsw (by simp)
    exact (this x hx).ge
  · rw [mapPy_ok] at hfs
    obtain ⟨r, hr, hi⟩ := forall₂_mem_right hfs hx
    obtain ⟨hr, hin⟩ := List.mem_filter.1 hr
    obtain ⟨he, rfl⟩ := fixedIntegrate_ok.1 hi
    simp only [fixedIn, decide_eq_true_eq] at hin
    have := hs.shunts r hr ⟨hin.2.1, he, hin.2.2⟩
    show 0 ≤ r.gl / 100
    positivity

theorem supplied_loads {c : Case} {o : Out} (hs : c.Supplied) (h : parseRaw c = .ok o) : ∀ x ∈ o.loads, x.l.Z = 0 ∧ x.l.IP = 0 ∧ x.l.IQ = 0 := by
  obtain ⟨g, sw, fs, ls, bs, x2, top, x3, h1, -, -, h4, -, -, -, -, rfl⟩ := parseRaw_ok.1 h
  intro x hx
  rw [supplied_genLoads hs h1] at hx
  rw [mapPy_ok] at h4
  obtain ⟨r, hr, hi⟩ := forall₂_mem_right h4 hx
  obtain ⟨-, rfl⟩ := loadIntegrate_ok.1 hi
  have := hs.plain.loads r (List.mem_filter.1 hr).1
  exact ⟨rfl, this.1, this.2.1⟩

/-- The elements of the network without constant powers. -/
theorem factor_elements (o : Out) (s : ℝ) : (o.toNetwork.factor s s).elements =
    o.branches.map o.line ++ (o.xfmrs.map o.xfmr ++ (o.slack.map o.swing ++ (o.generators.map o.machine ++
      (o.loads.map (fun x => .load (some (o.pos x.bus)) none { x.l with P := x.l.P * s, Q := x.l.Q * s }) ++ o.shunts.map o.shunt)))) := by
  simp only [Network.factor, Out.toNetwork, List.map_append, List.map_map]
  rfl

theorem supplied_sturdy {c : Case} {o : Out} (hs : c.Supplied) (h : parseRaw c = .ok o) : (o.toNetwork.factor 0 0).Sturdy := by
  have hg := supplied_generators hs h
  obtain ⟨hl1, hl2⟩ := supplied_lines hs h
  obtain ⟨hx1, hx2⟩ := supplied_xfmrs hs h
  obtain ⟨hs1, hs2⟩ := supplied_slack hs h
  have hsh := supplied_shunts hs h
  have hlo := supplied_loads hs h
  have hcl := plain_closed hs.plain h
  have hbus := plain_buses hs.plain h
  have hel := factor_elements o 0
  rw [hg] at hel
  have hmem : ∀ e, e ∈ (o.toNetwork.factor 0 0).elements ↔ (∃ l ∈ o.branches, o.line l = e) ∨ (∃ x ∈ o.xfmrs, o.xfmr x = e) ∨ (∃ x ∈ o.slack, o.swing x = e) ∨
      (∃ x ∈ o.loads, Element.load (some (o.pos x.bus)) none { x.l with P := x.l.P * 0, Q := x.l.Q * 0 } = e) ∨ ∃ x ∈ o.shunts, o.shunt x = e := by
    intro e
    rw [hel]
    simp only [List.mem_append, List.mem_map, List.map_nil, List.not_mem_nil, false_or]
  refine ⟨rfl, ?_, ?_, ?_⟩
  · intro e he
    rcases (hmem e).1 he with ⟨l, hl, rfl⟩ | ⟨x, hx, rfl⟩ | ⟨x, hx, rfl⟩ | ⟨x, hx, rfl⟩ | ⟨x, hx, rfl⟩
    · exact hl1 l hl
    · exact hx1 x hx
    · trivial
    · refine ⟨mul_zero _, mul_zero _, ?_⟩
      show 0 ≤ x.l.Z.re
      rw [(hlo x hx).1]; rfl
    · exact hsh x hx
  · have key : ∀ k, c.Fed k → Held (o.toNetwork.factor 0 0).elements (some (o.pos k)) := by
      intro k hk
      induction hk with
      | swing hk =>
        obtain ⟨x, hx, rfl⟩ := List.mem_map.1 (hs2 _ hk)
        exact .forth ((hmem _).2 (Or.inr (Or.inr (Or.inl ⟨x, hx, rfl⟩)))) (⟨rfl, rfl⟩ : Element.Joins (o.swing x) none (some (o.pos x.bus))) .ground
      | line hr hser _ ih =>
        obtain ⟨l, hl, hf, ht⟩ := hl2 _ hr hser
        exact .forth ((hmem _).2 (Or.inl ⟨l, hl, rfl⟩)) (by rw [← hf, ← ht]; exact ⟨rfl, rfl⟩) ih
      | lineBack hr hser _ ih =>
        obtain ⟨l, hl, hf, ht⟩ := hl2 _ hr hser
        exact .back ((hmem _).2 (Or.inl ⟨l, hl, rfl⟩)) (by rw [← hf, ← ht]; exact ⟨rfl, rfl⟩) ih
      | two hr hser _ ih =>
        obtain ⟨x, hx, hf, ht⟩ := hx2 _ hr hser
        rw [← ht]
        rw [← hf] at ih
        exact .secondary ((hmem _).2 (Or.inr (Or.inl ⟨x, hx, rfl⟩))) ih .ground .ground
      | twoBack hr hser _ ih =>
        obtain ⟨x, hx, hf, ht⟩ := hx2 _ hr hser
        rw [← hf]
        rw [← ht] at ih
        exact .primary ((hmem _).2 (Or.inr (Or.inl ⟨x, hx, rfl⟩))) ih .ground .ground
    intro k hk
    have hk' : k < o.buses.length := hk
    have hb : o.buses[k] ∈ o.buses := List.getElem_mem hk'
    have he : c.Energised o.buses[k] := by
      rw [← mem_online, ← hbus]
      exact hb
    have hnd : o.buses.Nodup := by
      rw [hbus]
      exact (List.Sublist.map _ List.filter_sublist).nodup hs.plain.distinct
    have := key _ (hs.fed _ he)
    rwa [Out.pos, List.Nodup.idxOf_getElem hnd] at this
  · have : (o.toNetwork.factor 0 0).elements.flatMap Element.rigid = (o.slack.map fun x => o.pos x.bus).map fun k => (some k, none) := by
      rw [hel]
      simp only [List.flatMap_append, List.flatMap_map, List.map_nil, List.flatMap_nil, List.nil_append, List.map_map]
      have z1 : o.branches.flatMap (fun l => (o.line l).rigid) = [] := by rw [List.flatMap_eq_nil_iff]; intro _ _; rfl
      have z2 : o.xfmrs.flatMap (fun l => (o.xfmr l).rigid) = [] := by rw [List.flatMap_eq_nil_iff]; intro _ _; rfl
      have z3 : o.shunts.flatMap (fun l => (o.shunt l).rigid) = [] := by rw [List.flatMap_eq_nil_iff]; intro _ _; rfl
      have z4 : o.loads.flatMap (fun x => (Element.load (some (o.pos x.bus)) none { x.l with P := x.l.P * 0, Q := x.l.Q * 0 }).rigid) = [] := by
        rw [List.flatMap_eq_nil_iff]; intro _ _; rfl
      rw [z1, z2, z3, z4, List.nil_append, List.nil_append, List.append_nil, List.append_nil]
      generalize o.slack = l
      induction l with
      | nil => rfl
      | cons a as ih => rw [List.flatMap_cons, ih]; rfl
    rw [this]
    refine slack_loopless ?_
    have e : (o.slack.map fun x => o.pos x.bus) = (o.slack.map SlackAt.bus).map o.pos := by rw [List.map_map]; rfl
    rw [e]
    refine List.Nodup.map_on (fun a ha b hb hab => ?_) hs1
    obtain ⟨x, hx, rfl⟩ := List.mem_map.1 ha
    exact (pos_eq (hcl.slack x hx)).1 hab

/-! ### Scaled loads -/

/-- The result with all loads multiplied by `s`. -/
noncomputable def Out.withLoads (o : Out) (s : ℝ) : Out := { o with loads := o.loads.map fun x => { x with l := { x.l with P := x.l.P * s, Q := x.l.Q * s } } }

theorem mapPy_withLoads {c : Case} (s : ℝ) : ∀ {l : List LoadRec} {ls : List LoadAt}, mapPy (loadIntegrate c) (l.filter (loadIn c)) = .ok ls →
    mapPy (loadIntegrate (c.withLoads s)) ((l.map fun r => { r with pl := r.pl * s, ql := r.ql * s }).filter (loadIn (c.withLoads s))) =
      .ok (ls.map fun x => { x with l := { x.l with P := x.l.P * s, Q := x.l.Q * s } }) := by
  intro l ls h
  rw [mapPy_ok] at h ⊢
  have e : (l.map fun r : LoadRec => { r with pl := r.pl * s, ql := r.ql * s }).filter (loadIn (c.withLoads s)) =
      (l.filter (loadIn c)).map fun r => { r with pl := r.pl * s, ql := r.ql * s } := by
    rw [List.filter_map]
    rfl
  rw [e, List.forall₂_map_left_iff, List.forall₂_map_right_iff]
  refine h.imp fun r x hx => ?_
  obtain ⟨he, rfl⟩ := loadIntegrate_ok.1 hx
  refine loadIntegrate_ok.2 ⟨he, ?_⟩
  simp only [div_mul_eq_mul_div]

theorem parse_withLoads {c : Case} {o : Out} (hs : c.Supplied) (h : parseRaw c = .ok o) (s : ℝ) : parseRaw (c.withLoads s) = .ok (o.withLoads s) := by
  obtain ⟨g, sw, fs, ls, bs, x2, top, x3, h1, h2, h3, h4, h5, h6, h7, h8, rfl⟩ := parseRaw_ok.1 h
  have h0 := supplied_genLoads hs h1
  refine parseRaw_ok.2 ⟨g, sw, fs, _, bs, x2, top, x3, h1, h2, h3, mapPy_withLoads s h4, h5, h6, h7, h8, ?_⟩
  simp only [Out.withLoads, h0, List.nil_append]
  rfl

theorem withLoads_network (o : Out) (s : ℝ) : (o.withLoads s).toNetwork = o.toNetwork.factor s s := by
  have h := factor_elements o s
  simp only [Network.factor] at h ⊢
  rw [h]
  simp only [Out.toNetwork, Out.withLoads, List.map_map]
  rfl

theorem withLoads_pos (o : Out) (s : ℝ) (k : ℤ) : (o.withLoads s).pos k = o.pos k := rfl

theorem withLoads_plain {c : Case} (hp : c.Plain) (s : ℝ) : (c.withLoads s).Plain where
  distinct := hp.distinct
  base := hp.base
  machines := hp.machines
  loads := by
    intro r hr
    obtain ⟨r', hr', rfl⟩ := List.mem_map.1 hr
    exact hp.loads r' hr'
  two := hp.two
  three := hp.three

theorem withLoads_loadedZ (c : Case) (s : ℝ) : loadedZ (c.withLoads s) = loadedZ c := rfl

end Verif.Raw
