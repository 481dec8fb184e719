import Verif.Props.Execute
import Verif.Props.RawRun

/-!
# C144 for RAW cases: from the records to the reported voltages
-/

namespace Verif

/-- Scaling loads leaves the start vector alone. -/
theorem factor_start {L : Library} (hL : L.Loaded) (N : Network) (ho : N.optimization = none) (s : ℝ) (flat : Bool) (buses : List (ℝ × ℝ)) (gens : List Generator) (slacks : List (ℝ × ℝ)) :
    txInit L (N.factor s s) flat buses gens slacks = txInit L N flat buses gens slacks := by
  have key : ∀ (nodes : List Node) (es : List Element) (n : ℕ),
      ((es.map (Element.factor s s)).zip (placeElements L false nodes n (es.map (Element.factor s s))).1).filterMap (fun x => match x.1 with
        | .slack .. => some x.2
        | _ => none) = (es.zip (placeElements L false nodes n es).1).filterMap (fun x => match x.1 with
        | .slack .. => some x.2
        | _ => none) ∧
      ((es.map (Element.factor s s)).zip (placeElements L false nodes n (es.map (Element.factor s s))).1).filterMap (fun x => match x.1 with
        | .generator .. => some x.2
        | _ => none) = (es.zip (placeElements L false nodes n es).1).filterMap (fun x => match x.1 with
        | .generator .. => some x.2
        | _ => none) := by
    intro nodes es
    induction es with
    | nil => intro n; exact ⟨rfl, rfl⟩
    | cons e es ih =>
      intro n
      obtain ⟨i1, i2⟩ := ih (e.place L false nodes n).2
      simp only [List.map_cons, placeElements, List.zip_cons_cons, (factor_place hL nodes e n 0 (fun _ => 0) s).1, List.filterMap_cons]
      rw [i1, i2]
      cases e <;> exact ⟨rfl, rfl⟩
  have hop : N.opt = false := by simp [Network.opt, ho]
  have hop' : (N.factor s s).opt = false := by simp [Network.opt, Network.factor, ho]
  have h1 : (N.factor s s).placedSlacks L = N.placedSlacks L := by
    unfold Network.placedSlacks Network.assign
    simp only [hop, hop']
    exact (key _ N.elements _).1
  have h2 : (N.factor s s).placedGens L = N.placedGens L := by
    unfold Network.placedGens Network.assign
    simp only [hop, hop']
    exact (key _ N.elements _).2
  unfold txInit
  rw [h1, h2]
  rfl

end Verif

namespace Verif.Raw

open Ex

variable {L : Library}

/-- The name of an energised bus in the network. -/
theorem nameOf_pos {c : Case} {o : Out} (hp : c.Plain) (h : parseRaw c = .ok o) (name : ℤ → Txt) {k : ℤ} (hk : c.Energised k) :
    nameOf (c.busObjects name) (o.pos k) = name k := by
  have hmem : k ∈ o.buses := by rw [plain_buses hp h]; exact mem_online.2 hk
  have hlt : o.pos k < o.buses.length := List.idxOf_lt_length_iff.2 hmem
  have hget : o.buses[o.pos k] = k := List.getElem_idxOf hlt
  have e : (c.busObjects name).map GBus.name = o.buses.map name := by
    rw [plain_buses hp h, Case.busObjects, Case.online, List.map_map, List.map_map]
    rfl
  have e2 : ((c.busObjects name)[o.pos k]?).map GBus.name = some (name k) := by
    rw [← List.getElem?_map, e, List.getElem?_map, List.getElem?_eq_getElem hlt, hget]
    rfl
  rw [nameOf, e2]
  rfl

/-- Positions of the network have the names of its buses. -/
theorem busObjects_real {c : Case} {o : Out} (hp : c.Plain) (h : parseRaw c = .ok o) (name : ℤ → Txt) {i : ℕ} (hi : i < o.toNetwork.buses) :
    RealName (c.busObjects name) (nameOf (c.busObjects name) i) := by
  have hlen : (c.busObjects name).length = o.buses.length := by
    rw [plain_buses hp h, Case.busObjects, Case.online, List.length_map, List.length_map]
  have hi' : i < (c.busObjects name).length := hlen ▸ hi
  refine ⟨(c.busObjects name)[i], List.getElem_mem hi', ?_, ?_⟩
  · obtain ⟨b, -, e⟩ := List.mem_map.1 (List.getElem_mem hi')
    rw [← e]
  · rw [nameOf, List.getElem?_eq_getElem hi']
    rfl

/-- Terminals an element joins are buses of the network. -/
theorem joins_valid {n : ℕ} {e : Element} (hv : e.Valid n) {f t : ℕ} (h : Joins e (some f) (some t)) : f < n ∧ t < n := by
  generalize hf : (some f : Ref) = F at h
  generalize ht : (some t : Ref) = T at h
  cases h with
  | phase hm => cases hf; cases ht; exact hv _ hm
  | tap1 => cases hf; cases ht; exact ⟨hv.1, hv.2.2.2.1⟩
  | tap2 => cases hf; cases ht; exact ⟨hv.1, hv.2.2.2.2.2⟩
  | primarySecondary => subst hf ht; exact ⟨hv.1, hv.2.2.1⟩
  | primary => subst hf ht; exact ⟨hv.1, hv.2.1⟩
  | secondary => subst hf ht; exact ⟨hv.2.2.1, hv.2.2.2⟩
  | line => subst hf ht; exact ⟨hv.1, hv.2⟩
  | switch => subst hf ht; exact ⟨hv.1, hv.2⟩
  | source => subst hf ht; exact ⟨hv.1, hv.2⟩
  | regulator => subst hf ht; exact ⟨hv.1, hv.2.2⟩
  | fuse => subst hf ht; exact ⟨hv.1, hv.2.2⟩
  | capacitor => subst hf ht; exact ⟨hv.1, hv.2⟩

/-- What is fed from a swing bus is joined to its name. -/
theorem fed_path {c : Case} {o : Out} (hs : c.Supplied) (h : parseRaw c = .ok o) (name : ℤ → Txt) (es : List Element)
    (hl : ∀ l ∈ o.branches, o.line l ∈ es) (hx : ∀ x ∈ o.xfmrs, o.xfmr x ∈ es) (hone : ∀ j k, c.Swing j → c.Swing k → j = k) {k0 : ℤ} (h0 : c.Swing k0) {k : ℤ} (hk : c.Fed k) :
    PathBetween (c.busObjects name) es (name k0) (name k) := by
  have step : ∀ {i j : ℤ} {e : Element}, c.Energised i → c.Energised j → e ∈ es → Joins e (some (o.pos i)) (some (o.pos j)) →
      (PathBetween (c.busObjects name) es (name k0) (name i) → PathBetween (c.busObjects name) es (name k0) (name j)) ∧
      (PathBetween (c.busObjects name) es (name k0) (name j) → PathBetween (c.busObjects name) es (name k0) (name i)) := by
    intro i j e hi hj he hjn
    by_cases hne : name i = name j
    · rw [hne]
      exact ⟨id, id⟩
    · have e1 := nameOf_pos hs.plain h name hi
      have e2 := nameOf_pos hs.plain h name hj
      exact ⟨fun p => p.tail ⟨e, he, hne, _, _, hjn, Or.inl ⟨e1, e2⟩⟩, fun p => p.tail ⟨e, he, Ne.symm hne, _, _, hjn, Or.inr ⟨e1, e2⟩⟩⟩
  induction hk with
  | swing hk => rw [hone _ _ hk h0]; exact .refl
  | line hr hser _ ih =>
    obtain ⟨l, hlm, hf, ht⟩ := (supplied_lines hs h).2 _ hr hser
    exact (step hser.2.1 hser.2.2 (hl l hlm) (by rw [← hf, ← ht]; exact .line)).1 ih
  | lineBack hr hser _ ih =>
    obtain ⟨l, hlm, hf, ht⟩ := (supplied_lines hs h).2 _ hr hser
    exact (step hser.2.1 hser.2.2 (hl l hlm) (by rw [← hf, ← ht]; exact .line)).2 ih
  | two hr hser _ ih =>
    obtain ⟨x, hxm, hf, ht⟩ := (supplied_xfmrs hs h).2 _ hr hser
    exact (step hser.2.1 hser.2.2 (hx x hxm) (by rw [← hf, ← ht]; exact .primarySecondary)).1 ih
  | twoBack hr hser _ ih =>
    obtain ⟨x, hxm, hf, ht⟩ := (supplied_xfmrs hs h).2 _ hr hser
    exact (step hser.2.1 hser.2.2 (hx x hxm) (by rw [← hf, ← ht]; exact .primarySecondary)).2 ih

theorem toDx_network (o : Out) : o.toDx.network = o.toNetwork := by
  simp only [Out.toDx, DxNet.network, List.map_map]
  have : (Item.element ∘ Item.fixed) = id := rfl
  rw [this, List.map_id]
  rfl

theorem grid_connected (c : Case) (name : ℤ → Txt) (o : Out) : (c.grid name o).connected = o.toNetwork.elements := by
  have : (c.grid name o).connected = ((o.toNetwork.elements.map Item.fixed).filter fun i => !i.refuses).map Item.element := rfl
  rw [this, List.filter_eq_self.2 (by
    intro i hi
    obtain ⟨e, -, rfl⟩ := List.mem_map.1 hi
    rfl), List.map_map]
  have : (Item.element ∘ Item.fixed) = id := rfl
  rw [this, List.map_id]

/-- The elements of a loaded case end at named buses. -/
theorem grid_proper {c : Case} {o : Out} (hp : c.Plain) (h : parseRaw c = .ok o) (name : ℤ → Txt) : ProperEnds (c.grid name o).buses (c.grid name o).connected := by
  intro e he f t hj
  rw [grid_connected] at he
  obtain ⟨h1, h2⟩ := joins_valid (plain_valid hp h e he) hj
  exact ⟨busObjects_real hp h name h1, busObjects_real hp h name h2⟩

theorem fed_swing {c : Case} {k : ℤ} (h : c.Fed k) : ∃ j, c.Swing j := by
  induction h with
  | swing h => exact ⟨_, h⟩
  | line _ _ _ ih => exact ih
  | lineBack _ _ _ ih => exact ih
  | two _ _ _ ih => exact ih
  | twoBack _ _ _ ih => exact ih

/-- The start voltages of the buses of a case. -/
theorem start_ne_zero (hL : L.Loaded) {c : Case} {o : Out} (hp : c.Plain) (h : parseRaw c = .ok o) (flat : Bool)
    (hvm : ∀ b ∈ c.buses, b.ide ≠ 4 → b.vm ≠ 0) (gens : List Generator) (slacks : List (ℝ × ℝ)) {k : ℤ} (hk : c.Energised k) :
    (o.toNetwork.assign L).voltages (txInit L o.toNetwork flat
      ((c.buses.filter fun b => b.ide ≠ 4).map fun b => (b.vm * Real.cos (b.va * Real.pi / 180), b.vm * Real.sin (b.va * Real.pi / 180))) gens slacks)
      (some (o.pos k)) ≠ 0 := by
  have hk' : k ∈ o.buses := by rw [plain_buses hp h]; exact mem_online.2 hk
  have hlen : ((c.buses.filter fun b => b.ide ≠ 4).map fun b : BusRec => (b.vm * Real.cos (b.va * Real.pi / 180), b.vm * Real.sin (b.va * Real.pi / 180))).length =
      o.toNetwork.buses := by
    show _ = o.buses.length
    rw [plain_buses hp h, Case.online, List.length_map, List.length_map]
  obtain ⟨a, b, h1, h2, h3, h4, -⟩ := C57_bus_entries_partial hL o.toNetwork flat hlen gens slacks (k := o.pos k) (List.idxOf_lt_length_iff.2 hk')
  generalize hx : txInit L o.toNetwork flat
      ((c.buses.filter fun b => b.ide ≠ 4).map fun b => (b.vm * Real.cos (b.va * Real.pi / 180), b.vm * Real.sin (b.va * Real.pi / 180))) gens slacks = x at *
  have e : (o.toNetwork.assign L).voltages x (some (o.pos k)) =
      ⟨readIdx x (nodeAt (o.toNetwork.assign L).nodes (some (o.pos k))).vr, readIdx x (nodeAt (o.toNetwork.assign L).nodes (some (o.pos k))).vi⟩ := rfl
  rw [e, h1, h2]
  show (⟨x a, x b⟩ : ℂ) ≠ 0
  rw [h3, h4]
  cases flat with
  | true =>
    intro e0
    have := congrArg Complex.re e0
    simp at this
  | false =>
    rw [if_neg (by simp), if_neg (by simp), List.getElem_map]
    intro e0
    have hr := congrArg Complex.re e0
    have hi := congrArg Complex.im e0
    simp only [Complex.zero_re, Complex.zero_im] at hr hi
    obtain ⟨hb1, hb2⟩ := List.mem_filter.1 (List.getElem_mem (l := c.buses.filter fun b => b.ide ≠ 4) (n := o.pos k) (by
      rw [List.length_map] at hlen
      rw [hlen]
      exact List.idxOf_lt_length_iff.2 hk'))
    have hne := hvm _ hb1 (by simpa using hb2)
    have := Real.sin_sq_add_cos_sq (((c.buses.filter fun b => b.ide ≠ 4)[o.pos k]'(by
      rw [List.length_map] at hlen
      rw [hlen]
      exact List.idxOf_lt_length_iff.2 hk')).va * Real.pi / 180)
    rw [(mul_eq_zero.1 hr).resolve_left hne, (mul_eq_zero.1 hi).resolve_left hne] at this
    norm_num at this

/-- **C144 for RAW cases.** Take a case as in C143 with one swing bus, voltage magnitudes recorded between 0 and 9, and any names of the buses. For every
distance and tolerance, all small enough load factors but zero make `execute` return results that say success, in which every bus in service is listed
once, in the order of the file, with a voltage within that distance of a solution of the power flow equations of the records. -/
theorem C144_raw_partial (hL : L.Loaded) {c : Case} {o : Out} (hs : c.Supplied) (h : parseRaw c = .ok o) (hone : ∀ j k, c.Swing j → c.Swing k → j = k)
    (hvm : ∀ b ∈ c.buses, b.ide ≠ 4 → 0 < b.vm ∧ b.vm ≤ 9) (name : ℤ → Txt) {Z : TwoRec → ℂ} {V0 : ℤ → ℂ} (hne : ∀ k, c.Energised k → V0 k ≠ 0)
    (h0 : (c.withLoads 0).PowerFlow Z V0) (hoff : c.OffAxes V0) (flat : Bool) (ε tol : ℝ) (hε : 0 < ε) (htol : 0 < tol) :
    ∃ s0 > 0, ∀ s : ℝ, s ≠ 0 → |s| ≤ s0 → ∃ o', parseRaw (c.withLoads s) = .ok o' ∧ ∀ S : PFSettings, S.flat = flat → S.limiting = false → tol ≤ S.tolerance → 2 ≤ S.maxIters →
      ∀ cs vs, IsIslands ((c.withLoads s).grid name o').graph cs →
      IsEdgeIslands (((c.withLoads s).grid name o').graph.plainEdges ((c.withLoads s).grid name o').connected) vs →
      ∃ R V, execute L S (idealSolve (o'.toNetwork.assign L).size) cs vs ((c.withLoads s).grid name o') = .ok (R, o'.toDx) ∧ R.success = true ∧
        (c.withLoads s).PowerFlow Z V ∧ R.buses.map BusResult.bus = List.range c.online.length ∧
        ∀ b ∈ R.buses, ∀ k, c.online[b.bus]? = some k → ‖b.V - V k‖ ≤ ε := by
  obtain ⟨s0, hs0, hrun⟩ := C143_run_partial hL hs h hne h0 hoff _ (fun k hk => start_ne_zero hL hs.plain h flat (fun b hb h4 => (hvm b hb h4).1.ne')
    (o.generators.map GenAt.g) (o.slack.map fun s => (s.Pinit, s.Qinit)) hk) ε tol hε htol
  refine ⟨s0, hs0, fun s hs1 hs2 => ⟨o.withLoads s, parse_withLoads hs h s, fun S hflat hlim htl hmax cs vs hc hv => ?_⟩⟩
  have hpar := parse_withLoads hs h s
  have hpl := withLoads_plain hs.plain s
  set G := (c.withLoads s).grid name (o.withLoads s) with hG
  have hcon : G.connected = (o.withLoads s).toNetwork.elements := grid_connected _ _ _
  have hbus : G.buses = c.busObjects name := rfl
  have hproper : ProperEnds G.buses G.connected := grid_proper hpl hpar name
  have hb : ∃ k, c.Energised k := by
    obtain ⟨g, sw, fs, ls, bs, x2, top, x3, -, -, -, -, -, -, h7, -, -⟩ := parseRaw_ok.1 h
    cases hc : c.online with
    | nil => rw [hc] at h7; cases h7
    | cons a as => exact ⟨a, mem_online.1 (by rw [hc]; exact List.mem_cons_self)⟩
  obtain ⟨k1, hk1⟩ := hb
  obtain ⟨k0, hk0⟩ := fed_swing (hs.fed k1 hk1)
  have hreal : ∀ a, RealName G.buses a → ∃ k, c.Energised k ∧ name k = a := by
    rintro a ⟨b, hb, -, rfl⟩
    obtain ⟨x, hx, rfl⟩ := List.mem_map.1 hb
    obtain ⟨hx1, hx2⟩ := List.mem_filter.1 hx
    exact ⟨x.i, ⟨x, hx1, rfl, by simpa using hx2⟩, rfl⟩
  have hpath : ∀ k, c.Energised k → PathBetween G.buses G.connected (name k0) (name k) := fun k hk => by
    rw [hcon]
    refine fed_path hs h name _ (fun l hl => ?_) (fun x hx => ?_) hone hk0 (hs.fed k hk)
    · exact List.mem_append_left _ (List.mem_map_of_mem (f := (o.withLoads s).line) hl)
    · exact List.mem_append_right _ (List.mem_append_left _ (List.mem_map_of_mem (f := (o.withLoads s).xfmr) hx))
  have hsymm : ∀ a b, Linked G.buses G.connected a b → Linked G.buses G.connected b a := by
    rintro a b ⟨e, he, hab, f, t, hj, hn⟩
    exact ⟨e, he, Ne.symm hab, f, t, hj, hn.symm⟩
  have hback : ∀ a b, PathBetween G.buses G.connected a b → PathBetween G.buses G.connected b a := by
    intro a b hab
    induction hab with
    | refl => exact .refl
    | tail _ h2 ih => exact Relation.ReflTransGen.head (hsymm _ _ h2) ih
  have hconn : ∀ a b, RealName G.buses a → RealName G.buses b → PathBetween G.buses G.connected a b := by
    intro a b ha hb
    obtain ⟨i, hi, rfl⟩ := hreal a ha
    obtain ⟨j, hj, rfl⟩ := hreal b hb
    exact (hback _ _ (hpath i hi)).trans (hpath j hj)
  have hlen : cs.length = 1 := by
    by_contra hn
    have herr : executeChecks G.buses cs vs = .error "Detected multiple network islands." := by
      unfold executeChecks
      rw [if_pos hn]
    refine (C45_refused_iff G.buses G.connected hproper cs vs hc).1 herr ⟨⟨name k1, ?_⟩, hconn⟩
    have := busObjects_real hs.plain h name (i := o.pos k1) (List.idxOf_lt_length_iff.2 (by rw [plain_buses hs.plain h]; exact mem_online.2 hk1))
    rw [nameOf_pos hs.plain h name hk1] at this
    exact this
  have hok : executeChecks G.buses cs vs = .ok () := by
    refine C46_accepts G.buses G.connected hproper cs vs hlen hv fun a b _ x y hx hy => ?_
    have hmag : ∀ z a, FirstNamed G.buses a z → 0 < z.vnom ∧ z.vnom ≤ 9 := by
      rintro z a ⟨i, hz, -⟩
      obtain ⟨w, hw, rfl⟩ := List.mem_map.1 (List.mem_of_getElem? hz)
      obtain ⟨hw1, hw2⟩ := List.mem_filter.1 hw
      exact hvm w hw1 (by simpa using hw2)
    have hx := hmag x a hx
    have hy := hmag y b hy
    rw [abs_le]
    constructor <;> linarith [hx.1, hx.2, hy.1, hy.2]
  have hfs := factor_size (N := o.toNetwork) (L := L) rfl hL s
  have hnet : G.net.network = o.toNetwork.factor s s := by
    show (o.withLoads s).toDx.network = _
    rw [toDx_network, withLoads_network]
  have hstart : G.start L S = txInit L o.toNetwork flat
      ((c.buses.filter fun b => b.ide ≠ 4).map fun b => (b.vm * Real.cos (b.va * Real.pi / 180), b.vm * Real.sin (b.va * Real.pi / 180)))
      (o.generators.map GenAt.g) (o.slack.map fun s => (s.Pinit, s.Qinit)) := by
    have : G.start L S = txInit L G.net.network S.flat G.starts G.gens G.slacks := rfl
    rw [this, hnet, factor_start hL _ rfl, hflat]
    rfl
  have hctx : (G.context L S (idealSolve ((o.withLoads s).toNetwork.assign L).size)).solve = idealSolve (o.toNetwork.assign L).size := by
    show idealSolve _ = _
    rw [withLoads_network, hfs]
  obtain ⟨r, V, -, hr1, hr2, hr3, hr4⟩ := hrun s hs1 hs2 (G.context L S (idealSolve ((o.withLoads s).toNetwork.assign L).size)) S.txStepping S.control hctx
    (by
      show (if !G.net.threePhase && S.limiting then _ else none) = none
      rw [hlim, Bool.and_false]
      rfl) htl hmax
  have hglen : G.buses.length = c.online.length := by
    show (c.busObjects name).length = _
    rw [Case.busObjects, Case.online, List.length_map, List.length_map]
  have hinf : (G.buses.map fun b => (⟨b.virtual, b.vnom⟩ : BusInfo)).length = c.online.length := by rw [List.length_map, hglen]
  have hpolar := C36_polar_partial (o.withLoads s).toDx.network (G.buses.map fun b => ⟨b.virtual, b.vnom⟩) ((o.withLoads s).toDx.network.assign L) r.success r.v (by
    rw [hinf, ← plain_buses hs.plain h]
    exact (assignBuses_proper _ _ _).1.symm)
  refine ⟨Results.make (o.withLoads s).toDx.network (G.buses.map fun b => ⟨b.virtual, b.vnom⟩) ((o.withLoads s).toDx.network.assign L) r.success r.v, V, ?_, hr2, hr3, ?_, ?_⟩
  · unfold execute
    rw [hok]
    simp only [bind, Except.bind, pure, Except.pure]
    rw [hstart]
    rw [show G.net = (o.withLoads s).toDx from rfl, hr1]
  · rw [hpolar.1, realBuses, hinf, List.filter_eq_self]
    intro i hi
    rw [List.getElem?_map]
    cases hg : G.buses[i]? with
    | none =>
      rw [List.getElem?_eq_none_iff, hglen] at hg
      exact absurd (List.mem_range.1 hi) (by omega)
    | some b =>
      obtain ⟨x, -, rfl⟩ := List.mem_map.1 (List.mem_of_getElem? hg)
      rfl
  · intro b hb k hk
    obtain ⟨hV, -⟩ := hpolar.2 b hb
    rw [hV, toDx_network]
    obtain ⟨hlt, hget⟩ := List.getElem?_eq_some_iff.1 hk
    have hpos : o.pos k = b.bus := by
      rw [Out.pos, plain_buses hs.plain h, ← hget]
      exact List.Nodup.idxOf_getElem ((List.Sublist.map _ List.filter_sublist).nodup hs.plain.distinct) _ _
    rw [← hpos]
    exact (hr4 k (mem_online.1 (List.mem_of_getElem? hk))).1

/-- `lightCase`, its buses named or left without a name, is run to the end for every small enough load. -/
example (hL : L.Loaded) (Z : TwoRec → ℂ) (name : ℤ → Txt) :
    ∃ s0 > 0, ∀ s : ℝ, s ≠ 0 → |s| ≤ s0 → ∃ o', parseRaw (lightCase.withLoads s) = .ok o' ∧ ∀ S : PFSettings, S.flat = false → S.limiting = false →
      1 / 1000000 ≤ S.tolerance → 2 ≤ S.maxIters →
      ∀ cs vs, IsIslands ((lightCase.withLoads s).grid name o').graph cs →
      IsEdgeIslands (((lightCase.withLoads s).grid name o').graph.plainEdges ((lightCase.withLoads s).grid name o').connected) vs →
      ∃ R V, execute L S (idealSolve (o'.toNetwork.assign L).size) cs vs ((lightCase.withLoads s).grid name o') = .ok (R, o'.toDx) ∧ R.success = true ∧
        (lightCase.withLoads s).PowerFlow Z V ∧ R.buses.map BusResult.bus = List.range lightCase.online.length ∧
        ∀ b ∈ R.buses, ∀ k, lightCase.online[b.bus]? = some k → ‖b.V - V k‖ ≤ 1 / 1000 := by
  obtain ⟨o, ho⟩ := C78_supported_loads_partial lightCase_supported
  have hsw : ∀ k, lightCase.Swing k → k = 1 := by
    rintro k ⟨⟨b, hb, rfl, ht⟩, -⟩
    simp only [lightCase, List.mem_cons, List.not_mem_nil, or_false] at hb
    rcases hb with rfl | rfl
    · rfl
    · simp at ht
  refine C144_raw_partial hL lightCase_supplied ho (fun j k hj hk => (hsw j hj).trans (hsw k hk).symm) (fun b hb _ => ?_) name (fun _ _ => one_ne_zero) (lightCase_idle Z)
    (fun r hr _ => Or.inr ?_) false (1 / 1000) (1 / 1000000) (by norm_num) (by norm_num)
  · simp only [lightCase, List.mem_cons, List.not_mem_nil, or_false] at hb
    rcases hb with rfl | rfl <;> norm_num
  · simp only [lightCase, List.mem_cons, List.not_mem_nil, or_false] at hr
    subst hr
    norm_num

/-- The hypotheses of `C144_execute` are met by these runs: islands as networkx finds them exist, and the run returns. -/
example (hL : L.Loaded) (Z : TwoRec → ℂ) (name : ℤ → Txt) (S : PFSettings) (h1 : S.flat = false) (h2 : S.limiting = false) (h3 : 0 < S.tolerance) (h4 : 2 ≤ S.maxIters) :
    ∃ (s : ℝ) (o : Out) (solve : _) (cs vs : List (List Txt)) (R : Results), s ≠ 0 ∧ execute L S solve cs vs ((lightCase.withLoads s).grid name o) = .ok (R, o.toDx) ∧
      ∃ w, ∀ i < (o.toDx.network.assign L).size, |networkEq (o.toDx.network.assign L).all 0 w i| < S.tolerance := by
  obtain ⟨o, ho⟩ := C78_supported_loads_partial lightCase_supported
  have hsw : ∀ k, lightCase.Swing k → k = 1 := by
    rintro k ⟨⟨b, hb, rfl, ht⟩, -⟩
    simp only [lightCase, List.mem_cons, List.not_mem_nil, or_false] at hb
    rcases hb with rfl | rfl
    · rfl
    · simp at ht
  obtain ⟨s0, hs0, h⟩ := C144_raw_partial hL lightCase_supplied ho (fun j k hj hk => (hsw j hj).trans (hsw k hk).symm) (fun b hb _ => by
      simp only [lightCase, List.mem_cons, List.not_mem_nil, or_false] at hb
      rcases hb with rfl | rfl <;> norm_num) name (fun _ _ => one_ne_zero) (lightCase_idle Z)
    (fun r hr _ => Or.inr (by
      simp only [lightCase, List.mem_cons, List.not_mem_nil, or_false] at hr
      subst hr
      norm_num)) false 1 S.tolerance one_pos h3
  obtain ⟨o', hp, h⟩ := h s0 hs0.ne' (abs_of_pos hs0).le
  obtain ⟨cs, hc⟩ := islands_exist ((lightCase.withLoads s0).grid name o').buses ((lightCase.withLoads s0).grid name o').connected
  obtain ⟨vs, hv⟩ := edgeIslands_exist (((lightCase.withLoads s0).grid name o').graph.plainEdges ((lightCase.withLoads s0).grid name o').connected)
  obtain ⟨R, V, hx, hsuc, -⟩ := h S h1 h2 le_rfl h4 cs vs hc hv
  have hpl := withLoads_plain lightCase_supplied.plain s0
  obtain ⟨-, -, -, v, -, he⟩ := C144_execute hL (grid_proper hpl hp name) hc hv (by
    show o'.toDx.network.Valid
    rw [toDx_network]
    exact plain_valid hpl hp) hx
  exact ⟨s0, o', _, cs, vs, R, hs0.ne', hx, (he hsuc).2.1⟩

end Verif.Raw
