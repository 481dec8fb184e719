import Verif.Lemmas.KirchhoffElement

/-! Whole networks: rows are bus currents and laws; regularity. -/

namespace Verif

open Ex Devices ComplexConjugate

variable {L : Library}

/-- The indices of bus `k` in plain mode. -/
def plainNode (k : ℕ) : Node := ⟨some (2 * k), some (2 * k + 1), none, none⟩

theorem assignBuses_plain (K s : ℕ) :
    assignBuses false K (2 * s) = ((List.range' s K).map plainNode, 2 * (s + K)) := by
  induction K generalizing s with
  | zero => rfl
  | succ K ih =>
    have hb : assignBus false (2 * s) = (plainNode s, 2 * (s + 1)) := rfl
    simp only [assignBuses, hb, ih]
    rw [List.range'_succ, List.map_cons]
    congr 1
    omega

theorem nodeAt_plain {K k : ℕ} (hk : k < K) : nodeAt ((List.range' 0 K).map plainNode) (some k) = plainNode k := by
  unfold nodeAt
  simp only [List.getD_eq_getElem?_getD, List.getElem?_map]
  rw [List.getElem?_range' hk]; simp

theorem nodeAt_plain_out {K k : ℕ} (hk : K ≤ k) : nodeAt ((List.range' 0 K).map plainNode) (some k) = Node.ground := by
  unfold nodeAt
  simp only [List.getD_eq_getElem?_getD, List.getElem?_map]
  rw [List.getElem?_eq_none (by simpa using hk)]; rfl

theorem nodeRow_re (K k : ℕ) (hk : k < K) (r : Ref) (z : ℂ) :
    nodeRow (nodeAt ((List.range' 0 K).map plainNode) r) z (2 * k) = if r = some k then z.re else 0 := by
  cases r with
  | none => simp [nodeAt, nodeRow_ground]
  | some j =>
    by_cases hj : j < K
    · rw [nodeAt_plain hj]
      unfold nodeRow plainNode
      simp only [Option.some.injEq]
      by_cases h : j = k
      · subst h; simp
      · rw [if_neg (by omega), if_neg (by omega), if_neg h]; simp
    · rw [nodeAt_plain_out (by omega), nodeRow_ground, if_neg (by simp; omega)]

theorem nodeRow_im (K k : ℕ) (hk : k < K) (r : Ref) (z : ℂ) :
    nodeRow (nodeAt ((List.range' 0 K).map plainNode) r) z (2 * k + 1) = if r = some k then z.im else 0 := by
  cases r with
  | none => simp [nodeAt, nodeRow_ground]
  | some j =>
    by_cases hj : j < K
    · rw [nodeAt_plain hj]
      unfold nodeRow plainNode
      simp only [Option.some.injEq]
      by_cases h : j = k
      · subst h; simp
      · rw [if_neg (by omega), if_neg (by omega), if_neg h]; simp
    · rw [nodeAt_plain_out (by omega), nodeRow_ground, if_neg (by simp; omega)]

theorem nodeRow_high (K i : ℕ) (hi : 2 * K ≤ i) (r : Ref) (z : ℂ) :
    nodeRow (nodeAt ((List.range' 0 K).map plainNode) r) z i = 0 := by
  cases r with
  | none => simp [nodeAt, nodeRow_ground]
  | some j =>
    by_cases hj : j < K
    · rw [nodeAt_plain hj]
      unfold nodeRow plainNode
      simp only [Option.some.injEq]
      rw [if_neg (by omega), if_neg (by omega)]; simp
    · rw [nodeAt_plain_out (by omega), nodeRow_ground]

/-- Current drawn from bus `k`. -/
noncomputable def busSum (k : ℕ) (ds : List (Ref × ℂ)) : ℂ := ((ds.filter fun d => d.1 = some k).map Prod.snd).sum

theorem busSum_cons (k : ℕ) (r : Ref) (z : ℂ) (ds : List (Ref × ℂ)) :
    busSum k ((r, z) :: ds) = (if r = some k then z else 0) + busSum k ds := by
  unfold busSum
  by_cases h : r = some k
  · simp [h]
  · simp [h]

theorem drawRow_bus (K k : ℕ) (hk : k < K) (ds : List (Ref × ℂ)) :
    drawRow ((List.range' 0 K).map plainNode) ds (2 * k) = (busSum k ds).re ∧
    drawRow ((List.range' 0 K).map plainNode) ds (2 * k + 1) = (busSum k ds).im := by
  induction ds with
  | nil => exact ⟨rfl, rfl⟩
  | cons d ds ih =>
    obtain ⟨r, z⟩ := d
    rw [drawRow_cons, drawRow_cons, ih.1, ih.2, nodeRow_re K k hk, nodeRow_im K k hk, busSum_cons]
    constructor <;> split_ifs <;> simp

theorem drawRow_high (K i : ℕ) (hi : 2 * K ≤ i) (ds : List (Ref × ℂ)) :
    drawRow ((List.range' 0 K).map plainNode) ds i = 0 := by
  unfold drawRow
  apply List.sum_eq_zero
  intro x hx
  obtain ⟨d, _, rfl⟩ := List.mem_map.1 hx
  exact nodeRow_high K i hi d.1 d.2

theorem laws_length (e : Element) (t : ℝ) (V : Ref → ℂ) (w w' : List ℝ) : (e.laws t V w).length = (e.laws t V w').length := by
  cases e with
  | switch f u s => cases s <;> rfl
  | _ => rfl

theorem getD_map_range' (v : ℕ → ℝ) (n m k : ℕ) (hk : k < m) : (((fresh n m)).map (readIdx v)).getD k 0 = v (n + k) := by
  unfold fresh
  rw [List.map_map, List.getD_eq_getElem?_getD, List.getElem?_map, List.getElem?_range' hk]
  simp [readIdx]

theorem place_own (hL : L.Loaded) (nodes : List Node) (e : Element) (n : ℕ) (t : ℝ) (v : ℕ → ℝ) :
    let V : Ref → ℂ := fun r => (nodeAt nodes r).volt v
    let w := ((Element.unknowns L false e).map (unknownIdx (e.place L false nodes n).1)).map (readIdx v)
    (e.place L false nodes n).2 = n + (e.laws t V w).length ∧
    ∀ i, rowTotal ((e.place L false nodes n).1.flatMap fun p => p.equations t v) i =
      drawRow nodes (e.draws t V w) i + lawRow n (e.laws t V w) i := by
  intro V w
  obtain ⟨m, h1, h2⟩ := place_fresh hL false nodes e n
  have hw : w = (fresh n m).map (readIdx v) := by rw [← h2]
  set w0 : List ℝ := (fresh n (e.laws t V []).length).map (readIdx v) with hw0
  have hcount : (e.place L false nodes n).2 = n + (e.laws t V []).length := by
    have h := (place_kirchhoff hL nodes e n t v w0 ?_).1
    · rw [h, laws_length e t V w0 []]
    · intro k hk
      rw [laws_length e t _ w0 []] at hk
      exact getD_map_range' v n _ k hk
  have hm : m = (e.laws t V []).length := by omega
  refine place_kirchhoff hL nodes e n t v w ?_
  intro k hk
  rw [laws_length e t _ w []] at hk
  rw [hw, hm]
  exact getD_map_range' v n _ k hk

theorem placeElements_kirchhoff (hL : L.Loaded) (nodes : List Node) (es : List Element) (n : ℕ) (t : ℝ) (v : ℕ → ℝ) :
    let V : Ref → ℂ := fun r => (nodeAt nodes r).volt v
    let r := placeElements L false nodes n es
    let ow := List.zipWith (fun e ps => (e, ((Element.unknowns L false e).map (unknownIdx ps)).map (readIdx v))) es r.1
    ∀ i, rowTotal (r.1.flatten.flatMap fun p => p.equations t v) i =
      drawRow nodes (ow.flatMap fun x => x.1.draws t V x.2) i + lawRow n (ow.flatMap fun x => x.1.laws t V x.2) i := by
  intro V r ow
  induction es generalizing n with
  | nil => intro i; simp [r, ow, placeElements, rowTotal, drawRow, lawRow]
  | cons e es ih =>
    intro i
    obtain ⟨h1, h2⟩ := place_own hL nodes e n t v
    have ih' := ih ((e.place L false nodes n).2) i
    simp only [r, ow, placeElements, List.flatten_cons, List.flatMap_append, rowTotal_append, List.zipWith_cons_cons,
      List.flatMap_cons, drawRow_append, lawRow_append]
    rw [h2 i, ih', h1]
    ring

/-- Every row of a plain network: bus currents below `2·buses`, laws above. -/
theorem network_total (hL : L.Loaded) (N : Network) (ho : N.optimization = none) (t : ℝ) (v : ℕ → ℝ) (i : ℕ) :
    let a := N.assign L
    networkEq a.all t v i =
      drawRow ((List.range' 0 N.buses).map plainNode) ((a.owned L N v).flatMap fun x => x.1.draws t (a.voltages v) x.2) i +
      lawRow (2 * N.buses) ((a.owned L N v).flatMap fun x => x.1.laws t (a.voltages v) x.2) i := by
  intro a
  have hopt : N.opt = false := by simp [Network.opt, ho]
  have hb := assignBuses_plain N.buses 0
  simp only [Nat.mul_zero, Nat.zero_add] at hb
  have hnodes : a.nodes = (List.range' 0 N.buses).map plainNode := by
    show (assignBuses N.opt N.buses 0).1 = _
    rw [hopt, hb]
  have hparts : a.parts = (placeElements L false ((List.range' 0 N.buses).map plainNode) (2 * N.buses) N.elements).1 := by
    show (placeElements L N.opt (assignBuses N.opt N.buses 0).1 (assignBuses N.opt N.buses 0).2 N.elements).1 = _
    rw [hopt, hb]
  have hinf : a.infeasibility = [] := by
    show (match N.optimization with
      | none => (([] : List Placed), _)
      | some k => placeInfeasibility k _ _).1 = []
    rw [ho]
  have h := placeElements_kirchhoff hL ((List.range' 0 N.buses).map plainNode) N.elements (2 * N.buses) t v i
  unfold networkEq Assignment.all Assignment.owned
  rw [hinf, List.append_nil, hparts, hopt]
  rw [h]
  unfold Assignment.voltages
  rw [hnodes]

theorem placeElements_count (hL : L.Loaded) (nodes : List Node) (es : List Element) (n : ℕ) (t : ℝ) (v : ℕ → ℝ) :
    let V : Ref → ℂ := fun r => (nodeAt nodes r).volt v
    let r := placeElements L false nodes n es
    let ow := List.zipWith (fun e ps => (e, ((Element.unknowns L false e).map (unknownIdx ps)).map (readIdx v))) es r.1
    r.2 = n + (ow.flatMap fun x => x.1.laws t V x.2).length := by
  intro V r ow
  induction es generalizing n with
  | nil => simp [r, ow, placeElements]
  | cons e es ih =>
    obtain ⟨h1, -⟩ := place_own hL nodes e n t v
    have ih' := ih ((e.place L false nodes n).2)
    simp only [r, ow, placeElements, List.zipWith_cons_cons, List.flatMap_cons, List.length_append]
    rw [ih', h1]
    simp only [V]
    omega

/-- Unknowns of a plain network: two per bus and one per law. -/
theorem network_size (hL : L.Loaded) (N : Network) (ho : N.optimization = none) (t : ℝ) (v : ℕ → ℝ) :
    let a := N.assign L
    a.size = 2 * N.buses + ((a.owned L N v).flatMap fun x => x.1.laws t (a.voltages v) x.2).length := by
  intro a
  have hopt : N.opt = false := by simp [Network.opt, ho]
  have hb := assignBuses_plain N.buses 0
  simp only [Nat.mul_zero, Nat.zero_add] at hb
  have hnodes : a.nodes = (List.range' 0 N.buses).map plainNode := by
    show (assignBuses N.opt N.buses 0).1 = _
    rw [hopt, hb]
  have hparts : a.parts = (placeElements L false ((List.range' 0 N.buses).map plainNode) (2 * N.buses) N.elements).1 := by
    show (placeElements L N.opt (assignBuses N.opt N.buses 0).1 (assignBuses N.opt N.buses 0).2 N.elements).1 = _
    rw [hopt, hb]
  have hsize : a.size = (placeElements L false ((List.range' 0 N.buses).map plainNode) (2 * N.buses) N.elements).2 := by
    show (match N.optimization with
      | none => (([] : List Placed), (placeElements L N.opt (assignBuses N.opt N.buses 0).1 (assignBuses N.opt N.buses 0).2 N.elements).2)
      | some k => placeInfeasibility k _ _).2 = _
    rw [ho, hopt, hb]
  have h := placeElements_count hL ((List.range' 0 N.buses).map plainNode) N.elements (2 * N.buses) t v
  unfold Assignment.owned Assignment.voltages
  rw [hsize, hparts, hnodes, hopt]
  exact h

/-- No equation beyond the last unknown. -/
theorem network_rows_high (hL : L.Loaded) (N : Network) (ho : N.optimization = none) (t : ℝ) (v : ℕ → ℝ) (i : ℕ)
    (hi : (N.assign L).size ≤ i) : networkEq (N.assign L).all t v i = 0 := by
  have h := network_total hL N ho t v i
  have hs := network_size hL N ho t v
  simp only at h hs
  rw [h, drawRow_high _ _ (by omega)]
  unfold lawRow
  rw [if_pos (by omega), List.getD_eq_getElem?_getD, List.getElem?_eq_none (by omega)]
  simp

/-! ### Regularity -/

theorem line_defined (hL : L.Loaded) (env : Env) : Defined env L.line.lagrange := by
  obtain ⟨n, h⟩ := hL.line
  exact defined_twoTerminal h rfl rfl rfl rfl (defined_of_noNeg (by decide)) (defined_of_noNeg (by decide)) (by simp [lineArgs])

theorem shunt_defined (hL : L.Loaded) (env : Env) : Defined env L.shunt.lagrange := by
  obtain ⟨n, h⟩ := hL.shunt
  exact defined_twoTerminal h rfl rfl rfl rfl (defined_of_noNeg (by decide)) (defined_of_noNeg (by decide)) (by simp [shuntArgs])

theorem ic_defined (hL : L.Loaded) (env : Env) : Defined env L.ic.lagrange := by
  obtain ⟨n, h⟩ := hL.ic
  exact defined_twoTerminal h rfl rfl rfl rfl (defined_of_noNeg (by decide)) (defined_of_noNeg (by decide)) (by simp [icArgs])

theorem slack_defined (hL : L.Loaded) (env : Env) : Defined env L.slack.lagrange := by
  obtain ⟨n, h⟩ := hL.slack
  refine defined_twoTerminal h rfl rfl rfl rfl trivial trivial ?_
  intro e he
  simp [slackArgs] at he
  rcases he with rfl | rfl <;> exact defined_of_noNeg (by decide)

theorem vs_defined (hL : L.Loaded) (env : Env) : Defined env L.vs.lagrange := by
  obtain ⟨n, h⟩ := hL.vs
  refine defined_twoTerminal h rfl rfl rfl rfl trivial trivial ?_
  intro e he
  simp [vsArgs] at he
  rcases he with rfl | rfl <;> exact defined_of_noNeg (by decide)

theorem pq_defined (hL : L.Loaded) (env : Env) (hv : (env .VrFrom - env .VrTo) ^ 2 + (env .ViFrom - env .ViTo) ^ 2 ≠ 0) :
    Defined env L.pq.lagrange := by
  obtain ⟨n, h⟩ := hL.pq
  exact defined_twoTerminal h rfl rfl rfl rfl (defined_pq hv).1 (defined_pq hv).2 (by simp [pqArgs])

theorem gen_defined (hL : L.Loaded) (env : Env) (hv : (env .VrFrom - env .VrTo) ^ 2 + (env .ViFrom - env .ViTo) ^ 2 ≠ 0) :
    Defined env L.gen.lagrange := by
  obtain ⟨n, h⟩ := hL.gen
  refine defined_twoTerminal h rfl rfl rfl rfl (defined_pq hv).1 (defined_pq hv).2 ?_
  intro e he
  simp [genArgs] at he
  subst he
  exact defined_of_noNeg (by decide)

theorem sq_ne_of_volt {a b c d : ℝ} (h : (⟨a, b⟩ : ℂ) ≠ ⟨c, d⟩) : (a - c) ^ 2 + (b - d) ^ 2 ≠ 0 := by
  intro h0
  apply h
  have h1 : a - c = 0 := by nlinarith [sq_nonneg (a - c), sq_nonneg (b - d)]
  have h2 : b - d = 0 := by nlinarith [sq_nonneg (a - c), sq_nonneg (b - d)]
  apply Complex.ext
  · show a = c; linarith
  · show b = d; linarith

theorem env_const {p : Placed} {t : ℝ} {v : ℕ → ℝ} {s : Sym} (h : s ∉ p.details.seg.constants) : p.env t v s = p.point v s := by
  unfold Placed.env Part.env Placed.part; simp [h]

/-- Two-terminal parts with own unknowns read their terminals. -/
theorem twoTerminal_env {seg : Segment} {f u : Node} {n : ℕ} {opt : Bool} {own lams : List Sym}
    (hp : seg.primals = terminals ++ own) (hd : seg.duals = [.LrFrom, .LiFrom, .LrTo, .LiTo] ++ lams)
    (hn : (own ++ lams).Nodup) (hmiss : ∀ s ∈ own ++ lams, terminalDict f u s = none)
    (hc : ∀ s ∈ terminals, s ∉ seg.constants) (consts : List ℝ) (t : ℝ) (v : ℕ → ℝ) (hne : f.volt v ≠ u.volt v) :
    let env := Placed.env ⟨(twoTerminalDetails seg f u n opt).1, consts⟩ t v
    (env .VrFrom - env .VrTo) ^ 2 + (env .ViFrom - env .ViTo) ^ 2 ≠ 0 := by
  intro env
  obtain ⟨h1, h2, h3, h4, h5, h6, h7⟩ := twoTerminalDetails_spec f u n opt hp hd hn hmiss
  have key : ∀ s ∈ terminals, ∀ i, terminalDict f u s = some i → env s = readIdx v i := by
    intro s hs i hi
    have : env s = Placed.point ⟨(twoTerminalDetails seg f u n opt).1, consts⟩ v s :=
      env_const (by simp only [h1]; exact hc s hs)
    rw [this, ← h4 s i hi]
    refine if_pos ?_
    simp only [h1]
    unfold Segment.vars; rw [hp]
    exact List.mem_append_left _ (List.mem_append_left _ hs)
  rw [key .VrFrom (by simp [terminals]) f.vr rfl, key .VrTo (by simp [terminals]) u.vr rfl,
    key .ViFrom (by simp [terminals]) f.vi rfl, key .ViTo (by simp [terminals]) u.vi rfl]
  exact sq_ne_of_volt hne

theorem place_defined (hL : L.Loaded) {opt : Bool} (nodes : List Node) (e : Element) (n : ℕ) (t : ℝ) (v : ℕ → ℝ)
    (hr : e.RegularAt t fun r => (nodeAt nodes r).volt v) :
    ∀ p ∈ (e.place L opt nodes n).1, p.details.seg ∈ L.segments ∧ Defined (p.env t v) p.details.seg.lagrange := by
  have ml : L.line ∈ L.segments := by simp [Library.segments]
  have ms : L.shunt ∈ L.segments := by simp [Library.segments]
  have mx : xfmr ∈ L.segments := by simp [Library.segments]
  have mv : L.vs ∈ L.segments := by simp [Library.segments]
  have hl : ∀ f u c, let p : Placed := ⟨lineDetails L.line f u opt, c⟩
      p.details.seg ∈ L.segments ∧ Defined (p.env t v) p.details.seg.lagrange :=
    fun f u c => ⟨ml, line_defined hL _⟩
  have hs : ∀ f u c, let p : Placed := ⟨lineDetails L.shunt f u opt, c⟩
      p.details.seg ∈ L.segments ∧ Defined (p.env t v) p.details.seg.lagrange :=
    fun f u c => ⟨ms, shunt_defined hL _⟩
  have hvs : ∀ f u c m, ∀ p ∈ (placeTwoTerminal L.vs opt f u c m).1,
      p.details.seg ∈ L.segments ∧ Defined (p.env t v) p.details.seg.lagrange := by
    intro f u c m p hp
    simp only [placeTwoTerminal, List.mem_cons, List.not_mem_nil, or_false] at hp
    have hseg : p.details.seg = L.vs := by rw [hp]; rfl
    rw [hseg]; exact ⟨mv, vs_defined hL _⟩
  have hx : ∀ a b c d tr ang g y m, ∀ p ∈ (placeTransformer L opt a b c d tr ang g y m).1,
      p.details.seg ∈ L.segments ∧ Defined (p.env t v) p.details.seg.lagrange := by
    intro a b c d tr ang g y m p hp
    simp only [placeTransformer, List.mem_cons, List.not_mem_nil, or_false] at hp
    rcases hp with rfl | rfl
    · exact ⟨mx, defined_of_noNeg (by decide : xfmr.lagrange.noNeg = true)⟩
    · exact hl _ _ _
  intro p hp
  cases e with
  | line f u g b bl =>
    simp only [Element.place, List.mem_cons, List.not_mem_nil, or_false] at hp
    rcases hp with rfl | rfl | rfl
    · exact hl _ _ _
    · exact hs _ _ _
    · exact hs _ _ _
  | unbalanced ph y sh =>
    simp only [Element.place, placeUnbalanced, List.mem_flatMap, List.mem_range] at hp
    obtain ⟨i, hi, j, hj, hp⟩ := hp
    simp only [placePair, List.mem_cons, List.not_mem_nil, or_false] at hp
    rcases hp with rfl | rfl | rfl
    · by_cases hij : i = j
      · simp only [hij, if_true]; exact ⟨ml, line_defined hL _⟩
      · simp only [hij, if_false]; exact ⟨ms, shunt_defined hL _⟩
    · exact ⟨ms, shunt_defined hL _⟩
    · exact ⟨ms, shunt_defined hL _⟩
  | transformer fp fn tp tn tr ang g b => exact hx _ _ _ _ _ _ _ _ _ p hp
  | centerTap f p0 s1 t1 s2 t2 ratio g0 b0 g1 b1 g2 b2 =>
    simp only [Element.place, List.mem_cons, List.not_mem_nil, or_false] at hp
    rcases hp with rfl | rfl | rfl | rfl
    · refine ⟨by simp [Library.segments], defined_centerTap ?_⟩
      have h1 : ∀ m, Placed.env ⟨⟨centerTap, m, m, opt⟩, [ratio, 0]⟩ t v .tr = ratio := fun m => by
        simp [Placed.env, Placed.part, Part.env, centerTap]
      have h2 : ∀ m, Placed.env ⟨⟨centerTap, m, m, opt⟩, [ratio, 0]⟩ t v .txFactor = t := fun m => by
        simp [Placed.env, Placed.part, Part.env, centerTap]
      rw [h1, h2]; exact hr
    · exact hl _ _ _
    · exact hl _ _ _
    · exact hl _ _ _
  | slack b vr vi =>
    simp only [Element.place, placeTwoTerminal, List.mem_cons, List.not_mem_nil, or_false] at hp
    have hseg : p.details.seg = L.slack := by rw [hp]; rfl
    rw [hseg]; exact ⟨by simp [Library.segments], slack_defined hL _⟩
  | switch f u s =>
    cases s with
    | opened => simp [Element.place] at hp
    | closed => exact hvs _ _ _ _ p hp
  | generator b P V =>
    simp only [Element.place, placeTwoTerminal, List.mem_cons, List.not_mem_nil, or_false] at hp
    have hseg : p.details.seg = L.gen := by rw [hp]; rfl
    rw [hseg]
    refine ⟨by simp [Library.segments], gen_defined hL _ ?_⟩
    obtain ⟨m, s1, s2, s3⟩ := gen_shape hL
    subst hp
    exact twoTerminal_env s1 s2 (by simp) (by simp [terminalDict]) (by rw [s3]; decide) _ _ _ hr
  | load f u l =>
    simp only [Element.place, placeLoad, placeTwoTerminal] at hp
    rcases List.mem_append.1 hp with hp | hp
    · rcases List.mem_append.1 hp with hp | hp
      · split_ifs at hp with h0
        · simp at hp
        · simp only [List.mem_cons, List.not_mem_nil, or_false] at hp
          obtain ⟨s1, s2, s3⟩ := pq_shape hL
          have hseg : p.details.seg = L.pq := by rw [hp]; rfl
          rw [hseg]
          refine ⟨by simp [Library.segments], pq_defined hL _ ?_⟩
          subst hp
          exact twoTerminal_env s1 s2 (by simp) (by simp) (by rw [s3]; decide) _ _ _ (hr.resolve_left h0)
      · have : ∃ m, p = ⟨(twoTerminalDetails L.ic (nodeAt nodes f) (nodeAt nodes u) m opt).1, [l.IP, l.IQ]⟩ := by
          split_ifs at hp <;> simp at hp <;> exact ⟨_, hp⟩
        obtain ⟨m, rfl⟩ := this
        exact ⟨by show L.ic ∈ _; simp [Library.segments], ic_defined hL _⟩
    · split_ifs at hp
      · simp at hp
      · simp only [List.mem_cons, List.not_mem_nil, or_false] at hp
        subst hp; exact hs _ _ _
  | voltageSource f u vr vi => exact hvs _ _ _ _ p hp
  | shunt b g s =>
    simp only [Element.place, List.mem_cons, List.not_mem_nil, or_false] at hp
    subst hp; exact hs _ _ _
  | regulator f c u tr g b =>
    rcases List.mem_append.1 hp with hp | hp
    · exact hx _ _ _ _ _ _ _ _ _ p hp
    · exact hvs _ _ _ _ p hp
  | fuse f i u =>
    rcases List.mem_cons.1 hp with rfl | hp
    · exact hl _ _ _
    · exact hvs _ _ _ _ p hp
  | capacitor f u sw b =>
    cases sw with
    | opened => simp [Element.place] at hp
    | closed =>
      simp only [Element.place, List.mem_cons, List.not_mem_nil, or_false] at hp
      subst hp; exact hs _ _ _

theorem placeElements_defined (hL : L.Loaded) {opt : Bool} (nodes : List Node) (es : List Element) (n : ℕ) (t : ℝ) (v : ℕ → ℝ)
    (hr : ∀ e ∈ es, e.RegularAt t fun r => (nodeAt nodes r).volt v) :
    ∀ p ∈ (placeElements L opt nodes n es).1.flatten, p.details.seg ∈ L.segments ∧ Defined (p.env t v) p.details.seg.lagrange := by
  induction es generalizing n with
  | nil => simp [placeElements]
  | cons e es ih =>
    intro p hp
    simp only [placeElements, List.flatten_cons, List.mem_append] at hp
    rcases hp with hp | hp
    · exact place_defined hL nodes e n t v (hr e (by simp)) p hp
    · exact ih _ (fun x hx => hr x (by simp [hx])) p hp

theorem placeInfeasibility_defined (k : OptKind) (n : ℕ) (bs : List Node) (t : ℝ) (v : ℕ → ℝ) :
    ∀ p ∈ (placeInfeasibility k n bs).1, p.details.seg ∈ L.segments ∧ Defined (p.env t v) p.details.seg.lagrange := by
  induction bs generalizing n with
  | nil => simp [placeInfeasibility]
  | cons b bs ih =>
    intro p hp
    simp only [placeInfeasibility, List.mem_cons] at hp
    rcases hp with rfl | hp
    · cases k
      · exact ⟨by show l1 ∈ _; simp [Library.segments], defined_of_noNeg (by decide : l1.lagrange.noNeg = true)⟩
      · exact ⟨by show l2 ∈ _; simp [Library.segments], defined_of_noNeg (by decide : l2.lagrange.noNeg = true)⟩
    · exact ih _ p hp

/-- Every part of a valid network is regular where its elements are. -/
theorem network_regular (hL : L.Loaded) (N : Network) (hv : N.Valid) (t : ℝ) (v : ℕ → ℝ)
    (hr : ∀ e ∈ N.elements, e.RegularAt t ((N.assign L).voltages v)) : ∀ p ∈ (N.assign L).all, p.Regular t v := by
  intro p hp
  have hw := network_wellPlaced hL N hv p hp
  have hd : p.details.seg ∈ L.segments ∧ Defined (p.env t v) p.details.seg.lagrange := by
    unfold Assignment.all Network.assign at hp
    rcases List.mem_append.1 hp with hp | hp
    · exact placeElements_defined hL _ N.elements _ t v hr p hp
    · cases ho : N.optimization with
      | none => simp [ho] at hp
      | some k =>
        simp only [ho] at hp
        exact placeInfeasibility_defined k _ _ t v p hp
  exact ⟨(List.nodup_append.1 hw.params).2.1, (segments_wellformed hL _ hd.1).2 _ fun _ h => h,
    fun x hx hc => (List.nodup_append.1 hw.params).2.2 x hc x hx rfl, hd.2⟩

end Verif
