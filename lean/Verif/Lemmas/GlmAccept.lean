import Verif.Lemmas.GlmSound

/-!
# Models that are ready become a network
-/

namespace Verif.Glm

variable {M : Type}

theorem foldlM_ok {σ α : Type} {f : σ → α → Py σ} {I : σ → Prop} : ∀ (xs : List α), (∀ s, I s → ∀ x ∈ xs, ∃ s', f s x = .ok s' ∧ I s') →
    ∀ s, I s → ∃ s', xs.foldlM f s = .ok s' ∧ I s' := by
  intro xs
  induction xs with
  | nil => intro _ s hs; exact ⟨s, rfl, hs⟩
  | cons x xs ih =>
    intro h s hs
    obtain ⟨s1, h1, hI⟩ := h s hs x (by simp)
    obtain ⟨s2, h2, hI2⟩ := ih (fun s hs y hy => h s hs y (by simp [hy])) s1 hI
    exact ⟨s2, by rw [List.foldlM_cons, h1, ok_bind', h2], hI2⟩

theorem mapM_py {ε α β : Type} {f : α → Except ε β} : ∀ (l : List α), (∀ a ∈ l, ∃ b, f a = .ok b) → ∃ l', l.mapM f = .ok l' := by
  intro l
  induction l with
  | nil => intro _; exact ⟨[], rfl⟩
  | cons a l ih =>
    intro h
    obtain ⟨b, hb⟩ := h a (by simp)
    obtain ⟨l', hl⟩ := ih fun x hx => h x (by simp [hx])
    exact ⟨b :: l', by rw [List.mapM_cons, hb, ok_bind', hl]; rfl⟩

theorem store_has {β : Type} (k k' : Txt) (v : β) (d : List (Txt × β)) (h : (lookup k d).isSome) : (lookup k (store k' v d)).isSome := by
  by_cases hk : k = k'
  · subst hk; rw [lookup_store_self]; rfl
  · rw [lookup_store_ne v hk]; exact h

/-! ### What the creation of components needs -/

/-- All phases of all places have a bus. -/
def KnownAll (objs : List (Txt × Obj)) (g : Grid M) : Prop := ∀ n p, HasPlace objs n p → ∃ b, g.bus n p = .ok b

theorem KnownAll.of {objs : List (Txt × Obj)} {g g' : Grid M} (h : KnownAll objs g) (hn : ∀ k, (lookup k g.names).isSome → (lookup k g'.names).isSome) :
    KnownAll objs g' := by
  intro n p hp
  obtain ⟨b, hb⟩ := h n p hp
  rw [bus_ok] at hb
  obtain ⟨b', hb'⟩ := Option.isSome_iff_exists.1 (hn _ (by rw [hb]; rfl))
  exact ⟨b', bus_ok.2 hb'⟩

theorem KnownAll.same {objs : List (Txt × Obj)} {g g' : Grid M} (h : KnownAll objs g) (hn : g'.names = g.names) : KnownAll objs g' :=
  h.of fun k hk => by rw [hn]; exact hk

theorem KnownAll.createBus {objs : List (Txt × Obj)} {g : Grid M} (h : KnownAll objs g) (n : Txt) (p : Char) (v : Bool) (a b : Phasor) :
    KnownAll objs (g.createBus n p v a b).1 := h.of fun k hk => store_has _ _ _ _ hk

/-- The name is that of a place with this phase. -/
def EndOf (objs : List (Txt × Obj)) (n : Option Txt) (p : Char) : Prop := ∃ m, n = some m ∧ HasPlace objs m p

theorem EndOf.bus {objs : List (Txt × Obj)} {g : Grid M} (hg : KnownAll objs g) {n : Option Txt} {p : Char} (h : EndOf objs n p) : ∃ b, g.busOf n p = .ok b := by
  obtain ⟨m, rfl, hm⟩ := h
  exact hg m p hm

/-- A line can be built. -/
def LineReady (objs : List (Txt × Obj)) (make : M → List (ℕ × ℕ) → Except String Element) (l : DLine M) : Prop :=
  (∀ p ∈ l.phases, EndOf objs l.frm p ∧ EndOf objs l.to_ p) ∧ ∀ ps, ps.length = l.phases.length → ∃ e, make l.data ps = .ok e

/-- A transformer can be built. -/
def XfmrReady (objs : List (Txt × Obj)) (t : DTransformer) : Prop :=
  if t.centerTap then ∃ p ps x0 x1 x2 xs v0 v1 v2 r0 r1 r2 s, t.phases = p :: ps ∧ t.reactances = x0 :: x1 :: x2 :: xs ∧
    t.w1.voltage = some v0 ∧ t.w2.voltage = some v1 ∧ t.w3.voltage = some v2 ∧ t.w1.resistance = some r0 ∧ t.w2.resistance = some r1 ∧ t.w3.resistance = some r2 ∧
    t.w1.power = some s ∧ v0 ≠ 0 ∧ v1 ≠ 0 ∧ s ≠ 0 ∧ EndOf objs t.frm p ∧ EndOf objs t.to_ '1' ∧ EndOf objs t.to_ '2'
  else ∃ v1 v2 r s, t.w1.voltage = some v1 ∧ t.w2.voltage = some v2 ∧ t.w2.resistance = some r ∧ t.w2.power = some s ∧ v1 ≠ 0 ∧ v2 ≠ 0 ∧ s ≠ 0 ∧
    ¬ (r * 2 = 0 ∧ t.reactances.sum = 0) ∧ ∀ p ∈ t.phases, EndOf objs t.frm p ∧ EndOf objs t.to_ p

/-- A model can be built. -/
def Ready (objs : List (Txt × Obj)) (make : M → List (ℕ × ℕ) → Except String Element) : DModel M → Prop
  | .node _ => True
  | .load l => ∀ pl ∈ l.loads, ∃ a rest, pl.phase = some (a :: rest) ∧ ∀ p ∈ a :: rest, HasPlace objs l.connecting p
  | .transformer t => XfmrReady objs t
  | .device d => (d.isFuse = true → ∃ x, fuseLimit d = .ok x) ∧ ∀ w ∈ d.wires, d.isFuse = true ∨ w.phase ∈ d.phases → EndOf objs d.frm w.phase ∧ EndOf objs d.to_ w.phase
  | .capacitor c => ∃ o, lookup c.name objs = some o ∧ o.cls ∉ conductorClasses ∧ SoundCap objs o ∧
      ∀ pc ∈ c.caps, pc.1 ∈ ['A', 'B', 'C'] ∧ (pc.1 ∈ c.connected → pc.1 ∈ capPhases o)
  | .regulator r => ∃ o c up down reg, lookup r.name objs = some o ∧ o.cls ∉ conductorClasses ∧ SoundReg objs o ∧ configOf objs o = some c ∧
      IntegerIs c "raise_taps".toList up ∧ IntegerIs c "lower_taps".toList down ∧ NumberIs c "regulation".toList reg ∧
      r = ⟨r.name, o.attr "from".toList, o.attr "to".toList, objPhases o, some 'Y', c.attr "Type".toList, some up, some down, some reg⟩
  | .line l => LineReady objs make l

/-- A grid that can be finished. -/
structure Fine (objs : List (Txt × Obj)) (make : M → List (ℕ × ℕ) → Except String Element) (g : Grid M) : Prop where
  known : KnownAll objs g
  lines : ∀ l ∈ g.lines, LineReady objs make l
  regs : ∀ r ∈ g.regulators, ∃ i, r.item = .ok i

variable {objs objs' : List (Txt × Obj)} {make : M → List (ℕ × ℕ) → Except String Element} {g : Grid M}

theorem Fine.same (h : Fine objs make g) {g' : Grid M} (hn : g'.names = g.names) (hl : g'.lines = g.lines) (hr : g'.regulators = g.regulators) : Fine objs make g' :=
  ⟨h.known.same hn, by rw [hl]; exact h.lines, by rw [hr]; exact h.regs⟩

theorem Fine.createBus (h : Fine objs make g) (n : Txt) (p : Char) (v : Bool) (a b : Phasor) : Fine objs make (g.createBus n p v a b).1 :=
  ⟨h.known.createBus n p v a b, h.lines, h.regs⟩

/-! ### Components -/

theorem createLoad_ready (hg : Fine objs make g) {l : DLoad} (h : Ready objs make (.load l)) : ∃ g', createLoad l g = .ok g' ∧ Fine objs make g' := by
  refine foldlM_ok l.loads (fun g hg pl hpl => ?_) g hg
  obtain ⟨a, rest, h1, h2⟩ := h pl hpl
  obtain ⟨f, hf⟩ := hg.known _ _ (h2 a (by simp))
  have : ∃ t, secondBus g l.connecting rest = .ok t := by
    cases rest with
    | nil => exact ⟨_, rfl⟩
    | cons b rest =>
      obtain ⟨t, ht⟩ := hg.known _ _ (h2 b (by simp))
      exact ⟨some t, by rw [secondBus, ht]; rfl⟩
  obtain ⟨t, ht⟩ := this
  rw [phaseLoad, h1]
  simp only [hf, ht, ok_bind']
  exact ⟨_, rfl, hg.same rfl rfl rfl⟩

theorem createDevice_ready (hg : Fine objs make g) {d : DDevice} (h : Ready objs make (.device d)) : ∃ g', createDevice d g = .ok g' ∧ Fine objs make g' := by
  obtain ⟨h1, h2⟩ := h
  rw [createDevice]
  by_cases hf : d.isFuse = true
  · rw [if_pos hf]
    obtain ⟨x, hx⟩ := h1 hf
    refine foldlM_ok d.wires (fun g hg w hw => ?_) g hg
    obtain ⟨e1, e2⟩ := h2 w hw (.inl hf)
    obtain ⟨f, hf⟩ := e1.bus hg.known
    obtain ⟨t, ht⟩ := e2.bus hg.known
    rw [fuseWire, hf, ok_bind', ht, ok_bind', hx, ok_bind']
    exact ⟨_, rfl, (hg.createBus _ _ true (.polar (1 / 10) (1 / 10)) (.polar (1 / 10) (1 / 10))).same rfl rfl rfl⟩
  · rw [if_neg hf]
    refine foldlM_ok d.wires (fun g hg w hw => ?_) g hg
    rw [switchWire]
    by_cases hp : w.phase ∈ d.phases
    · rw [if_pos hp]
      obtain ⟨e1, e2⟩ := h2 w hw (.inr hp)
      obtain ⟨f, hf⟩ := e1.bus hg.known
      obtain ⟨t, ht⟩ := e2.bus hg.known
      rw [hf, ok_bind', ht, ok_bind']
      exact ⟨_, rfl, hg.same rfl rfl rfl⟩
    · rw [if_neg hp]
      exact ⟨_, rfl, hg⟩

theorem get_attr_bind {α : Type} {o : Obj} {k t : Txt} (h : o.attr k = some t) (f : Txt → Py α) : (o.get k).bind f = f t := by
  rw [get_of_attr h]; rfl

theorem createCapacitor_ready (hs : SameObjs objs objs') (hg : Fine objs make g) {c : DCap} (h : Ready objs make (.capacitor c)) :
    ∃ g', createCapacitor objs' c g = .ok g' ∧ Fine objs make g' := by
  obtain ⟨o, h1, h2, ⟨_, _, ⟨tm, hm, hmm⟩, ⟨v, ⟨tv, hv, hvv⟩, hv0⟩, hsw, hpl⟩, h4⟩ := h
  obtain ⟨o', ho', hso⟩ := hs.of_some h1
  rw [hso.other h2] at ho'
  rw [createCapacitor, ho']
  refine foldlM_ok c.caps (fun g hg pc hpc => ?_) g hg
  rw [phaseCapacitor]
  by_cases hp : pc.1 ∈ c.connected
  · obtain ⟨hABC, hcp⟩ := h4 pc hpc
    have hmode : ∃ mode, (o.get "control".toList).bind capModeOf = .ok mode := by
      rw [get_attr_bind hm]
      simp only [List.map_cons, List.map_nil, List.mem_cons, List.not_mem_nil, or_false] at hmm
      rcases hmm with rfl | rfl | rfl | rfl
      · exact ⟨_, rfl⟩
      · exact ⟨_, rfl⟩
      · exact ⟨_, rfl⟩
      · exact ⟨_, rfl⟩
    obtain ⟨mode, hmode⟩ := hmode
    obtain ⟨n, hn, hpn⟩ := hpl pc.1 (hcp hp) hABC
    obtain ⟨b, hb⟩ := hg.known _ _ hpn
    have hinit : ∃ x, capInitial o (capMode c mode) pc.1 = .ok x := by
      rw [capInitial]
      by_cases hman : capMode c mode = .manual
      · rw [if_pos hman]
        cases ha : o.attr ("switch".toList ++ [pc.1]) with
        | none => exact ⟨_, rfl⟩
        | some t =>
          have := hsw pc.1 hABC t ha
          simp only [List.map_cons, List.map_nil, List.mem_cons, List.not_mem_nil, or_false] at this
          rcases this with rfl | rfl
          · exact ⟨_, rfl⟩
          · exact ⟨_, rfl⟩
      · rw [if_neg hman]
        exact ⟨_, rfl⟩
    obtain ⟨x, hx⟩ := hinit
    rw [if_pos hp, hmode, ok_bind', get_of_attr hn, ok_bind', hb, ok_bind', get_attr_bind hv, floatOf_ok.2 hvv, ok_bind']
    simp only [if_neg hv0, hx, ok_bind']
    exact ⟨_, rfl, hg.same rfl rfl rfl⟩
  · rw [if_neg hp]
    exact ⟨_, rfl, hg⟩

theorem regItem_ok {f t c : ℕ} {tap up down : ℤ} {step : ℚ} {kind : RegType} (h1 : -down ≤ tap) (h2 : tap ≤ up) (h : kind = .A → 1 + step * tap ≠ 0) :
    ∃ i, GReg.item ⟨f, t, c, tap, step, kind, up, down⟩ = .ok i := by
  have hclamp : (if (tap : ℝ) + 0 ≥ up then (up : ℝ) else if (tap : ℝ) + 0 ≤ -down then -(down : ℝ) else (tap : ℝ) + 0) = tap := by
    have a1 : -(down : ℝ) ≤ tap := by exact_mod_cast h1
    have a2 : (tap : ℝ) ≤ up := by exact_mod_cast h2
    split_ifs with b1 b2
    · linarith
    · linarith
    · ring
  simp only [GReg.item, Reg.make, Reg.increment, hclamp]
  cases kind with
  | A =>
    have : (1 : ℝ) + step * tap ≠ 0 := by exact_mod_cast h rfl
    simp only [if_neg this, ok_bind']
    exact ⟨_, rfl⟩
  | B => simp only [ok_bind']; exact ⟨_, rfl⟩

theorem createRegulator_ready (hs : SameObjs objs objs') (hg : Fine objs make g) {r : DRegulator} (h : Ready objs make (.regulator r)) :
    ∃ g', createRegulator objs' r g = .ok g' ∧ Fine objs make g' := by
  obtain ⟨o, c, up, down, reg, h1, h2, hS, hc, hup, hdown, hreg, hr⟩ := h
  obtain ⟨hlen, hj, c', up', down', reg', center, width, hc', hcl, _, ⟨tc, htc, hctl⟩, hty, hup', hdown', hup0, hud, hreg', hreg0, ⟨t1, ht1, hx1⟩, hcen0,
    ⟨t2, ht2, hx2⟩, _, _, htap⟩ := hS
  rw [hc] at hc'; cases hc'
  have eup : up' = up := by
    obtain ⟨t, a1, a2⟩ := hup
    obtain ⟨t', b1, b2⟩ := hup'
    rw [a1] at b1; cases b1; rw [a2] at b2; cases b2; rfl
  have edown : down' = down := by
    obtain ⟨t, a1, a2⟩ := hdown
    obtain ⟨t', b1, b2⟩ := hdown'
    rw [a1] at b1; cases b1; rw [a2] at b2; cases b2; rfl
  have ereg : reg' = reg := by
    obtain ⟨t, a1, a2⟩ := hreg
    obtain ⟨t', b1, b2⟩ := hreg'
    rw [a1] at b1; cases b1; rw [a2] at b2; cases b2; rfl
  subst eup edown ereg
  obtain ⟨o', ho', hso⟩ := hs.of_some h1
  rw [hso.other h2] at ho'
  have hcc := configOf_same hs (o := o) fun c' h => by rw [hc] at h; cases h; exact hcl
  rw [hc] at hcc
  cases hk : o.attr "configuration".toList with
  | none => rw [configOf, hk] at hc; cases hc
  | some k =>
    rw [configOf, hk, Option.bind_some] at hcc
    have hkind : ∃ kind, regTypeOf (c.attr "Type".toList) = .ok kind ∧ (kind = .A → c.attr "Type".toList = some "A".toList) := by
      cases hT : c.attr "Type".toList with
      | none => exact ⟨.B, rfl, fun h => by cases h⟩
      | some t =>
        have := hty t hT
        simp only [List.map_cons, List.map_nil, List.mem_cons, List.not_mem_nil, or_false] at this
        rcases this with rfl | rfl
        · exact ⟨.A, rfl, fun _ => rfl⟩
        · exact ⟨.B, rfl, fun h => by cases h⟩
    obtain ⟨kind, hkind, hA⟩ := hkind
    obtain ⟨tu, hu1, hu2⟩ := hup
    obtain ⟨td, hd1, hd2⟩ := hdown
    have ehi : r.high = some up' := by rw [hr]
    have elo : r.low = some down' := by rw [hr]
    have erg : r.regulation = some reg' := by rw [hr]
    have eph : r.phases = objPhases o := by rw [hr]
    have econ : r.connection = some 'Y' := by rw [hr]
    have ek : r.kind = c.attr "Type".toList := by rw [hr]
    have ef : r.frm = o.attr "from".toList := by rw [hr]
    have et : r.to_ = o.attr "to".toList := by rw [hr]
    rw [createRegulator, if_neg (by rw [eph, hlen]; simp), if_neg (by rw [econ]; simp), ho']
    simp only [get_of_attr hk, ok_bind', hcc, ehi, elo, erg, if_neg hud, ek, hkind, get_of_attr htc]
    rw [if_neg (by rw [not_not]; exact hctl), get_attr_bind ht1, floatOf_ok.2 hx1, ok_bind', get_attr_bind ht2, floatOf_ok.2 hx2, ok_bind', get_attr_bind hu1, hu2,
      ok_bind', get_attr_bind hd1, hd2, ok_bind', if_neg hup0]
    refine foldlM_ok r.phases (fun g hg p hp => ?_) g hg
    rw [eph] at hp
    obtain ⟨⟨n1, hn1, hp1⟩, n2, hn2, hp2⟩ := hj p hp
    obtain ⟨f, hf⟩ := hg.known _ _ hp1
    obtain ⟨t, ht⟩ := hg.known _ _ hp2
    obtain ⟨tap, ⟨tt, hta1, hta2⟩, hlo, hhi, hzero⟩ := htap p hp
    have hf' : g.busOf r.frm p = .ok f := by rw [ef, hn1]; exact hf
    have ht' : g.busOf r.to_ p = .ok t := by rw [et, hn2]; exact ht
    rw [phaseRegulator, hf', ok_bind', ht', ok_bind', get_attr_bind hta1, hta2, ok_bind']
    have hv : center * (reg' / (up' : ℚ)) ≠ 0 := mul_ne_zero hcen0 (div_ne_zero hreg0 (by exact_mod_cast hup0))
    simp only [if_neg hv]
    refine ⟨_, rfl, hg.known.createBus _ _ true (.polar (1 / 10) (1 / 10)) (.polar (1 / 10) (1 / 10)), hg.lines, fun x hx => ?_⟩
    rw [List.mem_append, List.mem_singleton] at hx
    rcases hx with hx | rfl
    · exact hg.regs x hx
    · refine regItem_ok hlo hhi fun hkA => ?_
      have := hzero (hA hkA)
      rw [mul_comm 2 reg'] at this
      exact this

theorem coilTerminal_ready (hg : Fine objs make g) {n : Option Txt} {ps : List Char} (h : ∀ p ∈ ps, EndOf objs n p) (p : Char) (hp : p = 'N' ∨ p ∈ ps) :
    ∃ r, coilTerminal g n ps p = .ok r := by
  rw [coilTerminal]
  by_cases hN : p = 'N'
  · rw [if_pos hN]; exact ⟨_, rfl⟩
  · have hp := hp.resolve_left hN
    rw [if_neg hN, if_pos hp]
    obtain ⟨b, hb⟩ := (h p hp).bus hg.known
    rw [hb]
    exact ⟨_, rfl⟩

theorem createTransformer_ready (hg : Fine objs make g) {t : DTransformer} (h : Ready objs make (.transformer t)) :
    ∃ g', createTransformer t g = .ok g' ∧ Fine objs make g' := by
  have h : XfmrReady objs t := h
  rw [XfmrReady] at h
  rw [createTransformer]
  by_cases hct : t.centerTap = true
  · rw [if_pos hct] at h ⊢
    obtain ⟨p, ps, x0, x1, x2, xs, v0, v1, v2, r0, r1, r2, s, hph, hx, a1, a2, a3, a4, a5, a6, a7, hv0, hv1, hs, e1, e2, e3⟩ := h
    obtain ⟨f, hf⟩ := e1.bus hg.known
    rw [createCenterTap, hph, hx]
    simp only [a1, a2, a3, a4, a5, a6, a7]
    rw [if_neg hv1, if_neg (by rintro ⟨_, h | h⟩; exacts [hv0 h, hs h]), hf, ok_bind']
    have g1 := hg.createBus (t.name ++ "_primary".toList) p true (Phasor.polar (1 / 10) (1 / 10)) (Phasor.polar (1 / 10) (1 / 10))
    have g2 := g1.createBus (t.name ++ "_sending_1".toList) p true (Phasor.polar (1 / 10) (1 / 10)) (Phasor.polar (1 / 10) (1 / 10))
    obtain ⟨b1, hb1⟩ := e2.bus g2.known
    have g3 := g2.createBus (t.name ++ "_sending_2".toList) p true (Phasor.polar (1 / 10) (1 / 10)) (Phasor.polar (1 / 10) (1 / 10))
    obtain ⟨b2, hb2⟩ := e3.bus g3.known
    simp only [hb1, hb2, ok_bind', if_neg hs]
    exact ⟨_, rfl, g3.same rfl rfl rfl⟩
  · rw [if_neg hct] at h ⊢
    obtain ⟨v1, v2, r, s, a1, a2, a3, a4, hv1, hv2, hs, hz, hj⟩ := h
    rw [createThreePhase]
    simp only [a1, a2, a3, a4]
    rw [if_neg hv2]
    have hb : ∃ l, (t.phases.mapM fun p => do
        let _ ← g.busOf t.frm p
        g.busOf t.to_ p) = .ok l := by
      refine mapM_py _ fun p hp => ?_
      obtain ⟨f, hf⟩ := (hj p hp).1.bus hg.known
      obtain ⟨u, hu⟩ := (hj p hp).2.bus hg.known
      exact ⟨u, by rw [hf, ok_bind', hu]⟩
    obtain ⟨l, hl⟩ := hb
    rw [hl, ok_bind', if_neg (by rintro ⟨_, h | h⟩; exacts [hv1 h, hs h]), if_neg hs]
    have hc : ∃ cs, (phaseList (t.w1.connection = some 'D') (t.w2.connection = some 'D') t.phases).mapM (coilOf g t v1 v2 (r * 2) t.reactances.sum s) = .ok cs := by
      refine mapM_py _ fun c hc => ?_
      rw [phaseList, List.mem_map] at hc
      obtain ⟨x, hx, rfl⟩ := hc
      have hx1 := (List.of_mem_zip hx).1
      have hx2 : x.2 ∈ t.phases := List.mem_rotate.1 (List.of_mem_zip hx).2
      obtain ⟨f, hf⟩ := (hj _ hx1).1.bus hg.known
      obtain ⟨u, hu⟩ := (hj _ hx1).2.bus hg.known
      have hin : ∀ b : Bool, (if b = true then x.2 else 'N') = 'N' ∨ (if b = true then x.2 else 'N') ∈ t.phases := by
        intro b
        cases b
        · exact .inl rfl
        · exact .inr hx2
      obtain ⟨fn, hfn⟩ := coilTerminal_ready hg (fun p hp => (hj p hp).1) _ (hin (decide (t.w1.connection = some 'D')))
      obtain ⟨tn, htn⟩ := coilTerminal_ready hg (fun p hp => (hj p hp).2) _ (hin (decide (t.w2.connection = some 'D')))
      rw [coilOf]
      simp only [hf, hfn, hu, htn, ok_bind', if_neg hz]
      exact ⟨_, rfl⟩
    obtain ⟨cs, hcs⟩ := hc
    rw [hcs, ok_bind']
    exact ⟨_, rfl, hg.same rfl rfl rfl⟩

theorem createModel_ready (hs : SameObjs objs objs') (hg : Fine objs make g) {m : DModel M} (h : Ready objs make m) :
    ∃ g', createModel objs' g m = .ok g' ∧ Fine objs make g' := by
  cases m with
  | node n => exact ⟨_, rfl, hg⟩
  | load l => exact createLoad_ready hg h
  | transformer t => exact createTransformer_ready hg h
  | device d => exact createDevice_ready hg h
  | capacitor c => exact createCapacitor_ready hs hg h
  | regulator r => exact createRegulator_ready hs hg h
  | line l =>
    refine ⟨_, rfl, hg.known.same rfl, fun l' hl' => ?_, hg.regs⟩
    rw [List.mem_append, List.mem_singleton] at hl'
    rcases hl' with hl' | rfl
    · exact hg.lines l' hl'
    · exact h

/-! ### The network -/

theorem linePhases_ready (hg : KnownAll objs g) {l : DLine M} (h : LineReady objs make l) : ∃ ps, linePhases g l = .ok ps ∧ ps.length = l.phases.length := by
  have : ∀ cs : List Char, (∀ p ∈ cs, p ∈ l.phases) → ∃ ps, (cs.mapM fun p => do
      let f ← g.busOf l.frm p
      let t ← g.busOf l.to_ p
      .ok (f, t) : Py (List (ℕ × ℕ))) = .ok ps ∧ ps.length = cs.length := by
    intro cs
    induction cs with
    | nil => intro _; exact ⟨[], rfl, rfl⟩
    | cons p cs ih =>
      intro hcs
      obtain ⟨ps, h1, h2⟩ := ih fun q hq => hcs q (by simp [hq])
      obtain ⟨f, hf⟩ := (h.1 p (hcs p (by simp))).1.bus hg
      obtain ⟨t, ht⟩ := (h.1 p (hcs p (by simp))).2.bus hg
      refine ⟨(f, t) :: ps, ?_, by simp [h2]⟩
      rw [List.mapM_cons, h1, hf, ok_bind', ht]
      rfl
  exact this l.phases fun _ hp => hp

theorem Fine.network (h : Fine objs make g) : ∃ net, g.network make = .ok net := by
  obtain ⟨ls, hls⟩ := mapM_py (f := lineElement make g) g.lines fun l hl => by
    obtain ⟨ps, h1, h2⟩ := linePhases_ready h.known (h.lines l hl)
    obtain ⟨e, he⟩ := (h.lines l hl).2 ps h2
    exact ⟨e, by rw [lineElement, h1]; exact he⟩
  obtain ⟨rs, hrs⟩ := mapM_py (f := GReg.item) g.regulators h.regs
  exact ⟨_, by rw [Grid.network, hls, ok_bind', hrs, ok_bind']⟩

/-! ### Buses -/

/-- Names are only added, lines and regulators stay. -/
structure Grown (g g' : Grid M) : Prop where
  names : ∀ k, (lookup k g.names).isSome → (lookup k g'.names).isSome
  lines : g'.lines = g.lines
  regs : g'.regulators = g.regulators

theorem Grown.refl (g : Grid M) : Grown g g := ⟨fun _ h => h, rfl, rfl⟩

theorem Grown.trans {g g' g'' : Grid M} (h : Grown g g') (h' : Grown g' g'') : Grown g g'' :=
  ⟨fun k hk => h'.names k (h.names k hk), h'.lines.trans h.lines, h'.regs.trans h.regs⟩

theorem HasPlace.angle {n : Txt} {p : Char} (h : HasPlace objs n p) : p ∈ anglePhases := by
  obtain ⟨x, hx, _, rfl⟩ := h
  rw [declaredPlaces, List.mem_flatMap] at hx
  obtain ⟨y, _, hy⟩ := hx
  obtain ⟨q, hq, rfl⟩ := List.mem_map.1 hy
  rw [placePhases, List.mem_filter, decide_eq_true_iff] at hq
  exact hq.2

theorem busPhase_ok {n : DNode} {s : Grid M × Option Phasor} {p : Char} (hp : p ∈ anglePhases → (n.parent = none → ∃ v, n.phasor p = .ok v) ∧
    ∀ q, n.parent = some q → n.source = false ∧ ∃ b, s.1.bus q p = .ok b) :
    ∃ s', busPhase n s p = .ok s' ∧ Grown s.1 s'.1 ∧ (p ∈ anglePhases → (lookup (busKey n.name p) s'.1.names).isSome) := by
  rw [busPhase]
  by_cases ha : p ∈ anglePhases
  · rw [if_pos ha]
    obtain ⟨h1, h2⟩ := hp ha
    cases hpar : n.parent with
    | none =>
      obtain ⟨v, hv⟩ := h1 hpar
      simp only [hv, ok_bind']
      have hG : ∀ sl, Grown s.1 { (s.1.createBus n.name p false v (startPhasor v p)).1 with slacks := sl } := fun sl => ⟨fun k hk => store_has _ _ _ _ hk, rfl, rfl⟩
      have hself : (lookup (busKey n.name p) (s.1.createBus n.name p false v (startPhasor v p)).1.names).isSome := by
        rw [Grid.createBus]; simp only [lookup_store_self, Option.isSome_some]
      by_cases hs : n.source = true
      · rw [if_pos hs]
        exact ⟨_, rfl, hG _, fun _ => hself⟩
      · rw [if_neg hs]
        exact ⟨_, rfl, hG _, fun _ => hself⟩
    | some q =>
      obtain ⟨hs, b, hb⟩ := h2 q hpar
      simp only [hb, ok_bind', hs, Bool.false_eq_true, if_false]
      exact ⟨_, rfl, ⟨fun k hk => store_has _ _ _ _ hk, rfl, rfl⟩, fun _ => by simp only [lookup_store_self, Option.isSome_some]⟩
  · rw [if_neg ha]
    exact ⟨s, rfl, Grown.refl _, fun h => absurd h ha⟩

theorem busPhases_ok {pre : List (Txt × Obj)} {n : DNode} : ∀ (ps : List Char) (s : Grid M × Option Phasor), KnownAll pre s.1 →
    (∀ p ∈ ps, p ∈ anglePhases → (n.parent = none → ∃ v, n.phasor p = .ok v) ∧ ∀ q, n.parent = some q → n.source = false ∧ HasPlace pre q p) →
    ∃ s', ps.foldlM (busPhase n) s = .ok s' ∧ Grown s.1 s'.1 ∧ ∀ p ∈ ps, p ∈ anglePhases → (lookup (busKey n.name p) s'.1.names).isSome := by
  intro ps
  induction ps with
  | nil => intro s _ _; exact ⟨s, rfl, Grown.refl _, by simp⟩
  | cons p ps ih =>
    intro s hk h
    obtain ⟨s1, h1, h2, h3⟩ := busPhase_ok (n := n) (s := s) (p := p) fun ha => by
      obtain ⟨a1, a2⟩ := h p (by simp) ha
      exact ⟨a1, fun q hq => ⟨(a2 q hq).1, hk _ _ (a2 q hq).2⟩⟩
    obtain ⟨s2, h4, h5, h6⟩ := ih s1 (hk.of h2.names) fun q hq => h q (by simp [hq])
    refine ⟨s2, by rw [List.foldlM_cons, h1, ok_bind', h4], h2.trans h5, fun q hq ha => ?_⟩
    rw [List.mem_cons] at hq
    rcases hq with rfl | hq
    · exact h5.names _ (h3 ha)
    · exact h6 q hq ha

/-- A node can be given its buses. -/
def NodeFine (n : DNode) : Prop := (n.parent = none → ∀ p ∈ n.phases, p ∈ anglePhases → ∃ v, n.phasor p = .ok v) ∧ (n.parent.isSome → n.source = false)

theorem HasPlace.append {pre post : List (Txt × Obj)} {n : Txt} {p : Char} : HasPlace (pre ++ post) n p ↔ HasPlace pre n p ∨ HasPlace post n p := by
  simp only [HasPlace, declaredPlaces, List.filter_append, List.flatMap_append, List.mem_append]
  constructor
  · rintro ⟨x, h | h, hx⟩
    · exact .inl ⟨x, h, hx⟩
    · exact .inr ⟨x, h, hx⟩
  · rintro (⟨x, h, hx⟩ | ⟨x, h, hx⟩)
    · exact ⟨x, .inl h, hx⟩
    · exact ⟨x, .inr h, hx⟩

theorem createBuses_from {P : List Txt} (hP : ParentsFirst objs) : ∀ (post pre : List (Txt × Obj)) (ns : List DNode) (s : Grid M × Option Phasor),
    objs = pre ++ post → List.Forall₂ (NodeOf P) (post.filter fun x => isPlace x.2) ns → (∀ n ∈ ns, NodeFine n) → KnownAll pre s.1 →
    ∃ s', ns.foldlM (fun s n => n.phases.foldlM (busPhase n) s) s = .ok s' ∧ Grown s.1 s'.1 ∧ KnownAll objs s'.1 := by
  intro post
  induction post with
  | nil =>
    intro pre ns s he hF _ hk
    cases hF
    refine ⟨s, rfl, Grown.refl _, ?_⟩
    rw [he, List.append_nil]
    exact hk
  | cons x post ih =>
    intro pre ns s he hF hn hk
    have he' : objs = (pre ++ [x]) ++ post := by rw [he]; simp
    by_cases hp : isPlace x.2 = true
    · rw [List.filter_cons_of_pos (p := fun x : Txt × Obj => isPlace x.2) hp] at hF
      cases hF with
      | @cons _ n _ ns hx hF =>
        obtain ⟨a1, a2, a3, a4, _⟩ := hx
        obtain ⟨f1, f2⟩ := hn n (by simp)
        obtain ⟨s1, h1, h2, h3⟩ := busPhases_ok (pre := pre) (n := n) n.phases s hk fun p hp' ha => by
          refine ⟨fun h => f1 h p hp' ha, fun q hq => ⟨f2 (by rw [hq]; rfl), ?_⟩⟩
          refine hP pre x post he hp q (a2 ▸ hq) p ?_
          rw [← a3, List.mem_filter]
          exact ⟨hp', by simpa using ha⟩
        have hk1 : KnownAll (pre ++ [x]) s1.1 := by
          intro m p hm
          rw [HasPlace.append] at hm
          rcases hm with hm | hm
          · exact (hk.of h2.names) m p hm
          · have ha := hm.angle
            obtain ⟨y, hy, e1, e2⟩ := hm
            rw [declaredPlaces, List.filter_cons_of_pos (p := fun x : Txt × Obj => isPlace x.2) hp] at hy
            simp only [List.filter_nil, List.flatMap_cons, List.flatMap_nil, List.append_nil, List.mem_map] at hy
            obtain ⟨q, hq, rfl⟩ := hy
            simp only at e1 e2
            subst e1 e2
            rw [← a3, List.mem_filter] at hq
            obtain ⟨b, hb⟩ := Option.isSome_iff_exists.1 (h3 q hq.1 ha)
            exact ⟨b, bus_ok.2 (a1 ▸ hb)⟩
        obtain ⟨s2, h4, h5, h6⟩ := ih (pre ++ [x]) ns s1 he' hF (fun n hn' => hn n (by simp [hn'])) hk1
        exact ⟨s2, by rw [List.foldlM_cons, h1, ok_bind', h4], h2.trans h5, h6⟩
    · rw [List.filter_cons_of_neg (p := fun x : Txt × Obj => isPlace x.2) hp] at hF
      refine ih (pre ++ [x]) ns s he' hF hn ?_
      intro m p hm
      rw [HasPlace.append] at hm
      rcases hm with hm | hm
      · exact hk m p hm
      · obtain ⟨y, hy, _⟩ := hm
        rw [declaredPlaces, List.filter_cons_of_neg (p := fun x : Txt × Obj => isPlace x.2) hp] at hy
        simp at hy

theorem buildGrid_ready {P : List Txt} (hP : ParentsFirst objs) {s : DState M} (hs : SameObjs objs s.objs)
    (hF : List.Forall₂ (NodeOf P) (objs.filter fun x => isPlace x.2) (modelNodes s.models)) (hn : ∀ n ∈ modelNodes s.models, NodeFine n)
    (hm : ∀ m ∈ s.models, Ready objs make m) : ∃ g net, buildGrid s = .ok g ∧ g.network make = .ok net := by
  obtain ⟨s0, h1, h2, h3⟩ := createBuses_from (M := M) hP objs [] (modelNodes s.models) (Grid.empty M, none) rfl hF hn (by
    rintro n p ⟨x, hx, _⟩; cases hx)
  have hb : createBuses (modelNodes s.models) (Grid.empty M) = .ok s0.1 := by rw [createBuses, h1]; rfl
  have hfine : Fine objs make s0.1 := ⟨h3, fun l hl => (by rw [h2.lines] at hl; cases hl), fun l hl => by rw [h2.regs] at hl; cases hl⟩
  obtain ⟨g, h4, h5⟩ := foldlM_ok (I := Fine objs make) (f := createModel s.objs) s.models (fun g hg m hm' => createModel_ready hs hg (hm m hm')) s0.1 hfine
  obtain ⟨net, hnet⟩ := h5.network
  exact ⟨g, net, by rw [buildGrid, hb, ok_bind', h4], hnet⟩

end Verif.Glm
