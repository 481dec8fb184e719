import Verif.Lemmas.RawFlow
import Verif.Lemmas.RawInvariants

/-!
# C79: from the records of a RAW case to the equations that are solved
-/

namespace Verif.Raw

open ComplexConjugate

theorem forall₂_sum {α β : Type} {R : α → β → Prop} {f : α → ℂ} {g : β → ℂ} {l : List α} {m : List β}
    (h : List.Forall₂ R l m) (hfg : ∀ a ∈ l, ∀ b, R a b → g b = f a) : (m.map g).sum = (l.map f).sum := by
  induction h with
  | nil => rfl
  | cons hr _ ih =>
    rw [List.map_cons, List.map_cons, List.sum_cons, List.sum_cons, hfg _ (List.mem_cons_self ..) _ hr,
      ih fun a ha => hfg a (List.mem_cons_of_mem _ ha)]

theorem forall₂_mem_left {α β : Type} {R : α → β → Prop} {l : List α} {m : List β} (h : List.Forall₂ R l m) {a : α}
    (ha : a ∈ l) : ∃ b ∈ m, R a b := by
  induction h with
  | nil => cases ha
  | cons hr _ ih =>
    rcases List.mem_cons.1 ha with rfl | ha
    · exact ⟨_, List.mem_cons_self .., hr⟩
    · obtain ⟨b, hb, h⟩ := ih ha
      exact ⟨b, List.mem_cons_of_mem _ hb, h⟩

theorem forall₂_total {α β : Type} {R : α → β → Prop} {p : α → Prop} {q : β → Prop} {f : α → ℝ} {g : β → ℝ} {l : List α}
    {m : List β} (h : List.Forall₂ R l m) (hfg : ∀ a b, R a b → (q b ↔ p a) ∧ g b = f a) : total m q g = total l p f := by
  classical
  rw [total_eq, total_eq]
  induction h with
  | nil => rfl
  | cons hr _ ih =>
    obtain ⟨h1, h2⟩ := hfg _ _ hr
    simp only [List.map_cons, List.sum_cons, h1, h2, ih]

open Classical in
theorem total_filter {α : Type} (l : List α) (p q : α → Prop) (f : α → ℝ) :
    total (l.filter fun a => q a) p f = total l (fun a => p a ∧ q a) f := by
  simp only [total, List.filter_filter]
  congr 2
  refine List.filter_congr fun r _ => ?_
  by_cases ha : p r <;> by_cases hb : q r <;> simp [ha, hb]

theorem base_eq {c : Case} (hd : c.DistinctBuses) {b : BusRec} (hb : b ∈ c.buses) : c.base b.i = b.baskv := by
  unfold Case.base
  cases hf : c.buses.find? fun x => x.i = b.i with
  | none => exact absurd (show decide (b.i = b.i) = true by simp) (List.find?_eq_none.1 hf b hb)
  | some x =>
    have hi : x.i = b.i := by simpa using List.find?_some hf
    rw [hd.eq (List.mem_of_find?_eq_some hf) hb hi]
    rfl

theorem windingVolts_spec {cw : ℤ} (h : cw = 1 ∨ cw = 2 ∨ cw = 3) (w n b : ℝ) :
    IsTurns cw w (nominalOr n b) b (windingVolts cw w n b) := by
  rcases h with rfl | rfl | rfl <;> simp [IsTurns, windingVolts]

/-- The impedance of a record: what the loaded transformer has, referred to the first side of the second winding. -/
noncomputable def loadedZ (c : Case) (r : TwoRec) : ℂ :=
  match twoIntegrate c r with
  | .ok (some x) => (⟨x.r, x.x⟩ : ℂ) / (r.t2 c) ^ 2
  | _ => 1

/-- A loaded transformer takes the currents of its record, and its ratio is not zero. -/
theorem xfmr_current {c : Case} (hp : c.Plain) {r : TwoRec} (hr : r ∈ c.two) (hs : r.Served c) {x : XfmrAt}
    (hx : twoIntegrate c r = .ok (some x)) (hf : x.f = r.i) (ht : x.t = r.j) :
    IsImpedance r.cz r.z12 c.sbase (loadedZ c r) ∧ turns 0 x.tr x.ang ≠ 0 ∧
    ∀ V k, xfmrTerm V x (xfmrI V x) (xfmrS V x) k = r.current c (loadedZ c r) V k := by
  obtain ⟨hcw, hw, hn1, hn2, -, -, hbase⟩ := hp.two r hr hs
  obtain ⟨bi, hbi, hii, -⟩ := hs.2.1
  obtain ⟨bj, hbj, hjj, -⟩ := hs.2.2
  have hbi0 := hbase bi hbi (Or.inl hii)
  have hbj0 := hbase bj hbj (Or.inr hjj)
  have e1 : c.base r.i = bi.baskv := hii ▸ base_eq hp.distinct hbi
  have e2 : c.base r.j = bj.baskv := hjj ▸ base_eq hp.distinct hbj
  have hT1 := windingVolts_spec hcw r.w1.windv r.w1.nomv bi.baskv
  have hT2 := windingVolts_spec hcw r.windv2 r.nomv2 bj.baskv
  obtain ⟨hV2, htr, hang, Z, hZ, hz, hy⟩ := C77_ratio hp.distinct hx hbi hii hbj hjj hbi0 hbj0 hn1 hn2 hT1 hT2
  have hV1 : windingVolts r.cw r.w1.windv r.w1.nomv bi.baskv ≠ 0 := by
    have : nominalOr r.w1.nomv bi.baskv ≠ 0 := by
      unfold nominalOr; split <;> assumption
    rcases hcw with h | h | h <;> simp [windingVolts, h, hw, hbi0, this]
  have ht1 : r.t1 c = ((windingVolts r.cw r.w1.windv r.w1.nomv bi.baskv / bi.baskv : ℝ) : ℂ) := by rw [TwoRec.t1, e1]
  have ht2 : r.t2 c = ((windingVolts r.cw r.windv2 r.nomv2 bj.baskv / bj.baskv : ℝ) : ℂ) := by rw [TwoRec.t2, e2]
  have h10 : r.t1 c ≠ 0 := by rw [ht1]; exact_mod_cast div_ne_zero hV1 hbi0
  have h20 : r.t2 c ≠ 0 := by rw [ht2]; exact_mod_cast div_ne_zero hV2 hbj0
  have hz' : (⟨x.r, x.x⟩ : ℂ) = Z * (r.t2 c) ^ 2 := by rw [hz, ht2]; push_cast; rfl
  have hZl : loadedZ c r = Z := by
    rw [loadedZ, hx]
    simp only
    rw [hz', mul_div_cancel_right₀ _ (pow_ne_zero 2 h20)]
  have hu : r.shift * conj r.shift = 1 := phasor_unit _
  have hu0 : r.shift ≠ 0 := fun h => by simp [h] at hu
  have hcu : conj r.shift = 1 / r.shift := by field_simp; linear_combination hu
  have hτ : turns 0 x.tr x.ang = r.t1 c / r.t2 c * r.shift := by
    rw [turns_zero, htr, hang, ht1, ht2, TwoRec.shift]
    push_cast
    rfl
  have hcτ : conj (turns 0 x.tr x.ang) = r.t1 c / r.t2 c / r.shift := by
    rw [hτ, map_mul, map_div₀, hcu, ht1, ht2, Complex.conj_ofReal, Complex.conj_ofReal]
    ring
  have hZ0 : Z ≠ 0 := by
    rintro rfl
    rw [hz'] at hy
    simp at hy
  have hyv : (⟨x.G, x.B⟩ : ℂ) = 1 / (Z * (r.t2 c) ^ 2) := by
    rw [hz'] at hy
    field_simp
    linear_combination hy
  refine ⟨by rw [hZl]; exact hZ, by rw [hτ]; exact mul_ne_zero (div_ne_zero h10 h20) hu0, fun V k => ?_⟩
  rw [hZl]
  have hI : xfmrI V x = r.through c Z V * r.shift / r.t1 c := by
    rw [xfmrI, xfmrS, hcτ, hτ, hyv, hf, ht, TwoRec.through]
    field_simp
  have hJ : -((⟨x.G, x.B⟩ : ℂ) * (xfmrS V x - V x.t)) = -(r.through c Z V / r.t2 c) := by
    rw [xfmrS, hτ, hyv, hf, ht, TwoRec.through]
    field_simp
  rw [xfmrTerm, TwoRec.current, hI, hJ, hf, ht]
  split <;> split <;> ring

/-- A loaded line takes the currents of its record. -/
theorem line_current {r : BranchRec} {l : LineAt} (h : l.f = r.i ∧ l.t = r.j ∧ (⟨r.r, r.x⟩ : ℂ) * ⟨l.G, l.B⟩ = 1 ∧ l.Bl = r.b / 2)
    (V : ℤ → ℂ) (k : ℤ) : lineTerm V l k = r.current V k := by
  obtain ⟨hf, ht, hz, hb⟩ := h
  have h0 : (⟨r.r, r.x⟩ : ℂ) ≠ 0 := fun h => by rw [h] at hz; simp at hz
  have hy : (⟨l.G, l.B⟩ : ℂ) = 1 / ⟨r.r, r.x⟩ := by
    rw [eq_div_iff h0]; linear_combination hz
  rw [lineTerm, BranchRec.current, hf, ht, hb, hy]
  congr 1
  · split
    · ring
    · rfl
  · split
    · ring
    · rfl

theorem shunts_sum (V : ℤ → ℂ) (k : ℤ) (xs : List ShuntAt) : (xs.map fun x => shuntTerm V x k).sum =
    ⟨total xs (fun x => x.bus = k) ShuntAt.G, total xs (fun x => x.bus = k) ShuntAt.B⟩ * V k := by
  rw [total_eq, total_eq]
  induction xs with
  | nil =>
    have : (⟨0, 0⟩ : ℂ) = 0 := rfl
    simp [this]
  | cons a as ih =>
    rw [List.map_cons, List.sum_cons, ih]
    simp only [List.map_cons, List.sum_cons, shuntTerm]
    split
    · rw [← add_mul]; rfl
    · rw [zero_add, zero_add, zero_add]

theorem loads_power {V : ℤ → ℂ} {k : ℤ} (hV : V k ≠ 0) (xs : List LoadAt)
    (h : ∀ x ∈ xs, x.l.Z = 0 ∧ x.l.IP = 0 ∧ x.l.IQ = 0) : V k * conj (xs.map fun x => loadTerm V x k).sum =
    ⟨total xs (fun x => x.bus = k) (fun x => x.l.P), total xs (fun x => x.bus = k) (fun x => x.l.Q)⟩ := by
  rw [total_eq, total_eq]
  induction xs with
  | nil => apply Complex.ext <;> simp
  | cons a as ih =>
    obtain ⟨h1, h2, h3⟩ := h a (List.mem_cons_self ..)
    have h0 : (⟨0, 0⟩ : ℂ) = 0 := rfl
    rw [List.map_cons, List.sum_cons, map_add, mul_add, ih fun x hx => h x (List.mem_cons_of_mem _ hx)]
    simp only [List.map_cons, List.sum_cons, loadTerm]
    split
    · rw [h1, h2, h3, h0, inv_zero, zero_mul, add_zero, add_zero, Complex.conj_conj, mul_div_cancel₀ _ hV]
      rfl
    · apply Complex.ext <;> simp

/-- The buses of a plain case. -/
theorem plain_buses {c : Case} {o : Out} (hp : c.Plain) (h : parseRaw c = .ok o) : o.buses = c.online := by
  obtain ⟨g, sw, fs, ls, bs, x2, top, x3, -, -, -, -, -, -, -, h8, rfl⟩ := parseRaw_ok.1 h
  have : c.three.filter threeIn = [] := by
    rw [List.filter_eq_nil_iff]
    intro r hr
    simp [threeIn, hp.three r hr]
  rw [this] at h8
  simp only [mapPy, Except.ok.injEq] at h8
  subst h8
  simp [starBuses]

theorem plain_closed {c : Case} {o : Out} (hp : c.Plain) (h : parseRaw c = .ok o) : o.Closed := by
  obtain ⟨h1, h2, h3, h4, h5, h6⟩ := C48_only_in_service hp.distinct h
  have hb := plain_buses hp h
  constructor
  · intro l hl
    obtain ⟨r, -, e1, e2, hs⟩ := h5 l hl
    rw [hb, mem_online, mem_online, ← e1, ← e2]
    exact hs.2
  · intro x hx
    rcases h6 x hx with ⟨r, -, e1, e2, hs⟩ | ⟨r, hr, hst, -⟩
    · rw [hb, mem_online, mem_online, ← e1, ← e2]
      exact hs.2
    · exact absurd (hp.three r hr) hst
  · intro x hx
    obtain ⟨g, -, -, -, ht⟩ := h1 x hx
    rw [hb, mem_online]
    exact HasType.energised ht (by norm_num)
  · intro x hx
    rw [hb, mem_online]
    rcases h2 x hx with ⟨g, -, -, -, ht⟩ | ⟨r, -, e, hr⟩
    · exact HasType.energised ht (by norm_num)
    · exact e ▸ hr.2.2
  · intro x hx
    rw [hb, mem_online]
    rcases h3 x hx with ⟨g, -, -, -, ht⟩ | ⟨r, -, e, hr⟩
    · exact HasType.energised ht (by norm_num)
    · exact e ▸ hr.2
  · intro x hx
    rw [hb, mem_online]
    rcases h4 x hx with ⟨r, -, -, -, -, he⟩ | ⟨r, -, e, hr⟩
    · exact he
    · exact e ▸ hr.2.1

/-- Current into lines, transformers and shunts of the loaded case: that of the records. -/
theorem rest_net {c : Case} {o : Out} (hp : c.Plain) (h : parseRaw c = .ok o) (V : ℤ → ℂ) (k : ℤ) :
    o.rest V k = c.net (loadedZ c) V k + (o.loads.map fun x => loadTerm V x k).sum := by
  classical
  have hd := hp.distinct
  have h1 := forall₂_sum (f := fun r => r.current V k) (g := fun l => lineTerm V l k) (C48_branches_once hd h)
    (fun r _ l hr => line_current hr V k)
  obtain ⟨xs, ys, hxy, hxs, hys⟩ := C48_two_winding_once hd h
  have hy0 : ys = [] := by
    cases ys with
    | nil => rfl
    | cons y _ =>
      obtain ⟨r, hr, hst, -⟩ := hys y (List.mem_cons_self ..)
      exact absurd (hp.three r hr) hst
  rw [hy0, List.append_nil] at hxy
  have h2 := forall₂_sum (f := fun r => r.current c (loadedZ c r) V k)
    (g := fun x => xfmrTerm V x (xfmrI V x) (xfmrS V x) k) hxs (by
      intro r hr x ⟨hx, hf, ht⟩
      obtain ⟨hr, hs⟩ := List.mem_filter.1 hr
      exact (xfmr_current hp hr (by simpa using hs) hx hf ht).2.2 V k)
  have h3 : (o.shunts.map fun x => shuntTerm V x k).sum = c.shuntAt k * V k := by
    rw [shunts_sum]
    congr 1
    obtain ⟨g, sw, fs, ls, bs, x2, top, x3, -, hsw, hfs, -, -, -, -, -, rfl⟩ := parseRaw_ok.1 h
    obtain ⟨g1, g2⟩ := switched_shunts hd hsw k
    have hf : c.fixed.filter (fixedIn c) = c.fixed.filter fun r => r.Served c := by
      refine filter_served hfs ?_ ?_
      · intro r b hin hb
        simp only [fixedIn, decide_eq_true_eq] at hin
        exact ⟨hin.2.1, (fixedIntegrate_ok.1 hb).1, hin.2.2⟩
      · intro r hr
        simp only [fixedIn, decide_eq_true_eq]
        exact ⟨hd.not_off hr.2.1, hr.1, hr.2.2⟩
    rw [mapPy_ok, hf] at hfs
    have f1 := forall₂_total (p := fun r => r.i = k) (q := fun x : ShuntAt => x.bus = k) (f := fun r => r.gl / 100)
      (g := ShuntAt.G) hfs (by rintro r x hx; obtain ⟨-, rfl⟩ := fixedIntegrate_ok.1 hx; exact ⟨Iff.rfl, rfl⟩)
    have f2 := forall₂_total (p := fun r => r.i = k) (q := fun x : ShuntAt => x.bus = k) (f := fun r => r.bl / 100)
      (g := ShuntAt.B) hfs (by rintro r x hx; obtain ⟨-, rfl⟩ := fixedIntegrate_ok.1 hx; exact ⟨Iff.rfl, rfl⟩)
    rw [total_filter] at f1 f2
    simp only [total_append]
    rw [g1, g2, f1, f2, Case.shuntAt, hp.base, zero_add, add_comm]
  rw [Out.rest, Case.net, h1, hxy, h2, h3]
  ring

/-- The equations of a plain case with the impedances the loaded transformers have. -/
theorem power_flow_loaded {L : Library} (hL : L.Loaded) {c : Case} {o : Out} (hp : c.Plain) (h : parseRaw c = .ok o) : ∀ V : ℤ → ℂ, (∀ k, c.Energised k → V k ≠ 0) →
      ((∃ v, (∀ k, c.Energised k → (o.toNetwork.assign L).voltages v (some (o.pos k)) = V k) ∧
        ∀ i, networkEq (o.toNetwork.assign L).all 0 v i = 0) ↔ c.PowerFlow (loadedZ c) V) := by
  classical
  have hd := hp.distinct
  have hbus := plain_buses hp h
  have hmem : ∀ k, k ∈ o.buses ↔ c.Energised k := fun k => by rw [hbus, mem_online]
  have hnd : o.buses.Nodup := by
    rw [hbus]
    exact (List.Sublist.map _ List.filter_sublist).nodup hd
  obtain ⟨xs, ys, hxy, hxs, hys⟩ := C48_two_winding_once hd h
  have hrest := rest_net hp h
  have hinj := C47_injection_partial hd h
  have hcl := plain_closed hp h
  obtain ⟨g, sw, fs, ls, bs, x2, top, x3, h1, h2, -, h4, -, -, -, -, ho⟩ := parseRaw_ok.1 h
  obtain ⟨s1, s2, s3⟩ := slack_inv hd _ h1
  obtain ⟨m1, m2, m3, m4⟩ := gens_inv hd hp.machines h1
  obtain ⟨w1, w2, w3, w4⟩ := switched_inv hd m1 h2
  have hsl : o.slack = g.slack := by rw [ho]
  have hge : o.generators = sw.1 := by rw [ho]
  have hlo : o.loads = g.loads ++ ls := by rw [ho]
  have hf := loads_filter hd h4
  rw [mapPy_ok, hf] at h4
  have hτ : ∀ x ∈ o.xfmrs, turns 0 x.tr x.ang ≠ 0 := by
    intro x hx
    rw [hxy] at hx
    rcases List.mem_append.1 hx with hx | hx
    · obtain ⟨r, hr, hi, hf, ht⟩ := forall₂_mem_right hxs hx
      obtain ⟨hr, hs⟩ := List.mem_filter.1 hr
      exact (xfmr_current hp hr (by simpa using hs) hi hf ht).2.1
    · obtain ⟨r, hr, hst, -⟩ := hys x hx
      exact absurd (hp.three r hr) hst
  have hplain : ∀ x ∈ o.loads, x.l.Z = 0 ∧ x.l.IP = 0 ∧ x.l.IQ = 0 := by
    intro x hx
    rw [hlo] at hx
    rcases List.mem_append.1 hx with hx | hx
    · exact m4 x hx
    · obtain ⟨r, hr, hi⟩ := forall₂_mem_right h4 hx
      obtain ⟨-, rfl⟩ := loadIntegrate_ok.1 hi
      have := hp.loads r (List.mem_filter.1 hr).1
      exact ⟨rfl, this.1, this.2.1⟩
  have hswing : ∀ k, k ∈ o.slack.map SlackAt.bus ↔ c.Swing k := by
    intro k
    rw [hsl]
    constructor
    · intro hk
      obtain ⟨x, hx, rfl⟩ := List.mem_map.1 hk
      obtain ⟨ht, g, hg, -⟩ := s2 x hx
      have := List.find?_some hg
      simp only [decide_eq_true_eq] at this
      exact ⟨ht, g, List.mem_of_find?_eq_some hg, this⟩
    · rintro ⟨ht, g, hg, rfl, hst⟩
      exact s3 g hg hst ht
  have hreg : ∀ k, k ∉ o.generators.map GenAt.bus ↔ c.Unregulated k := by
    intro k
    rw [hge]
    constructor
    · intro hk
      refine ⟨fun g hg hi hr => ?_, fun r hr hi hreg => ?_⟩
      · obtain ⟨x, hx, hb, -⟩ := m3 g hg hr
        exact hk (List.mem_map.2 ⟨x, w2 x hx, hb.trans hi⟩)
      · obtain ⟨x, hx, hb, -⟩ := w4 r hr hreg
        exact hk (List.mem_map.2 ⟨x, hx, hb.trans hi⟩)
    · rintro ⟨u1, u2⟩ hk
      obtain ⟨x, hx, rfl⟩ := List.mem_map.1 hk
      rcases w3 x hx with hx | ⟨r, hr, hreg, hb, -⟩
      · obtain ⟨g, hg, hr, hb, -⟩ := m2 x hx
        exact u1 g hg hb.symm hr
      · exact u2 r hr hb.symm hreg
  intro V hV
  have hV' : ∀ k ∈ o.buses, V k ≠ 0 := fun k hk => hV k ((hmem k).1 hk)
  have hstep := flow_iff hL hcl hnd V
  simp only [hmem] at hstep
  rw [hstep, flow_elim hV' hτ (hsl ▸ s1) (hge ▸ w1)]
  have hpow : ∀ k, c.Energised k → V k * conj (o.rest V k) = V k * conj (c.net (loadedZ c) V k) +
      ⟨total o.loads (fun x => x.bus = k) (fun x => x.l.P), total o.loads (fun x => x.bus = k) (fun x => x.l.Q)⟩ := by
    intro k hk
    rw [hrest, map_add, mul_add, loads_power (hV k hk) _ hplain]
  have hact : ∀ k, c.Energised k →
      ((V k * conj (o.rest V k)).re + (o.generators.map fun x => if x.bus = k then x.g.P else 0).sum = 0 ↔
      total c.generators (fun g => g.i = k ∧ g.stat = 1 ∧ c.HasType k 2) (fun g => g.pg / c.sbase) -
      total c.loads (fun r => r.i = k ∧ r.Served c) (fun r => r.pl / c.sbase) = (V k * conj (c.net (loadedZ c) V k)).re) := by
    intro k hk
    have hneg : total o.generators (fun x => x.bus = k) (fun x => -x.g.P) =
        -(o.generators.map fun x => if x.bus = k then x.g.P else 0).sum := by
      rw [total_eq]
      generalize o.generators = l
      induction l with
      | nil => simp
      | cons a as ih =>
        simp only [List.map_cons, List.sum_cons, ih]
        split <;> ring
    rw [hp.base, ← hinj k, hneg, hpow k hk, Complex.add_re]
    simp only
    constructor <;> intro e <;> linarith
  have hrea : ∀ k, c.Energised k → c.Unregulated k → ((V k * conj (o.rest V k)).im = 0 ↔
      total c.generators (fun g => g.i = k ∧ g.stat = 1 ∧ c.HasType k 2) (fun g => g.qt / c.sbase) -
      total c.loads (fun r => r.i = k ∧ r.Served c) (fun r => r.ql / c.sbase) = (V k * conj (c.net (loadedZ c) V k)).im) := by
    intro k hk hu
    have e1 := gens_reactive hd hp.machines h1 hu.1
    have e2 := forall₂_total (p := fun r => r.i = k) (q := fun x : LoadAt => x.bus = k) (f := fun r => r.ql / 100)
      (g := fun x => x.l.Q) h4 (by rintro r x hx; obtain ⟨-, rfl⟩ := loadIntegrate_ok.1 hx; exact ⟨Iff.rfl, rfl⟩)
    rw [total_filter] at e2
    have hneg : total g.loads (fun x => x.bus = k) (fun x => -x.l.Q) = -total g.loads (fun x => x.bus = k) (fun x => x.l.Q) := by
      rw [total_eq, total_eq]
      generalize g.loads = l
      induction l with
      | nil => simp
      | cons a as ih =>
        simp only [List.map_cons, List.sum_cons, ih]
        split <;> ring
    have happ := total_append g.loads ls (fun x => x.bus = k) (fun x => x.l.Q)
    rw [hp.base, ← e1, hneg, ← e2, hpow k hk, Complex.add_im, hlo]
    simp only
    rw [happ]
    constructor <;> intro e <;> linarith
  have hset : ∀ (a : ℝ) (z : ℂ), a ^ 2 = Complex.normSq z ↔ ‖z‖ = |a| := by
    intro a z
    rw [Complex.normSq_eq_norm_sq, sq_eq_sq_iff_abs_eq_abs, abs_norm, eq_comm]
  constructor
  · rintro ⟨hk, hs, hx⟩
    refine ⟨?_, ?_, ?_, ?_, ?_, ?_⟩
    · intro r hr hserved
      obtain ⟨x, -, hi, hf, ht⟩ := forall₂_mem_left hxs (List.mem_filter.2 ⟨hr, by simpa using hserved⟩)
      exact (xfmr_current hp hr hserved hi hf ht).1
    · intro k he hns
      exact (hact k he).1 (hk k ((hmem k).2 he) fun hm => hns ((hswing k).1 hm)).1
    · intro k he hns hu
      exact (hrea k he hu).1 ((hk k ((hmem k).2 he) fun hm => hns ((hswing k).1 hm)).2 ((hreg k).2 hu))
    · intro g hg hr
      obtain ⟨x, hxm, hb, hv⟩ := m3 g hg hr
      rw [← hset, ← hv, ← hb]
      exact hx x (hge ▸ w2 x hxm)
    · intro r hr hreg
      obtain ⟨x, hxm, hb, hv⟩ := w4 r hr hreg
      rw [← hset, ← hv, ← hb]
      exact hx x (hge ▸ hxm)
    · intro k g' ht hfind b hb hbi
      have hg' := List.find?_some hfind
      simp only [decide_eq_true_eq] at hg'
      obtain ⟨x, hxm, hxb⟩ := List.mem_map.1 (s3 g' (List.mem_of_find?_eq_some hfind) hg'.2 (hg'.1.symm ▸ ht))
      have hxk : x.bus = k := hxb.trans hg'.1
      obtain ⟨-, g2, hfind2, b2, hb2, hbi2, hv, ha⟩ := s2 x hxm
      rw [hxk] at hfind2 hbi2
      have eg : g2 = g' := Option.some.inj (hfind2.symm.trans hfind)
      have eb : b2 = b := hd.eq hb2 hb (hbi2.trans hbi.symm)
      rw [← hxk, hs x (hsl ▸ hxm), hv, ha, eg, eb]
  · intro hpf
    refine ⟨fun k hk hns => ?_, ?_, ?_⟩
    · have he := (hmem k).1 hk
      have hns' : ¬ c.Swing k := fun hs => hns ((hswing k).2 hs)
      exact ⟨(hact k he).2 (hpf.active k he hns'), fun hn =>
        (hrea k he ((hreg k).1 hn)).2 (hpf.reactive k he hns' ((hreg k).1 hn))⟩
    · intro x hx
      obtain ⟨ht, g', hfind, b, hb, hbi, hv, ha⟩ := s2 x (hsl ▸ hx)
      rw [hv, ha]
      exact hpf.swing _ g' ht hfind b hb hbi
    · intro x hx
      rw [hset]
      rcases w3 x (hge ▸ hx) with hx | ⟨r, hr, hreg, hb, hv⟩
      · obtain ⟨g', hg', hr, hb, hv⟩ := m2 x hx
        rw [hb, hv]
        exact hpf.machines g' hg' hr
      · rw [hb, hv]
        exact hpf.continuous r hr hreg

/-- **C79 for plain cases.** Take a RAW case with system base 100 MVA, machines without wind mode, constant-power loads,
two-winding transformers without magnetizing admittance and no three-winding transformer in service, and suppose it loads.
At bus voltages that are not zero, the assembled equations of the loaded network, at the end of homotopy, have a solution
with these voltages exactly when the voltages satisfy the power flow equations of the records: balance of active power
everywhere but at swing buses, of reactive power where nothing holds the voltage, and the set points. Missing from the full
claim: other bases (`C75_base_fails`), the other load parts (`C49_parts_fails`), magnetizing admittances, which are not
stamped, and three-winding transformers (`C78_three_winding_fails`). -/
theorem C79_power_flow_partial {L : Library} (hL : L.Loaded) {c : Case} {o : Out} (hp : c.Plain) (h : parseRaw c = .ok o) :
    ∃ Z : TwoRec → ℂ, ∀ V : ℤ → ℂ, (∀ k, c.Energised k → V k ≠ 0) →
      ((∃ v, (∀ k, c.Energised k → (o.toNetwork.assign L).voltages v (some (o.pos k)) = V k) ∧
        ∀ i, networkEq (o.toNetwork.assign L).all 0 v i = 0) ↔ c.PowerFlow Z V) :=
  ⟨loadedZ c, power_flow_loaded hL hp h⟩

theorem smallCase_plain : smallCase.Plain := by
  constructor
  · exact smallCase_supported.distinct
  · rfl
  · exact smallCase_supported.machines
  · intro r hr
    simp only [smallCase, List.mem_cons, List.not_mem_nil, or_false] at hr
    subst hr
    norm_num
  · intro r hr _
    simp only [smallCase, List.mem_cons, List.not_mem_nil, or_false] at hr
    subst hr
    refine ⟨by norm_num, by norm_num, by norm_num, by norm_num, rfl, rfl, ?_⟩
    intro b hb _
    simp only [smallCase, List.mem_cons, List.not_mem_nil, or_false] at hb
    rcases hb with rfl | rfl | rfl <;> norm_num
  · exact smallCase_supported.three

/-- A case with a swing bus, a machine, a line, a transformer, a load and a shunt meets the hypotheses. -/
example : smallCase.Plain ∧ ∃ o, parseRaw smallCase = .ok o :=
  ⟨smallCase_plain, C78_supported_loads_partial smallCase_supported⟩

/-- A swing bus at unit voltage feeds a load of 80 MW over a line of reactance one half. -/
noncomputable def feedCase : Case where
  sbase := 100
  buses := [⟨1, 3, 1, 0, 138⟩, ⟨2, 1, 1, 0, 138⟩]
  generators := [⟨1, 0, 0, 50, -50, 1, 1, 0, 1⟩]
  switched := []
  fixed := []
  loads := [⟨2, 1, 80, 0, 0, 0, 0, 0⟩]
  branches := [⟨1, 2, 0, 1 / 2, 0, 0, 0, 0, 0, 1⟩]
  two := []
  three := []

/-- The solution of `feedCase`. -/
noncomputable def feedVolts (k : ℤ) : ℂ := if k = 1 then 1 else ⟨4 / 5, -2 / 5⟩

theorem feedCase_supported : feedCase.Supported := by
  classical
  have hk : ∀ i : ℤ, i = 1 ∨ i = 2 → feedCase.Known i := by
    rintro i (rfl | rfl) <;> simp [feedCase, Case.Known]
  have hr1 : ¬ GenRec.Regulates feedCase ⟨1, 0, 0, 50, -50, 1, 1, 0, 1⟩ := by
    rintro ⟨⟨b, hb, hi, ht⟩, -⟩
    simp only [feedCase, List.mem_cons, List.not_mem_nil, or_false] at hb
    rcases hb with rfl | rfl <;> simp_all
  constructor
  · simp [Case.DistinctBuses, feedCase]
  · exact ⟨1, by simp [Case.Energised, feedCase]⟩
  · norm_num [feedCase]
  · intro g hg
    simp only [feedCase, List.mem_cons, List.not_mem_nil, or_false] at hg
    subst hg
    norm_num
  · have : feedCase.switched = [] := rfl
    have hg : feedCase.generators = [⟨1, 0, 0, 50, -50, 1, 1, 0, 1⟩] := rfl
    rw [this, hg]
    simp [List.filter_cons, hr1]
  · simp [feedCase]
  · simp [feedCase]
  · intro r hr _
    simp only [feedCase, List.mem_cons, List.not_mem_nil, or_false] at hr
    subst hr
    exact hk _ (by norm_num)
  · intro r hr _
    simp only [feedCase, List.mem_cons, List.not_mem_nil, or_false] at hr
    subst hr
    exact ⟨hk _ (by norm_num), hk _ (by norm_num)⟩
  · intro r hr _
    simp only [feedCase, List.mem_cons, List.not_mem_nil, or_false] at hr
    subst hr
    norm_num
  · simp [feedCase]
  · simp [feedCase]
  · simp [feedCase]

theorem feedCase_plain : feedCase.Plain := by
  constructor
  · exact feedCase_supported.distinct
  · rfl
  · exact feedCase_supported.machines
  · intro r hr
    simp only [feedCase, List.mem_cons, List.not_mem_nil, or_false] at hr
    subst hr
    norm_num
  · simp [feedCase]
  · simp [feedCase]

theorem feedCase_flow (Z : TwoRec → ℂ) : feedCase.PowerFlow Z feedVolts := by
  classical
  have hen : ∀ k, feedCase.Energised k → k = 1 ∨ k = 2 := by
    rintro k ⟨b, hb, rfl, -⟩
    simp only [feedCase, List.mem_cons, List.not_mem_nil, or_false] at hb
    rcases hb with rfl | rfl <;> simp
  have e1 : feedCase.Energised 1 := by simp [Case.Energised, feedCase]
  have e2 : feedCase.Energised 2 := by simp [Case.Energised, feedCase]
  have hsw : feedCase.Swing 1 := ⟨by simp [Case.HasType, feedCase], by simp [feedCase]⟩
  have hreg : ∀ g ∈ feedCase.generators, ¬ g.Regulates feedCase := by
    intro g hg
    simp only [feedCase, List.mem_cons, List.not_mem_nil, or_false] at hg
    subst hg
    rintro ⟨⟨b, hb, hi, ht⟩, -⟩
    simp only [feedCase, List.mem_cons, List.not_mem_nil, or_false] at hb
    rcases hb with rfl | rfl <;> simp_all
  have hserved : BranchRec.Served feedCase ⟨1, 2, 0, 1 / 2, 0, 0, 0, 0, 0, 1⟩ := ⟨rfl, e1, e2⟩
  have hload : LoadRec.Served feedCase ⟨2, 1, 80, 0, 0, 0, 0, 0⟩ := ⟨rfl, e2⟩
  have hnet : feedCase.net Z feedVolts 2 = (⟨-4 / 5, 2 / 5⟩ : ℂ) := by
    have hb : feedCase.branches = [⟨1, 2, 0, 1 / 2, 0, 0, 0, 0, 0, 1⟩] := rfl
    have ht : feedCase.two = [] := rfl
    have hs : feedCase.shuntAt 2 = 0 := by
      apply Complex.ext <;> simp [Case.shuntAt, feedCase, total]
    rw [Case.net, hb, ht, hs]
    simp only [List.filter_cons, hserved, decide_true, if_true, List.filter_nil, List.map_cons, List.map_nil, List.sum_cons,
      List.sum_nil, BranchRec.current, feedVolts]
    apply Complex.ext <;> norm_num [Complex.div_re, Complex.div_im, Complex.normSq]
  have hg0 : ∀ f : GenRec → ℝ,
      total feedCase.generators (fun g => g.i = 2 ∧ g.stat = 1 ∧ feedCase.HasType 2 2) f = 0 := by
    intro f
    rw [total_eq]
    simp [feedCase]
  have hpow : feedVolts 2 * conj (feedCase.net Z feedVolts 2) = (⟨-4 / 5, 0⟩ : ℂ) := by
    rw [hnet]
    apply Complex.ext <;> norm_num [feedVolts]
  constructor
  · simp [feedCase]
  · intro k hk hns
    rcases hen k hk with rfl | rfl
    · exact absurd hsw hns
    · rw [hg0, hpow, total_eq, show feedCase.loads = [⟨2, 1, 80, 0, 0, 0, 0, 0⟩] from rfl]
      norm_num [hload, show feedCase.sbase = 100 from rfl]
  · intro k hk hns _
    rcases hen k hk with rfl | rfl
    · exact absurd hsw hns
    · rw [hg0, hpow, total_eq, show feedCase.loads = [⟨2, 1, 80, 0, 0, 0, 0, 0⟩] from rfl]
      norm_num [hload, show feedCase.sbase = 100 from rfl]
  · intro g hg hr
    exact absurd hr (hreg g hg)
  · simp [feedCase]
  · intro k g ht hg b hb hbi
    have hgm := List.mem_of_find?_eq_some hg
    have hgi := List.find?_some hg
    simp only [feedCase, List.mem_cons, List.not_mem_nil, or_false] at hgm
    subst hgm
    have hk : k = 1 := by simpa [eq_comm] using hgi
    subst hk
    simp only [feedCase, List.mem_cons, List.not_mem_nil, or_false] at hb
    rcases hb with rfl | rfl
    · apply Complex.ext <;> simp [feedVolts]
    · simp at hbi

/-- The hand-computed solution of `feedCase` is found by the assembled equations of the loaded network. -/
example {L : Library} (hL : L.Loaded) : ∃ o, parseRaw feedCase = .ok o ∧ ∃ v,
    (∀ k, feedCase.Energised k → (o.toNetwork.assign L).voltages v (some (o.pos k)) = feedVolts k) ∧
    ∀ i, networkEq (o.toNetwork.assign L).all 0 v i = 0 := by
  obtain ⟨o, ho⟩ := C78_supported_loads_partial feedCase_supported
  obtain ⟨Z, hZ⟩ := C79_power_flow_partial hL feedCase_plain ho
  refine ⟨o, ho, (hZ feedVolts ?_).2 (feedCase_flow Z)⟩
  intro k _
  unfold feedVolts
  split
  · norm_num
  · intro h
    have := congrArg Complex.re h
    norm_num at this

/-! ### Examples: what C47, C48 and C75 say about the small case -/

theorem smallCase_distinct : smallCase.DistinctBuses := smallCase_supported.distinct

open Classical in
theorem smallCase_served : (smallCase.loads.filter fun r => r.Served smallCase) = smallCase.loads ∧
    (smallCase.fixed.filter fun r => r.Served smallCase) = smallCase.fixed ∧
    (smallCase.branches.filter fun r => r.Served smallCase) = smallCase.branches ∧
    (smallCase.two.filter fun r => r.Served smallCase) = smallCase.two := by
  have hk : ∀ i : ℤ, i = 1 ∨ i = 2 ∨ i = 3 → smallCase.Energised i := by
    rintro i (rfl | rfl | rfl) <;> simp [smallCase, Case.Energised]
  refine ⟨?_, ?_, ?_, ?_⟩ <;> refine List.filter_eq_self.2 fun r hr => decide_eq_true ?_ <;>
    (simp only [smallCase, List.mem_singleton] at hr; subst hr)
  · exact ⟨rfl, hk 3 (by omega)⟩
  · exact ⟨rfl, hk 3 (by omega), Or.inr (by norm_num)⟩
  · exact ⟨rfl, hk 1 (by omega), hk 2 (by omega)⟩
  · exact ⟨by decide, hk 2 (by omega), hk 3 (by omega)⟩

/-- One load, one shunt, one line and one transformer are loaded, with their values in per unit. -/
example : ∃ o, parseRaw smallCase = .ok o ∧ (∃ l ∈ o.loads, l.bus = 3 ∧ l.l.P = 50 / 100) ∧ (∃ s ∈ o.shunts, s.bus = 3 ∧ s.B = 5 / 100) ∧
    (∃ l, o.branches = [l] ∧ l.Bl = 1 / 50 / 2) ∧ ∃ x ∈ o.xfmrs, x.f = 2 ∧ x.t = 3 := by
  classical
  obtain ⟨o, ho⟩ := C78_supported_loads_partial smallCase_supported
  obtain ⟨s1, s2, s3, s4⟩ := smallCase_served
  refine ⟨o, ho, ?_, ?_, ?_, ?_⟩
  · obtain ⟨own, ls, h1, -, h2⟩ := C48_loads_once smallCase_distinct ho
    rw [s1, smallCase] at h2
    rcases h2 with _ | ⟨⟨a, b, -⟩, h2⟩
    exact ⟨_, h1 ▸ List.mem_append_right _ List.mem_cons_self, a, b⟩
  · obtain ⟨own, fs, h1, -, h2⟩ := C48_shunts_once smallCase_distinct ho
    rw [s2, smallCase] at h2
    rcases h2 with _ | ⟨⟨a, -, b⟩, h2⟩
    exact ⟨_, h1 ▸ List.mem_append_right _ List.mem_cons_self, a, b⟩
  · have h2 := C48_branches_once smallCase_distinct ho
    rw [s3, smallCase] at h2
    generalize o.branches = bs at h2
    rcases h2 with _ | ⟨⟨-, -, -, b⟩, _ | _⟩
    exact ⟨_, rfl, b⟩
  · obtain ⟨xs, ys, h1, h2, -⟩ := C48_two_winding_once smallCase_distinct ho
    rw [s4, smallCase] at h2
    rcases h2 with _ | ⟨⟨-, a, b⟩, h2⟩
    exact ⟨_, h1 ▸ List.mem_append_left _ List.mem_cons_self, a, b⟩

/-- Its sources belong to machines in service, no two of its machines hold the voltage of one bus, and the power injected at bus 3 is
minus the load, in per unit of the system base. -/
example : ∃ o, parseRaw smallCase = .ok o ∧ (∀ x ∈ o.slack, ∃ g ∈ smallCase.generators, g.i = x.bus ∧ g.stat = 1 ∧ smallCase.HasType x.bus 3) ∧
    (smallCase.generators.Pairwise fun g g' => ¬(g.Regulates smallCase ∧ g'.Regulates smallCase ∧ g.i = g'.i)) ∧
    ∃ own ls, o.loads = own ++ ls ∧ List.Forall₂ (fun (r : LoadRec) (l : LoadAt) => l.bus = r.i ∧ l.l.P = r.pl / smallCase.sbase ∧
      l.l.Q = r.ql / smallCase.sbase) smallCase.loads ls := by
  classical
  obtain ⟨o, ho⟩ := C78_supported_loads_partial smallCase_supported
  refine ⟨o, ho, (C48_only_in_service smallCase_distinct ho).1, C47_no_two_regulate smallCase_distinct ho, ?_⟩
  obtain ⟨own, ls, h1, h2⟩ := (C75_base_partial smallCase_distinct rfl ho).1
  exact ⟨own, ls, h1, by rwa [smallCase_served.1] at h2⟩

end Verif.Raw
