import Verif.Lemmas.GlmBuses

/-!
# The inner buses of a network are all different
-/

namespace Verif.Glm

variable {M : Type}

/-- The inner buses of a transformer. -/
def GXfmr.inner : GXfmr → List ℕ
  | .coil .. => []
  | .centerTap _ p s1 _ s2 .. => [p, s1, s2]

/-- The inner buses of transformers, regulators and fuses. -/
def innerOf (ts : List GXfmr) (rs : List GReg) (fs : List GFuse) : List ℕ :=
  ts.flatMap GXfmr.inner ++ rs.map GReg.c ++ fs.map GFuse.i

/-- The inner buses of the devices are different buses of the network, and there are no other inner buses. -/
def InnerOnce (g : Grid M) : Prop :=
  (innerOf g.transformers g.regulators g.fuses).Nodup ∧ (∀ b ∈ innerOf g.transformers g.regulators g.fuses, b < g.buses.length) ∧
    ∀ (b : ℕ) (x : PhaseBus), g.buses[b]? = some x → x.virtual = true → b ∈ innerOf g.transformers g.regulators g.fuses

/-- Every inner bus of `g'` is new or one of `g`. -/
def NewInner (g g' : Grid M) (new : List ℕ) : Prop :=
  ∀ (b : ℕ) (x : PhaseBus), g'.buses[b]? = some x → x.virtual = true → b ∈ new ∨ ∃ y, g.buses[b]? = some y ∧ y.virtual = true

theorem newInner_same {g g' : Grid M} (h : g'.buses = g.buses) (new : List ℕ) : NewInner g g' new := fun b x hx hv => Or.inr ⟨x, by rw [← h]; exact hx, hv⟩

theorem newInner_append {g g' : Grid M} {new : List ℕ} (h : g.buses <+: g'.buses) (hn : ∀ b, g.buses.length ≤ b → b < g'.buses.length → b ∈ new) :
    NewInner g g' new := by
  intro b x hx hv
  obtain ⟨bs, h⟩ := h
  by_cases hb : b < g.buses.length
  · rw [← h, List.getElem?_append_left hb] at hx
    exact Or.inr ⟨x, hx, hv⟩
  · exact Or.inl (hn b (by omega) (List.getElem?_eq_some_iff.1 hx).1)

theorem foldlM_inv {ε σ α : Type} {f : σ → α → Except ε σ} {P : σ → Prop} (hf : ∀ s a s', P s → f s a = .ok s' → P s') :
    ∀ (as : List α) (s s' : σ), P s → as.foldlM f s = .ok s' → P s' := by
  intro as
  induction as with
  | nil => intro s s' hs h; cases h; exact hs
  | cons a as ih =>
    intro s s' hs h
    rw [List.foldlM_cons] at h
    obtain ⟨s1, h1, h⟩ := bind_eq_ok h
    exact ih _ _ (hf _ _ _ hs h1) h

/-- One more device with new inner buses. -/
theorem InnerOnce.add {g g' : Grid M} (h : InnerOnce g) (new : List ℕ)
    (hp : (innerOf g'.transformers g'.regulators g'.fuses).Perm (innerOf g.transformers g.regulators g.fuses ++ new)) (hn : new.Nodup)
    (hb : ∀ b ∈ new, g.buses.length ≤ b ∧ b < g'.buses.length) (hl : g.buses.length ≤ g'.buses.length) (hv : NewInner g g' new) : InnerOnce g' := by
  refine ⟨hp.nodup_iff.2 (List.nodup_append.2 ⟨h.1, hn, ?_⟩), fun b hb' => ?_, fun b x hx hxv => ?_⟩
  · intro a ha b hb' e
    have := h.2.1 a ha
    have := (hb b hb').1
    omega
  · rcases List.mem_append.1 (hp.mem_iff.1 hb') with h1 | h1
    · exact lt_of_lt_of_le (h.2.1 b h1) hl
    · exact (hb b h1).2
  · rw [hp.mem_iff, List.mem_append]
    rcases hv b x hx hxv with h1 | ⟨y, h1, h2⟩
    · exact Or.inr h1
    · exact Or.inl (h.2.2 b y h1 h2)

theorem InnerOnce.same {g g' : Grid M} (h : InnerOnce g) (ht : g'.transformers = g.transformers) (hr : g'.regulators = g.regulators)
    (hf : g'.fuses = g.fuses) (hl : g.buses.length ≤ g'.buses.length) (hv : NewInner g g' []) : InnerOnce g' :=
  h.add [] (by rw [ht, hr, hf, List.append_nil]) List.nodup_nil (fun b hb => absurd hb (List.not_mem_nil)) hl hv

theorem phaseLoad_inner {l : DLoad} {g g' : Grid M} {pl : PhaseLoad} (h : InnerOnce g) (hs : phaseLoad l g pl = .ok g') : InnerOnce g' := by
  rw [phaseLoad] at hs
  split at hs
  · cases hs
  · cases hs
  · obtain ⟨f, _, hs⟩ := bind_eq_ok hs
    obtain ⟨t, _, hs⟩ := bind_eq_ok hs
    cases hs
    exact h.same rfl rfl rfl le_rfl (newInner_same rfl _)

theorem phaseCapacitor_inner {o : Obj} {c : DCap} {g g' : Grid M} {pc : Char × ℚ} (h : InnerOnce g) (hs : phaseCapacitor o c g pc = .ok g') :
    InnerOnce g' := by
  rw [phaseCapacitor] at hs
  by_cases hc : pc.1 ∈ c.connected
  · rw [if_pos hc] at hs
    obtain ⟨mode, _, hs⟩ := bind_eq_ok hs
    obtain ⟨parent, _, hs⟩ := bind_eq_ok hs
    obtain ⟨b, _, hs⟩ := bind_eq_ok hs
    obtain ⟨v, _, hs⟩ := bind_eq_ok hs
    by_cases hv : v = 0
    · simp only [if_pos hv] at hs; cases hs
    simp only [if_neg hv] at hs
    obtain ⟨sw, _, hs⟩ := bind_eq_ok hs
    cases hs
    refine h.same rfl rfl rfl (by simp [Grid.setStart]) fun i x hx hxv => Or.inr ?_
    simp only [Grid.setStart, List.getElem?_modify] at hx
    cases hg : g.buses[i]? with
    | none => rw [hg] at hx; simp at hx
    | some y =>
      rw [hg] at hx
      refine ⟨y, rfl, ?_⟩
      simp only [Option.map_eq_map, Option.map_some, Option.some.injEq] at hx
      subst hx
      split at hxv <;> exact hxv
  · rw [if_neg hc] at hs
    cases hs
    exact h

theorem switchWire_inner {d : DDevice} {g g' : Grid M} {w : PhaseWire} (h : InnerOnce g) (hs : switchWire d g w = .ok g') : InnerOnce g' := by
  rw [switchWire] at hs
  by_cases hc : w.phase ∈ d.phases
  · rw [if_pos hc] at hs
    obtain ⟨f, _, hs⟩ := bind_eq_ok hs
    obtain ⟨t, _, hs⟩ := bind_eq_ok hs
    cases hs
    exact h.same rfl rfl rfl le_rfl (newInner_same rfl _)
  · rw [if_neg hc] at hs
    cases hs
    exact h

theorem fuseWire_inner {d : DDevice} {g g' : Grid M} {w : PhaseWire} (h : InnerOnce g) (hs : fuseWire d g w = .ok g') : InnerOnce g' := by
  rw [fuseWire] at hs
  obtain ⟨f, _, hs⟩ := bind_eq_ok hs
  obtain ⟨t, _, hs⟩ := bind_eq_ok hs
  obtain ⟨limit, _, hs⟩ := bind_eq_ok hs
  cases hs
  refine h.add [g.buses.length] ?_ (List.nodup_singleton _) ?_ ?_ (newInner_append (List.prefix_append _ _) fun b h1 h2 => by
      simp only [Grid.createBus, List.length_append, List.length_cons, List.length_nil, List.mem_singleton] at h2 ⊢
      omega)
  · simp [innerOf, Grid.createBus]
  · simp [Grid.createBus]
  · simp [Grid.createBus]

theorem phaseRegulator_inner {config : Obj} {r : DRegulator} {step vTap : ℚ} {kind : RegType} {a b : ℤ} {g g' : Grid M} {p : Char}
    (h : InnerOnce g) (hs : phaseRegulator config r step vTap kind a b g p = .ok g') : InnerOnce g' := by
  rw [phaseRegulator] at hs
  obtain ⟨f, _, hs⟩ := bind_eq_ok hs
  obtain ⟨t, _, hs⟩ := bind_eq_ok hs
  obtain ⟨tap, _, hs⟩ := bind_eq_ok hs
  by_cases h0 : vTap = 0
  · simp only [if_pos h0] at hs; cases hs
  simp only [if_neg h0] at hs
  cases hs
  refine h.add [g.buses.length] ?_ (List.nodup_singleton _) ?_ ?_ (newInner_append (List.prefix_append _ _) fun b h1 h2 => by
      simp only [Grid.createBus, List.length_append, List.length_cons, List.length_nil, List.mem_singleton] at h2 ⊢
      omega)
  · refine List.perm_iff_count.2 fun x => ?_
    simp only [innerOf, Grid.createBus, List.map_append, List.map_cons, List.map_nil, List.count_append]
    omega
  · simp [Grid.createBus]
  · simp [Grid.createBus]

theorem coilOf_inner {g : Grid M} {t : DTransformer} {v1 v2 r x power : ℚ} {c : Char × Char × Char × Char} {y : GXfmr}
    (h : coilOf g t v1 v2 r x power c = .ok y) : y.inner = [] := by
  rw [coilOf] at h
  obtain ⟨fp, _, h⟩ := bind_eq_ok h
  obtain ⟨fn, _, h⟩ := bind_eq_ok h
  obtain ⟨tp, _, h⟩ := bind_eq_ok h
  obtain ⟨tn, _, h⟩ := bind_eq_ok h
  split_ifs at h
  cases h
  rfl

theorem createThreePhase_inner {t : DTransformer} {g g' : Grid M} (h : InnerOnce g) (hs : createThreePhase t g = .ok g') : InnerOnce g' := by
  rw [createThreePhase] at hs
  split at hs
  · split_ifs at hs
    obtain ⟨_, _, hs⟩ := bind_eq_ok hs
    split at hs
    · cases hs
    · split_ifs at hs
      obtain ⟨cs, hcs, hs⟩ := bind_eq_ok hs
      cases hs
      refine h.add [] ?_ List.nodup_nil (fun b hb => absurd hb (List.not_mem_nil)) le_rfl (newInner_same rfl _)
      have : cs.flatMap GXfmr.inner = [] := by
        rw [List.flatMap_eq_nil_iff]
        intro y hy
        obtain ⟨c, _, hc⟩ := forall₂_mem_right (mapM_forall₂ hcs) hy
        exact coilOf_inner hc
      simp [innerOf, this]
  · cases hs

theorem createCenterTap_inner {t : DTransformer} {g g' : Grid M} (h : InnerOnce g) (hs : createCenterTap t g = .ok g') : InnerOnce g' := by
  rw [createCenterTap] at hs
  split at hs
  · split at hs
    · split_ifs at hs
      · obtain ⟨f, _, hs⟩ := bind_eq_ok hs
        obtain ⟨t1, _, hs⟩ := bind_eq_ok hs
        obtain ⟨t2, _, hs⟩ := bind_eq_ok hs
        cases hs
      obtain ⟨f, _, hs⟩ := bind_eq_ok hs
      obtain ⟨t1, _, hs⟩ := bind_eq_ok hs
      obtain ⟨t2, _, hs⟩ := bind_eq_ok hs
      cases hs
      refine h.add [g.buses.length, g.buses.length + 1, g.buses.length + 2] ?_ (by simp) ?_ ?_ (by
        refine newInner_append (((List.prefix_append _ _).trans (List.prefix_append _ _)).trans (List.prefix_append _ _)) fun b h1 h2 => ?_
        simp only [Grid.createBus, List.length_append, List.length_cons, List.length_nil, List.mem_cons, List.not_mem_nil] at h2 ⊢
        omega)
      · refine List.perm_iff_count.2 fun x => ?_
        simp only [innerOf, Grid.createBus, List.flatMap_append, List.flatMap_cons, List.flatMap_nil, GXfmr.inner, List.append_nil,
          List.count_append, List.length_append, List.length_cons, List.length_nil]
        simp only [zero_add, Nat.add_assoc, Nat.reduceAdd]
        omega
      · simp [Grid.createBus]
      · simp [Grid.createBus]
    · cases hs
  · cases hs

theorem createModel_inner {objs : List (Txt × Obj)} {g g' : Grid M} {m : DModel M} (h : InnerOnce g) (hs : createModel objs g m = .ok g') :
    InnerOnce g' := by
  cases m with
  | node n => cases hs; exact h
  | line l => cases hs; exact h.same rfl rfl rfl le_rfl (newInner_same rfl _)
  | load l => exact foldlM_inv (fun _ _ _ => phaseLoad_inner) _ _ _ h hs
  | device d =>
    rw [createModel, createDevice] at hs
    by_cases hf : d.isFuse = true
    · rw [if_pos hf] at hs
      exact foldlM_inv (fun _ _ _ => fuseWire_inner) _ _ _ h hs
    · rw [if_neg hf] at hs
      exact foldlM_inv (fun _ _ _ => switchWire_inner) _ _ _ h hs
  | capacitor c =>
    rw [createModel, createCapacitor] at hs
    split at hs
    · cases hs
    · exact foldlM_inv (fun _ _ _ => phaseCapacitor_inner) _ _ _ h hs
  | regulator r =>
    rw [createModel, createRegulator] at hs
    split_ifs at hs
    split at hs
    · cases hs
    · obtain ⟨k, _, hs⟩ := bind_eq_ok hs
      split at hs
      · cases hs
      · split at hs
        · split_ifs at hs
          obtain ⟨kind, _, hs⟩ := bind_eq_ok hs
          obtain ⟨control, _, hs⟩ := bind_eq_ok hs
          by_cases hcon : control ∉ regControls
          · rw [if_pos hcon] at hs; cases hs
          rw [if_neg hcon] at hs
          obtain ⟨center, _, hs⟩ := bind_eq_ok hs
          obtain ⟨_, _, hs⟩ := bind_eq_ok hs
          obtain ⟨a, _, hs⟩ := bind_eq_ok hs
          obtain ⟨b, _, hs⟩ := bind_eq_ok hs
          by_cases ha : a = 0
          · rw [if_pos ha] at hs; cases hs
          rw [if_neg ha] at hs
          exact foldlM_inv (fun _ _ _ => phaseRegulator_inner) _ _ _ h hs
        · cases hs
  | transformer t =>
    rw [createModel, createTransformer] at hs
    by_cases hc : t.centerTap = true
    · rw [if_pos hc] at hs; exact createCenterTap_inner h hs
    · rw [if_neg hc] at hs; exact createThreePhase_inner h hs

/-- The inner buses of a network that is read are all different. -/
theorem buildGrid_inner {s : DState M} {g : Grid M} (h : buildGrid s = .ok g) : InnerOnce g := by
  rw [buildGrid] at h
  obtain ⟨g0, h0, h⟩ := bind_eq_ok h
  have hd := createBuses_devs h0
  refine foldlM_inv (fun _ _ _ => createModel_inner) _ _ _ ?_ h
  have ht : g0.transformers = [] := congrArg Devs.transformers hd
  have hr : g0.regulators = [] := congrArg Devs.regulators hd
  have hf : g0.fuses = [] := congrArg Devs.fuses hd
  rw [InnerOnce, ht, hr, hf]
  refine ⟨by simp [innerOf], by simp [innerOf], fun b x hx hv => ?_⟩
  have hb := (createBuses_inv h0).buses
  have : (x.name, x.phase, x.virtual) ∈ g0.buses.map fun x => (x.name, x.phase, x.virtual) := List.mem_map_of_mem (List.mem_of_getElem? hx)
  rw [hb] at this
  obtain ⟨d, _, e⟩ := List.mem_map.1 this
  rw [hv] at e
  exact absurd (congrArg (fun z => z.2.2) e) (by simp)

theorem parseGrid_inner {readLine : LineReader M} {schedules : List (Txt × Txt)} {objs : List (Txt × Obj)} {g : Grid M}
    (h : parseGrid readLine objs schedules = .ok g) : InnerOnce g := by
  rw [parseGrid] at h
  obtain ⟨s, _, h⟩ := bind_eq_ok h
  exact buildGrid_inner h

end Verif.Glm
