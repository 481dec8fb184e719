import Verif.Spec.Grid
import Verif.Lemmas.GlmObjects

/-!
# Lemmas on the building of the distribution network
-/

namespace Verif.Glm

variable {M : Type}

/-! ### Loops -/

theorem ok_bind' {ε α β : Type} (a : α) (f : α → Except ε β) : ((Except.ok a : Except ε α) >>= f) = f a := rfl

theorem error_bind' {ε α β : Type} (e : ε) (f : α → Except ε β) : ((Except.error e : Except ε α) >>= f) = .error e := rfl

theorem bind_eq_ok {ε α β : Type} {x : Except ε α} {f : α → Except ε β} {b : β} (h : (x >>= f) = .ok b) : ∃ a, x = .ok a ∧ f a = .ok b := by
  cases x with
  | error e => cases h
  | ok a => exact ⟨a, rfl, h⟩

theorem map_eq_ok {ε α β : Type} {x : Except ε α} {f : α → β} {b : β} (h : x.map f = .ok b) : ∃ a, x = .ok a ∧ f a = b := by
  cases x with
  | error e => cases h
  | ok a => cases h; exact ⟨a, rfl, rfl⟩

/-- A loop that only adds to a list: what each turn adds stays true of the state at the end. -/
theorem collect {σ α β : Type} (f : σ → α → Py σ) (E : σ → σ → Prop) (hr : ∀ s, E s s) (ht : ∀ a b c, E a b → E b c → E a c)
    (P : σ → Prop) (hP : ∀ s s', P s → E s s' → P s') (proj : σ → List β) (Q : α → Prop) (R : σ → α → List β → Prop)
    (mono : ∀ s s' a new, R s a new → E s s' → R s' a new)
    (step : ∀ s a s', P s → Q a → f s a = .ok s' → E s s' ∧ ∃ new, proj s' = proj s ++ new ∧ R s' a new) :
    ∀ (as : List α) (s s' : σ), P s → (∀ a ∈ as, Q a) → as.foldlM f s = .ok s' →
      E s s' ∧ ∃ news, proj s' = proj s ++ news.flatten ∧ List.Forall₂ (R s') as news := by
  intro as
  induction as with
  | nil =>
    intro s s' _ _ h
    cases h
    exact ⟨hr _, [], by simp, .nil⟩
  | cons a as ih =>
    intro s s' hs hq h
    rw [List.foldlM_cons] at h
    cases ha : f s a with
    | error e => rw [ha] at h; cases h
    | ok s1 =>
      rw [ha] at h
      obtain ⟨he, new, hn, hR⟩ := step s a s1 hs (hq a (by simp)) ha
      obtain ⟨he', news, hns, hF⟩ := ih s1 s' (hP _ _ hs he) (fun b hb => hq b (by simp [hb])) h
      exact ⟨ht _ _ _ he he', new :: news, by rw [hns, hn]; simp, .cons (mono _ _ _ _ hR he') hF⟩

/-! ### Names -/

theorem busKey_inj {a b : Txt} {p q : Char} (h : busKey a p = busKey b q) : a = b ∧ p = q := by
  have hl : a.length = b.length := by have := congrArg List.length h; simpa [busKey] using this
  rw [busKey, busKey, List.append_assoc, List.append_assoc] at h
  obtain ⟨h1, h2⟩ := List.append_inj h hl
  exact ⟨h1, by simpa using h2⟩

theorem lookup_store_self {β : Type} (k : Txt) (v : β) (d : List (Txt × β)) : lookup k (store k v d) = some v := by
  induction d with
  | nil => simp [store, lookup]
  | cons x d ih =>
    obtain ⟨k', v'⟩ := x
    by_cases h : k' = k
    · simp [store, lookup, h]
    · simp [store, lookup, h, ih]

theorem bus_ok {g : Grid M} {name : Txt} {p : Char} {b : ℕ} : g.bus name p = .ok b ↔ lookup (busKey name p) g.names = some b := by
  unfold Grid.bus
  cases lookup (busKey name p) g.names with
  | none => simp
  | some c => simp

/-! ### What is kept -/

/-- The second network has all buses and plain names of the first, and beyond that only inner buses. -/
structure Ext (g g' : Grid M) : Prop where
  bus : ∀ (b : ℕ) (x : PhaseBus), g.buses[b]? = some x → ∃ x' : PhaseBus, g'.buses[b]? = some x' ∧ x'.name = x.name ∧ x'.phase = x.phase ∧ x'.virtual = x.virtual ∧
    x'.nominal = x.nominal
  names : ∀ name p, Outer name → lookup (busKey name p) g'.names = lookup (busKey name p) g.names
  len : g.buses.length ≤ g'.buses.length
  inner : ∀ (b : ℕ) (x : PhaseBus), g.buses.length ≤ b → g'.buses[b]? = some x → x.virtual = true
  slacks : g'.slacks = g.slacks

theorem Ext.refl (g : Grid M) : Ext g g :=
  ⟨fun _ x h => ⟨x, h, rfl, rfl, rfl, rfl⟩, fun _ _ _ => rfl, le_refl _, fun b x hb h => by
    (rw [List.getElem?_eq_none hb] at h; cases h), rfl⟩

theorem Ext.trans {a b c : Grid M} (h : Ext a b) (h' : Ext b c) : Ext a c := by
  refine ⟨fun i x hx => ?_, fun n p hn => (h'.names n p hn).trans (h.names n p hn), h.len.trans h'.len, fun i x hi hx => ?_,
    h'.slacks.trans h.slacks⟩
  · obtain ⟨y, hy, h1, h2, h3, h3'⟩ := h.bus i x hx
    obtain ⟨z, hz, h4, h5, h6, h6'⟩ := h'.bus i y hy
    exact ⟨z, hz, h4.trans h1, h5.trans h2, h6.trans h3, h6'.trans h3'⟩
  · by_cases hb : b.buses.length ≤ i
    · exact h'.inner i x hb hx
    · obtain ⟨y, hy⟩ : ∃ y, b.buses[i]? = some y := ⟨_, List.getElem?_eq_getElem (by omega)⟩
      obtain ⟨z, hz, _, _, h6, _⟩ := h'.bus i y hy
      have := h.inner i y hi hy
      rw [hx] at hz; cases hz
      rw [h6, this]

theorem Ext.of_eq {g g' : Grid M} (hb : g'.buses = g.buses) (hn : g'.names = g.names) (hs : g'.slacks = g.slacks) : Ext g g' :=
  ⟨fun _ x h => ⟨x, by rw [hb]; exact h, rfl, rfl, rfl, rfl⟩, fun _ _ _ => by rw [hn], by rw [hb], fun b x hb' h => by
    (rw [hb, List.getElem?_eq_none hb'] at h; cases h), hs⟩

theorem At.mono {ns : List DNode} {g g' : Grid M} {name : Txt} {p : Char} {b : ℕ} (h : At ns g name p b) (e : Ext g g') : At ns g' name p b := by
  obtain ⟨r, x, hr, hx, h1, h2, h3⟩ := h
  obtain ⟨y, hy, h4, h5, h6, _⟩ := e.bus b x hx
  exact ⟨r, y, hr, hy, h4.trans h1, h5.trans h2, h6.trans h3⟩

theorem Inner.mono {g g' : Grid M} {b : ℕ} (h : Inner g b) (e : Ext g g') : Inner g' b := by
  obtain ⟨x, hx, hv⟩ := h
  obtain ⟨y, hy, _, _, h6, _⟩ := e.bus b x hx
  exact ⟨y, hy, h6.trans hv⟩

theorem AtOf.mono {ns : List DNode} {g g' : Grid M} {name : Option Txt} {p : Char} {b : ℕ} (h : AtOf ns g name p b) (e : Ext g g') :
    AtOf ns g' name p b := by
  obtain ⟨n, hn, h⟩ := h
  exact ⟨n, hn, h.mono e⟩

/-- The dictionary of names is right for plain names. -/
def Named (ns : List DNode) (g : Grid M) : Prop :=
  ∀ name p b, Outer name → lookup (busKey name p) g.names = some b → At ns g name p b

theorem Named.mono {ns : List DNode} {g g' : Grid M} (h : Named ns g) (e : Ext g g') : Named ns g' := by
  intro name p b hp hl
  rw [e.names name p hp] at hl
  exact (h name p b hp hl).mono e

theorem Named.bus {ns : List DNode} {g : Grid M} (h : Named ns g) {name : Txt} {p : Char} {b : ℕ} (hp : Outer name) (hb : g.bus name p = .ok b) :
    At ns g name p b := h name p b hp (bus_ok.1 hb)

/-- A name that is plain if it is there. -/
def OuterOf (name : Option Txt) : Prop := ∀ n, name = some n → Outer n

theorem Named.busOf {ns : List DNode} {g : Grid M} (h : Named ns g) {name : Option Txt} {p : Char} {b : ℕ} (hp : OuterOf name)
    (hb : g.busOf name p = .ok b) : AtOf ns g name p b := by
  cases name with
  | none => cases hb
  | some n => exact ⟨n, rfl, h.bus (hp n rfl) hb⟩

/-- An inner bus is added. -/
theorem createBus_ext (g : Grid M) (base e : Txt) (he : e ∈ innerEndings) (p : Char) (v s : Phasor) :
    Ext g (g.createBus (base ++ e) p true v s).1 ∧ Inner (g.createBus (base ++ e) p true v s).1 (g.createBus (base ++ e) p true v s).2 := by
  refine ⟨⟨fun b x hx => ?_, fun name q hn => ?_, ?_, fun b x hb hx => ?_, rfl⟩, ?_⟩
  · refine ⟨x, ?_, rfl, rfl, rfl, rfl⟩
    have hlt : b < g.buses.length := by
      by_contra hc
      rw [List.getElem?_eq_none (by omega)] at hx; cases hx
    show (g.buses ++ _)[b]? = some x
    rw [List.getElem?_append_left hlt, hx]
  · refine lookup_store_ne _ (fun hk => ?_) _
    exact hn e he ⟨base, (busKey_inj hk).1.symm⟩
  · simp [Grid.createBus]
  · simp only [Grid.createBus] at hx
    rw [List.getElem?_append_right hb, List.getElem?_singleton] at hx
    by_cases h0 : b - g.buses.length = 0
    · rw [if_pos h0] at hx; cases hx; rfl
    · rw [if_neg h0] at hx; cases hx
  · exact ⟨⟨base ++ e, p, true, v, s⟩, by simp [Grid.createBus], rfl⟩

/-! ### Buses of the nodes -/

/-- The dictionary of names is right. -/
def NamedAll (ns : List DNode) (g : Grid M) : Prop := ∀ name p b, lookup (busKey name p) g.names = some b → At ns g name p b

theorem getElem?_append_of_some {α : Type} {l : List α} {b : ℕ} {x : α} (h : l[b]? = some x) (l' : List α) : (l ++ l')[b]? = some x := by
  have hlt : b < l.length := by
    by_contra hc
    rw [List.getElem?_eq_none (by omega)] at h; cases h
  rw [List.getElem?_append_left hlt, h]

theorem At.append {ns : List DNode} {g g' : Grid M} {name : Txt} {p : Char} {b : ℕ} (h : At ns g name p b) (l : List PhaseBus)
    (hg : g'.buses = g.buses ++ l) : At ns g' name p b := by
  obtain ⟨r, x, hr, hx, h1⟩ := h
  exact ⟨r, x, hr, by rw [hg]; exact getElem?_append_of_some hx l, h1⟩

theorem NamedAll.store {ns : List DNode} {g g' : Grid M} (h : NamedAll ns g) (l : List PhaseBus) (hb : g'.buses = g.buses ++ l)
    {name : Txt} {p : Char} {b : ℕ} (hn : g'.names = store (busKey name p) b g.names) (ha : At ns g' name p b) : NamedAll ns g' := by
  intro name' q c hl
  by_cases hk : busKey name' q = busKey name p
  · obtain ⟨rfl, rfl⟩ := busKey_inj hk
    rw [hn, lookup_store_self] at hl
    cases hl
    exact ha
  · rw [hn, lookup_store_ne _ hk] at hl
    exact (h name' q c hl).append l hb

/-- The pairs of a node and a phase that get a name, in the order of the loop. -/
def nodePhases (ns : List DNode) : List (DNode × Char) := ns.flatMap fun n => (n.phases.filter (· ∈ anglePhases)).map fun p => (n, p)

/-- What holds after the loop over some of the nodes, `done` being the pairs treated. -/
structure BusInv (ns : List DNode) (done : List (DNode × Char)) (g : Grid M) : Prop where
  named : NamedAll ns g
  buses : g.buses.map (fun x => (x.name, x.phase, x.virtual)) =
    (done.filter fun d => d.1.parent = none).map fun d => (d.1.name, d.2, false)
  nominals : List.Forall₂ (fun d x => d.1.phasor d.2 = .ok x.nominal) (done.filter fun d => d.1.parent = none) g.buses
  have_ : ∀ d ∈ done, ∃ b, lookup (busKey d.1.name d.2) g.names = some b
  only : ∀ name p b, lookup (busKey name p) g.names = some b → ∃ d ∈ done, d.1.name = name ∧ d.2 = p
  slacks : List.Forall₂ (fun (d : DNode × Char) s => (d.1.parent = none → d.1.phasor d.2 = .ok s.2) ∧ At ns g d.1.name d.2 s.1)
    (done.filter fun d => d.1.source) g.slacks

theorem busPhase_skip {n : DNode} {s : Grid M × Option Phasor} {p : Char} (hp : p ∉ anglePhases) : busPhase n s p = .ok s := by
  rw [busPhase, if_neg hp]

theorem busPhase_inv {ns : List DNode} {done : List (DNode × Char)} {n : DNode} (hn : n ∈ ns) {s s' : Grid M × Option Phasor} {p : Char}
    (hp : p ∈ anglePhases) (hI : BusInv ns done s.1) (h : busPhase n s p = .ok s') : BusInv ns (done ++ [(n, p)]) s'.1 := by
  rw [busPhase, if_pos hp] at h
  cases hq : n.parent with
  | some q =>
    simp only [hq] at h
    cases hb : s.1.bus q p with
    | error e => rw [hb] at h; cases h
    | ok b =>
      rw [hb] at h
      simp only [ok_bind'] at h
      have hat : At ns s.1 q p b := hI.named q p b (bus_ok.1 hb)
      obtain ⟨r, x, hr, hx, h1, h2, h3⟩ := hat
      -- the network with the new name, whatever the slacks
      have key : ∀ g' : Grid M, g'.buses = s.1.buses → g'.names = store (busKey n.name p) b s.1.names →
          (n.source = true → ∃ v, g'.slacks = s.1.slacks ++ [(b, v)]) → (n.source = false → g'.slacks = s.1.slacks) →
          BusInv ns (done ++ [(n, p)]) g' := by
        intro g' hb' hn' hs1 hs2
        have hat' : At ns g' n.name p b := ⟨r, x, .child n hn q r hq hr, by rw [hb']; exact hx, h1, h2, h3⟩
        have hmono : ∀ name p b, At ns s.1 name p b → At ns g' name p b := fun _ _ _ ha => ha.append [] (by rw [hb', List.append_nil])
        refine ⟨hI.named.store [] (by rw [hb', List.append_nil]) hn' hat', ?_, ?_, ?_, ?_, ?_⟩
        · rw [hb', hI.buses, List.filter_append]
          simp [hq]
        · rw [hb', List.filter_append]
          have : ([(n, p)] : List (DNode × Char)).filter (fun d => decide (d.1.parent = none)) = [] := by simp [hq]
          rw [this, List.append_nil]
          exact hI.nominals
        · intro d hd
          rw [hn']
          by_cases hk : busKey d.1.name d.2 = busKey n.name p
          · exact ⟨b, by rw [hk, lookup_store_self]⟩
          · rw [lookup_store_ne _ hk]
            rcases List.mem_append.1 hd with hd | hd
            · exact hI.have_ d hd
            · simp only [List.mem_singleton] at hd
              subst hd
              exact absurd rfl hk
        · intro name' p' b' hl
          rw [hn'] at hl
          by_cases hk : busKey name' p' = busKey n.name p
          · obtain ⟨rfl, rfl⟩ := busKey_inj hk
            exact ⟨(n, p'), by simp, rfl, rfl⟩
          · rw [lookup_store_ne _ hk] at hl
            obtain ⟨d, hd, h⟩ := hI.only name' p' b' hl
            exact ⟨d, by simp [hd], h⟩
        · have hold := hI.slacks.imp fun d t ht => (⟨ht.1, hmono _ _ _ ht.2⟩ : (d.1.parent = none → d.1.phasor d.2 = .ok t.2) ∧ At ns g' d.1.name d.2 t.1)
          rw [List.filter_append]
          by_cases hsrc : n.source = true
          · obtain ⟨v, hv⟩ := hs1 hsrc
            rw [hv]
            refine List.rel_append hold ?_
            rw [List.filter_cons, if_pos (by simp [hsrc])]
            exact .cons ⟨fun hc => (by rw [hq] at hc; cases hc), hat'⟩ .nil
          · rw [hs2 (by simpa using hsrc)]
            simpa [hsrc] using hold
      cases hsrc : n.source with
      | false =>
        simp only [hsrc] at h
        cases h
        exact key _ rfl rfl (by simp [hsrc]) (by simp)
      | true =>
        simp only [hsrc] at h
        cases hl : s.2 with
        | none => rw [hl] at h; cases h
        | some v =>
          rw [hl] at h
          cases h
          exact key _ rfl rfl (fun _ => ⟨v, rfl⟩) (by simp [hsrc])
  | none =>
    simp only [hq] at h
    cases hv : n.phasor p with
    | error e => rw [hv] at h; cases h
    | ok v =>
      rw [hv] at h
      simp only [ok_bind'] at h
      have key : ∀ g' : Grid M, g'.buses = s.1.buses ++ [⟨n.name, p, false, v, startPhasor v p⟩] →
          g'.names = store (busKey n.name p) s.1.buses.length s.1.names →
          (n.source = true → g'.slacks = s.1.slacks ++ [(s.1.buses.length, v)]) → (n.source = false → g'.slacks = s.1.slacks) →
          BusInv ns (done ++ [(n, p)]) g' := by
        intro g' hb' hn' hs1 hs2
        have hat' : At ns g' n.name p s.1.buses.length :=
          ⟨n.name, _, .self n hn hq, by rw [hb', List.getElem?_append_right (le_refl _), Nat.sub_self]; rfl, rfl, rfl, rfl⟩
        have hmono : ∀ name p b, At ns s.1 name p b → At ns g' name p b := fun _ _ _ ha => ha.append _ hb'
        refine ⟨hI.named.store _ hb' hn' hat', ?_, ?_, ?_, ?_, ?_⟩
        · rw [hb', List.map_append, hI.buses, List.filter_append]
          simp [hq]
        · rw [hb', List.filter_append]
          have : ([(n, p)] : List (DNode × Char)).filter (fun d => decide (d.1.parent = none)) = [(n, p)] := by simp [hq]
          rw [this]
          exact List.rel_append hI.nominals (.cons hv .nil)
        · intro d hd
          rw [hn']
          by_cases hk : busKey d.1.name d.2 = busKey n.name p
          · exact ⟨_, by rw [hk, lookup_store_self]⟩
          · rw [lookup_store_ne _ hk]
            rcases List.mem_append.1 hd with hd | hd
            · exact hI.have_ d hd
            · simp only [List.mem_singleton] at hd
              subst hd
              exact absurd rfl hk
        · intro name' p' b' hl
          rw [hn'] at hl
          by_cases hk : busKey name' p' = busKey n.name p
          · obtain ⟨rfl, rfl⟩ := busKey_inj hk
            exact ⟨(n, p'), by simp, rfl, rfl⟩
          · rw [lookup_store_ne _ hk] at hl
            obtain ⟨d, hd, h⟩ := hI.only name' p' b' hl
            exact ⟨d, by simp [hd], h⟩
        · have hold := hI.slacks.imp fun d t ht => (⟨ht.1, hmono _ _ _ ht.2⟩ : (d.1.parent = none → d.1.phasor d.2 = .ok t.2) ∧ At ns g' d.1.name d.2 t.1)
          rw [List.filter_append]
          by_cases hsrc : n.source = true
          · rw [hs1 hsrc]
            refine List.rel_append hold ?_
            rw [List.filter_cons, if_pos (by simp [hsrc])]
            exact .cons ⟨fun _ => hv, hat'⟩ .nil
          · rw [hs2 (by simpa using hsrc)]
            simpa [hsrc] using hold
      cases hsrc : n.source with
      | false =>
        simp only [hsrc, Grid.createBus] at h
        cases h
        exact key _ rfl rfl (by simp [hsrc]) (by simp)
      | true =>
        simp only [hsrc, Grid.createBus] at h
        cases h
        exact key _ rfl rfl (fun _ => rfl) (by simp [hsrc])

theorem nodeLoop_inv {ns : List DNode} {n : DNode} (hn : n ∈ ns) : ∀ (ps : List Char) (done : List (DNode × Char)) (s s' : Grid M × Option Phasor),
    BusInv ns done s.1 → ps.foldlM (busPhase n) s = .ok s' →
    BusInv ns (done ++ (ps.filter (· ∈ anglePhases)).map fun p => (n, p)) s'.1 := by
  intro ps
  induction ps with
  | nil =>
    intro done s s' hI h
    cases h
    simpa using hI
  | cons p ps ih =>
    intro done s s' hI h
    rw [List.foldlM_cons] at h
    cases hp : busPhase n s p with
    | error e => rw [hp] at h; cases h
    | ok s1 =>
      rw [hp] at h
      by_cases hm : p ∈ anglePhases
      · have := ih _ s1 s' (busPhase_inv hn hm hI hp) h
        simpa [List.filter_cons, hm] using this
      · rw [busPhase_skip hm] at hp
        cases hp
        have := ih _ s s' hI h
        simpa [List.filter_cons, hm] using this

theorem createBuses_inv {ns : List DNode} {g : Grid M} (h : createBuses ns (Grid.empty M) = .ok g) : BusInv ns (nodePhases ns) g := by
  have main : ∀ (ms : List DNode) (done : List (DNode × Char)) (s s' : Grid M × Option Phasor), (∀ m ∈ ms, m ∈ ns) → BusInv ns done s.1 →
      ms.foldlM (fun s n => n.phases.foldlM (busPhase n) s) s = .ok s' → BusInv ns (done ++ nodePhases ms) s'.1 := by
    intro ms
    induction ms with
    | nil =>
      intro done s s' _ hI h
      cases h
      simpa [nodePhases] using hI
    | cons m ms ih =>
      intro done s s' hm hI h
      rw [List.foldlM_cons] at h
      cases hp : m.phases.foldlM (busPhase m) s with
      | error e => rw [hp] at h; cases h
      | ok s1 =>
        rw [hp] at h
        have := ih _ s1 s' (fun x hx => hm x (by simp [hx])) (nodeLoop_inv (hm m (by simp)) _ _ _ _ hI hp) h
        simpa [nodePhases] using this
  rw [createBuses] at h
  cases hf : ns.foldlM (fun s n => n.phases.foldlM (busPhase n) s) ((Grid.empty M), (none : Option Phasor)) with
  | error e => rw [hf] at h; cases h
  | ok s =>
    rw [hf] at h
    cases h
    have := main ns [] (Grid.empty M, none) s (fun _ h => h)
      ⟨fun _ _ _ h => (by cases h), rfl, .nil, fun _ h => (by simp at h), fun _ _ _ h => (by cases h), .nil⟩ hf
    simpa using this

/-! ### What each model adds -/

/-- The devices of a network. -/
@[ext] structure Devs (M : Type) where
  lines : List (DLine M)
  transformers : List GXfmr
  switches : List GSwitch
  loads : List GLoad
  fuses : List GFuse
  capacitors : List GCap
  regulators : List GReg

instance : Zero (Devs M) := ⟨⟨[], [], [], [], [], [], []⟩⟩

instance : Add (Devs M) := ⟨fun a b => ⟨a.lines ++ b.lines, a.transformers ++ b.transformers, a.switches ++ b.switches, a.loads ++ b.loads,
  a.fuses ++ b.fuses, a.capacitors ++ b.capacitors, a.regulators ++ b.regulators⟩⟩

theorem Devs.ext' {a b : Devs M} (h1 : a.lines = b.lines) (h2 : a.transformers = b.transformers) (h3 : a.switches = b.switches)
    (h4 : a.loads = b.loads) (h5 : a.fuses = b.fuses) (h6 : a.capacitors = b.capacitors) (h7 : a.regulators = b.regulators) : a = b := by
  cases a; cases b; simp_all

instance : AddMonoid (Devs M) where
  add_assoc a b c := Devs.ext' (List.append_assoc ..) (List.append_assoc ..) (List.append_assoc ..) (List.append_assoc ..)
    (List.append_assoc ..) (List.append_assoc ..) (List.append_assoc ..)
  zero_add _ := rfl
  add_zero a := Devs.ext' (List.append_nil _) (List.append_nil _) (List.append_nil _) (List.append_nil _) (List.append_nil _)
    (List.append_nil _) (List.append_nil _)
  nsmul := nsmulRec

/-- The devices of a network. -/
def Grid.devs (g : Grid M) : Devs M := ⟨g.lines, g.transformers, g.switches, g.loads, g.fuses, g.capacitors, g.regulators⟩

/-- A loop that only adds devices: what each turn adds stays true of the network at the end. -/
theorem collectDevs {α : Type} (f : Grid M → α → Py (Grid M)) (P : Grid M → Prop) (hP : ∀ s s', P s → Ext s s' → P s') (Q : α → Prop)
    (R : Grid M → α → Devs M → Prop) (mono : ∀ s s' a new, R s a new → Ext s s' → R s' a new)
    (step : ∀ s a s', P s → Q a → f s a = .ok s' → Ext s s' ∧ ∃ new, s'.devs = s.devs + new ∧ R s' a new) :
    ∀ (as : List α) (s s' : Grid M), P s → (∀ a ∈ as, Q a) → as.foldlM f s = .ok s' →
      Ext s s' ∧ ∃ news : List (Devs M), s'.devs = s.devs + news.sum ∧ List.Forall₂ (R s') as news := by
  intro as
  induction as with
  | nil =>
    intro s s' _ _ h
    cases h
    exact ⟨Ext.refl _, [], by simp, .nil⟩
  | cons a as ih =>
    intro s s' hs hq h
    rw [List.foldlM_cons] at h
    obtain ⟨s1, ha, h⟩ := bind_eq_ok h
    obtain ⟨he, new, hn, hR⟩ := step s a s1 hs (hq a (by simp)) ha
    obtain ⟨he', news, hns, hF⟩ := ih s1 s' (hP _ _ hs he) (fun b hb => hq b (by simp [hb])) h
    exact ⟨he.trans he', new :: news, by rw [hns, hn, List.sum_cons, add_assoc], .cons (mono _ _ _ _ hR he') hF⟩

/-- The same for a loop each turn of which adds at most one device of one kind. -/
theorem collectKind {α β : Type} (f : Grid M → α → Py (Grid M)) (P : Grid M → Prop) (hP : ∀ s s', P s → Ext s s' → P s') (Q : α → Prop)
    (keep : α → Bool) (R : Grid M → α → β → Prop) (mono : ∀ s s' a x, R s a x → Ext s s' → R s' a x) (mk : List β → Devs M) (hmk0 : mk [] = 0)
    (hmk : ∀ a b, mk (a ++ b) = mk a + mk b)
    (step : ∀ s a s', P s → Q a → f s a = .ok s' → Ext s s' ∧ ((keep a = false ∧ s'.devs = s.devs) ∨
      (keep a = true ∧ ∃ x, s'.devs = s.devs + mk [x] ∧ R s' a x))) :
    ∀ (as : List α) (s s' : Grid M), P s → (∀ a ∈ as, Q a) → as.foldlM f s = .ok s' →
      Ext s s' ∧ ∃ xs : List β, s'.devs = s.devs + mk xs ∧ List.Forall₂ (R s') (as.filter keep) xs := by
  intro as
  induction as with
  | nil =>
    intro s s' _ _ h
    cases h
    exact ⟨Ext.refl _, [], by simp [hmk0], .nil⟩
  | cons a as ih =>
    intro s s' hs hq h
    rw [List.foldlM_cons] at h
    obtain ⟨s1, ha, h⟩ := bind_eq_ok h
    obtain ⟨he, hst⟩ := step s a s1 hs (hq a (by simp)) ha
    obtain ⟨he', xs, hns, hF⟩ := ih s1 s' (hP _ _ hs he) (fun b hb => hq b (by simp [hb])) h
    refine ⟨he.trans he', ?_⟩
    rcases hst with ⟨hk, hd⟩ | ⟨hk, x, hd, hR⟩
    · exact ⟨xs, by rw [hns, hd], by rw [List.filter_cons, hk]; exact hF⟩
    · refine ⟨x :: xs, ?_, ?_⟩
      · rw [hns, hd, add_assoc, ← hmk]; rfl
      · rw [List.filter_cons, hk]; exact .cons (mono _ _ _ _ hR he') hF

/-! ### Loads -/

theorem TermAt.mono {ns : List DNode} {g g' : Grid M} {name : Option Txt} {o : Option Char} {r : Ref} (h : TermAt ns g name o r) (e : Ext g g') :
    TermAt ns g' name o r := by
  cases o with
  | none => exact h
  | some p =>
    obtain ⟨b, hb, ha⟩ := h
    exact ⟨b, hb, ha.mono e⟩

theorem LoadAt.mono {ns : List DNode} {g g' : Grid M} {l : DLoad} {pl : PhaseLoad} {x : GLoad} (h : LoadAt ns g l pl x) (e : Ext g g') :
    LoadAt ns g' l pl x := by
  obtain ⟨a, rest, h1, h2, h3, h4⟩ := h
  exact ⟨a, rest, h1, h2.mono e, h3.mono e, h4⟩

theorem splitOnAux_ending (s w : Txt) (hw : '_' ∉ w) :
    ∃ num, (splitOnAux '_' w s).getLast? = some num ∧ '_' ∉ num ∧ (w ++ s = num ∨ ∃ pre, w ++ s = pre ++ '_' :: num) := by
  induction s generalizing w with
  | nil => exact ⟨w, rfl, hw, .inl (List.append_nil w)⟩
  | cons c cs ih =>
    rw [splitOnAux]
    split_ifs with hc
    · obtain ⟨num, h1, h2, h3⟩ := ih [] (by simp)
      refine ⟨num, by rw [List.getLast?_cons, h1]; rfl, h2, .inr ?_⟩
      rw [List.nil_append] at h3
      rcases h3 with rfl | ⟨pre, rfl⟩
      · exact ⟨w, by rw [hc]⟩
      · exact ⟨w ++ c :: pre, by simp⟩
    · obtain ⟨num, h1, h2, h3⟩ := ih (w ++ [c]) (by simp [hw, Ne.symm hc])
      exact ⟨num, h1, h2, by simpa using h3⟩

theorem splitOn_ending (name : Txt) : NameEnding name (((splitOn '_' name).getLast?).getD []) := by
  obtain ⟨num, h1, h2, h3⟩ := splitOnAux_ending name [] (by simp)
  rw [splitOn, h1]
  exact ⟨h2, h3⟩

theorem phaseLoad_step {ns : List DNode} {g g' : Grid M} (hN : Named ns g) (l : DLoad) (ho : Outer l.connecting) (pl : PhaseLoad)
    (h : phaseLoad l g pl = .ok g') : Ext g g' ∧ ∃ x, g'.devs = g.devs + ⟨[], [], [], [x], [], [], []⟩ ∧ LoadAt ns g' l pl x := by
  rw [phaseLoad] at h
  cases hp : pl.phase with
  | none => simp only [hp] at h; cases h
  | some ph =>
    cases ph with
    | nil => simp only [hp] at h; cases h
    | cons a rest =>
      simp only [hp] at h
      obtain ⟨f, hf, h⟩ := bind_eq_ok h
      obtain ⟨t, ht, h⟩ := bind_eq_ok h
      cases h
      have e : Ext g { g with loads := g.loads ++
          [⟨f, t, pl.p, pl.q, pl.z, pl.i, ((splitOn '_' l.name).getLast?).getD [], a :: rest, l.triplex⟩] } := .of_eq rfl rfl rfl
      refine ⟨e, ⟨f, t, pl.p, pl.q, pl.z, pl.i, ((splitOn '_' l.name).getLast?).getD [], a :: rest, l.triplex⟩, ?_, a, rest, hp,
        (hN.bus ho hf).mono e, ?_, rfl, rfl, rfl, rfl, rfl, splitOn_ending _, rfl⟩
      · apply Devs.ext' <;> simp [Grid.devs, HAdd.hAdd, Add.add]
      · cases rest with
        | nil => cases ht; rfl
        | cons b rest =>
          rw [secondBus] at ht
          obtain ⟨c, hc, rfl⟩ := map_eq_ok ht
          exact ⟨c, rfl, l.connecting, rfl, (hN.bus ho hc).mono e⟩

theorem createLoad_step {ns : List DNode} {g g' : Grid M} (hN : Named ns g) (l : DLoad) (ho : Outer l.connecting) (h : createLoad l g = .ok g') :
    Ext g g' ∧ ∃ xs, g'.devs = g.devs + ⟨[], [], [], xs, [], [], []⟩ ∧ List.Forall₂ (LoadAt ns g' l) l.loads xs := by
  have := collectKind (phaseLoad l) (Named ns) (fun _ _ h e => h.mono e) (fun _ => True) (fun _ => true) (fun g pl x => LoadAt ns g l pl x)
    (fun _ _ _ _ h e => h.mono e) (fun xs => ⟨[], [], [], xs, [], [], []⟩) rfl (fun _ _ => rfl)
    (fun s a s' hs _ h => by
      obtain ⟨e, x, hx, hR⟩ := phaseLoad_step hs l ho a h
      exact ⟨e, .inr ⟨rfl, x, hx, hR⟩⟩) l.loads g g' hN (fun _ _ => trivial) h
  simpa using this

/-! ### Fuses and switches -/

theorem FuseAt.mono {ns : List DNode} {g g' : Grid M} {d : DDevice} {w : PhaseWire} {x : GFuse} (h : FuseAt ns g d w x) (e : Ext g g') :
    FuseAt ns g' d w x := by
  obtain ⟨h1, h2, h3, h4⟩ := h
  exact ⟨h1.mono e, h2.mono e, h3.mono e, h4⟩

theorem SwitchAt.mono {ns : List DNode} {g g' : Grid M} {d : DDevice} {w : PhaseWire} {x : GSwitch} (h : SwitchAt ns g d w x) (e : Ext g g') :
    SwitchAt ns g' d w x := by
  obtain ⟨h1, h2, h3⟩ := h
  exact ⟨h1.mono e, h2.mono e, h3⟩

theorem fuseWire_step {ns : List DNode} {g g' : Grid M} (hN : Named ns g) (d : DDevice) (ho : OuterOf d.frm ∧ OuterOf d.to_) (w : PhaseWire)
    (h : fuseWire d g w = .ok g') : Ext g g' ∧ ∃ x, g'.devs = g.devs + ⟨[], [], [], [], [x], [], []⟩ ∧ FuseAt ns g' d w x := by
  rw [fuseWire] at h
  obtain ⟨f, hf, h⟩ := bind_eq_ok h
  obtain ⟨t, ht, h⟩ := bind_eq_ok h
  obtain ⟨m, hm, h⟩ := bind_eq_ok h
  obtain ⟨e, hi⟩ := createBus_ext g (((g.buses[f]?).map PhaseBus.name).getD []) "-Fuse".toList (by simp [innerEndings]) w.phase
    (.polar (1 / 10) (1 / 10)) (.polar (1 / 10) (1 / 10))
  cases h
  have e' := e.trans (b := _) (c := { (g.createBus ((((g.buses[f]?).map PhaseBus.name).getD []) ++ "-Fuse".toList) w.phase true
    (.polar (1 / 10) (1 / 10)) (.polar (1 / 10) (1 / 10))).1 with fuses := g.fuses ++ [⟨f, t, g.buses.length, m, .good, w.phase⟩] }) (.of_eq rfl rfl rfl)
  refine ⟨e', ⟨f, t, g.buses.length, m, .good, w.phase⟩, ?_, (hN.busOf ho.1 hf).mono e', (hN.busOf ho.2 ht).mono e', ?_, rfl, rfl, ?_⟩
  · apply Devs.ext' <;> simp [Grid.devs, HAdd.hAdd, Add.add, Grid.createBus]
  · exact hi
  · rw [fuseLimit] at hm
    cases hl : d.limit with
    | none => rw [hl] at hm; cases hm
    | some t => rw [hl] at hm; exact ⟨t, rfl, hm⟩

theorem switchWire_step {ns : List DNode} {g g' : Grid M} (hN : Named ns g) (d : DDevice) (ho : OuterOf d.frm ∧ OuterOf d.to_) (w : PhaseWire)
    (hw : w.phase ∈ d.phases)
    (h : switchWire d g w = .ok g') : Ext g g' ∧ ∃ x, g'.devs = g.devs + ⟨[], [], [x], [], [], [], []⟩ ∧ SwitchAt ns g' d w x := by
  rw [switchWire, if_pos hw] at h
  obtain ⟨f, hf, h⟩ := bind_eq_ok h
  obtain ⟨t, ht, h⟩ := bind_eq_ok h
  cases h
  have e : Ext g { g with switches := g.switches ++ [⟨f, t, if w.isOpen = some true then .opened else .closed, w.phase⟩] } := .of_eq rfl rfl rfl
  refine ⟨e, ⟨f, t, if w.isOpen = some true then .opened else .closed, w.phase⟩, ?_, (hN.busOf ho.1 hf).mono e, (hN.busOf ho.2 ht).mono e, rfl, ?_⟩
  · apply Devs.ext' <;> simp [Grid.devs, HAdd.hAdd, Add.add]
  · by_cases hc : w.isOpen = some true <;> simp [hc]

theorem createDevice_step {ns : List DNode} {g g' : Grid M} (hN : Named ns g) (d : DDevice) (ho : OuterOf d.frm ∧ OuterOf d.to_)
    (h : createDevice d g = .ok g') : Ext g g' ∧
      if d.isFuse then ∃ xs, g'.devs = g.devs + ⟨[], [], [], [], xs, [], []⟩ ∧ List.Forall₂ (FuseAt ns g' d) d.wires xs
      else ∃ xs, g'.devs = g.devs + ⟨[], [], xs, [], [], [], []⟩ ∧
        List.Forall₂ (SwitchAt ns g' d) (d.wires.filter fun w => w.phase ∈ d.phases) xs := by
  rw [createDevice] at h
  by_cases hf : d.isFuse = true
  · rw [if_pos hf] at h ⊢
    have := collectKind (fuseWire d) (Named ns) (fun _ _ h e => h.mono e) (fun _ => True) (fun _ => true) (fun g w x => FuseAt ns g d w x)
      (fun _ _ _ _ h e => h.mono e) (fun xs => ⟨[], [], [], [], xs, [], []⟩) rfl (fun _ _ => rfl)
      (fun s a s' hs _ h => by
        obtain ⟨e, x, hx, hR⟩ := fuseWire_step hs d ho a h
        exact ⟨e, .inr ⟨rfl, x, hx, hR⟩⟩) d.wires g g' hN (fun _ _ => trivial) h
    simpa using this
  · rw [if_neg hf] at h ⊢
    exact collectKind (switchWire d) (Named ns) (fun _ _ h e => h.mono e) (fun _ => True) (fun w => decide (w.phase ∈ d.phases))
      (fun g w x => SwitchAt ns g d w x) (fun _ _ _ _ h e => h.mono e) (fun xs => ⟨[], [], xs, [], [], [], []⟩) rfl (fun _ _ => rfl)
      (fun s a s' hs _ h => by
        by_cases hw : a.phase ∈ d.phases
        · obtain ⟨e, x, hx, hR⟩ := switchWire_step hs d ho a hw h
          exact ⟨e, .inr ⟨by simpa using hw, x, hx, hR⟩⟩
        · rw [switchWire, if_neg hw] at h
          cases h
          exact ⟨Ext.refl _, .inl ⟨by simpa using hw, rfl⟩⟩) d.wires g g' hN (fun _ _ => trivial) h

/-! ### Capacitors -/

theorem CapAt.mono {ns : List DNode} {g g' : Grid M} {objs : List (Txt × Obj)} {c : DCap} {pc : Char × ℚ} {x : GCap} (h : CapAt ns g objs c pc x)
    (e : Ext g g') : CapAt ns g' objs c pc x := by
  obtain ⟨o, t, v, h1, h2, h3⟩ := h
  exact ⟨o, t, v, h1, h2.mono e, h3⟩

theorem setStart_ext (g : Grid M) (b : ℕ) (v : Phasor) : Ext g (g.setStart b v) := by
  refine ⟨fun i x hx => ?_, fun _ _ _ => rfl, by simp [Grid.setStart], fun i x hi hx => ?_, rfl⟩
  · by_cases hb : b = i
    · subst hb
      exact ⟨{ x with start := v }, by simp [Grid.setStart, hx], rfl, rfl, rfl, rfl⟩
    · exact ⟨x, by simp [Grid.setStart, List.getElem?_modify, hb, hx], rfl, rfl, rfl, rfl⟩
  · have : (g.setStart b v).buses.length = g.buses.length := by simp [Grid.setStart]
    rw [List.getElem?_eq_none (by omega)] at hx; cases hx

theorem get_eq_ok {o : Obj} {k v : Txt} (h : o.get k = .ok v) : o.attr k = some v := by
  rw [Obj.get] at h
  rw [Obj.attr]
  cases hl : lookup k o.attrs with
  | none => simp only [hl] at h; cases h
  | some w => simp only [hl] at h; cases h; rfl

theorem phaseCapacitor_step {ns : List DNode} {g g' : Grid M} (hN : Named ns g) (objs : List (Txt × Obj)) (o : Obj) (c : DCap)
    (hobj : lookup c.name objs = some o) (ho : OuterOf (o.attr "parent".toList)) (pc : Char × ℚ) (hc : pc.1 ∈ c.connected)
    (h : phaseCapacitor o c g pc = .ok g') : Ext g g' ∧ ∃ x, g'.devs = g.devs + ⟨[], [], [], [], [], [x], []⟩ ∧ CapAt ns g' objs c pc x := by
  rw [phaseCapacitor, if_pos hc] at h
  obtain ⟨mode, hm, h⟩ := bind_eq_ok h
  obtain ⟨parent, hp, h⟩ := bind_eq_ok h
  obtain ⟨b, hb, h⟩ := bind_eq_ok h
  obtain ⟨v, hv, h⟩ := bind_eq_ok h
  obtain ⟨ct, hct, hm⟩ := bind_eq_ok hm
  obtain ⟨vt, hvt, hv⟩ := bind_eq_ok hv
  by_cases hv0 : v = 0
  · simp only [hv0, if_pos] at h; cases h
  simp only [if_neg hv0] at h
  obtain ⟨sw, hsw, h⟩ := bind_eq_ok h
  cases h
  have hpa := get_eq_ok hp
  have e : Ext g { g.setStart b (.nominal |v| pc.1) with capacitors := g.capacitors ++ [⟨b, pc.2, v, capMode c mode, c.high, c.low, sw⟩] } :=
    (setStart_ext g b _).trans (.of_eq rfl rfl rfl)
  have hout : Outer parent := ho parent hpa
  refine ⟨e, ⟨b, pc.2, v, capMode c mode, c.high, c.low, sw⟩, ?_, o, ct, vt, hobj, ⟨parent, hpa, (hN.bus hout hb).mono e⟩, rfl, get_eq_ok hvt, hv, hv0,
    rfl, rfl, get_eq_ok hct, ?_⟩
  · apply Devs.ext' <;> simp [Grid.devs, HAdd.hAdd, Add.add, Grid.setStart]
  · dsimp only
    rw [capModeOf] at hm
    rw [capInitial] at hsw
    have hmode : (mode = .manual → ct = "MANUAL".toList) ∧ (mode = .volt → ct = "VOLT".toList) ∧ (mode = .var → ct = "VAR".toList) ∧
        (mode = .varvolt → ct = "VARVOLT".toList) := by
      split_ifs at hm with h1 h2 h3 h4
      all_goals
        cases hm
        refine ⟨fun h => ?_, fun h => ?_, fun h => ?_, fun h => ?_⟩ <;> first | exact absurd h (by decide) | assumption
    obtain ⟨m1, m2, m3, m4⟩ := hmode
    refine ⟨?_, ?_, ?_, ?_, ?_, ?_⟩
    · intro hmm
      rw [capMode] at hmm
      split_ifs at hmm with h1
      · exact .inr ⟨m2 h1.1, h1.2⟩
      · exact .inl (m1 hmm)
    · intro hmm
      rw [capMode] at hmm
      split_ifs at hmm with h1
      exact m2 hmm
    · intro hmm
      rw [capMode] at hmm
      split_ifs at hmm with h1
      exact m3 hmm
    · intro hmm
      rw [capMode] at hmm
      split_ifs at hmm with h1
      exact m4 hmm
    · intro hmm
      rw [if_neg hmm] at hsw
      cases hsw; rfl
    · intro hmm
      rw [if_pos hmm] at hsw
      cases ha : o.attr ("switch".toList ++ [pc.1]) with
      | none =>
        simp only [ha] at hsw
        cases hsw
        simp
      | some t =>
        simp only [ha] at hsw
        rw [capSwitchOf] at hsw
        split_ifs at hsw with h1 h2
        · cases hsw
          simp only [reduceCtorEq, Option.some.injEq, false_iff]
          subst h1
          decide
        · cases hsw
          simp [h2]

theorem createCapacitor_step {ns : List DNode} {g g' : Grid M} (hN : Named ns g) (objs : List (Txt × Obj)) (c : DCap)
    (ho : ∀ o n, lookup c.name objs = some o → o.attr "parent".toList = some n → Outer n) (h : createCapacitor objs c g = .ok g') :
    Ext g g' ∧ ∃ xs, g'.devs = g.devs + ⟨[], [], [], [], [], xs, []⟩ ∧
      List.Forall₂ (CapAt ns g' objs c) (c.caps.filter fun pc => pc.1 ∈ c.connected) xs := by
  rw [createCapacitor] at h
  cases hobj : lookup c.name objs with
  | none => simp only [hobj] at h; cases h
  | some o =>
    simp only [hobj] at h
    exact collectKind (phaseCapacitor o c) (Named ns) (fun _ _ h e => h.mono e) (fun _ => True) (fun pc => decide (pc.1 ∈ c.connected))
      (fun g w x => CapAt ns g objs c w x) (fun _ _ _ _ h e => h.mono e) (fun xs => ⟨[], [], [], [], [], xs, []⟩) rfl (fun _ _ => rfl)
      (fun s a s' hs _ h => by
        by_cases hw : a.1 ∈ c.connected
        · obtain ⟨e, x, hx, hR⟩ := phaseCapacitor_step hs objs o c hobj (fun n hn => ho o n hobj hn) a hw h
          exact ⟨e, .inr ⟨by simpa using hw, x, hx, hR⟩⟩
        · rw [phaseCapacitor, if_neg hw] at h
          cases h
          exact ⟨Ext.refl _, .inl ⟨by simpa using hw, rfl⟩⟩) c.caps g g' hN (fun _ _ => trivial) h

/-! ### Regulators -/

theorem RegAt.mono {ns : List DNode} {g g' : Grid M} {objs : List (Txt × Obj)} {r : DRegulator} {p : Char} {x : GReg} (h : RegAt ns g objs r p x)
    (e : Ext g g') : RegAt ns g' objs r p x := by
  obtain ⟨h1, h2, h3, h4⟩ := h
  exact ⟨h1.mono e, h2.mono e, h3.mono e, h4⟩

theorem phaseRegulator_step {ns : List DNode} {g g' : Grid M} (hN : Named ns g) (config : Obj) (r : DRegulator) (ho : OuterOf r.frm ∧ OuterOf r.to_)
    (step vTap : ℚ) (kind : RegType) (a b : ℤ) (p : Char) (h : phaseRegulator config r step vTap kind a b g p = .ok g') :
    Ext g g' ∧ ∃ x, g'.devs = g.devs + ⟨[], [], [], [], [], [], [x]⟩ ∧ AtOf ns g' r.frm p x.f ∧ AtOf ns g' r.to_ p x.t ∧ Inner g' x.c ∧
      (∃ t, config.attr ("tap_pos_".toList ++ [p]) = some t ∧ intOf t = .ok x.tap) ∧ x.step = step ∧ x.kind = kind ∧
      x.raiseTaps = a ∧ x.lowerTaps = b := by
  rw [phaseRegulator] at h
  obtain ⟨f, hf, h⟩ := bind_eq_ok h
  obtain ⟨t, ht, h⟩ := bind_eq_ok h
  obtain ⟨tap, htap, h⟩ := bind_eq_ok h
  obtain ⟨tt, htt, htap⟩ := bind_eq_ok htap
  obtain ⟨e, hi⟩ := createBus_ext g (((g.buses[f]?).map PhaseBus.name).getD []) "-Reg".toList (by simp [innerEndings]) p
    (.polar (1 / 10) (1 / 10)) (.polar (1 / 10) (1 / 10))
  by_cases h0 : vTap = 0
  · simp only [if_pos h0] at h; cases h
  simp only [if_neg h0] at h
  cases h
  have e' := e.trans (b := _) (c := { (g.createBus ((((g.buses[f]?).map PhaseBus.name).getD []) ++ "-Reg".toList) p true
    (.polar (1 / 10) (1 / 10)) (.polar (1 / 10) (1 / 10))).1 with regulators := g.regulators ++ [⟨f, t, g.buses.length, tap, step, kind, a, b⟩] })
    (.of_eq rfl rfl rfl)
  refine ⟨e', ⟨f, t, g.buses.length, tap, step, kind, a, b⟩, ?_, (hN.busOf ho.1 hf).mono e', (hN.busOf ho.2 ht).mono e', ?_, ⟨tt, get_eq_ok htt, htap⟩,
    rfl, rfl, rfl, rfl⟩
  · apply Devs.ext' <;> simp [Grid.devs, HAdd.hAdd, Add.add, Grid.createBus]
  · exact hi

theorem createRegulator_step {ns : List DNode} {g g' : Grid M} (hN : Named ns g) (objs : List (Txt × Obj)) (r : DRegulator)
    (ho : OuterOf r.frm ∧ OuterOf r.to_) (h : createRegulator objs r g = .ok g') :
    Ext g g' ∧ ∃ xs, g'.devs = g.devs + ⟨[], [], [], [], [], [], xs⟩ ∧ List.Forall₂ (RegAt ns g' objs r) r.phases xs := by
  rw [createRegulator] at h
  split_ifs at h with h1 h2
  cases hobj : lookup r.name objs with
  | none => simp only [hobj] at h; cases h
  | some o =>
    simp only [hobj] at h
    obtain ⟨k, hk, h⟩ := bind_eq_ok h
    cases hcfg : lookup k objs with
    | none => simp only [hcfg] at h; cases h
    | some config =>
      simp only [hcfg] at h
      cases hreg : r.regulation with
      | none => simp only [hreg] at h; cases h
      | some reg =>
        cases hhi : r.high with
        | none => simp only [hreg, hhi] at h; cases h
        | some hi =>
          cases hlo : r.low with
          | none => simp only [hreg, hhi, hlo] at h; cases h
          | some lo =>
            simp only [hreg, hhi, hlo] at h
            by_cases h0 : hi + lo = 0
            · rw [if_pos h0] at h; cases h
            rw [if_neg h0] at h
            obtain ⟨kind, hkind, h⟩ := bind_eq_ok h
            obtain ⟨control, _, h⟩ := bind_eq_ok h
            by_cases hcon : control ∉ regControls
            · rw [if_pos hcon] at h; cases h
            rw [if_neg hcon] at h
            obtain ⟨center, _, h⟩ := bind_eq_ok h
            obtain ⟨_, _, h⟩ := bind_eq_ok h
            obtain ⟨raiseTaps, hrt, h⟩ := bind_eq_ok h
            obtain ⟨lowerTaps, hlt, h⟩ := bind_eq_ok h
            obtain ⟨u1, hu1, hrt⟩ := bind_eq_ok hrt
            obtain ⟨u2, hu2, hlt⟩ := bind_eq_ok hlt
            by_cases hr0 : raiseTaps = 0
            · rw [if_pos hr0] at h; cases h
            rw [if_neg hr0] at h
            have hne : ((hi + lo : ℤ) : ℚ) ≠ 0 := by exact_mod_cast h0
            have := collectKind _ (Named ns) (fun _ _ h e => h.mono e) (fun _ => True) (fun _ => true) (fun g w x => RegAt ns g objs r w x)
              (fun _ _ _ _ h e => h.mono e) (fun xs => ⟨[], [], [], [], [], [], xs⟩) rfl (fun _ _ => rfl)
              (fun s a s' hs _ h => by
                obtain ⟨e, x, hx, h1, h2, h3, ⟨t, ht1, ht2⟩, h4, h5, h6, h7⟩ := phaseRegulator_step hs config r ho _ _ _ _ _ a h
                refine ⟨e, .inr ⟨rfl, x, hx, h1, h2, h3, o, k, config, t, reg, hi, lo, hobj, get_eq_ok hk, hcfg, ht1, ht2, hreg, hhi, hlo, h0, ?_, ?_,
                  u1, u2, get_eq_ok hu1, by rw [h6, hrt], get_eq_ok hu2, by rw [h7, hlt]⟩⟩
                · rw [h4, div_mul_cancel₀ _ hne, mul_comm]
                · rw [h5, hkind]) r.phases g g' hN (fun _ _ => trivial) h
            simpa using this

/-! ### Transformers -/

theorem mapM_forall₂ {ε α β : Type} {f : α → Except ε β} : ∀ {as : List α} {bs : List β}, as.mapM f = .ok bs →
    List.Forall₂ (fun a b => f a = .ok b) as bs := by
  intro as
  induction as with
  | nil => intro bs h; cases h; exact .nil
  | cons a as ih =>
    intro bs h
    rw [List.mapM_cons] at h
    obtain ⟨b, hb, h⟩ := bind_eq_ok h
    obtain ⟨cs, hcs, h⟩ := bind_eq_ok h
    cases h
    exact .cons hb (ih hcs)

theorem CoilAt.mono {ns : List DNode} {g g' : Grid M} {t : DTransformer} {i : ℕ} {x : GXfmr} (h : CoilAt ns g t i x) (e : Ext g g') :
    CoilAt ns g' t i x := by
  obtain ⟨p, fp, fn, tp, tn, v1, v2, d1, d2, r, y, s, h1, h2, h3, h4, h5, h6, h7⟩ := h
  exact ⟨p, fp, fn, tp, tn, v1, v2, d1, d2, r, y, s, h1, h2, h3.mono e, h4.mono e, h5.mono e, h6.mono e, h7⟩

theorem CenterTapAt.mono {ns : List DNode} {g g' : Grid M} {t : DTransformer} {x : GXfmr} (h : CenterTapAt ns g t x) (e : Ext g g') :
    CenterTapAt ns g' t x := by
  obtain ⟨p, f, b0, b1, t1, b2, t2, v0, v1, v2, r0, r1, r2, x0, x1, x2, s, h1, h2, h3, h4, h5, h6, h7, h8, h9⟩ := h
  exact ⟨p, f, b0, b1, t1, b2, t2, v0, v1, v2, r0, r1, r2, x0, x1, x2, s, h1, h2, h3.mono e, h4.mono e, h5.mono e, h6.mono e, h7.mono e,
    h8.mono e, h9⟩

theorem phaseList_get {d1 d2 : Bool} {phases : List Char} {i : ℕ} {c : Char × Char × Char × Char} (h : (phaseList d1 d2 phases)[i]? = some c) :
    ∃ p q, phases[i]? = some p ∧ cycleNext phases i = some q ∧ c = (p, if d1 then q else 'N', p, if d2 then q else 'N') := by
  rw [phaseList, List.getElem?_map] at h
  obtain ⟨⟨p, q⟩, hz, rfl⟩ := Option.map_eq_some_iff.1 h
  rw [List.getElem?_zip_eq_some] at hz
  obtain ⟨h1, h2⟩ := hz
  refine ⟨p, q, h1, ?_, rfl⟩
  have hi : i < phases.length := by
    by_contra hc
    rw [List.getElem?_eq_none (by omega)] at h1; cases h1
  rw [List.getElem?_rotate hi] at h2
  exact h2

theorem coilTerminal_at {ns : List DNode} {g : Grid M} (hN : Named ns g) {name : Option Txt} (ho : OuterOf name) {phases : List Char}
    {d : Bool} {q : Char} {r : Ref} (hq : q ≠ 'N') (h : coilTerminal g name phases (if d then q else 'N') = .ok r) :
    TermAt ns g name (if d then some q else none) r := by
  cases d with
  | false => cases h; rfl
  | true =>
    simp only [if_true, coilTerminal, if_neg hq] at h ⊢
    split_ifs at h with h1
    obtain ⟨b, hb, rfl⟩ := map_eq_ok h
    exact ⟨b, rfl, hN.busOf ho hb⟩

theorem createThreePhase_step {ns : List DNode} {g g' : Grid M} (hN : Named ns g) (t : DTransformer) (ho : OuterOf t.frm ∧ OuterOf t.to_)
    (hn : 'N' ∉ t.phases) (h : createThreePhase t g = .ok g') :
    Ext g g' ∧ ∃ xs, g'.devs = g.devs + ⟨[], xs, [], [], [], [], []⟩ ∧ List.Forall₂ (CoilAt ns g' t) (List.range t.phases.length) xs := by
  rw [createThreePhase] at h
  cases hv1 : t.w1.voltage with
  | none => simp only [hv1] at h; cases h
  | some v1 =>
  cases hv2 : t.w2.voltage with
  | none => simp only [hv1, hv2] at h; cases h
  | some v2 =>
  cases hr : t.w2.resistance with
  | none => simp only [hv1, hv2, hr] at h; cases h
  | some r =>
  simp only [hv1, hv2, hr] at h
  split_ifs at h with h0
  obtain ⟨_, _, h⟩ := bind_eq_ok h
  cases hs : t.w2.power with
  | none => simp only [hs] at h; cases h
  | some s =>
  simp only [hs] at h
  split_ifs at h with h1 h2
  obtain ⟨cs, hcs, h⟩ := bind_eq_ok h
  cases h
  have e : Ext g { g with transformers := g.transformers ++ cs } := .of_eq rfl rfl rfl
  refine ⟨e, cs, ?_, ?_⟩
  · apply Devs.ext' <;> simp [Grid.devs, HAdd.hAdd, Add.add]
  · have hF := mapM_forall₂ hcs
    rw [List.forall₂_iff_get] at hF ⊢
    obtain ⟨hl, hF⟩ := hF
    have hpl : (phaseList (decide (t.w1.connection = some 'D')) (decide (t.w2.connection = some 'D')) t.phases).length = t.phases.length := by
      simp [phaseList]
    refine ⟨by rw [List.length_range, ← hl, hpl], fun i hi hi' => ?_⟩
    have hip : i < t.phases.length := by simpa using hi
    obtain ⟨p, q, hp, hq, hc⟩ := phaseList_get (List.getElem?_eq_getElem (by rw [hpl]; exact hip : i < _))
    have := hF i (by rw [hpl]; exact hip) hi'
    rw [List.get_eq_getElem, hc, coilOf] at this
    obtain ⟨fp, hfp, this⟩ := bind_eq_ok this
    obtain ⟨fn, hfn, this⟩ := bind_eq_ok this
    obtain ⟨tp, htp, this⟩ := bind_eq_ok this
    obtain ⟨tn, htn, this⟩ := bind_eq_ok this
    split_ifs at this with h3
    simp only [Except.ok.injEq] at this
    have hqn : q ≠ 'N' := by
      rintro rfl
      exact hn (List.mem_of_getElem? hq)
    have a1 := (coilTerminal_at hN ho.1 hqn hfn).mono e
    have a2 := (coilTerminal_at hN ho.2 hqn htn).mono e
    simp only [List.get_eq_getElem, List.getElem_range]
    refine ⟨p, fp, fn, tp, tn, v1, v2, _, _, _, _, s, this.symm, hp, (hN.busOf ho.1 hfp).mono e, ?_, (hN.busOf ho.2 htp).mono e, ?_, hv1, hv2,
      by simp, by simp, ?_, rfl, hs, h2, h0, h3⟩
    · simpa [hq] using a1
    · simpa [hq] using a2
    · rw [mul_div_cancel_right₀ _ (by norm_num : (2 : ℚ) ≠ 0), hr]

theorem createCenterTap_step {ns : List DNode} {g g' : Grid M} (hN : Named ns g) (t : DTransformer) (ho : OuterOf t.frm ∧ OuterOf t.to_)
    (h : createCenterTap t g = .ok g') : Ext g g' ∧ ∃ x, g'.devs = g.devs + ⟨[], [x], [], [], [], [], []⟩ ∧ CenterTapAt ns g' t x := by
  rw [createCenterTap] at h
  cases hp : t.phases with
  | nil => simp only [hp] at h; cases h
  | cons p ps =>
  cases hx : t.reactances with
  | nil => simp only [hp, hx] at h; cases h
  | cons x0 xs =>
  cases xs with
  | nil => simp only [hp, hx] at h; cases h
  | cons x1 xs =>
  cases xs with
  | nil => simp only [hp, hx] at h; cases h
  | cons x2 xs =>
  cases hv0 : t.w1.voltage with
  | none => simp only [hp, hx, hv0] at h; cases h
  | some v0 =>
  cases hv1 : t.w2.voltage with
  | none => simp only [hp, hx, hv0, hv1] at h; cases h
  | some v1 =>
  cases hv2 : t.w3.voltage with
  | none => simp only [hp, hx, hv0, hv1, hv2] at h; cases h
  | some v2 =>
  cases hr0 : t.w1.resistance with
  | none => simp only [hp, hx, hv0, hv1, hv2, hr0] at h; cases h
  | some r0 =>
  cases hr1 : t.w2.resistance with
  | none => simp only [hp, hx, hv0, hv1, hv2, hr0, hr1] at h; cases h
  | some r1 =>
  cases hr2 : t.w3.resistance with
  | none => simp only [hp, hx, hv0, hv1, hv2, hr0, hr1, hr2] at h; cases h
  | some r2 =>
  cases hs : t.w1.power with
  | none => simp only [hp, hx, hv0, hv1, hv2, hr0, hr1, hr2, hs] at h; cases h
  | some s =>
  simp only [hp, hx, hv0, hv1, hv2, hr0, hr1, hr2, hs] at h
  by_cases h1 : v1 = 0
  · rw [if_pos h1] at h; cases h
  rw [if_neg h1] at h
  by_cases h2 : (∃ z, t.shunt = some z ∧ z ≠ 0) ∧ (v0 = 0 ∨ s = 0)
  · rw [if_pos h2] at h; cases h
  rw [if_neg h2] at h
  obtain ⟨f, hf, h⟩ := bind_eq_ok h
  obtain ⟨e0, i0⟩ := createBus_ext g t.name "_primary".toList (by simp [innerEndings]) p (.polar (1 / 10) (1 / 10)) (.polar (1 / 10) (1 / 10))
  generalize hg0 : g.createBus (t.name ++ "_primary".toList) p true (.polar (1 / 10) (1 / 10)) (.polar (1 / 10) (1 / 10)) = g0 at h e0 i0
  have d0 : g0.1.devs = g.devs := by rw [← hg0]; rfl
  have n0 : g0.2 = g.buses.length ∧ g0.1.buses.length = g.buses.length + 1 := by rw [← hg0]; simp [Grid.createBus]
  obtain ⟨e1, i1⟩ := createBus_ext g0.1 t.name "_sending_1".toList (by simp [innerEndings]) p (.polar (1 / 10) (1 / 10)) (.polar (1 / 10) (1 / 10))
  generalize hg1 : g0.1.createBus (t.name ++ "_sending_1".toList) p true (.polar (1 / 10) (1 / 10)) (.polar (1 / 10) (1 / 10)) = g1 at h e1 i1
  have d1 : g1.1.devs = g0.1.devs := by rw [← hg1]; rfl
  have n1 : g1.2 = g0.1.buses.length ∧ g1.1.buses.length = g0.1.buses.length + 1 := by rw [← hg1]; simp [Grid.createBus]
  obtain ⟨t1, ht1, h⟩ := bind_eq_ok h
  obtain ⟨e2, i2⟩ := createBus_ext g1.1 t.name "_sending_2".toList (by simp [innerEndings]) p (.polar (1 / 10) (1 / 10)) (.polar (1 / 10) (1 / 10))
  generalize hg2 : g1.1.createBus (t.name ++ "_sending_2".toList) p true (.polar (1 / 10) (1 / 10)) (.polar (1 / 10) (1 / 10)) = g2 at h e2 i2
  have d2 : g2.1.devs = g1.1.devs := by rw [← hg2]; rfl
  have n2 : g2.2 = g1.1.buses.length ∧ g2.1.buses.length = g1.1.buses.length + 1 := by rw [← hg2]; simp [Grid.createBus]
  obtain ⟨t2, ht2, h⟩ := bind_eq_ok h
  split_ifs at h with h3
  cases h
  have e3 : Ext g2.1 { g2.1 with transformers := g2.1.transformers ++ [.centerTap f g0.2 g1.2 t1 g2.2 t2 v0 v1 v2 r0 r1 r2 x0 x1 x2 s] } :=
    .of_eq rfl rfl rfl
  have eA := e2.trans e3
  have eB := e1.trans eA
  have eC := e0.trans eB
  have N1 := hN.mono (e0.trans e1)
  have N2 := N1.mono e2
  refine ⟨eC, .centerTap f g0.2 g1.2 t1 g2.2 t2 v0 v1 v2 r0 r1 r2 x0 x1 x2 s, ?_, p, f, g0.2, g1.2, t1, g2.2, t2, v0, v1, v2, r0, r1, r2, x0, x1, x2, s,
    rfl, by rw [hp]; rfl, (hN.busOf ho.1 hf).mono eC, (N1.busOf ho.2 ht1).mono eA, (N2.busOf ho.2 ht2).mono e3, i0.mono eB, i1.mono eA, i2.mono e3,
    by omega, by omega, by omega, hv0, hv1, hv2, hr0, hr1, hr2, by rw [hx]; exact ⟨xs, rfl⟩, hs, h3, h1⟩
  have hd : g2.1.devs = g.devs := by rw [d2, d1, d0]
  rw [← hd]
  apply Devs.ext' <;> simp [Grid.devs, HAdd.hAdd, Add.add]

theorem createTransformer_step {ns : List DNode} {g g' : Grid M} (hN : Named ns g) (t : DTransformer) (ho : OuterOf t.frm ∧ OuterOf t.to_)
    (hn : 'N' ∉ t.phases) (h : createTransformer t g = .ok g') : Ext g g' ∧ ∃ xs, g'.devs = g.devs + ⟨[], xs, [], [], [], [], []⟩ ∧
      List.Forall₂ (fun (d : DTransformer × ℕ) x => XfmrAt ns g' d.1 d.2 x)
        (if t.centerTap then [(t, 0)] else (List.range t.phases.length).map fun i => (t, i)) xs := by
  rw [createTransformer] at h
  by_cases hc : t.centerTap = true
  · rw [if_pos hc] at h ⊢
    obtain ⟨e, x, hx, hR⟩ := createCenterTap_step hN t ho h
    exact ⟨e, [x], hx, .cons (by simp only [XfmrAt]; rw [if_pos hc]; exact hR) .nil⟩
  · rw [if_neg hc] at h ⊢
    obtain ⟨e, xs, hx, hR⟩ := createThreePhase_step hN t ho hn h
    refine ⟨e, xs, hx, ?_⟩
    rw [List.forall₂_map_left_iff]
    exact hR.imp fun i x h => by simp only [XfmrAt]; rw [if_neg hc]; exact h

/-! ### All models -/

/-- What one model adds. -/
structure Made (ns : List DNode) (objs : List (Txt × Obj)) (g : Grid M) (m : DModel M) (d : Devs M) : Prop where
  lines : d.lines = linePieces [m]
  transformers : List.Forall₂ (fun (d : DTransformer × ℕ) x => XfmrAt ns g d.1 d.2 x) (coilPieces [m]) d.transformers
  switches : List.Forall₂ (fun (d : DDevice × PhaseWire) x => SwitchAt ns g d.1 d.2 x) (switchPieces [m]) d.switches
  loads : List.Forall₂ (fun (d : DLoad × PhaseLoad) x => LoadAt ns g d.1 d.2 x) (loadPieces [m]) d.loads
  fuses : List.Forall₂ (fun (d : DDevice × PhaseWire) x => FuseAt ns g d.1 d.2 x) (fusePieces [m]) d.fuses
  capacitors : List.Forall₂ (fun (d : DCap × Char × ℚ) x => CapAt ns g objs d.1 d.2 x) (capPieces [m]) d.capacitors
  regulators : List.Forall₂ (fun (d : DRegulator × Char) x => RegAt ns g objs d.1 d.2 x) (regPieces [m]) d.regulators

theorem XfmrAt.mono {ns : List DNode} {g g' : Grid M} {t : DTransformer} {i : ℕ} {x : GXfmr} (h : XfmrAt ns g t i x) (e : Ext g g') :
    XfmrAt ns g' t i x := by
  unfold XfmrAt at h ⊢
  split_ifs at h ⊢ with hc
  · exact h.mono e
  · exact h.mono e

theorem Made.mono {ns : List DNode} {objs : List (Txt × Obj)} {g g' : Grid M} {m : DModel M} {d : Devs M} (h : Made ns objs g m d) (e : Ext g g') :
    Made ns objs g' m d :=
  ⟨h.lines, h.transformers.imp fun _ _ a => a.mono e, h.switches.imp fun _ _ a => a.mono e, h.loads.imp fun _ _ a => a.mono e,
    h.fuses.imp fun _ _ a => a.mono e, h.capacitors.imp fun _ _ a => a.mono e, h.regulators.imp fun _ _ a => a.mono e⟩

theorem createModel_step {ns : List DNode} {objs : List (Txt × Obj)} {g g' : Grid M} (hN : Named ns g) (m : DModel M) (ho : OuterModel objs m)
    (h : createModel objs g m = .ok g') : Ext g g' ∧ ∃ d, g'.devs = g.devs + d ∧ Made ns objs g' m d := by
  cases m with
  | node n =>
    cases h
    exact ⟨Ext.refl _, 0, (add_zero _).symm, rfl, .nil, .nil, .nil, .nil, .nil, .nil⟩
  | line l =>
    cases h
    refine ⟨.of_eq rfl rfl rfl, ⟨[l], [], [], [], [], [], []⟩, ?_, rfl, .nil, .nil, .nil, .nil, .nil, .nil⟩
    apply Devs.ext' <;> simp [Grid.devs, HAdd.hAdd, Add.add]
  | load l =>
    obtain ⟨e, xs, hx, hR⟩ := createLoad_step hN l ho h
    refine ⟨e, _, hx, rfl, .nil, .nil, ?_, .nil, .nil, .nil⟩
    simpa [loadPieces] using hR
  | device d =>
    obtain ⟨e, hd⟩ := createDevice_step hN d ho h
    refine ⟨e, ?_⟩
    by_cases hf : d.isFuse = true
    · rw [if_pos hf] at hd
      obtain ⟨xs, hx, hR⟩ := hd
      refine ⟨_, hx, rfl, .nil, ?_, .nil, ?_, .nil, .nil⟩
      · simp [switchPieces, hf]
      · simpa [fusePieces, hf] using hR
    · rw [if_neg hf] at hd
      obtain ⟨xs, hx, hR⟩ := hd
      refine ⟨_, hx, rfl, .nil, ?_, .nil, ?_, .nil, .nil⟩
      · simpa [switchPieces, hf] using hR
      · simp [fusePieces, hf]
  | capacitor c =>
    obtain ⟨e, xs, hx, hR⟩ := createCapacitor_step hN objs c ho h
    refine ⟨e, _, hx, rfl, .nil, .nil, .nil, .nil, ?_, .nil⟩
    simpa [capPieces] using hR
  | regulator r =>
    obtain ⟨e, xs, hx, hR⟩ := createRegulator_step hN objs r ho h
    refine ⟨e, _, hx, rfl, .nil, .nil, .nil, .nil, .nil, ?_⟩
    simpa [regPieces] using hR
  | transformer t =>
    obtain ⟨e, xs, hx, hR⟩ := createTransformer_step hN t ho.1 ho.2 h
    refine ⟨e, _, hx, rfl, ?_, .nil, .nil, .nil, .nil, .nil⟩
    simpa [coilPieces] using hR

/-- A network has the devices of a list of models, each where it belongs. -/
structure Placed (ns : List DNode) (objs : List (Txt × Obj)) (ms : List (DModel M)) (g : Grid M) : Prop where
  lines : g.lines = linePieces ms
  transformers : List.Forall₂ (fun (d : DTransformer × ℕ) x => XfmrAt ns g d.1 d.2 x) (coilPieces ms) g.transformers
  switches : List.Forall₂ (fun (d : DDevice × PhaseWire) x => SwitchAt ns g d.1 d.2 x) (switchPieces ms) g.switches
  loads : List.Forall₂ (fun (d : DLoad × PhaseLoad) x => LoadAt ns g d.1 d.2 x) (loadPieces ms) g.loads
  fuses : List.Forall₂ (fun (d : DDevice × PhaseWire) x => FuseAt ns g d.1 d.2 x) (fusePieces ms) g.fuses
  capacitors : List.Forall₂ (fun (d : DCap × Char × ℚ) x => CapAt ns g objs d.1 d.2 x) (capPieces ms) g.capacitors
  regulators : List.Forall₂ (fun (d : DRegulator × Char) x => RegAt ns g objs d.1 d.2 x) (regPieces ms) g.regulators

theorem forall₂_pieces {α β δ : Type} {pieces : List α → List β} (hp0 : pieces [] = []) (hp : ∀ a as, pieces (a :: as) = pieces [a] ++ pieces as)
    {D : Type} [AddMonoid D] {proj : D → List δ} (h0 : proj 0 = []) (hadd : ∀ a b, proj (a + b) = proj a ++ proj b) {R : β → δ → Prop}
    {T : α → D → Prop} (hT : ∀ a d, T a d → List.Forall₂ R (pieces [a]) (proj d)) :
    ∀ {as : List α} {ds : List D}, List.Forall₂ T as ds → List.Forall₂ R (pieces as) (proj ds.sum) := by
  intro as ds h
  induction h with
  | nil => rw [hp0, List.sum_nil, h0]; exact .nil
  | cons ha _ ih =>
    rw [hp, List.sum_cons, hadd]
    exact List.rel_append (hT _ _ ha) ih

theorem placed_of_made {ns : List DNode} {objs : List (Txt × Obj)} {ms : List (DModel M)} {g : Grid M} {ds : List (Devs M)}
    (hd : g.devs = ds.sum) (h : List.Forall₂ (Made ns objs g) ms ds) : Placed ns objs ms g := by
  have h1 : g.lines = ds.sum.lines := by rw [← hd]; rfl
  have h2 : g.transformers = ds.sum.transformers := by rw [← hd]; rfl
  have h3 : g.switches = ds.sum.switches := by rw [← hd]; rfl
  have h4 : g.loads = ds.sum.loads := by rw [← hd]; rfl
  have h5 : g.fuses = ds.sum.fuses := by rw [← hd]; rfl
  have h6 : g.capacitors = ds.sum.capacitors := by rw [← hd]; rfl
  have h7 : g.regulators = ds.sum.regulators := by rw [← hd]; rfl
  refine ⟨?_, ?_, ?_, ?_, ?_, ?_, ?_⟩
  · rw [h1]
    have := forall₂_pieces (pieces := linePieces (M := M)) rfl (fun a as => by rw [linePieces, linePieces, linePieces]; cases a <;> rfl)
      (proj := Devs.lines) rfl (fun _ _ => rfl) (R := Eq) (fun a d hm => by rw [hm.lines]; exact List.forall₂_same.2 fun _ _ => rfl) h
    exact (List.forall₂_eq_eq_eq ▸ this : linePieces ms = ds.sum.lines).symm
  · rw [h2]
    exact forall₂_pieces (pieces := coilPieces (M := M)) rfl (fun a as => by simp [coilPieces]) (proj := Devs.transformers) rfl (fun _ _ => rfl)
      (fun a d hm => hm.transformers) h
  · rw [h3]
    exact forall₂_pieces (pieces := switchPieces (M := M)) rfl (fun a as => by simp [switchPieces]) (proj := Devs.switches) rfl (fun _ _ => rfl)
      (fun a d hm => hm.switches) h
  · rw [h4]
    exact forall₂_pieces (pieces := loadPieces (M := M)) rfl (fun a as => by simp [loadPieces]) (proj := Devs.loads) rfl (fun _ _ => rfl)
      (fun a d hm => hm.loads) h
  · rw [h5]
    exact forall₂_pieces (pieces := fusePieces (M := M)) rfl (fun a as => by simp [fusePieces]) (proj := Devs.fuses) rfl (fun _ _ => rfl)
      (fun a d hm => hm.fuses) h
  · rw [h6]
    exact forall₂_pieces (pieces := capPieces (M := M)) rfl (fun a as => by simp [capPieces]) (proj := Devs.capacitors) rfl (fun _ _ => rfl)
      (fun a d hm => hm.capacitors) h
  · rw [h7]
    exact forall₂_pieces (pieces := regPieces (M := M)) rfl (fun a as => by simp [regPieces]) (proj := Devs.regulators) rfl (fun _ _ => rfl)
      (fun a d hm => hm.regulators) h

theorem busLoop_devs {n : DNode} {s s' : Grid M × Option Phasor} {p : Char} (h : busPhase n s p = .ok s') : s'.1.devs = s.1.devs := by
  by_cases hp : p ∈ anglePhases
  · rw [busPhase, if_pos hp] at h
    cases hq : n.parent with
    | some q =>
      simp only [hq] at h
      obtain ⟨b, _, h⟩ := bind_eq_ok h
      cases hs : n.source with
      | false => simp only [hs] at h; cases h; rfl
      | true =>
        simp only [hs] at h
        cases hl : s.2 with
        | none => rw [hl] at h; cases h
        | some v => rw [hl] at h; cases h; rfl
    | none =>
      simp only [hq] at h
      obtain ⟨v, _, h⟩ := bind_eq_ok h
      cases hs : n.source with
      | false => simp only [hs] at h; cases h; rfl
      | true => simp only [hs] at h; cases h; rfl
  · rw [busPhase_skip hp] at h; cases h; rfl

theorem foldlM_keep {ε σ α β : Type} {f : σ → α → Except ε σ} {proj : σ → β} (hf : ∀ s a s', f s a = .ok s' → proj s' = proj s) :
    ∀ (as : List α) (s s' : σ), as.foldlM f s = .ok s' → proj s' = proj s := by
  intro as
  induction as with
  | nil => intro s s' h; cases h; rfl
  | cons a as ih =>
    intro s s' h
    rw [List.foldlM_cons] at h
    obtain ⟨s1, h1, h⟩ := bind_eq_ok h
    rw [ih s1 s' h, hf s a s1 h1]

theorem createBuses_devs {ns : List DNode} {g : Grid M} (h : createBuses ns (Grid.empty M) = .ok g) : g.devs = 0 := by
  rw [createBuses] at h
  obtain ⟨s, hs, h⟩ := bind_eq_ok h
  cases h
  have := foldlM_keep (proj := fun s : Grid M × Option Phasor => s.1.devs)
    (fun s n s' h => foldlM_keep (proj := fun s : Grid M × Option Phasor => s.1.devs) (fun s p s' h => busLoop_devs h) n.phases s s' h) ns _ _ hs
  exact this

/-- The whole building. -/
theorem buildGrid_placed {s : DState M} {g : Grid M} (h : buildGrid s = .ok g) (ho : ∀ m ∈ s.models, OuterModel s.objs m) :
    Placed (modelNodes s.models) s.objs s.models g ∧ Named (modelNodes s.models) g ∧
      ∃ g0, createBuses (modelNodes s.models) (Grid.empty M) = .ok g0 ∧ Ext g0 g := by
  rw [buildGrid] at h
  obtain ⟨g0, hg0, h⟩ := bind_eq_ok h
  have hI := createBuses_inv hg0
  have hN : Named (modelNodes s.models) g0 := fun name p b _ hl => hI.named name p b hl
  obtain ⟨e, ds, hd, hF⟩ := collectDevs (createModel s.objs) (Named (modelNodes s.models)) (fun _ _ h e => h.mono e) (OuterModel s.objs)
    (fun g m d => Made (modelNodes s.models) s.objs g m d) (fun _ _ _ _ h e => h.mono e) (fun s a s' hs ha h => createModel_step hs a ha h) s.models g0 g hN ho h
  rw [createBuses_devs hg0, zero_add] at hd
  exact ⟨placed_of_made hd hF, hN.mono e, g0, hg0, e⟩

end Verif.Glm
