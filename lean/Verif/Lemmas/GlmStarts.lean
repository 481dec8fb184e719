import Verif.Lemmas.GlmInner

/-!
# The start values of the buses of a file
-/

namespace Verif.Glm

variable {M : Type}

/-- A bus of a node starts at its nominal voltage, a leg of a triplex node at the voltage of the code, unless the last capacitor at it has set it. -/
def Started (g : Grid M) : Prop := ∀ (b : ℕ) (x : PhaseBus), g.buses[b]? = some x → x.virtual = false →
  (x.start = startPhasor x.nominal x.phase ∧ ∀ c ∈ g.capacitors, c.bus ≠ b) ∨
    ∃ cs c cs', g.capacitors = cs ++ c :: cs' ∧ c.bus = b ∧ x.start = .nominal |c.nominal| x.phase ∧ ∀ c' ∈ cs', c'.bus ≠ b

/-- No bus of a node is new or changed and no capacitor is lost. -/
def Kept (g g' : Grid M) : Prop :=
  (∀ (b : ℕ) (x : PhaseBus), g'.buses[b]? = some x → x.virtual = false → g.buses[b]? = some x) ∧ g'.capacitors = g.capacitors

theorem Kept.refl (g : Grid M) : Kept g g := ⟨fun _ _ h _ => h, rfl⟩

theorem Kept.trans {g1 g2 g3 : Grid M} (h : Kept g1 g2) (h' : Kept g2 g3) : Kept g1 g3 :=
  ⟨fun b x hx hv => h.1 b x (h'.1 b x hx hv) hv, h'.2.trans h.2⟩

theorem Kept.same {g g' : Grid M} (h : g'.buses = g.buses) (hc : g'.capacitors = g.capacitors) : Kept g g' := ⟨fun _ _ hx _ => h ▸ hx, hc⟩

theorem Kept.append {g g' : Grid M} {bs : List PhaseBus} (h : g'.buses = g.buses ++ bs) (hb : ∀ x ∈ bs, x.virtual = true) (hc : g'.capacitors = g.capacitors) :
    Kept g g' := by
  refine ⟨fun b x hx hv => ?_, hc⟩
  rw [h] at hx
  by_cases hl : b < g.buses.length
  · rwa [List.getElem?_append_left hl] at hx
  · rw [List.getElem?_append_right (by omega)] at hx
    rw [hb x (List.mem_of_getElem? hx)] at hv
    cases hv

theorem Started.kept {g g' : Grid M} (h : Started g) (hk : Kept g g') : Started g' := fun b x hx hv => by
  rw [hk.2]
  exact h b x (hk.1 b x hx hv) hv

theorem phaseLoad_kept {l : DLoad} {g g' : Grid M} {pl : PhaseLoad} (hs : phaseLoad l g pl = .ok g') : Kept g g' := by
  rw [phaseLoad] at hs
  split at hs
  · cases hs
  · cases hs
  · obtain ⟨f, _, hs⟩ := bind_eq_ok hs
    obtain ⟨t, _, hs⟩ := bind_eq_ok hs
    cases hs
    exact .same rfl rfl

theorem switchWire_kept {d : DDevice} {g g' : Grid M} {w : PhaseWire} (hs : switchWire d g w = .ok g') : Kept g g' := by
  rw [switchWire] at hs
  by_cases hc : w.phase ∈ d.phases
  · rw [if_pos hc] at hs
    obtain ⟨f, _, hs⟩ := bind_eq_ok hs
    obtain ⟨t, _, hs⟩ := bind_eq_ok hs
    cases hs
    exact .same rfl rfl
  · rw [if_neg hc] at hs
    cases hs
    exact .refl _

theorem fuseWire_kept {d : DDevice} {g g' : Grid M} {w : PhaseWire} (hs : fuseWire d g w = .ok g') : Kept g g' := by
  rw [fuseWire] at hs
  obtain ⟨f, _, hs⟩ := bind_eq_ok hs
  obtain ⟨t, _, hs⟩ := bind_eq_ok hs
  obtain ⟨limit, _, hs⟩ := bind_eq_ok hs
  cases hs
  exact .append rfl (fun x hx => by rw [List.mem_singleton.1 hx]) rfl

theorem phaseRegulator_kept {config : Obj} {r : DRegulator} {step vTap : ℚ} {kind : RegType} {a b : ℤ} {g g' : Grid M} {p : Char}
    (hs : phaseRegulator config r step vTap kind a b g p = .ok g') : Kept g g' := by
  rw [phaseRegulator] at hs
  obtain ⟨f, _, hs⟩ := bind_eq_ok hs
  obtain ⟨t, _, hs⟩ := bind_eq_ok hs
  obtain ⟨tap, _, hs⟩ := bind_eq_ok hs
  by_cases h0 : vTap = 0
  · simp only [if_pos h0] at hs; cases hs
  simp only [if_neg h0] at hs
  cases hs
  exact .append rfl (fun x hx => by rw [List.mem_singleton.1 hx]) rfl

theorem createThreePhase_kept {t : DTransformer} {g g' : Grid M} (hs : createThreePhase t g = .ok g') : Kept g g' := by
  rw [createThreePhase] at hs
  split at hs
  · split_ifs at hs
    obtain ⟨_, _, hs⟩ := bind_eq_ok hs
    split at hs
    · cases hs
    · split_ifs at hs
      obtain ⟨cs, hcs, hs⟩ := bind_eq_ok hs
      cases hs
      exact .same rfl rfl
  · cases hs

theorem createCenterTap_kept {t : DTransformer} {g g' : Grid M} (hs : createCenterTap t g = .ok g') : Kept g g' := by
  rw [createCenterTap] at hs
  split at hs
  · split at hs
    · split_ifs at hs
      · obtain ⟨f, _, hs⟩ := bind_eq_ok hs
        obtain ⟨t1, _, hs⟩ := bind_eq_ok hs
        obtain ⟨t2, _, hs⟩ := bind_eq_ok hs
        cases hs
      obtain ⟨f, _, hs⟩ := bind_eq_ok hs
      obtain ⟨t1, _, hs⟩ := bind_eq_ok hs
      obtain ⟨t2, _, hs⟩ := bind_eq_ok hs
      cases hs
      refine ((Kept.append (g' := (g.createBus _ _ true _ _).1) rfl (fun x hx => ?_) rfl).trans
        (Kept.append (g' := ((g.createBus _ _ true _ _).1.createBus _ _ true _ _).1) rfl (fun x hx => ?_) rfl)).trans (Kept.append rfl (fun x hx => ?_) rfl)
      all_goals rw [List.mem_singleton.1 hx]
    · cases hs
  · cases hs

theorem foldlM_kept {α : Type} {f : Grid M → α → Py (Grid M)} (hf : ∀ s a s', f s a = .ok s' → Kept s s') (as : List α) (s s' : Grid M)
    (h : as.foldlM f s = .ok s') : Kept s s' :=
  foldlM_inv (P := Kept s) (fun s1 a s2 h1 h2 => h1.trans (hf s1 a s2 h2)) as s s' (.refl _) h

/-- One phase capacitor sets the start value of its bus. -/
theorem phaseCapacitor_started {ns : List DNode} {g g' : Grid M} (hN : Named ns g) {o : Obj} {c : DCap} (ho : OuterOf (o.attr "parent".toList)) {pc : Char × ℚ}
    (h : Started g) (hs : phaseCapacitor o c g pc = .ok g') : Started g' := by
  rw [phaseCapacitor] at hs
  by_cases hc : pc.1 ∈ c.connected
  · rw [if_pos hc] at hs
    obtain ⟨mode, _, hs⟩ := bind_eq_ok hs
    obtain ⟨parent, hp, hs⟩ := bind_eq_ok hs
    obtain ⟨b, hb, hs⟩ := bind_eq_ok hs
    obtain ⟨v, _, hs⟩ := bind_eq_ok hs
    by_cases hv : v = 0
    · simp only [if_pos hv] at hs; cases hs
    simp only [if_neg hv] at hs
    obtain ⟨sw, _, hs⟩ := bind_eq_ok hs
    cases hs
    obtain ⟨r, z, -, hz, -, hph, -⟩ := hN.bus (ho parent (get_eq_ok hp)) hb
    intro i x hx hxv
    simp only [Grid.setStart, List.getElem?_modify] at hx
    cases hg : g.buses[i]? with
    | none => rw [hg] at hx; simp at hx
    | some y =>
      rw [hg] at hx
      simp only [Option.map_eq_map, Option.map_some, Option.some.injEq] at hx
      by_cases hi : b = i
      · rw [if_pos hi] at hx
        subst hi
        rw [hz] at hg
        cases hg
        subst hx
        exact Or.inr ⟨g.capacitors, _, [], rfl, rfl, by rw [hph], fun _ h => absurd h List.not_mem_nil⟩
      · rw [if_neg hi] at hx
        subst hx
        rcases h i y hg hxv with ⟨h1, h2⟩ | ⟨cs, c', cs', h1, h2, h3, h4⟩
        · refine Or.inl ⟨h1, fun c' hc' => ?_⟩
          rcases List.mem_append.1 hc' with hc' | hc'
          · exact h2 c' hc'
          · rw [List.mem_singleton.1 hc']; exact hi
        · refine Or.inr ⟨cs, c', cs' ++ [⟨b, pc.2, v, capMode c mode, c.high, c.low, sw⟩], ?_, h2, h3, fun c'' hc' => ?_⟩
          · show g.capacitors ++ _ = _
            rw [h1, List.append_assoc, List.cons_append]
          · rcases List.mem_append.1 hc' with hc' | hc'
            · exact h4 c'' hc'
            · rw [List.mem_singleton.1 hc']; exact hi
  · rw [if_neg hc] at hs
    cases hs
    exact h

theorem createModel_started {ns : List DNode} {objs : List (Txt × Obj)} {g g' : Grid M} (hN : Named ns g) {m : DModel M} (ho : OuterModel objs m)
    (h : Started g) (hs : createModel objs g m = .ok g') : Started g' := by
  cases m with
  | node n => cases hs; exact h
  | line l => cases hs; exact h.kept (.same rfl rfl)
  | load l => exact h.kept (foldlM_kept (fun _ _ _ => phaseLoad_kept) _ _ _ hs)
  | device d =>
    rw [createModel, createDevice] at hs
    by_cases hf : d.isFuse = true
    · rw [if_pos hf] at hs
      exact h.kept (foldlM_kept (fun _ _ _ => fuseWire_kept) _ _ _ hs)
    · rw [if_neg hf] at hs
      exact h.kept (foldlM_kept (fun _ _ _ => switchWire_kept) _ _ _ hs)
  | capacitor c =>
    rw [createModel, createCapacitor] at hs
    cases hl : lookup c.name objs with
    | none => rw [hl] at hs; cases hs
    | some o =>
      rw [hl] at hs
      simp only at hs
      have hpo : OuterOf (o.attr "parent".toList) := fun n hn => ho o n hl hn
      refine (foldlM_inv (P := fun g => Named ns g ∧ Started g) (fun s a s' hp h1 => ?_) _ _ _ ⟨hN, h⟩ hs).2
      refine ⟨?_, phaseCapacitor_started hp.1 hpo hp.2 h1⟩
      by_cases hc : a.1 ∈ c.connected
      · exact hp.1.mono (phaseCapacitor_step hp.1 objs o c hl hpo a hc h1).1
      · rw [phaseCapacitor, if_neg hc] at h1
        cases h1
        exact hp.1
  | regulator r =>
    rw [createModel, createRegulator] at hs
    split_ifs at hs
    split at hs
    · cases hs
    · obtain ⟨k, _, hs⟩ := bind_eq_ok hs
      split at hs
      · cases hs
      · split at hs
        · split_ifs at hs
          obtain ⟨kind, _, hs⟩ := bind_eq_ok hs
          obtain ⟨control, _, hs⟩ := bind_eq_ok hs
          by_cases hcon : control ∉ regControls
          · rw [if_pos hcon] at hs; cases hs
          rw [if_neg hcon] at hs
          obtain ⟨center, _, hs⟩ := bind_eq_ok hs
          obtain ⟨_, _, hs⟩ := bind_eq_ok hs
          obtain ⟨a, _, hs⟩ := bind_eq_ok hs
          obtain ⟨b, _, hs⟩ := bind_eq_ok hs
          by_cases ha : a = 0
          · rw [if_pos ha] at hs; cases hs
          rw [if_neg ha] at hs
          exact h.kept (foldlM_kept (fun _ _ _ => phaseRegulator_kept) _ _ _ hs)
        · cases hs
  | transformer t =>
    rw [createModel, createTransformer] at hs
    by_cases hc : t.centerTap = true
    · rw [if_pos hc] at hs; exact h.kept (createCenterTap_kept hs)
    · rw [if_neg hc] at hs; exact h.kept (createThreePhase_kept hs)

theorem busPhase_started {n : DNode} {s s' : Grid M × Option Phasor} {p : Char} (h : Started s.1 ∧ s.1.capacitors = []) (hs : busPhase n s p = .ok s') :
    Started s'.1 ∧ s'.1.capacitors = [] := by
  rw [busPhase] at hs
  by_cases hp : p ∈ anglePhases
  swap
  · rw [if_neg hp] at hs; cases hs; exact h
  rw [if_pos hp] at hs
  split at hs
  · obtain ⟨b, _, hs⟩ := bind_eq_ok hs
    by_cases hn : n.source = true
    · rw [if_pos hn] at hs
      split at hs
      · cases hs; exact h
      · cases hs
    · rw [if_neg hn] at hs; cases hs; exact h
  · obtain ⟨v, _, hs⟩ := bind_eq_ok hs
    have key : ∀ g' : Grid M, g'.buses = s.1.buses ++ [⟨n.name, p, false, v, startPhasor v p⟩] → g'.capacitors = s.1.capacitors → Started g' ∧ g'.capacitors = [] := by
      intro g' hb hc
      refine ⟨fun b x hx hv => ?_, hc.trans h.2⟩
      rw [hb] at hx
      rw [hc]
      by_cases hl : b < s.1.buses.length
      · rw [List.getElem?_append_left hl] at hx
        exact h.1 b x hx hv
      · rw [List.getElem?_append_right (by omega)] at hx
        have := List.mem_singleton.1 (List.mem_of_getElem? hx)
        subst this
        exact Or.inl ⟨rfl, fun c hc => by rw [h.2] at hc; cases hc⟩
    by_cases hn : n.source = true
    · simp only [if_pos hn] at hs; cases hs; exact key _ rfl rfl
    · simp only [if_neg hn] at hs; cases hs; exact key _ rfl rfl

theorem createBuses_started {ns : List DNode} {g : Grid M} (h : createBuses ns (Grid.empty M) = .ok g) : Started g := by
  rw [createBuses] at h
  obtain ⟨s, hs, h⟩ := bind_eq_ok h
  cases h
  refine (foldlM_inv (P := fun s : Grid M × Option Phasor => Started s.1 ∧ s.1.capacitors = []) (fun s n s' hs h => ?_) _ _ _ ⟨fun b x hx => ?_, rfl⟩ hs).1
  · exact foldlM_inv (P := fun s : Grid M × Option Phasor => Started s.1 ∧ s.1.capacitors = []) (fun s p s' hs h => busPhase_started hs h) _ _ _ hs h
  · simp [Grid.empty] at hx

theorem buildGrid_started {s : DState M} {g : Grid M} (h : buildGrid s = .ok g) (ho : ∀ m ∈ s.models, OuterModel s.objs m) : Started g := by
  rw [buildGrid] at h
  obtain ⟨g0, hg0, h⟩ := bind_eq_ok h
  have hI := createBuses_inv hg0
  have hN : Named (modelNodes s.models) g0 := fun name p b _ hl => hI.named name p b hl
  have h0 := createBuses_started hg0
  have key : ∀ (ms : List (DModel M)) (g1 g2 : Grid M), (∀ m ∈ ms, OuterModel s.objs m) → Named (modelNodes s.models) g1 → Started g1 →
      ms.foldlM (createModel s.objs) g1 = .ok g2 → Started g2 := by
    intro ms
    induction ms with
    | nil => intro g1 g2 _ _ hg h; cases h; exact hg
    | cons m ms ih =>
      intro g1 g2 hm hn hg h
      rw [List.foldlM_cons] at h
      obtain ⟨g3, h3, h⟩ := bind_eq_ok h
      have hm1 := hm m List.mem_cons_self
      exact ih g3 g2 (fun m' hm' => hm m' (List.mem_cons_of_mem _ hm')) (hn.mono (createModel_step hn m hm1 h3).1) (createModel_started hn hm1 hg h3) h
  exact key _ _ _ ho hN h0 h

theorem parseGrid_started {readLine : LineReader M} {schedules : List (Txt × Txt)} {objs : List (Txt × Obj)} (hk : Keeps readLine objs)
    (hO : OuterFile objs) {g : Grid M} (h : parseGrid readLine objs schedules = .ok g) : Started g := by
  rw [parseGrid] at h
  obtain ⟨s, hs, h⟩ := bind_eq_ok h
  obtain ⟨hsame, groups, he, hG⟩ := readModels_gives hk hs
  refine buildGrid_started h fun m hm => ?_
  have : (m.erase (parentNames objs)) ∈ groups.flatten.map (DModel.erase (parentNames objs)) := by rw [← he]; exact List.mem_map.2 ⟨m, hm, rfl⟩
  obtain ⟨m', hm', heq⟩ := List.mem_map.1 this
  obtain ⟨grp, hgrp, hm'⟩ := List.mem_flatten.1 hm'
  obtain ⟨name, _, hgive⟩ := forall₂_mem_right hG hgrp
  obtain ⟨o0, o, objs1, objs2, hmem, _, hso, _, hr⟩ := hgive.object
  rw [← outer_erase (P := parentNames objs), ← heq, outer_erase]
  exact hr.outer hO hmem hso hsame hm'

end Verif.Glm
