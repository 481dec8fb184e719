import Verif.Model.RawNetwork
import Verif.Lemmas.Realize
import Verif.Props.Kirchhoff
import Verif.Props.RawLoads

/-!
# The equations of the network of a RAW case, per bus number
-/

namespace Verif.Raw

open ComplexConjugate

theorem busSum_nil (k : ℕ) : busSum k [] = 0 := rfl

theorem busSum_append (k : ℕ) (a b : List (Ref × ℂ)) : busSum k (a ++ b) = busSum k a + busSum k b := by
  simp [busSum]

theorem busSum_flatMap {α : Type} (k : ℕ) (es : List α) (f : α → List (Ref × ℂ)) :
    busSum k (es.flatMap f) = (es.map fun x => busSum k (f x)).sum := by
  induction es with
  | nil => rfl
  | cons a es ih => rw [List.flatMap_cons, busSum_append, List.map_cons, List.sum_cons, ih]

/-- All objects are at buses of the loaded case. -/
structure Out.Closed (o : Out) : Prop where
  branches : ∀ l ∈ o.branches, l.f ∈ o.buses ∧ l.t ∈ o.buses
  xfmrs : ∀ x ∈ o.xfmrs, x.f ∈ o.buses ∧ x.t ∈ o.buses
  slack : ∀ x ∈ o.slack, x.bus ∈ o.buses
  generators : ∀ x ∈ o.generators, x.bus ∈ o.buses
  loads : ∀ x ∈ o.loads, x.bus ∈ o.buses
  shunts : ∀ x ∈ o.shunts, x.bus ∈ o.buses

/-- Current a line takes out of bus `k`. -/
noncomputable def lineTerm (V : ℤ → ℂ) (l : LineAt) (k : ℤ) : ℂ :=
  (if l.f = k then ⟨l.G, l.B⟩ * (V l.f - V l.t) + ⟨0, l.Bl⟩ * V l.f else 0) +
  (if l.t = k then -(⟨l.G, l.B⟩ * (V l.f - V l.t)) + ⟨0, l.Bl⟩ * V l.t else 0)

/-- Current a transformer takes out of bus `k`. -/
noncomputable def xfmrTerm (V : ℤ → ℂ) (x : XfmrAt) (I S : ℂ) (k : ℤ) : ℂ :=
  (if x.f = k then I else 0) + (if x.t = k then -(⟨x.G, x.B⟩ * (S - V x.t)) else 0)

/-- Current a generator takes out of bus `k`. -/
noncomputable def genTerm (V : ℤ → ℂ) (x : GenAt) (q : ℝ) (k : ℤ) : ℂ :=
  if x.bus = k then conj ((⟨x.g.P, q⟩ : ℂ) / V k) else 0

/-- Current a load takes out of bus `k`. -/
noncomputable def loadTerm (V : ℤ → ℂ) (x : LoadAt) (k : ℤ) : ℂ :=
  if x.bus = k then conj ((⟨x.l.P, x.l.Q⟩ : ℂ) / V k) + ⟨x.l.IP, x.l.IQ⟩ + x.l.Z⁻¹ * V k else 0

/-- Current a shunt takes out of bus `k`. -/
noncomputable def shuntTerm (V : ℤ → ℂ) (x : ShuntAt) (k : ℤ) : ℂ := if x.bus = k then ⟨x.G, x.B⟩ * V k else 0

/-- The equations of the loaded case by bus number, with the own values of its transformers, swing sources, machines. -/
structure Flow (o : Out) (V : ℤ → ℂ) (pX : List (XfmrAt × ℂ × ℂ)) (pS : List (SlackAt × ℂ)) (pG : List (GenAt × ℝ)) :
    Prop where
  xs : pX.map Prod.fst = o.xfmrs
  ss : pS.map Prod.fst = o.slack
  gs : pG.map Prod.fst = o.generators
  kcl : ∀ k ∈ o.buses, (o.branches.map fun l => lineTerm V l k).sum +
    ((pX.map fun p => xfmrTerm V p.1 p.2.1 p.2.2 k).sum + ((pS.map fun p => (if p.1.bus = k then p.2 else 0)).sum +
    ((pG.map fun p => genTerm V p.1 p.2 k).sum + ((o.loads.map fun x => loadTerm V x k).sum +
    (o.shunts.map fun x => shuntTerm V x k).sum)))) = 0
  xfmr : ∀ p ∈ pX, V p.1.f = turns 0 p.1.tr p.1.ang * p.2.2 ∧
    ⟨p.1.G, p.1.B⟩ * (p.2.2 - V p.1.t) = conj (turns 0 p.1.tr p.1.ang) * p.2.1
  slack : ∀ s ∈ o.slack, V s.bus = ⟨s.Vset * Real.cos s.ang, s.Vset * Real.sin s.ang⟩
  gen : ∀ x ∈ o.generators, x.g.Vset ^ 2 = Complex.normSq (V x.bus)

section
variable {o : Out} {V : ℤ → ℂ} {W : Ref → ℂ}

theorem pos_eq {i k : ℤ} (hi : i ∈ o.buses) : o.pos i = o.pos k ↔ i = k := List.idxOf_inj hi

theorem busSum_line (hW : ∀ i ∈ o.buses, W (some (o.pos i)) = V i) {l : LineAt} (hf : l.f ∈ o.buses) (ht : l.t ∈ o.buses)
    (k : ℤ) (w : List ℝ) : busSum (o.pos k) ((o.line l).draws 0 W w) = lineTerm V l k := by
  simp only [Out.line, Element.draws, branch, List.cons_append, List.nil_append, busSum_cons, busSum_nil, Option.some.injEq,
    pos_eq hf, pos_eq ht, hW _ hf, hW _ ht, stiff, faded, lineTerm]
  split <;> split <;> simp <;> ring

theorem busSum_xfmr (hW : ∀ i ∈ o.buses, W (some (o.pos i)) = V i) {x : XfmrAt} (hf : x.f ∈ o.buses) (ht : x.t ∈ o.buses)
    (k : ℤ) (w : List ℝ) : busSum (o.pos k) ((o.xfmr x).draws 0 W w) = xfmrTerm V x (pairAt w 0) (pairAt w 2) k := by
  simp only [Out.xfmr, Element.draws, xfmrDraws, branch, List.cons_append, List.nil_append, busSum_cons, busSum_nil,
    Option.some.injEq, pos_eq hf, pos_eq ht, hW _ ht, stiff, xfmrTerm, reduceCtorEq, if_false]
  split <;> split <;> simp

theorem busSum_swing {s : SlackAt} (hb : s.bus ∈ o.buses) (k : ℤ) (w : List ℝ) :
    busSum (o.pos k) ((o.swing s).draws 0 W w) = if s.bus = k then pairAt w 0 else 0 := by
  simp only [Out.swing, Element.draws, busSum_cons, busSum_nil, Option.some.injEq, pos_eq hb, add_zero]

theorem busSum_machine (hW : ∀ i ∈ o.buses, W (some (o.pos i)) = V i) {x : GenAt} (hb : x.bus ∈ o.buses) (k : ℤ)
    (w : List ℝ) : busSum (o.pos k) ((o.machine x).draws 0 W w) = genTerm V x (w.getD 0 0) k := by
  simp only [Out.machine, Element.draws, busSum_cons, busSum_nil, Option.some.injEq, pos_eq hb, add_zero, hW _ hb, genTerm]
  split
  · rename_i h; rw [h]
  · rfl

theorem busSum_demand (h0 : W none = 0) (hW : ∀ i ∈ o.buses, W (some (o.pos i)) = V i) {x : LoadAt} (hb : x.bus ∈ o.buses)
    (k : ℤ) (w : List ℝ) : busSum (o.pos k) ((o.demand x).draws 0 W w) = loadTerm V x k := by
  simp only [Out.demand, Element.draws, branch, busSum_cons, busSum_nil, Option.some.injEq, pos_eq hb, add_zero, hW _ hb, h0,
    sub_zero, loadTerm, reduceCtorEq, if_false]
  split
  · rename_i h; rw [h]; simp
  · rfl

theorem busSum_shunt (hW : ∀ i ∈ o.buses, W (some (o.pos i)) = V i) {x : ShuntAt} (hb : x.bus ∈ o.buses) (k : ℤ)
    (w : List ℝ) : busSum (o.pos k) ((o.shunt x).draws 0 W w) = shuntTerm V x k := by
  simp only [Out.shunt, Element.draws, busSum_cons, busSum_nil, Option.some.injEq, pos_eq hb, add_zero, hW _ hb, faded,
    shuntTerm]
  split
  · rename_i h; rw [h]; simp
  · rfl

end

/-- Pairs whose first entries are images of a list are images of pairs over that list. -/
theorem lift_pairs {α β γ : Type} (mk : α → β) : ∀ (es : List (β × γ)) (xs : List α), es.map Prod.fst = xs.map mk →
    ∃ ps : List (α × γ), ps.map Prod.fst = xs ∧ es = ps.map fun p => (mk p.1, p.2) := by
  intro es
  induction es with
  | nil =>
    intro xs h
    have : xs = [] := by simpa using h.symm
    exact ⟨[], by simp [this], rfl⟩
  | cons e es ih =>
    intro xs h
    cases xs with
    | nil => simp at h
    | cons x xs =>
      simp only [List.map_cons, List.cons.injEq] at h
      obtain ⟨ps, h1, h2⟩ := ih xs h.2
      refine ⟨(x, e.2) :: ps, by simp [h1], ?_⟩
      rw [List.map_cons, h2, ← h.1]

theorem mem_fst {α γ : Type} {ps : List (α × γ)} {xs : List α} (h : ps.map Prod.fst = xs) {p : α × γ} (hp : p ∈ ps) :
    p.1 ∈ xs := h ▸ List.mem_map_of_mem hp

theorem sum_pairs {α γ : Type} {ps : List (α × γ)} {xs : List α} (h : ps.map Prod.fst = xs) {f : α × γ → ℂ} {g : α → ℂ}
    (hf : ∀ p ∈ ps, f p = g p.1) : (ps.map f).sum = (xs.map g).sum := by
  rw [← h, List.map_map]
  congr 1
  exact List.map_congr_left fun p hp => by simpa using hf p hp

variable {L : Library}

theorem voltages_ground (N : Network) (v : ℕ → ℝ) : (N.assign L).voltages v none = 0 := rfl

/-- A solution of the assembled equations with bus voltages `V` exists exactly when `V` has own values that satisfy the
equations by bus number. -/
theorem flow_iff (hL : L.Loaded) {o : Out} (ho : o.Closed) (hnd : o.buses.Nodup) (V : ℤ → ℂ) :
    (∃ v, (∀ i ∈ o.buses, (o.toNetwork.assign L).voltages v (some (o.pos i)) = V i) ∧
      ∀ i, networkEq (o.toNetwork.assign L).all 0 v i = 0) ↔ ∃ pX pS pG, Flow o V pX pS pG := by
  constructor
  · rintro ⟨v, hV, hz⟩
    have hK := (C67_equations_are_kirchhoff hL o.toNetwork rfl 0 v).1 hz
    have hfst := owned_fst (L := L) o.toNetwork v
    generalize (o.toNetwork.assign L).owned L o.toNetwork v = es at hK hfst
    have h0 : (o.toNetwork.assign L).voltages v none = 0 := rfl
    generalize (o.toNetwork.assign L).voltages v = W at hK hV h0
    simp only [Out.toNetwork] at hfst
    obtain ⟨e1, r1, rfl, f1, hfst⟩ := List.map_eq_append_iff.1 hfst
    obtain ⟨e2, r2, rfl, f2, hfst⟩ := List.map_eq_append_iff.1 hfst
    obtain ⟨e3, r3, rfl, f3, hfst⟩ := List.map_eq_append_iff.1 hfst
    obtain ⟨e4, r4, rfl, f4, hfst⟩ := List.map_eq_append_iff.1 hfst
    obtain ⟨e5, e6, rfl, f5, f6⟩ := List.map_eq_append_iff.1 hfst
    obtain ⟨p1, g1, rfl⟩ := lift_pairs _ _ _ f1
    obtain ⟨p2, g2, rfl⟩ := lift_pairs _ _ _ f2
    obtain ⟨p3, g3, rfl⟩ := lift_pairs _ _ _ f3
    obtain ⟨p4, g4, rfl⟩ := lift_pairs _ _ _ f4
    obtain ⟨p5, g5, rfl⟩ := lift_pairs _ _ _ f5
    obtain ⟨p6, g6, rfl⟩ := lift_pairs _ _ _ f6
    obtain ⟨hkcl, hlaw⟩ := hK
    refine ⟨p2.map fun p => (p.1, pairAt p.2 0, pairAt p.2 2), p3.map fun p => (p.1, pairAt p.2 0),
      p4.map fun p => (p.1, p.2.getD 0 0), ?_, ?_, ?_, ?_, ?_, ?_, ?_⟩
    · rw [List.map_map]; exact g2
    · rw [List.map_map]; exact g3
    · rw [List.map_map]; exact g4
    · intro k hk
      have := hkcl (o.pos k) (show o.pos k < o.buses.length from List.idxOf_lt_length_of_mem hk)
      change busSum (o.pos k) _ = 0 at this
      rw [busSum_flatMap] at this
      simp only [List.map_append, List.sum_append, List.map_map] at this
      refine Eq.trans ?_ this
      congr 1
      · exact (sum_pairs g1 fun p hp => busSum_line hV (ho.branches _ (mem_fst g1 hp)).1 (ho.branches _ (mem_fst g1 hp)).2 k
          p.2).symm
      congr 1
      · rw [List.map_map]
        congr 1
        refine List.map_congr_left fun p hp => ?_
        exact (busSum_xfmr hV (ho.xfmrs _ (mem_fst g2 hp)).1 (ho.xfmrs _ (mem_fst g2 hp)).2 k p.2).symm
      congr 1
      · rw [List.map_map]
        congr 1
        exact List.map_congr_left fun p hp => (busSum_swing (ho.slack _ (mem_fst g3 hp)) k p.2).symm
      congr 1
      · rw [List.map_map]
        congr 1
        exact List.map_congr_left fun p hp => (busSum_machine hV (ho.generators _ (mem_fst g4 hp)) k p.2).symm
      congr 1
      · exact (sum_pairs g5 fun p hp => busSum_demand h0 hV (ho.loads _ (mem_fst g5 hp)) k p.2).symm
      · exact (sum_pairs g6 fun p hp => busSum_shunt hV (ho.shunts _ (mem_fst g6 hp)) k p.2).symm
    · intro q hq
      obtain ⟨p, hp, rfl⟩ := List.mem_map.1 hq
      have hl := hlaw (o.xfmr p.1, p.2) (by simp only [List.mem_append, List.mem_map]; exact Or.inr (Or.inl ⟨p, hp, rfl⟩))
      obtain ⟨m1, m2⟩ := ho.xfmrs _ (mem_fst g2 hp)
      simp only [Out.xfmr, Element.laws, xfmrLaws, h0, sub_zero, hV _ m1, hV _ m2, List.forall_mem_append, both_zero, stiff]
        at hl
      obtain ⟨a, b⟩ := hl
      constructor
      · linear_combination a
      · have : (1 + 20 * ((0 : ℝ) : ℂ)) = 1 := by simp
        rw [this] at b
        linear_combination b
    · intro s hs
      rw [← g3] at hs
      obtain ⟨p, hp, rfl⟩ := List.mem_map.1 hs
      have hl := hlaw (o.swing p.1, p.2) (by
        simp only [List.mem_append, List.mem_map]; exact Or.inr (Or.inr (Or.inl ⟨p, hp, rfl⟩)))
      simp only [Out.swing, Element.laws, hV _ (ho.slack _ (mem_fst g3 hp)), both_zero] at hl
      exact sub_eq_zero.1 hl
    · intro x hx
      rw [← g4] at hx
      obtain ⟨p, hp, rfl⟩ := List.mem_map.1 hx
      have hl := hlaw (o.machine p.1, p.2) (by
        simp only [List.mem_append, List.mem_map]; exact Or.inr (Or.inr (Or.inr (Or.inl ⟨p, hp, rfl⟩))))
      simp only [Out.machine, Element.laws, hV _ (ho.generators _ (mem_fst g4 hp)), List.mem_singleton, forall_eq] at hl
      linarith
  · rintro ⟨pX, pS, pG, hF⟩
    set es : List (Element × List ℝ) := o.branches.map (fun l => (o.line l, [])) ++
      (pX.map (fun p => (o.xfmr p.1, [p.2.1.re, p.2.1.im, p.2.2.re, p.2.2.im])) ++
      (pS.map (fun p => (o.swing p.1, [p.2.re, p.2.im])) ++ (pG.map (fun p => (o.machine p.1, [p.2])) ++
      (o.loads.map (fun x => (o.demand x, [])) ++ o.shunts.map fun x => (o.shunt x, []))))) with hes
    have hfst : es.map Prod.fst = o.toNetwork.elements := by
      simp only [hes, List.map_append, List.map_map, Out.toNetwork]
      rw [← hF.xs, ← hF.ss, ← hF.gs]
      simp [List.map_map, Function.comp_def]
    obtain ⟨v, hv, hown⟩ := exists_values hL o.toNetwork rfl (fun n => V (o.buses.getD n 0)) es hfst (by
      intro x hx
      simp only [hes, List.mem_append, List.mem_map] at hx
      rcases hx with ⟨l, -, rfl⟩ | ⟨l, -, rfl⟩ | ⟨l, -, rfl⟩ | ⟨l, -, rfl⟩ | ⟨l, -, rfl⟩ | ⟨l, -, rfl⟩ <;> rfl)
    have hV : ∀ i ∈ o.buses, (o.toNetwork.assign L).voltages v (some (o.pos i)) = V i := by
      intro i hi
      have hlt : o.pos i < o.buses.length := List.idxOf_lt_length_of_mem hi
      rw [hv _ hlt]
      congr 1
      rw [List.getD_eq_getElem?_getD, List.getElem?_eq_getElem hlt]
      exact List.getElem_idxOf hlt
    refine ⟨v, hV, ?_⟩
    refine (C67_equations_are_kirchhoff hL o.toNetwork rfl 0 v).2 ?_
    rw [hown]
    have h0 : (o.toNetwork.assign L).voltages v none = 0 := rfl
    generalize (o.toNetwork.assign L).voltages v = W at hV h0
    have hx : ∀ p ∈ pX, p.1 ∈ o.xfmrs := fun p hp => mem_fst hF.xs hp
    have hs : ∀ p ∈ pS, p.1 ∈ o.slack := fun p hp => mem_fst hF.ss hp
    have hg : ∀ p ∈ pG, p.1 ∈ o.generators := fun p hp => mem_fst hF.gs hp
    constructor
    · intro n hn
      have hn' : n < o.buses.length := hn
      change busSum n _ = 0
      have hk : o.buses[n] ∈ o.buses := List.getElem_mem hn'
      have hpos : o.pos o.buses[n] = n := hnd.idxOf_getElem n hn'
      rw [← hpos, busSum_flatMap, hes]
      simp only [List.map_append, List.sum_append, List.map_map]
      refine Eq.trans ?_ (hF.kcl _ hk)
      congr 1
      · congr 1
        exact List.map_congr_left fun l hl => busSum_line hV (ho.branches _ hl).1 (ho.branches _ hl).2 _ _
      congr 1
      · congr 1
        exact List.map_congr_left fun p hp => busSum_xfmr hV (ho.xfmrs _ (hx p hp)).1 (ho.xfmrs _ (hx p hp)).2 _ _
      congr 1
      · congr 1
        exact List.map_congr_left fun p hp => busSum_swing (ho.slack _ (hs p hp)) _ _
      congr 1
      · congr 1
        exact List.map_congr_left fun p hp => busSum_machine hV (ho.generators _ (hg p hp)) _ _
      congr 1
      · congr 1
        exact List.map_congr_left fun x hx => busSum_demand h0 hV (ho.loads _ hx) _ _
      · congr 1
        exact List.map_congr_left fun x hx => busSum_shunt hV (ho.shunts _ hx) _ _
    · intro e he
      simp only [hes, List.mem_append, List.mem_map] at he
      rcases he with ⟨l, -, rfl⟩ | ⟨p, hp, rfl⟩ | ⟨p, hp, rfl⟩ | ⟨p, hp, rfl⟩ | ⟨l, -, rfl⟩ | ⟨l, -, rfl⟩
      · simp [Out.line, Element.laws]
      · obtain ⟨m1, m2⟩ := ho.xfmrs _ (hx p hp)
        obtain ⟨a, b⟩ := hF.xfmr p hp
        have e0 : pairAt [p.2.1.re, p.2.1.im, p.2.2.re, p.2.2.im] 0 = p.2.1 := rfl
        have e2 : pairAt [p.2.1.re, p.2.1.im, p.2.2.re, p.2.2.im] 2 = p.2.2 := rfl
        simp only [Out.xfmr, Element.laws, xfmrLaws, h0, sub_zero, hV _ m1, hV _ m2, List.forall_mem_append, both_zero, stiff,
          e0, e2]
        constructor
        · linear_combination a
        · have : (1 + 20 * ((0 : ℝ) : ℂ)) = 1 := by simp
          rw [this]
          linear_combination b
      · simp only [Out.swing, Element.laws, hV _ (ho.slack _ (hs p hp)), both_zero]
        exact sub_eq_zero.2 (hF.slack _ (hs p hp))
      · simp only [Out.machine, Element.laws, hV _ (ho.generators _ (hg p hp)), List.mem_singleton, forall_eq]
        have := hF.gen _ (hg p hp)
        linarith
      · simp [Out.demand, Element.laws]
      · simp [Out.shunt, Element.laws]

/-! ### Elimination of the own values -/

/-- Internal voltage of a transformer. -/
noncomputable def xfmrS (V : ℤ → ℂ) (x : XfmrAt) : ℂ := V x.f / turns 0 x.tr x.ang

/-- Primary current of a transformer. -/
noncomputable def xfmrI (V : ℤ → ℂ) (x : XfmrAt) : ℂ :=
  ⟨x.G, x.B⟩ * (xfmrS V x - V x.t) / conj (turns 0 x.tr x.ang)

/-- Current that all but swing sources and machines take out of bus `k`. -/
noncomputable def Out.rest (o : Out) (V : ℤ → ℂ) (k : ℤ) : ℂ :=
  (o.branches.map fun l => lineTerm V l k).sum + ((o.xfmrs.map fun x => xfmrTerm V x (xfmrI V x) (xfmrS V x) k).sum +
  ((o.loads.map fun x => loadTerm V x k).sum + (o.shunts.map fun x => shuntTerm V x k).sum))

theorem sum_zero {α : Type} {xs : List α} {f : α → ℂ} (h : ∀ x ∈ xs, f x = 0) : (xs.map f).sum = 0 := by
  induction xs with
  | nil => rfl
  | cons a as ih =>
    rw [List.map_cons, List.sum_cons, h a (List.mem_cons_self ..), ih fun x hx => h x (List.mem_cons_of_mem _ hx), add_zero]

theorem sum_unique {α M : Type} [AddCommMonoid M] {xs : List α} {b : α → ℤ} (h : (xs.map b).Nodup) {k : ℤ}
    (hk : k ∈ xs.map b) (f : ℤ → M) : (xs.map fun x => if b x = k then f (b x) else 0).sum = f k := by
  induction xs with
  | nil => simp at hk
  | cons a as ih =>
    rw [List.map_cons, List.nodup_cons] at h
    rw [List.map_cons, List.sum_cons]
    have hz : ∀ (l : List α), k ∉ l.map b → (l.map fun x => if b x = k then f (b x) else 0).sum = 0 := by
      intro l
      induction l with
      | nil => intro _; rfl
      | cons c cs ihc =>
        intro hn
        simp only [List.map_cons, List.mem_cons, not_or] at hn
        rw [List.map_cons, List.sum_cons, ihc hn.2, if_neg (fun h => hn.1 h.symm), add_zero]
    by_cases ha : b a = k
    · rw [if_pos ha, hz as (ha ▸ h.1), add_zero, ha]
    · rw [if_neg ha, zero_add]
      refine ih h.2 ?_
      rw [List.map_cons, List.mem_cons] at hk
      exact hk.resolve_left fun h => ha h.symm

theorem gens_power {V : ℤ → ℂ} {k : ℤ} (hV : V k ≠ 0) (pG : List (GenAt × ℝ)) :
    V k * conj (pG.map fun p => genTerm V p.1 p.2 k).sum =
      ⟨(pG.map fun p => if p.1.bus = k then p.1.g.P else 0).sum, (pG.map fun p => if p.1.bus = k then p.2 else 0).sum⟩ := by
  induction pG with
  | nil => apply Complex.ext <;> simp
  | cons p ps ih =>
    rw [List.map_cons, List.sum_cons, map_add, mul_add, ih]
    simp only [List.map_cons, List.sum_cons, genTerm]
    split
    · rw [Complex.conj_conj, mul_div_cancel₀ _ hV]
      rfl
    · apply Complex.ext <;> simp

theorem conj_zero {V z : ℂ} (hV : V ≠ 0) (h : V * conj z = 0) : z = 0 := by
  rcases mul_eq_zero.1 h with h | h
  · exact absurd h hV
  · simpa using h

theorem flow_elim {o : Out} {V : ℤ → ℂ} (hV : ∀ k ∈ o.buses, V k ≠ 0) (hτ : ∀ x ∈ o.xfmrs, turns 0 x.tr x.ang ≠ 0)
    (hs : (o.slack.map SlackAt.bus).Nodup) (hg : (o.generators.map GenAt.bus).Nodup) :
    (∃ pX pS pG, Flow o V pX pS pG) ↔
    (∀ k ∈ o.buses, k ∉ o.slack.map SlackAt.bus →
      (V k * conj (o.rest V k)).re + (o.generators.map fun x => if x.bus = k then x.g.P else 0).sum = 0 ∧
      (k ∉ o.generators.map GenAt.bus → (V k * conj (o.rest V k)).im = 0)) ∧
    (∀ s ∈ o.slack, V s.bus = ⟨s.Vset * Real.cos s.ang, s.Vset * Real.sin s.ang⟩) ∧
    ∀ x ∈ o.generators, x.g.Vset ^ 2 = Complex.normSq (V x.bus) := by
  constructor
  · rintro ⟨pX, pS, pG, hF⟩
    refine ⟨fun k hk hns => ?_, hF.slack, hF.gen⟩
    have hx : (pX.map fun p => xfmrTerm V p.1 p.2.1 p.2.2 k).sum =
        (o.xfmrs.map fun x => xfmrTerm V x (xfmrI V x) (xfmrS V x) k).sum := by
      refine sum_pairs hF.xs fun p hp => ?_
      obtain ⟨a, b⟩ := hF.xfmr p hp
      have h0 := hτ _ (mem_fst hF.xs hp)
      have hc : conj (turns 0 p.1.tr p.1.ang) ≠ 0 := by simpa using h0
      have hS : p.2.2 = xfmrS V p.1 := by rw [xfmrS, a, mul_div_cancel_left₀ _ h0]
      have hI : p.2.1 = xfmrI V p.1 := by rw [xfmrI, ← hS, b, mul_div_cancel_left₀ _ hc]
      rw [hS, hI]
    have h1 := hF.kcl k hk
    have hsz : (pS.map fun p => (if p.1.bus = k then p.2 else 0)).sum = 0 :=
      sum_zero fun p hp => if_neg fun h : p.1.bus = k => hns (h ▸ List.mem_map_of_mem (mem_fst hF.ss hp))
    rw [hx, hsz, zero_add] at h1
    have h2 : o.rest V k = -(pG.map fun p => genTerm V p.1 p.2 k).sum := by
      rw [Out.rest]; linear_combination h1
    have hP : (pG.map fun p => if p.1.bus = k then p.1.g.P else 0).sum =
        (o.generators.map fun x => if x.bus = k then x.g.P else 0).sum := by
      rw [← hF.gs, List.map_map]; rfl
    rw [h2, map_neg, mul_neg, gens_power (hV k hk)]
    refine ⟨by simp [hP], fun hn => ?_⟩
    have : ∀ l : List (GenAt × ℝ), (∀ p ∈ l, p.1.bus ≠ k) → (l.map fun p => if p.1.bus = k then p.2 else 0).sum = 0 := by
      intro l
      induction l with
      | nil => intro _; rfl
      | cons a as ih =>
        intro h
        rw [List.map_cons, List.sum_cons, if_neg (h a (List.mem_cons_self ..)),
          ih fun p hp => h p (List.mem_cons_of_mem _ hp), add_zero]
    simp only [Complex.neg_im, neg_eq_zero]
    exact this _ fun p hp h => hn (h ▸ List.mem_map_of_mem (mem_fst hF.gs hp))
  · rintro ⟨hk, hsl, hge⟩
    set q : ℤ → ℝ := fun k => -(V k * conj (o.rest V k)).im with hq
    set pG : List (GenAt × ℝ) := o.generators.map fun x => (x, q x.bus) with hpG
    set cur : ℤ → ℂ := fun k => -(o.rest V k + (pG.map fun p => genTerm V p.1 p.2 k).sum) with hcur
    refine ⟨o.xfmrs.map fun x => (x, xfmrI V x, xfmrS V x), o.slack.map fun s => (s, cur s.bus), pG,
      by simp [List.map_map, Function.comp_def], by simp [List.map_map, Function.comp_def],
      by simp [hpG, List.map_map, Function.comp_def], ?_, ?_, hsl, hge⟩
    · intro k hkb
      rw [List.map_map, List.map_map]
      change (o.branches.map fun l => lineTerm V l k).sum + ((o.xfmrs.map fun x => xfmrTerm V x (xfmrI V x) (xfmrS V x) k).sum +
        ((o.slack.map fun s => if s.bus = k then cur s.bus else 0).sum + ((pG.map fun p => genTerm V p.1 p.2 k).sum +
        ((o.loads.map fun x => loadTerm V x k).sum + (o.shunts.map fun x => shuntTerm V x k).sum)))) = 0
      by_cases hks : k ∈ o.slack.map SlackAt.bus
      · rw [sum_unique hs hks cur]
        simp only [hcur, Out.rest]
        ring
      · have hsz : (o.slack.map fun s => (if s.bus = k then cur s.bus else 0)).sum = 0 :=
          sum_zero fun s hs => if_neg fun h : s.bus = k => hks (h ▸ List.mem_map_of_mem hs)
        rw [hsz, zero_add]
        obtain ⟨a, b⟩ := hk k hkb hks
        have : o.rest V k + (pG.map fun p => genTerm V p.1 p.2 k).sum = 0 := by
          refine conj_zero (hV k hkb) ?_
          rw [map_add, mul_add, gens_power (hV k hkb)]
          have hP : (pG.map fun p => if p.1.bus = k then p.1.g.P else 0).sum =
              (o.generators.map fun x => if x.bus = k then x.g.P else 0).sum := by
            rw [hpG, List.map_map]; rfl
          have hQ : (pG.map fun p => if p.1.bus = k then p.2 else 0).sum =
              (o.generators.map fun x => if x.bus = k then q x.bus else 0).sum := by
            rw [hpG, List.map_map]; rfl
          rw [hP, hQ]
          apply Complex.ext
          · simpa using a
          · rw [Complex.add_im]
            simp only [Complex.zero_im]
            by_cases hkg : k ∈ o.generators.map GenAt.bus
            · rw [sum_unique hg hkg q, hq]
              ring
            · rw [b hkg, zero_add]
              have : ∀ l : List GenAt, (∀ x ∈ l, x.bus ≠ k) → (l.map fun x => if x.bus = k then q x.bus else 0).sum = 0 := by
                intro l
                induction l with
                | nil => intro _; rfl
                | cons a as ih =>
                  intro h
                  rw [List.map_cons, List.sum_cons, if_neg (h a (List.mem_cons_self ..)),
                    ih fun p hp => h p (List.mem_cons_of_mem _ hp), add_zero]
              exact this _ fun x hx h => hkg (h ▸ List.mem_map_of_mem hx)
        rw [Out.rest] at this
        linear_combination this
    · intro p hp
      obtain ⟨x, hx, rfl⟩ := List.mem_map.1 hp
      have h0 := hτ x hx
      have hc : conj (turns 0 x.tr x.ang) ≠ 0 := by simpa using h0
      constructor
      · simp only [xfmrS]
        rw [mul_div_cancel₀ _ h0]
      · simp only [xfmrI]
        rw [mul_div_cancel₀ _ hc]

end Verif.Raw
