import Verif.Props.Islands
import Verif.Props.RawQuantities
import Verif.Model.RawNetwork

/-!
# Islands and the names of buses: C116
-/

namespace Verif

/-- Some element joins the two buses, given by their positions. -/
def Wired (elements : List Element) (i j : ℕ) : Prop := ∃ e ∈ elements, Joins e (some i) (some j) ∨ Joins e (some j) (some i)

/-- The buses `i` and `j` are joined by a path of elements. -/
def SameIsland (elements : List Element) : ℕ → ℕ → Prop := Relation.ReflTransGen (Wired elements)

/-- No bus is an internal one, no two have the same name, and elements end at buses. -/
structure OwnNames (buses : List GBus) (elements : List Element) : Prop where
  real : ∀ b ∈ buses, b.virtual = false
  nodup : (buses.map GBus.name).Nodup
  ends : ∀ e ∈ elements, ∀ f t, Joins e (some f) (some t) → f < buses.length ∧ t < buses.length

theorem nameOf_get {buses : List GBus} {k : ℕ} (h : k < buses.length) : nameOf buses k = (buses.map GBus.name)[k]'(by simpa using h) := by
  simp [nameOf, List.getElem?_eq_getElem h]

theorem nameOf_inj {buses : List GBus} (hn : (buses.map GBus.name).Nodup) {i j : ℕ} (hi : i < buses.length) (hj : j < buses.length)
    (h : nameOf buses i = nameOf buses j) : i = j := by
  rw [nameOf_get hi, nameOf_get hj] at h
  exact (List.Nodup.getElem_inj_iff hn).1 h

/-- **C116, what holds.** If no two buses have the same name, a network that passes the checks has every two of its buses joined by a path of elements. Missing: buses with the same
name, see `C116_same_name_fails`. -/
theorem C116_own_names_partial {buses : List GBus} {elements : List Element} (ho : OwnNames buses elements) (cs vs : List (List Txt))
    (hc : IsIslands (Graph.build buses elements) cs) (h : executeChecks buses cs vs = .ok ()) (i j : ℕ) (hi : i < buses.length) (hj : j < buses.length) :
    SameIsland elements i j := by
  have hreal : ∀ k, k < buses.length → RealName buses (nameOf buses k) := fun k hk => by
    refine ⟨buses[k], List.getElem_mem hk, ho.real _ (List.getElem_mem hk), ?_⟩
    simp [nameOf, List.getElem?_eq_getElem hk]
  have hp := C45_one_island buses elements cs vs hc h _ _ (hreal i hi) (hreal j hj)
  suffices ∀ b, PathBetween buses elements (nameOf buses i) b → ∃ k, k < buses.length ∧ nameOf buses k = b ∧ SameIsland elements i k by
    obtain ⟨k, hk, hn, hs⟩ := this _ hp
    exact nameOf_inj ho.nodup hk hj hn ▸ hs
  intro b hb
  induction hb with
  | refl => exact ⟨i, hi, rfl, .refl⟩
  | tail _ hl ih =>
    obtain ⟨k, hk, hn, hs⟩ := ih
    obtain ⟨e, he, -, f, t, hj', hor⟩ := hl
    obtain ⟨hf, ht⟩ := ho.ends e he f t hj'
    rcases hor with ⟨h1, h2⟩ | ⟨h1, h2⟩
    · have : k = f := nameOf_inj ho.nodup hk hf (hn.trans h1.symm)
      subst this
      exact ⟨t, ht, h2, hs.tail ⟨e, he, .inl hj'⟩⟩
    · have : k = t := nameOf_inj ho.nodup hk ht (hn.trans h2.symm)
      subst this
      exact ⟨f, hf, h1, hs.tail ⟨e, he, .inr hj'⟩⟩

theorem build_one_name {buses : List GBus} {elements : List Element} {n : Txt} (hne : buses ≠ []) (hb : ∀ b ∈ buses, b.virtual = false ∧ b.name = n)
    (he : ∀ e ∈ elements, ∀ c ∈ e.connections, ∀ f t, c = (some f, some t) → f < buses.length ∧ t < buses.length) :
    Graph.build buses elements = ⟨[n], []⟩ := by
  have hname : ∀ k, k < buses.length → nameOf buses k = n := fun k hk => by
    simp [nameOf, List.getElem?_eq_getElem hk, (hb _ (List.getElem_mem hk)).2]
  have hnodes : graphNodes buses = [n] := by
    unfold graphNodes
    rw [List.filter_eq_self.2 fun b h => by simp [(hb b h).1]]
    rw [List.map_congr_left fun b h => (hb b h).2, List.map_const']
    obtain ⟨m, hm⟩ : ∃ m, buses.length = m + 1 := ⟨buses.length - 1, by have := List.length_pos_iff.2 hne; omega⟩
    rw [hm]
    exact List.replicate_dedup (by omega)
  have hinner : ∀ (e : Element) (i : ℕ) (G : Graph) (cs : List (Ref × Ref)),
      (∀ c ∈ cs, ∀ f t, c = (some f, some t) → f < buses.length ∧ t < buses.length) → cs.foldl (Graph.connect buses e i) G = G := by
    intro e i G cs
    induction cs with
    | nil => intro _; rfl
    | cons c cs ih =>
      intro hcs
      have hc : Graph.connect buses e i G c = G := by
        unfold Graph.connect
        split
        · rfl
        · split
          · rename_i f t
            obtain ⟨h1, h2⟩ := hcs _ List.mem_cons_self f t rfl
            simp [hname f h1, hname t h2]
          · rfl
      rw [List.foldl_cons, hc]
      exact ih fun c hc => hcs c (List.mem_cons_of_mem _ hc)
  unfold Graph.build
  rw [hnodes]
  have hz : ∀ x ∈ elements.zipIdx, x.1 ∈ elements := fun x hx => by
    obtain ⟨e, i⟩ := x
    exact (List.mem_of_getElem? (List.mem_zipIdx_iff_getElem?.1 hx))
  revert hz
  generalize elements.zipIdx = l
  intro hz
  induction l with
  | nil => rfl
  | cons x l ih =>
    rw [List.foldl_cons, hinner x.1 x.2 _ _ (he x.1 (hz x List.mem_cons_self))]
    exact ih fun y hy => hz y (List.mem_cons_of_mem _ hy)

/-- Two swing buses without a branch. -/
noncomputable def twoSwings : Raw.Case where
  sbase := 100
  buses := [⟨1, 3, 1, 0, 138⟩, ⟨2, 3, 1, 0, 138⟩]
  generators := [⟨1, 0, 0, 50, -50, 1, 1, 0, 1⟩, ⟨2, 0, 0, 50, -50, 1, 1, 0, 1⟩]
  switched := []
  fixed := []
  loads := []
  branches := []
  two := []
  three := []

/-- **C116 fails** for buses with the same name, such as the twelve blanks of buses without one: whatever their number and their elements, the network passes the
checks, so also the one of two swing buses of one name without any branch, which are not joined. -/
theorem C116_same_name_fails : (∀ (buses : List GBus) (elements : List Element) (n : Txt), buses ≠ [] → (∀ b ∈ buses, b.virtual = false ∧ b.name = n) →
      (∀ e ∈ elements, ∀ c ∈ e.connections, ∀ f t, c = (some f, some t) → f < buses.length ∧ t < buses.length) →
      ∃ cs vs, IsIslands (Graph.build buses elements) cs ∧ IsEdgeIslands ((Graph.build buses elements).plainEdges elements) vs ∧ executeChecks buses cs vs = .ok ()) ∧
    ∃ (c : Raw.Case) (o : Raw.Out), Raw.parseRaw c = .ok o ∧ o.buses = [1, 2] ∧ (∃ x y x' y', o.toNetwork.elements = [.slack 0 x y, .slack 1 x' y']) ∧
      ¬ SameIsland o.toNetwork.elements 0 1 := by
  constructor
  · intro buses elements n hne hb he
    have hg := build_one_name hne hb he
    refine ⟨[[n]], [], ?_, ?_, ?_⟩
    · rw [hg]
      exact components_single _ (by simp) (by simp) fun a ha b hb => by
        rw [List.mem_singleton] at ha hb; subst ha; subst hb; exact .refl
    · rw [hg]
      refine ⟨?_, by simp, by simp, by simp, List.Pairwise.nil⟩
      rintro a ⟨e, h, -⟩
      simp [Graph.plainEdges] at h
    · simp [executeChecks, validateIslands]
  · have hload : Raw.parseRaw twoSwings = .ok ⟨[1, 2], [⟨1, 1, 0, 0, 0⟩, ⟨2, 1, 0, 0, 0⟩], [], [], [], [], []⟩ := by
      simp [twoSwings, Raw.parseRaw, Raw.foldPy, Raw.mapPy, Raw.genStep, Raw.Case.offline, Raw.Case.online, Raw.Case.bus, Raw.largest, Raw.starBuses,
        Raw.Case.slackBuses, Raw.slackStep, Raw.Case.busRec]
    refine ⟨twoSwings, _, hload, rfl, ⟨_, _, _, _, rfl⟩, ?_⟩
    intro h
    have hw : ∀ i j, ¬ Wired (Raw.Out.toNetwork ⟨[1, 2], [⟨1, 1, 0, 0, 0⟩, ⟨2, 1, 0, 0, 0⟩], [], [], [], [], []⟩).elements i j := by
      rintro i j ⟨e, he, hj⟩
      simp only [Raw.Out.toNetwork, List.map_nil, List.nil_append, List.append_nil, List.map_cons, List.mem_cons, List.not_mem_nil, or_false, Raw.Out.swing] at he
      rcases he with rfl | rfl <;> rcases hj with hj | hj <;> cases hj
    rcases Relation.ReflTransGen.cases_head h with h | ⟨k, hk, -⟩
    · exact absurd h (by decide)
    · exact hw _ _ hk

/-- `C116_own_names_partial` on three buses with their own names and two lines: the last two are joined. -/
example : SameIsland twoLines 1 2 := by
  have ho : OwnNames threeNodes twoLines := by
    refine ⟨?_, by decide, ?_⟩
    · intro b hb
      simp only [threeNodes, List.mem_cons, List.not_mem_nil, or_false] at hb
      rcases hb with rfl | rfl | rfl <;> rfl
    · intro e he f t hj
      simp only [twoLines, List.mem_cons, List.not_mem_nil, or_false] at he
      rcases he with rfl | rfl <;> cases hj <;> simp [threeNodes]
  exact C116_own_names_partial ho _ _ (threeNodes_islands [['a'], ['b'], ['c']] (by simp)).1 threeNodes_accepted 1 2 (by decide) (by decide)

end Verif
