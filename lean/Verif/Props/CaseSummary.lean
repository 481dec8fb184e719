import Verif.Model.CaseSummary
import Verif.Props.Raw

/-!
# C153 for RAW cases: the printed summary counts what is in the file
-/

namespace Verif.Raw

open scoped Classical

variable {c : Case} {o : Out} {name : ℤ → Txt} {next : ℕ}

/-- **C153, lines of a case.** As many lines are printed as branches are in service between energised buses. -/
theorem C153_case_lines (hd : c.DistinctBuses) (h : parseRaw c = .ok o) : (o.summary name next).lines = (c.branches.filter fun r => r.Served c).length :=
  (C48_branches_once hd h).length_eq.symm

/-- **C153, buses of a case.** As many buses are printed as are energised, if there are no three-winding transformers. -/
theorem C153_case_buses_partial (h3 : c.three = []) (h : parseRaw c = .ok o) : (o.summary name next).buses = (c.buses.filter fun b => b.ide ≠ 4).length := by
  obtain ⟨g, sw, fs, ls, bs, x2, top, x3, -, -, -, -, -, -, -, h8, rfl⟩ := parseRaw_ok.1 h
  rw [h3] at h8
  cases h8
  simp [Out.summary, starBuses, Case.online]

/-- **C153, nodes of a case.** The nodes printed are the energised buses if these have names of their own. -/
theorem C153_case_nodes_partial (hd : c.DistinctBuses) (h3 : c.three = []) (hn : ∀ a b, c.Energised a → c.Energised b → name a = name b → a = b) (h : parseRaw c = .ok o) :
    (o.summary name next).nodes = (c.buses.filter fun b => b.ide ≠ 4).length := by
  obtain ⟨g, sw, fs, ls, bs, x2, top, x3, -, -, -, -, -, -, -, h8, rfl⟩ := parseRaw_ok.1 h
  rw [h3] at h8
  cases h8
  change (List.map name (c.online ++ starBuses (1000000 + top) [])).dedup.length = _
  rw [starBuses, List.append_nil]
  have hon : ∀ a ∈ c.online, c.Energised a := fun a ha => by
    obtain ⟨b, hb, rfl⟩ := List.mem_map.1 ha
    obtain ⟨h1, h2⟩ := List.mem_filter.1 hb
    exact ⟨b, h1, rfl, by simpa using h2⟩
  have hnd : c.online.Nodup := hd.sublist (List.filter_sublist.map _)
  rw [List.dedup_eq_self.2 (hnd.map_on fun a ha b hb => hn a b (hon a ha) (hon b hb)), List.length_map, Case.online, List.length_map]

/-- **C153, loads of a case.** Every load printed is one of its own, and all loads in service at energised buses are among them; there are no others if no generator is in service at
a bus of type 2. -/
theorem C153_case_loads_partial (hd : c.DistinctBuses) (h : parseRaw c = .ok o) : (o.summary name next).loads = (o.summary name next).phaseLoads ∧
    (c.loads.filter fun r => r.Served c).length ≤ (o.summary name next).loads ∧
    ((∀ g ∈ c.generators, g.stat = 1 → ¬ c.HasType g.i 2) → (o.summary name next).loads = (c.loads.filter fun r => r.Served c).length) := by
  have h0 : (o.summary name next).loads = o.loads.length := by
    change (List.range' next o.loads.length).dedup.length = _
    rw [List.dedup_eq_self.2 List.nodup_range', List.length_range']
  obtain ⟨own, ls, e, h1, h2⟩ := C48_loads_once hd h
  have hlen : (c.loads.filter fun r => r.Served c).length = ls.length := h2.length_eq
  refine ⟨h0, ?_, fun hg => ?_⟩
  · rw [h0, e, hlen, List.length_append]
    exact Nat.le_add_left _ _
  · have : own = [] := by
      cases own with
      | nil => rfl
      | cons x own =>
        obtain ⟨g, hg1, hg2, hg3, hg4⟩ := h1 x List.mem_cons_self
        exact absurd (hg2 ▸ hg4) (hg g hg1 hg3)
    rw [h0, e, this, hlen, List.nil_append]

/-- A case of two buses. -/
noncomputable def twoBuses : Case := { sbase := 100, buses := [⟨1, 3, 1, 0, 138⟩, ⟨2, 1, 1, 0, 138⟩], generators := [], loads := [], fixed := [], switched := [], branches := [], two := [], three := [] }

/-- **C153 fails for names.** The names of buses may be left blank in a RAW file. Of two buses without a name one node is printed. -/
theorem C153_case_nodes_fails : ∃ o, parseRaw twoBuses = .ok o ∧ (o.summary (fun _ => []) next).buses = 2 ∧ (o.summary (fun _ => []) next).nodes = 1 :=
  ⟨_, rfl, rfl, rfl⟩

/-! ### A case -/

/-- The same two buses with names of their own. -/
example : ∃ o, parseRaw twoBuses = .ok o ∧ (o.summary (fun i => if i = 1 then ['A'] else ['B']) 5).nodes = 2 ∧ (o.summary (fun i => if i = 1 then ['A'] else ['B']) 5).buses = 2 ∧
    (o.summary (fun i => if i = 1 then ['A'] else ['B']) 5).lines = 0 ∧ (o.summary (fun i => if i = 1 then ['A'] else ['B']) 5).loads = 0 := by
  obtain ⟨o, h, -, -⟩ := C153_case_nodes_fails (next := 0)
  have hd : twoBuses.DistinctBuses := by simp [Case.DistinctBuses, twoBuses]
  refine ⟨o, h, (C153_case_nodes_partial hd rfl ?_ h).trans rfl, (C153_case_buses_partial rfl h).trans rfl, (C153_case_lines hd h).trans rfl,
    ((C153_case_loads_partial hd h).2.2 fun g hg => by cases hg).trans rfl⟩
  rintro a b ⟨x, hx, rfl, -⟩ ⟨y, hy, rfl, -⟩ e
  simp only [twoBuses, List.mem_cons, List.not_mem_nil, or_false] at hx hy
  rcases hx with rfl | rfl <;> rcases hy with rfl | rfl <;> simp_all

end Verif.Raw
