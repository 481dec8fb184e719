import Verif.Lemmas.Summary
import Verif.Model.Summary
import Verif.Props.LoadNames
import Verif.Lemmas.GlmFlow

/-!
# C153: the numbers printed of a feeder
-/

namespace Verif.Glm

variable {M : Type} {readLine : LineReader M} {schedules : List (Txt × Txt)} {objs : List (Txt × Obj)} {g : Grid M}

section

variable (hR : Keeps readLine objs) (hO : OuterFile objs) (hk : (objs.map Prod.fst).Nodup) (h : parseGrid readLine objs schedules = .ok g)

include hR hO hk h

/-- **C153, lines.** As many lines are printed as there are in the file. -/
theorem C153_lines : g.summary.lines = (declaredLines objs).length := by
  obtain ⟨s, groups, hr⟩ := parseGrid_read hR hO h
  exact (hr.lines hk).length_eq.symm

/-- **C153, phase loads.** As many phase loads are printed as the file declares. -/
theorem C153_phase_loads (hb : NoBasePower objs) : g.summary.phaseLoads = (declaredLoads objs).length :=
  (C85_loads hR hO hk hb h).length_eq.symm

/-- **C153, phase buses.** The phase buses printed are the phases of the nodes, meters and loads without parent, and one more for each phase of a fuse and of a regulator and three for
each center tap. -/
theorem C153_buses (hS : ∀ name o, (name, o) ∈ objs → isFuseObj o = true → StatesGiven "_status".toList o ∧ NoStrayStates "_status".toList o)
    (hp : PlainConfigurations objs) (hst : NoStraySettings objs) :
    g.summary.buses = (ownPlaces objs).length + (declaredFuses objs).length + (declaredRegs objs).length + 3 * declaredTaps objs := by
  obtain ⟨s, groups, hr⟩ := parseGrid_read hR hO h
  have h1 := C84_buses hR hO hk h
  have hf := hr.fuses hk hS
  have hrg := hr.regulators hk hp hst
  obtain ⟨ht, hti⟩ := taps_length (hr.transformers hk hp)
  have hin : ∀ b ∈ innerOf g.transformers g.regulators g.fuses, Inner g b := by
    intro b hb
    rw [innerOf, List.mem_append, List.mem_append] at hb
    rcases hb with (hb | hb) | hb
    · exact hti b hb
    · obtain ⟨x, hx, rfl⟩ := List.mem_map.1 hb
      exact forall₂_right hrg (P := fun x => Inner g x.c) (fun _ _ hd => hd.2.2.1) x hx
    · obtain ⟨x, hx, rfl⟩ := List.mem_map.1 hb
      exact forall₂_right hf (P := fun x => Inner g x.i) (fun _ _ hd => hd.2.2.1) x hx
  show g.buses.length = _
  rw [buses_length, inner_length (parseGrid_inner h) hin, h1, innerOf, List.length_append, List.length_append, ht, List.length_map, List.length_map, List.length_map,
    ← hrg.length_eq, ← hf.length_eq, ownPlaces, declaredTaps]
  ring

/-- **C153, nodes, partial.** Without fuses, regulators and center taps as many nodes are printed as there are nodes, meters and loads without parent. Missing: the other feeders, see
`C153_nodes_fails`. -/
theorem C153_nodes_partial (hS : ∀ name o, (name, o) ∈ objs → isFuseObj o = true → StatesGiven "_status".toList o ∧ NoStrayStates "_status".toList o)
    (hp : PlainConfigurations objs) (hst : NoStraySettings objs) (hf : declaredFuses objs = []) (hr : declaredRegs objs = []) (ht : declaredTaps objs = 0) :
    g.summary.nodes = (ownObjects objs).length := by
  have hb := C153_buses hR hO hk h hS hp hst
  have h1 := C84_buses hR hO hk h
  rw [hf, hr, ht] at hb
  have hv : ∀ x ∈ g.buses, x.virtual = false := by
    have hb' : g.buses.length = (outerBuses g).length := by
      rw [h1, List.length_map]
      exact hb
    have hl := buses_length g
    have : (g.buses.filter fun x => x.virtual) = [] := List.length_eq_zero_iff.1 (by omega)
    intro x hx
    have := List.filter_eq_nil_iff.1 this x hx
    simpa using this
  have hmap : g.buses.map PhaseBus.name = (ownPlaces objs).map fun x => x.1.1 := by
    have e : outerBuses g = g.buses.map fun x => (x.name, x.phase) := by
      rw [outerBuses, List.filter_eq_self.2 fun x hx => by rw [hv x hx]; rfl]
    have : (outerBuses g).map Prod.fst = (ownPlaces objs).map fun x => x.1.1 := by
      rw [h1, List.map_map]; rfl
    rw [← this, e, List.map_map]
    rfl
  show (g.buses.map PhaseBus.name).dedup.length = _
  rw [hmap]
  refine dedup_length (f' := Prod.fst) ?_ ?_ fun b => ?_
  · exact (List.Nodup.of_map _ hk).filter _
  · intro x hx y hy e
    exact List.inj_on_of_nodup_map hk (List.mem_filter.1 hx).1 (List.mem_filter.1 hy).1 e
  · rw [List.mem_map, List.mem_map]
    constructor
    · rintro ⟨x, hx, rfl⟩
      obtain ⟨hx, hn⟩ := List.mem_filter.1 hx
      obtain ⟨y, hy, hx⟩ := List.mem_flatMap.1 hx
      obtain ⟨p, hp, rfl⟩ := List.mem_map.1 hx
      obtain ⟨hy, hpl⟩ := List.mem_filter.1 hy
      refine ⟨y, List.mem_filter.2 ⟨hy, ?_⟩, rfl⟩
      rw [Bool.and_eq_true, Bool.and_eq_true, Bool.not_eq_true', List.isEmpty_eq_false_iff]
      exact ⟨⟨hpl, hn⟩, List.ne_nil_of_mem hp⟩
    · rintro ⟨y, hy, rfl⟩
      obtain ⟨hy, hc⟩ := List.mem_filter.1 hy
      rw [Bool.and_eq_true, Bool.and_eq_true, Bool.not_eq_true', List.isEmpty_eq_false_iff] at hc
      obtain ⟨p, hp⟩ := List.exists_mem_of_ne_nil _ hc.2
      exact ⟨(y, p), List.mem_filter.2 ⟨List.mem_flatMap.2 ⟨y, List.mem_filter.2 ⟨hy, hc.1.1⟩, List.mem_map.2 ⟨p, hp, rfl⟩⟩, hc.1.2⟩, rfl⟩

/-- **C153, loads, partial.** If no two load objects have names with the same ending, as many loads are printed as there are objects that declare a load. Missing: names that end alike,
see `C153_loads_fails`. -/
theorem C153_loads_partial (hb : NoBasePower objs) (he : EndingsDiffer objs) : g.summary.loads = (loadObjects objs).length := by
  have hF := C152_names hR hO hk hb h
  have hmap : g.loads.map GLoad.num = (namedLoads objs).map fun d => ((splitOn '_' d.1.1).getLast?).getD [] := by
    refine List.forall₂_eq_eq_eq ▸ ?_
    rw [List.forall₂_map_left_iff, List.forall₂_map_right_iff]
    exact hF.flip.imp fun x d hd => hd.2.2.1.unique (splitOn_ending _)
  show (g.loads.map GLoad.num).dedup.length = _
  rw [hmap]
  refine dedup_length (f' := fun x : Txt × Obj => ((splitOn '_' x.1).getLast?).getD []) ?_ ?_ fun b => ?_
  · exact (List.Nodup.of_map _ hk).filter _
  · intro x hx y hy e
    refine he x hx y hy _ (splitOn_ending _) ?_
    rw [e]
    exact splitOn_ending _
  · rw [List.mem_map, List.mem_map]
    constructor
    · rintro ⟨d, hd, rfl⟩
      obtain ⟨x, hx, hd⟩ := List.mem_flatMap.1 hd
      split_ifs at hd with hc
      · obtain ⟨y, hy, rfl⟩ := List.mem_map.1 hd
        refine ⟨x, List.mem_filter.2 ⟨hx, ?_⟩, rfl⟩
        rw [Bool.and_eq_true, Bool.not_eq_true', List.isEmpty_eq_false_iff]
        exact ⟨hc, List.ne_nil_of_mem hy⟩
      · cases hd
    · rintro ⟨x, hx, rfl⟩
      obtain ⟨hx, hc⟩ := List.mem_filter.1 hx
      rw [Bool.and_eq_true, Bool.not_eq_true', List.isEmpty_eq_false_iff] at hc
      obtain ⟨y, hy⟩ := List.exists_mem_of_ne_nil _ hc.2
      exact ⟨(x, y), List.mem_flatMap.2 ⟨x, hx, by rw [if_pos hc.1]; exact List.mem_map.2 ⟨y, hy, rfl⟩⟩, rfl⟩

end

/-! ### Examples -/

/-- Of the feeder 26 phase buses are printed, no line, and four phase loads of three objects. -/
example : ∃ g, parseGrid noLines feeder [] = .ok g ∧ g.summary.buses = 26 ∧ g.summary.lines = 0 ∧ g.summary.loads = 3 ∧ g.summary.phaseLoads = 4 := by
  obtain ⟨g, hg⟩ := feeder_read
  refine ⟨g, hg, ?_, ?_, ?_, ?_⟩
  · rw [C153_buses noLines_keeps feeder_outer feeder_keys hg feeder_states.2 feeder_plain feeder_noStray]; decide +kernel
  · rw [C153_lines noLines_keeps feeder_outer feeder_keys hg]; decide +kernel
  · rw [C153_loads_partial noLines_keeps feeder_outer feeder_keys hg feeder_noBase ?_]
    · decide +kernel
    · intro x hx y hy num h1 h2
      have : ∀ x ∈ loadObjects feeder, ∀ y ∈ loadObjects feeder, ((splitOn '_' x.1).getLast?).getD [] = ((splitOn '_' y.1).getLast?).getD [] → x = y := by decide +kernel
      exact this x hx y hy (((splitOn_ending x.1).unique h1).trans ((splitOn_ending y.1).unique h2).symm)
  · rw [C153_phase_loads noLines_keeps feeder_outer feeder_keys hg feeder_noBase]; decide +kernel

/-- Of the file with one node one node is printed. -/
example : ∃ g, parseGrid noLines likeNames [] = .ok g ∧ g.summary.nodes = 1 := by
  obtain ⟨g, hg⟩ := likeNames_read
  have h1 : ∀ x ∈ likeNames, ¬ isFuseObj x.2 = true ∧ x.2.cls ∉ ["regulator", "transformer"].map String.toList := by decide +kernel
  refine ⟨g, hg, ?_⟩
  rw [C153_nodes_partial noLines_keeps (outerFile_of_check (by decide +kernel)) (by decide +kernel) hg (fun name o hm hc => absurd hc (h1 (name, o) hm).1)
    (fun name o c hm hc => absurd hc (h1 (name, o) hm).2) (fun name o hm hc => absurd (by rw [hc]; decide) (h1 (name, o) hm).2) (by decide +kernel) (by decide +kernel)
    (by decide +kernel)]
  decide +kernel

/-- **C153 fails, loads.** Three load objects, of which two have names that end alike: two loads are printed. -/
theorem C153_loads_fails : ∃ g, parseGrid noLines likeNames [] = .ok g ∧ (loadObjects likeNames).length = 3 ∧ g.summary.loads = 2 := by
  obtain ⟨g, hg, h⟩ := read_of_check (objs := likeNames) (p := fun g => g.summary.loads = 2) (by decide +kernel)
  exact ⟨g, hg, by decide +kernel, h⟩

/-- **C153 fails, nodes.** Two nodes and a fuse between them: three nodes are printed. -/
theorem C153_nodes_fails : ∃ objs g, parseGrid noLines objs [] = .ok g ∧ (ownObjects objs).length = 2 ∧ (objs.map fun x => x.2.cls) = ["node".toList, "node".toList, "fuse".toList] ∧
    g.summary.nodes = 3 := by
  obtain ⟨g, hg, h⟩ := read_of_check (objs := [
      fileObject "node" [("name", "n1"), ("phases", "ABCN"), ("bustype", "SWING"), ("nominal_voltage", "2400")],
      fileObject "node" [("name", "n2"), ("phases", "ABCN"), ("nominal_voltage", "2400")],
      fileObject "fuse" [("name", "f"), ("phases", "ABCN"), ("from", "n1"), ("to", "n2"), ("current_limit", "100.0 A"), ("phase_A_status", "GOOD"),
        ("phase_B_status", "GOOD"), ("phase_C_status", "GOOD")]]) (p := fun g => g.summary.nodes = 3) (by decide +kernel)
  exact ⟨_, g, hg, by decide +kernel, by decide +kernel, h⟩

end Verif.Glm
