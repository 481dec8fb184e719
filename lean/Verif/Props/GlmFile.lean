import Verif.Lemmas.GlmBuses
import Verif.Spec.GlmCircuit
import Mathlib.Tactic.NormNum

/-!
# C84-C87, C91, C96, C98: the network read from a GridLAB-D file

The theorems speak about `parseGrid`, the whole way from the objects of a file to the network. `readLine` is any way of reading lines that
rewrites nothing but lines and conductors.
-/

namespace Verif.Glm

variable {M : Type}

/-! ### A file for the examples -/

/-- An object of a file, by its class and its attributes, the first of which is the name. -/
def fileObject (c : String) (l : List (String × String)) : Txt × Obj :=
  (((l.headD ("", "")).2).toList, ⟨c.toList, l.map fun x => (x.1.toList, x.2.toList)⟩)

/-- No lines. -/
def noLines : LineReader Empty := fun _ _ _ => .error .raised

theorem noLines_keeps {objs : List (Txt × Obj)} : Keeps noLines objs := fun _ _ _ _ _ _ h => by cases h

/-- The check of `OuterFile`. -/
def outerCheck (objs : List (Txt × Obj)) : Bool := objs.all fun x =>
  innerEndings.all (fun e => !e.isSuffixOf x.1) && ["from".toList, "to".toList, "parent".toList].all fun k =>
    match x.2.attr k with
    | none => true
    | some n => innerEndings.all fun e => !e.isSuffixOf n

theorem outerFile_of_check {objs : List (Txt × Obj)} (h : outerCheck objs = true) : OuterFile objs := by
  have sfx : ∀ n : Txt, (innerEndings.all fun e => !e.isSuffixOf n) = true → Outer n := by
    intro n hn e he hs
    have := List.all_eq_true.1 hn e he
    rw [List.isSuffixOf_iff_suffix.2 hs] at this
    cases this
  intro name o hm
  have := List.all_eq_true.1 h _ hm
  rw [Bool.and_eq_true] at this
  refine ⟨sfx _ this.1, fun k hk n hn => ?_⟩
  have := List.all_eq_true.1 this.2 k hk
  simp only [hn] at this
  exact sfx n this

/-- A feeder: a source, a node with a meter, a fuse and a switch, a load at the meter, a load in delta, a capacitor bank, a transformer in
delta, a regulator, and a center tap with a house. -/
def feeder : List (Txt × Obj) := [
  fileObject "node" [("name", "n1"), ("phases", "ABCN"), ("bustype", "SWING"), ("nominal_voltage", "2400"), ("voltage_B", "-1200-2078j")],
  fileObject "node" [("name", "n2"), ("phases", "ABCN"), ("nominal_voltage", "2400")],
  fileObject "meter" [("name", "m2"), ("phases", "ABCN"), ("nominal_voltage", "2400"), ("parent", "n2")],
  fileObject "fuse" [("name", "f"), ("phases", "ABCN"), ("from", "n1"), ("to", "n2"), ("current_limit", "100.0 A"), ("phase_A_status", "GOOD"),
    ("phase_B_status", "GOOD"), ("phase_C_status", "GOOD")],
  fileObject "load" [("name", "l_7"), ("phases", "ABCN"), ("parent", "m2"), ("constant_power_A", "100+20j"), ("constant_impedance_B", "5+1j")],
  fileObject "load" [("name", "l_8"), ("phases", "ABCD"), ("nominal_voltage", "2400"), ("constant_current_C", "3-1j")],
  fileObject "switch" [("name", "s"), ("phases", "ABCN"), ("from", "n2"), ("to", "l_8"), ("status", "CLOSED"), ("phase_A_state", "CLOSED"),
    ("phase_B_state", "OPEN"), ("phase_C_state", "CLOSED")],
  fileObject "capacitor" [("name", "c"), ("phases", "ABCN"), ("parent", "n2"), ("capacitor_A", "1000"), ("capacitor_B", "1500"),
    ("cap_nominal_voltage", "2400"), ("control", "MANUAL"), ("switchA", "CLOSED"), ("switchB", "OPEN")],
  fileObject "transformer_configuration" [("name", "tc"), ("connect_type", "DELTA_GWYE"), ("primary_voltage", "2.4kV"),
    ("secondary_voltage", "240"), ("resistance", "0.01"), ("reactance", "0.06"), ("power_rating", "75")],
  fileObject "node" [("name", "n3"), ("phases", "ABCN"), ("nominal_voltage", "240")],
  fileObject "transformer" [("name", "x"), ("phases", "ABC"), ("from", "n2"), ("to", "n3"), ("configuration", "tc")],
  fileObject "regulator_configuration" [("name", "rc"), ("connect_type", "1"), ("band_center", "120"), ("band_width", "2"), ("raise_taps", "16"),
    ("lower_taps", "16"), ("regulation", "0.10"), ("Control", "MANUAL"), ("Type", "A"), ("tap_pos_A", "3"), ("tap_pos_B", "-2"), ("tap_pos_C", "0")],
  fileObject "node" [("name", "n4"), ("phases", "ABCN"), ("nominal_voltage", "2400")],
  fileObject "regulator" [("name", "r"), ("phases", "ABCN"), ("from", "n2"), ("to", "n4"), ("configuration", "rc")],
  fileObject "transformer_configuration" [("name", "cc"), ("connect_type", "SINGLE_PHASE_CENTER_TAPPED"), ("primary_voltage", "2400"),
    ("secondary_voltage", "120"), ("impedance", "0.006+0.0136j"), ("power_rating", "25")],
  fileObject "triplex_meter" [("name", "tm"), ("phases", "BS"), ("nominal_voltage", "120")],
  fileObject "transformer" [("name", "y"), ("phases", "BS"), ("from", "n4"), ("to", "tm"), ("configuration", "cc")],
  fileObject "triplex_node" [("name", "h"), ("phases", "BS"), ("parent", "tm"), ("power_12", "3000+1000j")]]

/-- The names of the feeder are all different. -/
theorem feeder_keys : (feeder.map Prod.fst).Nodup := by decide +kernel

theorem feeder_outer : OuterFile feeder := outerFile_of_check (by decide +kernel)

/-- The feeder is read. -/
theorem feeder_read : ∃ g, parseGrid noLines feeder [] = .ok g := by
  have : (parseGrid noLines feeder []).isOk = true := by decide +kernel
  match h : parseGrid noLines feeder [] with
  | .ok g => exact ⟨g, rfl⟩
  | .error e => rw [h] at this; cases this

/-- A file that is read, with what is seen of the network. -/
theorem read_of_check {objs : List (Txt × Obj)} {p : Grid Empty → Prop} [DecidablePred p]
    (h : (match parseGrid noLines objs [] with
      | .ok g => decide (p g)
      | .error _ => false) = true) : ∃ g, parseGrid noLines objs [] = .ok g ∧ p g := by
  cases hg : parseGrid noLines objs [] with
  | ok g => rw [hg] at h; exact ⟨g, rfl, of_decide_eq_true h⟩
  | error e => rw [hg] at h; cases h

section File

variable {readLine : LineReader M} {schedules : List (Txt × Txt)} {objs : List (Txt × Obj)} {g : Grid M}

/-! ### C84 -/

/-- **C84, buses.** The buses that belong to nodes are exactly the phases of the nodes, meters and loads that have no parent, in the order of
the file. -/
theorem C84_buses (hR : Keeps readLine objs) (hO : OuterFile objs) (hk : (objs.map Prod.fst).Nodup) (h : parseGrid readLine objs schedules = .ok g) :
    outerBuses g = ((declaredPlaces objs).filter fun x => (x.1.2.attr "parent".toList).isNone).map fun x => (x.1.1, x.2) := by
  obtain ⟨s, groups, hr⟩ := parseGrid_read hR hO h
  exact hr.outerBuses hk

/-- **C84, places.** Every phase of every node, meter and load of the file is at exactly one bus: its own if it has no parent, otherwise that of
its parent. -/
theorem C84_places (hR : Keeps readLine objs) (hO : OuterFile objs) (hk : (objs.map Prod.fst).Nodup) (hp : PhasesOnce objs)
    (h : parseGrid readLine objs schedules = .ok g) : ∀ x ∈ declaredPlaces objs, ∃! b, FileAt objs g x.1.1 x.2 b := by
  obtain ⟨s, groups, hr⟩ := parseGrid_read hR hO h
  intro x hx
  obtain ⟨b, hb⟩ := hr.places_have hk hx
  exact ⟨b, hb, fun b' hb' => hr.unique hk hp hb' hb⟩

/-- **C84, sources, partial.** The slack generators are the phases of the `SWING` nodes, in the order of the file, each at its bus, and those
without parent have the voltage of the file. Missing: the voltage of a source with a parent, see `C84_child_source_fails`. -/
theorem C84_sources_partial (hR : Keeps readLine objs) (hO : OuterFile objs) (hk : (objs.map Prod.fst).Nodup)
    (h : parseGrid readLine objs schedules = .ok g) :
    List.Forall₂ (fun (x : (Txt × Obj) × Char) (y : ℕ × Phasor) => FileAt objs g x.1.1 x.2 y.1 ∧
      (x.1.2.attr "parent".toList = none → swingVoltage x.1.2 x.2 = some y.2)) ((declaredPlaces objs).filter fun x => isSwing x.1.2) g.slacks := by
  obtain ⟨s, groups, hr⟩ := parseGrid_read hR hO h
  exact hr.slacks hk

end File

/-- The check of `PhasesOnce`. -/
theorem feeder_once : PhasesOnce feeder := by
  have : ∀ x ∈ feeder, isPlace x.2 = true → (placePhases x.2).Nodup := by decide +kernel
  exact fun name o hm => this (name, o) hm

/-- The feeder has seventeen buses of nodes; phase `B` of the meter is the bus of phase `B` of `n2`; phase `B` of the source has the voltage
written in the file. -/
example : ∃ g, parseGrid noLines feeder [] = .ok g ∧ (outerBuses g).length = 17 ∧ (∃! b, FileAt feeder g "m2".toList 'B' b) ∧
    ∃ y ∈ g.slacks, FileAt feeder g "n1".toList 'B' y.1 ∧ y.2 = .given (-1200, -2078) := by
  obtain ⟨g, hg⟩ := feeder_read
  refine ⟨g, hg, ?_, ?_, ?_⟩
  · rw [C84_buses noLines_keeps feeder_outer feeder_keys hg]
    decide +kernel
  · exact C84_places noLines_keeps feeder_outer feeder_keys feeder_once hg
      (fileObject "meter" [("name", "m2"), ("phases", "ABCN"), ("nominal_voltage", "2400"), ("parent", "n2")], 'B') (by decide +kernel)
  · have h := C84_sources_partial noLines_keeps feeder_outer feeder_keys hg
    obtain ⟨y, hy, h1, h2⟩ := forall₂_mem_left h (a := (fileObject "node" [("name", "n1"), ("phases", "ABCN"), ("bustype", "SWING"),
      ("nominal_voltage", "2400"), ("voltage_B", "-1200-2078j")], 'B')) (by decide +kernel)
    refine ⟨y, hy, h1, ?_⟩
    have h3 := h2 (by decide +kernel)
    have h4 : swingVoltage (fileObject "node" [("name", "n1"), ("phases", "ABCN"), ("bustype", "SWING"),
      ("nominal_voltage", "2400"), ("voltage_B", "-1200-2078j")]).2 'B' = some (.given (-1200, -2078)) := by decide +kernel
    exact Option.some.inj (h3.symm.trans h4)

/-- **C84 fails for sources.** The source is a meter of 2400 V at a node. Its slack generator gets the voltage of the node read last before it,
here 480 V of another node. -/
theorem C84_child_source_fails : ∃ g, parseGrid noLines [
      fileObject "node" [("name", "n1"), ("phases", "AN"), ("nominal_voltage", "2400")],
      fileObject "node" [("name", "n2"), ("phases", "AN"), ("nominal_voltage", "480")],
      fileObject "meter" [("name", "m1"), ("phases", "AN"), ("nominal_voltage", "2400"), ("bustype", "SWING"), ("parent", "n1")]] [] = .ok g ∧
    g.slacks = [(0, .nominal 480 'A')] :=
  ⟨_, rfl, by decide +kernel⟩

/-! ### C85 -/

section File

variable {readLine : LineReader M} {schedules : List (Txt × Txt)} {objs : List (Txt × Obj)} {g : Grid M}

/-- **C85.** The loads of the network are the loads the file declares, in order: connected between the phases the attribute names (one letter of
a delta load stands for that phase and the next) of the node the load belongs to, or between the phase and ground, with the number of the file. -/
theorem C85_loads (hR : Keeps readLine objs) (hO : OuterFile objs) (hk : (objs.map Prod.fst).Nodup) (hb : NoBasePower objs)
    (h : parseGrid readLine objs schedules = .ok g) : List.Forall₂ (IsDeclared objs g) (declaredLoads objs) g.loads := by
  obtain ⟨s, groups, hr⟩ := parseGrid_read hR hO h
  exact hr.loads hk hb

theorem toComplex_zero : toComplex 0 = 0 := by apply Complex.ext <;> simp [toComplex]

/-- The current of a load of the network that is the declared one. -/
theorem load_draws {d : DeclaredLoad} {x : GLoad} (h : IsDeclared objs g d x) (V : Ref → ℂ) (w : List ℝ) :
    x.element.draws 0 V w = branch (some x.f) x.t (d.current (V (some x.f) - V x.t)) := by
  obtain ⟨a, rest, -, -, -, hp, hz, hi⟩ := h
  rw [GLoad.element, Element.draws]
  congr 1
  have hS : (⟨(x.p : ℝ), (x.q : ℝ)⟩ : ℂ) = toComplex (x.p, x.q) := rfl
  have hI : (⟨(x.i.1 : ℝ), (x.i.2 : ℝ)⟩ : ℂ) = toComplex x.i := rfl
  have hZ : complexPair x.z = toComplex x.z := rfl
  simp only [Complex.ofReal_zero, sub_zero, one_mul]
  rw [hS, hI, hZ, hp, hz, hi, DeclaredLoad.current]
  cases d.kind with
  | power => simp [toComplex_zero]
  | impedance => simp [toComplex_zero, div_eq_inv_mul]
  | current => simp [toComplex_zero]

/-- **C85, currents.** Every declared load is in the network and draws the current of the file: the constant power, `U / Z`, or the constant
current, under the voltage `U` between its two terminals. -/
theorem C85_currents (hR : Keeps readLine objs) (hO : OuterFile objs) (hk : (objs.map Prod.fst).Nodup) (hb : NoBasePower objs)
    (h : parseGrid readLine objs schedules = .ok g) (V : Ref → ℂ) (w : List ℝ) :
    List.Forall₂ (fun (d : DeclaredLoad) (x : GLoad) => ∃ (f : ℕ) (t : Ref) (a : Char) (rest : Txt), d.phases = a :: rest ∧
      FileAt objs g d.node a f ∧ FileTerm objs g (some d.node) rest.head? t ∧
      x.element.draws 0 V w = branch (some f) t (d.current (V (some f) - V t))) (declaredLoads objs) g.loads := by
  refine (C85_loads hR hO hk hb h).imp fun d x hd => ?_
  have hdr := load_draws hd V w
  obtain ⟨a, rest, h1, h2, h3, -⟩ := hd
  exact ⟨x.f, x.t, a, rest, h1, h2, h3, hdr⟩

end File

theorem feeder_noBase : NoBasePower feeder := by
  have : ∀ x ∈ feeder, isLoadObj x.2 = true → ∀ c ∈ loadEndings, x.2.attr ("base_power_".toList ++ c) = none := by decide +kernel
  exact fun name o hm => this (name, o) hm

/-- The four loads of the feeder. -/
example : declaredLoads feeder = [⟨"m2".toList, "A".toList, .power, (100, 20)⟩, ⟨"m2".toList, "B".toList, .impedance, (5, 1)⟩,
      ⟨"l_8".toList, "CA".toList, .current, (3, -1)⟩, ⟨"tm".toList, "12".toList, .power, (3000, 1000)⟩] ∧
    ∃ g, parseGrid noLines feeder [] = .ok g ∧ List.Forall₂ (IsDeclared feeder g) (declaredLoads feeder) g.loads := by
  obtain ⟨g, hg⟩ := feeder_read
  exact ⟨by decide +kernel, g, hg, C85_loads noLines_keeps feeder_outer feeder_keys feeder_noBase hg⟩

/-! ### C96 -/

/-- **C96 fails.** A load of base power 1000 at a power factor of 0.9 has no reactive power; one of constant impedance at this power is a
constant power load; one that leaves out one of the six fractions and power factors draws nothing. -/
theorem C96_fractions_fails :
    (∃ l, readLoad [] "l".toList ⟨"load".toList, [("phases", "AN"), ("parent", "n"), ("base_power_A", "1000"), ("power_fraction_A", "1"),
      ("power_pf_A", "0.9"), ("current_fraction_A", "0"), ("current_pf_A", "1"), ("impedance_fraction_A", "0"), ("impedance_pf_A", "1")].map
        fun x => (x.1.toList, x.2.toList)⟩ = .ok l ∧ l.1.loads = [⟨some "A".toList, 1000, 0, 0, 0⟩]) ∧
    (∃ l, readLoad [] "l".toList ⟨"load".toList, [("phases", "AN"), ("parent", "n"), ("base_power_A", "1000"), ("power_fraction_A", "0"),
      ("power_pf_A", "1"), ("current_fraction_A", "0"), ("current_pf_A", "1"), ("impedance_fraction_A", "1"), ("impedance_pf_A", "1")].map
        fun x => (x.1.toList, x.2.toList)⟩ = .ok l ∧ l.1.loads = [⟨some "A".toList, 1000, 0, 0, 0⟩]) ∧
    ∃ l, readLoad [] "l".toList ⟨"load".toList, [("phases", "AN"), ("parent", "n"), ("base_power_A", "1000"), ("power_fraction_A", "1"),
      ("power_pf_A", "1")].map fun x => (x.1.toList, x.2.toList)⟩ = .ok l ∧ l.1.loads = [] :=
  ⟨⟨_, rfl, by decide +kernel⟩, ⟨_, rfl, by decide +kernel⟩, ⟨_, rfl, by decide +kernel⟩⟩

theorem zipComplete_all {o : Obj} {c : Txt} {ks : List Txt} (h : ∀ k ∈ ks, ∃ x, floatAttribute o (k ++ c) = .ok (some x)) :
    zipComplete o c ks = .ok true := by
  induction ks with
  | nil => rfl
  | cons k ks ih =>
    obtain ⟨x, hx⟩ := h k (by simp)
    rw [zipComplete, hx]
    exact ih fun k hk => h k (by simp [hk])

/-- **C96, partial.** With all six numbers given, base power `p` on a connection gives a constant power load of `p` and no reactive power: what is
meant if the power fraction and its power factor are 1. Missing: every other division, see `C96_fractions_fails`. -/
theorem C96_whole_power_partial (schedules : List (Txt × Txt)) (o : Obj) (c : Txt) (phase : Option Txt) (t : Txt) (p : ℚ)
    (ht : o.attr ("base_power_".toList ++ c) = some t) (hp : pyFloat t = some p)
    (h : ∀ k ∈ zipNames, ∃ x, floatAttribute o (k ++ c) = .ok (some x)) :
    baseComponent schedules o c phase = .ok [⟨phase, p, 0, 0, 0⟩] := by
  rw [baseComponent, ht]
  simp only [basePower, hp]
  rw [show (Except.ok p >>= fun p => do
      let all ← zipComplete o c zipNames
      Except.ok (if all then [(⟨phase, p, 0, 0, 0⟩ : PhaseLoad)] else [])) = (zipComplete o c zipNames).bind fun all =>
      Except.ok (if all then [(⟨phase, p, 0, 0, 0⟩ : PhaseLoad)] else []) from rfl, zipComplete_all h]
  rfl

/-- A load of 1000 W. -/
example : baseComponent [] ⟨"load".toList, [("base_power_A", "1000"), ("power_fraction_A", "1"), ("power_pf_A", "1"), ("current_fraction_A", "0"),
    ("current_pf_A", "1"), ("impedance_fraction_A", "0"), ("impedance_pf_A", "1")].map fun x => (x.1.toList, x.2.toList)⟩ "A".toList (some "A".toList) =
    .ok [⟨some "A".toList, 1000, 0, 0, 0⟩] := by
  have key : ∀ k ∈ zipNames, (match floatAttribute (⟨"load".toList, [("base_power_A", "1000"), ("power_fraction_A", "1"), ("power_pf_A", "1"),
      ("current_fraction_A", "0"), ("current_pf_A", "1"), ("impedance_fraction_A", "0"), ("impedance_pf_A", "1")].map fun x => (x.1.toList, x.2.toList)⟩ : Obj)
      (k ++ "A".toList) with
      | .ok (some _) => true
      | _ => false) = true := by decide +kernel
  refine C96_whole_power_partial _ _ _ _ "1000".toList 1000 (by decide +kernel) (by decide +kernel) fun k hk => ?_
  have := key k hk
  split at this
  · exact ⟨_, ‹_›⟩
  · cases this

/-! ### C86, C87 -/

section File

variable {readLine : LineReader M} {schedules : List (Txt × Txt)} {objs : List (Txt × Obj)} {g : Grid M}

/-- **C87, partial.** If each switch tells the state of each of its phases, or one status for all, the switches of the network are those of the
file: one for each phase of each switch, between that phase at its two ends, open exactly if the file says so. Missing: switches that say nothing, or
say it for some of their phases only, see `C87_silent_fails`. -/
theorem C87_switches_partial (hR : Keeps readLine objs) (hO : OuterFile objs) (hk : (objs.map Prod.fst).Nodup)
    (hS : ∀ name o, (name, o) ∈ objs → isSwitchObj o = true → StatesGiven "_state".toList o) (h : parseGrid readLine objs schedules = .ok g) :
    List.Forall₂ (IsSwitch objs g) (declaredSwitches objs) g.switches := by
  obtain ⟨s, groups, hr⟩ := parseGrid_read hR hO h
  exact hr.switches hk hS

/-- **C86, partial.** If each fuse tells the state of each of its phases and of no other, or one status for all, the fuses of the network are where
the file says, one for each phase, with the limit of the file. Missing: the state, see `C86_state_fails`. -/
theorem C86_fuses_partial (hR : Keeps readLine objs) (hO : OuterFile objs) (hk : (objs.map Prod.fst).Nodup)
    (hS : ∀ name o, (name, o) ∈ objs → isFuseObj o = true → StatesGiven "_status".toList o ∧ NoStrayStates "_status".toList o)
    (h : parseGrid readLine objs schedules = .ok g) : List.Forall₂ (IsFuse objs g) (declaredFuses objs) g.fuses := by
  obtain ⟨s, groups, hr⟩ := parseGrid_read hR hO h
  exact hr.fuses hk hS

end File

/-- A file with two nodes joined by one device. -/
def joined (c : String) (l : List (String × String)) : List (Txt × Obj) := [
  fileObject "node" [("name", "n1"), ("phases", "ABCN"), ("nominal_voltage", "2400")],
  fileObject "node" [("name", "n2"), ("phases", "ABCN"), ("nominal_voltage", "2400")],
  fileObject c ([("name", "d"), ("phases", "ABCN"), ("from", "n1"), ("to", "n2")] ++ l)]

/-- **C87 fails.** A switch on three phases without any word on its state joins one phase. One that only says that phase `B` is closed joins only
phase `B`, though its status is closed. -/
theorem C87_silent_fails :
    (∃ g, parseGrid noLines (joined "switch" []) [] = .ok g ∧ g.switches = [⟨0, 3, .closed, 'A'⟩]) ∧
    ∃ g, parseGrid noLines (joined "switch" [("status", "CLOSED"), ("phase_B_state", "CLOSED")]) [] = .ok g ∧ g.switches = [⟨1, 4, .closed, 'B'⟩] :=
  ⟨⟨_, rfl, by decide +kernel⟩, ⟨_, rfl, by decide +kernel⟩⟩

/-- **C86 fails.** A fuse the file says is blown is good. -/
theorem C86_state_fails : ∃ g, parseGrid noLines (joined "fuse" [("current_limit", "100"), ("phase_A_status", "BLOWN"), ("phase_B_status", "GOOD"),
      ("phase_C_status", "GOOD")]) [] = .ok g ∧ (g.fuses.map fun x => (x.f, x.t, x.status)) = [(0, 3, .good), (1, 4, .good), (2, 5, .good)] :=
  ⟨_, rfl, by decide +kernel⟩

instance (suffix : Txt) (o : Obj) : Decidable (StatesGiven suffix o) := by unfold StatesGiven; infer_instance

theorem feeder_states : (∀ name o, (name, o) ∈ feeder → isSwitchObj o = true → StatesGiven "_state".toList o) ∧
    ∀ name o, (name, o) ∈ feeder → isFuseObj o = true → StatesGiven "_status".toList o ∧ NoStrayStates "_status".toList o := by
  have h1 : ∀ x ∈ feeder, isSwitchObj x.2 = true → StatesGiven "_state".toList x.2 := by decide +kernel
  have h2 : ∀ x ∈ feeder, isFuseObj x.2 = true → StatesGiven "_status".toList x.2 ∧ objPhases x.2 = ['A', 'B', 'C'] ∧
    ∀ k ∈ x.2.attrs.map Prod.fst, k.take 6 = "phase_".toList → k ∈ ['A', 'B', 'C'].map fun p => phaseKey p "_status".toList := by decide +kernel
  refine ⟨fun name o hm => h1 (name, o) hm, fun name o hm hf => ?_⟩
  obtain ⟨h3, h4, h5⟩ := h2 (name, o) hm hf
  refine ⟨h3, fun p hp => ?_⟩
  rw [h4] at hp
  cases hq : o.attr (phaseKey p "_status".toList) with
  | none => rfl
  | some t =>
    exfalso
    have hmem : phaseKey p "_status".toList ∈ o.attrs.map Prod.fst := by
      rw [Obj.attr] at hq
      exact List.mem_map.2 ⟨_, mem_of_lookup hq, rfl⟩
    have := h5 _ hmem rfl
    obtain ⟨q, hq1, hq2⟩ := List.mem_map.1 this
    have : q = p := by
      rw [phaseKey, phaseKey] at hq2
      have := congrArg (fun l : Txt => l[6]?) hq2
      exact Option.some.inj this
    exact hp (this ▸ hq1)

/-- The switch of the feeder is open on phase `B` only; its fuse has a limit of 100 A. -/
example : declaredSwitches feeder = [⟨some "n2".toList, some "l_8".toList, 'A', false⟩, ⟨some "n2".toList, some "l_8".toList, 'B', true⟩,
      ⟨some "n2".toList, some "l_8".toList, 'C', false⟩] ∧ ((declaredFuses feeder).map fun d => (d.1.phase, d.2)) =
      [('A', some "100.0 A".toList), ('B', some "100.0 A".toList), ('C', some "100.0 A".toList)] ∧
    ∃ g, parseGrid noLines feeder [] = .ok g ∧ List.Forall₂ (IsSwitch feeder g) (declaredSwitches feeder) g.switches ∧
      List.Forall₂ (IsFuse feeder g) (declaredFuses feeder) g.fuses := by
  obtain ⟨g, hg⟩ := feeder_read
  exact ⟨by decide +kernel, by decide +kernel, g, hg, C87_switches_partial noLines_keeps feeder_outer feeder_keys feeder_states.1 hg,
    C86_fuses_partial noLines_keeps feeder_outer feeder_keys feeder_states.2 hg⟩

/-! ### C91 -/

section File

variable {readLine : LineReader M} {schedules : List (Txt × Txt)} {objs : List (Txt × Obj)} {g : Grid M}

/-- **C91, partial.** The capacitors of the network are those of the file: one for each connected phase with a reactive power, at that phase of the
parent, with this reactive power at the nominal voltage of the file, and switched as the file says. Missing: banks in delta, see `C91_delta_fails`. -/
theorem C91_capacitors_partial (hR : Keeps readLine objs) (hO : OuterFile objs) (hk : (objs.map Prod.fst).Nodup)
    (h : parseGrid readLine objs schedules = .ok g) : List.Forall₂ (IsCap objs g) (declaredCaps objs) g.capacitors := by
  obtain ⟨s, groups, hr⟩ := parseGrid_read hR hO h
  exact hr.capacitors hk

end File

/-- The capacitors of the feeder. -/
example : (declaredCaps feeder).map (fun d => (d.phase, d.var)) = [('A', 1000), ('B', 1500)] ∧
    ∃ g, parseGrid noLines feeder [] = .ok g ∧ List.Forall₂ (IsCap feeder g) (declaredCaps feeder) g.capacitors := by
  obtain ⟨g, hg⟩ := feeder_read
  exact ⟨by decide +kernel, g, hg, C91_capacitors_partial noLines_keeps feeder_outer feeder_keys hg⟩

/-- **C91 fails for banks in delta.** A bank whose phases say delta is connected from each phase to ground. -/
theorem C91_delta_fails : ∃ g, parseGrid noLines [
      fileObject "node" [("name", "n1"), ("phases", "ABCN"), ("nominal_voltage", "2400")],
      fileObject "capacitor" [("name", "c"), ("phases", "ABCD"), ("parent", "n1"), ("capacitor_A", "1000"), ("capacitor_B", "1000"),
        ("capacitor_C", "1000"), ("cap_nominal_voltage", "4160"), ("control", "MANUAL"), ("switchA", "CLOSED"), ("switchB", "CLOSED"),
        ("switchC", "CLOSED")]] [] = .ok g ∧ (g.capacitors.map fun c => c.bus) = [0, 1, 2] ∧
    ∀ c ∈ g.capacitors, ∃ s, c.item = .cap s ∧ s.f = some c.bus ∧ s.t = none := by
  obtain ⟨g, hg, h⟩ := read_of_check (objs := [
      fileObject "node" [("name", "n1"), ("phases", "ABCN"), ("nominal_voltage", "2400")],
      fileObject "capacitor" [("name", "c"), ("phases", "ABCD"), ("parent", "n1"), ("capacitor_A", "1000"), ("capacitor_B", "1000"),
        ("capacitor_C", "1000"), ("cap_nominal_voltage", "4160"), ("control", "MANUAL"), ("switchA", "CLOSED"), ("switchB", "CLOSED"),
        ("switchC", "CLOSED")]]) (p := fun g => (g.capacitors.map fun c => c.bus) = [0, 1, 2]) (by decide +kernel)
  exact ⟨g, hg, h, fun c _ => ⟨_, rfl, rfl, rfl⟩⟩

/-! ### C98 -/

section File

variable {readLine : LineReader M} {schedules : List (Txt × Txt)} {objs : List (Txt × Obj)} {g : Grid M}

/-- **C98, partial.** The regulators of the network are those of the file: one for each phase, from that phase of the one end to that of the other,
at the tap of the configuration, with its numbers of taps and its regulation. Missing: regulators on fewer phases than three, see
`C98_two_phases_fails`, and settings given for phases the regulator does not have. -/
theorem C98_regulators_partial (hR : Keeps readLine objs) (hO : OuterFile objs) (hk : (objs.map Prod.fst).Nodup) (hp : PlainConfigurations objs)
    (hst : NoStraySettings objs) (h : parseGrid readLine objs schedules = .ok g) :
    List.Forall₂ (IsReg objs g) (declaredRegs objs) g.regulators := by
  obtain ⟨s, groups, hr⟩ := parseGrid_read hR hO h
  exact hr.regulators hk hp hst

end File

theorem feeder_plain : PlainConfigurations feeder := by
  have : ∀ x ∈ feeder, x.2.cls ∈ ["regulator", "transformer"].map String.toList → ∀ c ∈ configOf feeder x.2, c.cls ∉ conductorClasses := by decide +kernel
  exact fun name o c hm hc h => this (name, o) hm hc c h

theorem feeder_noStray : NoStraySettings feeder := by
  have : ∀ x ∈ feeder, x.2.cls = "regulator".toList → ∀ c ∈ configOf feeder x.2, ∀ p ∈ ['A', 'B', 'C'], p ∉ objPhases x.2 →
    c.attr ("tap_pos_".toList ++ [p]) = none ∧ c.attr ("compensator_r_setting_".toList ++ [p]) = none ∧
    c.attr ("compensator_x_setting_".toList ++ [p]) = none := by decide +kernel
  exact fun name o hm hc c h => this (name, o) hm hc c h

/-- The regulator of the feeder: taps 3, -2, 0 of 16 up and down. -/
example : ∃ g, parseGrid noLines feeder [] = .ok g ∧ List.Forall₂ (IsReg feeder g) (declaredRegs feeder) g.regulators ∧
    (declaredRegs feeder).length = 3 := by
  obtain ⟨g, hg⟩ := feeder_read
  exact ⟨g, hg, C98_regulators_partial noLines_keeps feeder_outer feeder_keys feeder_plain feeder_noStray hg, by decide +kernel⟩

/-- **C98 fails.** A regulator on two phases is refused. -/
theorem C98_two_phases_fails : parseGrid noLines [
      fileObject "node" [("name", "n1"), ("phases", "ABN"), ("nominal_voltage", "2400")],
      fileObject "node" [("name", "n2"), ("phases", "ABN"), ("nominal_voltage", "2400")],
      fileObject "regulator_configuration" [("name", "rc"), ("connect_type", "1"), ("band_center", "120"), ("band_width", "2"), ("raise_taps", "16"),
        ("lower_taps", "16"), ("regulation", "0.10"), ("Control", "MANUAL"), ("Type", "A"), ("tap_pos_A", "3"), ("tap_pos_B", "-2")],
      fileObject "regulator" [("name", "r"), ("phases", "ABN"), ("from", "n1"), ("to", "n2"), ("configuration", "rc")]] [] = .error .raised := by
  decide +kernel

end Verif.Glm
