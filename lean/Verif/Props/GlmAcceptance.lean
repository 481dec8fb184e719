import Verif.Lemmas.GlmAcceptRead
import Verif.Props.GlmFile

/-!
# C92: a sound file is accepted
-/

namespace Verif.Glm

variable {M : Type}

/-- **C92, partial.** If a file is sound - every number is a number, every name is a name of the file, what a device needs is there - and its lines can be read and built,
the whole file is read and its network is built: no exception is raised in any of the two. Missing: the file must list parents before their children, a child must have a
nominal voltage of its own, a load in delta must be given by the first of two phases and have no base power, and a regulator must have three phases, see `C92_order_fails`,
`C92_child_fails`, `C92_delta_fails` and `C92_regulator_fails`. -/
theorem C92_accepted_partial {readLine : LineReader M} {make : M → List (ℕ × ℕ) → Except String Element} {objs : List (Txt × Obj)} (schedules : List (Txt × Txt))
    (hR : Keeps readLine objs) (hF : SoundFeeder objs) (hL : LinesAccepted readLine make objs) :
    ∃ g D, parseGrid readLine objs schedules = .ok g ∧ g.network make = .ok D := hF.accepted hR hL

/-! ### What else a file must meet -/

/-- A file that is refused. -/
theorem refused_of_check {objs : List (Txt × Obj)} {e : Err}
    (h : (match parseGrid noLines objs [] with
      | .ok _ => false
      | .error e' => decide (e' = e)) = true) : parseGrid noLines objs [] = .error e := by
  cases hg : parseGrid noLines objs [] with
  | ok g => rw [hg] at h; cases h
  | error e' => rw [hg] at h; rw [of_decide_eq_true h]

/-- A file that is read. -/
theorem accepted_of_check {objs : List (Txt × Obj)} (h : (parseGrid noLines objs []).isOk = true) : ∃ g, parseGrid noLines objs [] = .ok g := by
  cases hg : parseGrid noLines objs [] with
  | ok g => exact ⟨g, rfl⟩
  | error e' => rw [hg] at h; cases h

/-- A source. -/
def sourceObject : Txt × Obj := fileObject "node" [("name", "n1"), ("phases", "ABCN"), ("bustype", "SWING"), ("nominal_voltage", "2400")]

/-- A node at the source. -/
def childObject : Txt × Obj := fileObject "node" [("name", "n2"), ("phases", "ABCN"), ("nominal_voltage", "2400"), ("parent", "n1")]

/-- A node. -/
def nodeObject : Txt × Obj := fileObject "node" [("name", "n2"), ("phases", "ABCN"), ("nominal_voltage", "2400")]

/-- A meter at this node, without nominal voltage. -/
def meterObject : Txt × Obj := fileObject "meter" [("name", "m"), ("phases", "ABCN"), ("parent", "n2")]

/-- A load in delta. -/
def deltaObject (k : String) : Txt × Obj := fileObject "load" [("name", "l_1"), ("phases", "ABCD"), ("nominal_voltage", "2400"), (k, "100+20j")]

/-- A file with a regulator. -/
def withRegulator (ph : String) (taps : List (String × String)) : List (Txt × Obj) := [
  sourceObject, nodeObject,
  fileObject "regulator_configuration" ([("name", "rc"), ("connect_type", "1"), ("band_center", "120"), ("band_width", "2"), ("raise_taps", "16"),
    ("lower_taps", "16"), ("regulation", "0.10"), ("Control", "MANUAL"), ("Type", "A")] ++ taps),
  fileObject "regulator" [("name", "r"), ("phases", ph), ("from", "n1"), ("to", "n2"), ("configuration", "rc")]]

/-- **C92 fails.** A node before its parent: `KeyError`. In the other order the file is read. -/
theorem C92_order_fails : parseGrid noLines [childObject, sourceObject] [] = .error .key ∧ ∃ g, parseGrid noLines [sourceObject, childObject] [] = .ok g :=
  ⟨refused_of_check (by decide +kernel), accepted_of_check (by decide +kernel)⟩

/-- **C92 fails.** A meter without nominal voltage takes that of its parent away, which then cannot be built: `TypeError`. Without the meter the file is read. -/
theorem C92_child_fails : parseGrid noLines [sourceObject, nodeObject, meterObject] [] = .error .type ∧ ∃ g, parseGrid noLines [sourceObject, nodeObject] [] = .ok g :=
  ⟨refused_of_check (by decide +kernel), accepted_of_check (by decide +kernel)⟩

/-- **C92 fails.** A load in delta whose power is given for two phases: `TypeError`. Given for the first of the two the file is read. -/
theorem C92_delta_fails : parseGrid noLines [sourceObject, deltaObject "constant_power_AB"] [] = .error .type ∧
    ∃ g, parseGrid noLines [sourceObject, deltaObject "constant_power_A"] [] = .ok g :=
  ⟨refused_of_check (by decide +kernel), accepted_of_check (by decide +kernel)⟩

/-- **C92 fails.** A regulator on one phase is refused, one on three phases is read. -/
theorem C92_regulator_fails : parseGrid noLines (withRegulator "AN" [("tap_pos_A", "3")]) [] = .error .raised ∧
    ∃ g, parseGrid noLines (withRegulator "ABCN" [("tap_pos_A", "3"), ("tap_pos_B", "3"), ("tap_pos_C", "3")]) [] = .ok g :=
  ⟨refused_of_check (by decide +kernel), accepted_of_check (by decide +kernel)⟩

/-! ### The feeder of the examples -/

instance (o : Obj) (k : Txt) : Decidable (NumberIf o k) := decidable_of_iff (∀ t ∈ o.attr k, (pyFloat t).isSome)
  ⟨fun h t ht => Option.isSome_iff_exists.1 (h t ht), fun h t ht => Option.isSome_iff_exists.2 (h t ht)⟩

instance (o : Obj) (k : Txt) : Decidable (ComplexIf o k) := decidable_of_iff (∀ t ∈ o.attr k, (pyComplex t).isSome)
  ⟨fun h t ht => Option.isSome_iff_exists.1 (h t ht), fun h t ht => Option.isSome_iff_exists.2 (h t ht)⟩

instance (o : Obj) (k : Txt) (x : ℚ) : Decidable (NumberIs o k x) := decidable_of_iff (∃ t ∈ o.attr k, pyFloat t = some x) Iff.rfl

instance (o : Obj) (k : Txt) (x : ℤ) : Decidable (IntegerIs o k x) := decidable_of_iff (∃ t ∈ o.attr k, (match intOf t with | .ok y => decide (y = x) | .error _ => false) = true) (by
  refine exists_congr fun t => and_congr_right fun _ => ?_
  cases intOf t with
  | ok y => simp
  | error e => simp)

instance (objs : List (Txt × Obj)) (n : Txt) (p : Char) : Decidable (HasPlace objs n p) := by unfold HasPlace; infer_instance

instance (objs : List (Txt × Obj)) (o : Obj) (k : Txt) (p : Char) : Decidable (EndsAt objs o k p) := decidable_of_iff (∃ n ∈ o.attr k, HasPlace objs n p) Iff.rfl

instance (objs : List (Txt × Obj)) (o : Obj) (p : Char) : Decidable (Joins objs o p) := by unfold Joins; infer_instance

instance (o : Obj) : Decidable (PhasesGiven o) := by unfold PhasesGiven; infer_instance

instance (o : Obj) : Decidable (SoundNode o) := by unfold SoundNode; infer_instance

instance (o : Obj) : Decidable (SoundMeter o) := by unfold SoundMeter; infer_instance

instance (objs : List (Txt × Obj)) (name : Txt) (o : Obj) : Decidable (SoundLoad objs name o) := by unfold SoundLoad; infer_instance

instance (o : Obj) : Decidable (VoltagesGiven o) := by unfold VoltagesGiven; infer_instance

instance (objs : List (Txt × Obj)) (o : Obj) : Decidable (SoundSwitch objs o) := by unfold SoundSwitch; infer_instance

theorem feeder_order : ParentsFirst feeder := by
  intro pre x post he hp q hq p hpp
  have h : ∀ i < feeder.length, ∀ x ∈ feeder[i]?, isPlace x.2 = true → ∀ q ∈ x.2.attr "parent".toList, ∀ p ∈ placePhases x.2, HasPlace (feeder.take i) q p := by decide +kernel
  have := h pre.length (by rw [he]; simp) x (by rw [he]; simp) hp q hq p hpp
  rw [he, List.take_left] at this
  exact this

instance (c : Obj) : Decidable (SoundWindings c) := decidable_of_iff (NumberIf c "no_load_loss".toList ∧ ComplexIf c "shunt_impedance".toList ∧ NumberIf c "resistance".toList ∧
    NumberIf c "reactance".toList ∧ (∀ k ∈ ["impedance", "impedance1", "impedance2"].map String.toList, ComplexIf c k) ∧
    ∀ p ∈ ['A', 'B', 'C'], ∀ t ∈ c.attr ("power".toList ++ [p] ++ "_rating".toList), (pyFloat (if (find "kVA".toList t).isSome then removeNonnum t else t)).isSome) (by
  simp only [SoundWindings, Option.isSome_iff_exists]
  rfl)

theorem feeder_transformers : ∀ x ∈ feeder, x.2.cls = "transformer".toList → SoundXfmr feeder x.2 := by
  have h : ∀ x ∈ feeder, x.2.cls = "transformer".toList → x = feeder[10] ∨ x = feeder[16] := by decide +kernel
  intro x hx hc
  rcases h x hx hc with rfl | rfl
  · refine ⟨feeder[8].2, 2400, 240, 1 / 100, 6 / 100, 75000, by decide +kernel, by decide +kernel, by decide +kernel, by decide +kernel, by decide +kernel, by norm_num, by norm_num,
      .inl ⟨"0.01".toList, "0.06".toList, by decide +kernel, by decide +kernel, by decide +kernel, by decide +kernel⟩,
      .inl ⟨"75".toList, 75, by decide +kernel, by decide +kernel, by norm_num⟩, by norm_num, ?_⟩
    rw [if_neg (by decide +kernel)]
    exact ⟨by decide +kernel, by decide +kernel⟩
  · refine ⟨feeder[14].2, 2400, 120, 6 / 1000, 136 / 10000, 25000, by decide +kernel, by decide +kernel, by decide +kernel, by decide +kernel, by decide +kernel, by norm_num, by norm_num,
      .inr (.inl ⟨by decide +kernel, "0.006+0.0136j".toList, by decide +kernel, by decide +kernel⟩),
      .inl ⟨"25".toList, 25, by decide +kernel, by decide +kernel, by norm_num⟩, by norm_num, ?_⟩
    rw [if_pos (by decide +kernel)]
    exact ⟨by decide +kernel, by decide +kernel, by decide +kernel, by decide +kernel⟩

theorem feeder_capacitors : ∀ x ∈ feeder, x.2.cls = "capacitor".toList → SoundCap feeder x.2 := by
  have h : ∀ x ∈ feeder, x.2.cls = "capacitor".toList → x = feeder[7] := by decide +kernel
  intro x hx hc
  rw [h x hx hc]
  have h1 : ∀ t ∈ feeder[7].2.attr "phases_connected".toList, letters t ≠ [] ∧ 'S' ∉ t := by decide +kernel
  have h2 : ∀ p ∈ ['A', 'B', 'C'], ∀ t ∈ feeder[7].2.attr ("switch".toList ++ [p]), t ∈ ["OPEN", "CLOSED"].map String.toList := by decide +kernel
  exact ⟨by decide +kernel, h1, ⟨"MANUAL".toList, by decide +kernel, by decide⟩, ⟨2400, by decide +kernel, by norm_num⟩, h2, by decide +kernel⟩

theorem feeder_regulators : ∀ x ∈ feeder, x.2.cls = "regulator".toList → SoundReg feeder x.2 := by
  have h : ∀ x ∈ feeder, x.2.cls = "regulator".toList → x = feeder[13] := by decide +kernel
  intro x hx hc
  rw [h x hx hc]
  have h1 : ∀ t ∈ feeder[11].2.attr "Type".toList, t ∈ ["A", "B"].map String.toList := by decide +kernel
  refine ⟨by decide +kernel, by decide +kernel, feeder[11].2, 16, 16, 1 / 10, 120, 2, by decide +kernel, by decide +kernel, ⟨"1".toList, by decide +kernel, by decide⟩,
    ⟨"MANUAL".toList, by decide +kernel, by decide⟩, h1, by decide +kernel, by decide +kernel, by norm_num, by norm_num, by decide +kernel, by norm_num, by decide +kernel,
    by norm_num, by decide +kernel, by decide +kernel, by decide +kernel, ?_⟩
  have h2 : objPhases feeder[13].2 = ['A', 'B', 'C'] := by decide +kernel
  intro p hp
  rw [h2] at hp
  simp only [List.mem_cons, List.not_mem_nil, or_false] at hp
  rcases hp with rfl | rfl | rfl
  · exact ⟨3, by decide +kernel, by norm_num, by norm_num, fun _ => by norm_num⟩
  · exact ⟨-2, by decide +kernel, by norm_num, by norm_num, fun _ => by norm_num⟩
  · exact ⟨0, by decide +kernel, by norm_num, by norm_num, fun _ => by norm_num⟩

theorem feeder_sound : SoundFeeder feeder := by
  have h1 : ∀ x ∈ feeder, x.2.cls ∈ configClasses ++ deviceClasses := by decide +kernel
  have h2 : ∀ x ∈ feeder, x.2.cls ∈ deviceClasses → PhasesGiven x.2 := by decide +kernel
  have h3 : ∀ x ∈ feeder, x.2.cls ∈ ["node", "meter"].map String.toList → SoundNode x.2 := by decide +kernel
  have h4 : ∀ x ∈ feeder, x.2.cls = "triplex_meter".toList → hasPower x.2 = false → SoundMeter x.2 := by decide +kernel
  have h5 : ∀ x ∈ feeder, isLoadObj x.2 = true → SoundLoad feeder x.1 x.2 := by decide +kernel
  have h6 : ∀ x ∈ feeder, isPlace x.2 = true → VoltagesGiven x.2 := by decide +kernel
  have h7 : ∀ x ∈ feeder, isSwitchObj x.2 = true → SoundSwitch feeder x.2 := by decide +kernel
  have h8 : ∀ x ∈ feeder, isFuseObj x.2 = true → x = feeder[3] := by decide +kernel
  refine ⟨feeder_keys, fun name o hm => h1 (name, o) hm, fun name o hm hd => ⟨h2 (name, o) hm hd, h3 (name, o) hm, h4 (name, o) hm, h5 (name, o) hm, h6 (name, o) hm, fun hf => ?_,
    h7 (name, o) hm, feeder_transformers (name, o) hm, feeder_capacitors (name, o) hm, feeder_regulators (name, o) hm⟩, feeder_order⟩
  refine ⟨(feeder_states.2 name o hm hf).2, ?_⟩
  have e := h8 (name, o) hm hf
  have e : o = feeder[3].2 := by rw [← e]
  rw [e]
  exact ⟨by decide +kernel, "100.0 A".toList, 100, by decide +kernel, by decide +kernel⟩

/-- The feeder is sound, so it is read and its network is built. -/
example (schedules : List (Txt × Txt)) : ∃ g D, parseGrid noLines feeder schedules = .ok g ∧ g.network (fun d _ => d.elim) = .ok D :=
  C92_accepted_partial schedules noLines_keeps feeder_sound fun o ho => by
    have hn : declaredLines feeder = [] := by decide +kernel
    rw [hn] at ho
    cases ho

end Verif.Glm
