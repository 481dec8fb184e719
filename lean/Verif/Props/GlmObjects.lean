import Verif.Lemmas.GlmObjects
import Verif.Props.Glm
import Mathlib.Tactic.NormNum

/-!
# C52, C56, C64, C88: phases, switch and fuse wires, lengths and conductor units of a GridLAB-D file
-/

namespace Verif.Glm

/-! ### C52 -/

/-- **C52 fails.** `A|B|C|N`, the way GridLAB-D itself writes a set of phases: the separators become phases. -/
theorem C52_separator_fails :
    parsePhases "A|B|C|N".toList = .ok ⟨['A', '|', 'B', '|', 'C', '|'], false, false, true⟩ := by
  decide +kernel

/-- **C52, partial.** Phases written without separators, with or without quotes around them. The text is refused exactly if it
names no phase, or is split phase and names more than one. Otherwise the phases are the letters other than `N`, `S`, `D`, `G` in
their order, neutral and split phase are as written, and delta is what is neither. -/
theorem C52_letters_partial (l t r : Txt) (hl : ∀ c ∈ l, c = '"') (hr : ∀ c ∈ r, c = '"') (ht : ∀ c ∈ t, c ≠ '"' ∧ c ≠ '|') :
    parsePhases (l ++ t ++ r) =
      if (∀ c ∈ t, c ∈ ['N', 'S', 'D', 'G']) ∨ ('S' ∈ t ∧ 1 < (t.filter (· ∉ ['N', 'S', 'D', 'G'])).length) then .error .raised
      else .ok ⟨t.filter (· ∉ ['N', 'S', 'D', 'G']), decide ('N' ∉ t ∧ 'S' ∉ t), decide ('S' ∈ t), decide ('N' ∈ t)⟩ := by
  rw [parsePhases, stripBy_around _ l t r (fun c hc => by simp [hl c hc]) (fun c hc => by simp [(ht c hc).1]) (fun c hc => by simp [hr c hc]),
    stripBy_none _ t (fun c hc => by simp [(ht c hc).2]), phaseStep_foldl]
  simp only [List.nil_append, Bool.false_or]
  have hlen : (t.filter (· ∉ ['N', 'S', 'D', 'G'])).length = 0 ↔ ∀ c ∈ t, c ∈ ['N', 'S', 'D', 'G'] := by
    rw [List.length_eq_zero_iff, List.filter_eq_nil_iff]
    exact forall_congr' fun c => forall_congr' fun _ => by rw [decide_eq_true_eq, not_not]
  by_cases h0 : ∀ c ∈ t, c ∈ ['N', 'S', 'D', 'G']
  · rw [if_pos (Or.inl h0)]
    by_cases hN : 'N' ∈ t <;> by_cases hS : 'S' ∈ t <;> simp only [hN, hS, decide_true, decide_false, Bool.not_true, Bool.not_false, Bool.and_true,
      Bool.and_false, if_true, Bool.false_eq_true, if_false] <;> rw [if_pos (hlen.2 h0)]
  · have h0' : ¬ (t.filter (· ∉ ['N', 'S', 'D', 'G'])).length = 0 := fun h => h0 (hlen.1 h)
    by_cases hN : 'N' ∈ t <;> by_cases hS : 'S' ∈ t <;> simp only [hN, hS, decide_true, decide_false, Bool.not_true, Bool.not_false, Bool.and_true,
      Bool.and_false, if_true, Bool.false_eq_true, if_false, Bool.true_and, Bool.false_and, Bool.or_false, decide_eq_true_eq, h0, false_or, true_and,
      false_and, not_true_eq_false, not_false_eq_true, and_false, and_true] <;> rw [if_neg h0']

/-- A quoted three-phase text with neutral, a split-phase text, and texts that are refused. -/
example : parsePhases "\"ABCN\"".toList = .ok ⟨['A', 'B', 'C'], false, false, true⟩ ∧ parsePhases "BS".toList = .ok ⟨['B'], false, true, false⟩ ∧
    parsePhases "ABD".toList = .ok ⟨['A', 'B'], true, false, false⟩ ∧ parsePhases "N".toList = .error .raised ∧ parsePhases "ABS".toList = .error .raised := by
  have h : ∀ l t r, _ := C52_letters_partial
  refine ⟨(h ['"'] "ABCN".toList ['"'] (by simp) (by simp) (by decide)).trans (by decide), (h [] "BS".toList [] (by simp) (by simp) (by decide)).trans (by decide),
    (h [] "ABD".toList [] (by simp) (by simp) (by decide)).trans (by decide), (h [] "N".toList [] (by simp) (by simp) (by decide)).trans (by decide),
    (h [] "ABS".toList [] (by simp) (by simp) (by decide)).trans (by decide)⟩

/-! ### C56 -/

/-- **C56 fails.** A switch and a fuse on three phases that say nothing about their state: only the first phase gets a wire. -/
theorem C56_wires_fails :
    switchWires ⟨"switch".toList, [("phases".toList, "ABCN".toList)]⟩ ['A', 'B', 'C'] = [⟨'A', none⟩] ∧
    fuseWires ⟨"fuse".toList, [("phases".toList, "ABCN".toList)]⟩ ['A', 'B', 'C'] = [⟨'A', none⟩] := by
  constructor <;> decide +kernel

/-- What a phase of a device is set to by its own attribute. -/
abbrev ownState (o : Obj) (suffix : Txt) (p : Char) : Py Txt := o.get ("phase_".toList ++ [p] ++ suffix)

theorem attributeWire_none {o : Obj} {suffix : Txt} {opens : List Txt} {p : Char} (h : ownState o suffix p = .error .attribute) :
    attributeWire o suffix opens p = [] := by
  rw [ownState] at h
  rw [attributeWire, h]

theorem listedWires_status {o : Obj} {s : Txt} (h : o.get "status".toList = .ok s) (ps : List Char) :
    listedWires o ps = ps.map fun p => ⟨p, some (s = "OPEN".toList)⟩ := by
  induction ps with
  | nil => rfl
  | cons p ps ih => rw [listedWires, h]; simp [ih]

theorem deviceWires_status {o : Obj} {suffix s : Txt} {opens : List Txt} (h : o.get "status".toList = .ok s)
    (hown : ∀ p ∈ ['A', 'B', 'C'], ownState o suffix p = .error .attribute) (ps : List Char) :
    deviceWires o suffix opens ps = ps.map fun p => ⟨p, some (s = "OPEN".toList)⟩ := by
  have hw : ['A', 'B', 'C'].flatMap (attributeWire o suffix opens) = [] := by
    rw [List.flatMap_eq_nil_iff]
    intro p hp
    exact attributeWire_none (hown p hp)
  rw [deviceWires]
  simp only [hw]
  rw [if_pos List.length_nil, listedWires_status h]

/-- **C56, partial.** A switch or fuse with one state for all its phases has one wire per listed phase, open exactly if the state
is `OPEN`. -/
theorem C56_status_partial {o : Obj} {s : Txt} (h : o.get "status".toList = .ok s) (ps : List Char) :
    ((∀ p ∈ ['A', 'B', 'C'], ownState o "_state".toList p = .error .attribute) →
      switchWires o ps = ps.map fun p => ⟨p, some (s = "OPEN".toList)⟩) ∧
    ((∀ p ∈ ['A', 'B', 'C'], ownState o "_status".toList p = .error .attribute) →
      fuseWires o ps = ps.map fun p => ⟨p, some (s = "OPEN".toList)⟩) :=
  ⟨fun hown => deviceWires_status h hown ps, fun hown => deviceWires_status h hown ps⟩

example : switchWires ⟨"switch".toList, [("status".toList, "OPEN".toList)]⟩ ['A', 'B', 'C'] =
    [⟨'A', some true⟩, ⟨'B', some true⟩, ⟨'C', some true⟩] :=
  ((C56_status_partial (s := "OPEN".toList) (by decide) _).1 (by decide)).trans (by decide)

theorem deviceWires_own {o : Obj} {suffix : Txt} {opens : List Txt} {ps : List Char} {st : Char → Txt} (hps : ps.Sublist ['A', 'B', 'C']) (hne : ps ≠ [])
    (hin : ∀ p ∈ ps, ownState o suffix p = .ok (st p)) (hout : ∀ p ∈ ['A', 'B', 'C'], p ∉ ps → ownState o suffix p = .error .attribute) :
    deviceWires o suffix opens ps = ps.map fun p => ⟨p, some (st p ∈ opens)⟩ := by
  have key : ∀ (l : List Char), l.Nodup → ∀ qs : List Char, qs.Sublist l → (∀ p ∈ qs, ownState o suffix p = .ok (st p)) →
      (∀ p ∈ l, p ∉ qs → ownState o suffix p = .error .attribute) → l.flatMap (attributeWire o suffix opens) = qs.map fun p => ⟨p, some (st p ∈ opens)⟩ := by
    intro l
    induction l with
    | nil => intro _ qs hq; rw [List.sublist_nil.1 hq]; simp
    | cons a l ih =>
      intro hn qs hq hi ho
      rw [List.flatMap_cons]
      rcases List.sublist_cons_iff.1 hq with h | ⟨r, rfl, h⟩
      · have ha : a ∉ qs := fun hm => (List.nodup_cons.1 hn).1 (h.subset hm)
        rw [attributeWire_none (ho a (by simp) ha), List.nil_append, ih (List.nodup_cons.1 hn).2 qs h hi fun p hp => ho p (List.mem_cons_of_mem _ hp)]
      · have ha : a ∉ r := fun hm => (List.nodup_cons.1 hn).1 (h.subset hm)
        have hw : attributeWire o suffix opens a = [⟨a, some (st a ∈ opens)⟩] := by
          have := hi a (by simp)
          rw [ownState] at this
          rw [attributeWire, this]
        rw [hw, ih (List.nodup_cons.1 hn).2 r h (fun p hp => hi p (List.mem_cons_of_mem _ hp)) fun p hp hpr =>
          ho p (List.mem_cons_of_mem _ hp) fun hm => (List.mem_cons.1 hm).elim (fun e => (List.nodup_cons.1 hn).1 (e ▸ hp)) hpr]
        rfl
  rw [deviceWires]
  simp only [key _ (by decide) ps hps hin hout]
  rw [if_neg]
  simpa using hne

/-- **C56, partial.** A switch or fuse that gives a state for each of its phases, and for no other, has one wire per listed phase. A
switch is open on the phases given as `OPEN`, a fuse on those given as `OPEN` or `BLOWN`. -/
theorem C56_each_partial {o : Obj} {ps : List Char} {st : Char → Txt} (hps : ps.Sublist ['A', 'B', 'C']) (hne : ps ≠ []) :
    ((∀ p ∈ ps, ownState o "_state".toList p = .ok (st p)) → (∀ p ∈ ['A', 'B', 'C'], p ∉ ps → ownState o "_state".toList p = .error .attribute) →
      switchWires o ps = ps.map fun p => ⟨p, some (st p = "OPEN".toList)⟩) ∧
    ((∀ p ∈ ps, ownState o "_status".toList p = .ok (st p)) → (∀ p ∈ ['A', 'B', 'C'], p ∉ ps → ownState o "_status".toList p = .error .attribute) →
      fuseWires o ps = ps.map fun p => ⟨p, some (st p = "BLOWN".toList ∨ st p = "OPEN".toList)⟩) := by
  constructor <;> intro hin hout
  · rw [switchWires, deviceWires_own hps hne hin hout]; simp
  · rw [fuseWires, deviceWires_own hps hne hin hout]; simp

example : switchWires ⟨"switch".toList, [("phase_A_state".toList, "OPEN".toList), ("phase_C_state".toList, "CLOSED".toList)]⟩ ['A', 'C'] =
    [⟨'A', some true⟩, ⟨'C', some false⟩] :=
  ((C56_each_partial (st := fun p => if p = 'A' then "OPEN".toList else "CLOSED".toList) (by decide) (by decide)).1 (by decide)
    (by decide)).trans (by decide)

/-! ### C64 -/

/-- A line with a length as it stands in a file. -/
def lengthRows (len : Txt) : List Txt := ["object overhead_line {".toList, "name l;".toList, "length ".toList ++ len ++ ";".toList, "}".toList]

/-- The length read for the line of a file with one line. -/
def readLength (W : World) (rows : List Txt) : Py ℚ := do
  let (objs, _) ← readRows W rows
  match objs with
  | (_, o) :: _ => do
    let (x, _) ← parseLineLength o
    .ok x
  | [] => .error .key

/-- **C64 fails.** `5km` is five kilometres. With a space before the unit it is five feet. -/
theorem C64_space_fails : readLength smallWorld (lengthRows "5km".toList) = .ok 5000 ∧
    readLength smallWorld (lengthRows "5 km".toList) = .ok (1524 / 1000) := by
  constructor <;> decide +kernel

/-- **C64 fails.** `5e-1km` is half a kilometre; it is read as 51 kilometres, because sign and exponent letter are removed
together with the unit. -/
theorem C64_exponent_fails : readLength smallWorld (lengthRows "5e-1km".toList) = .ok 51000 := by
  decide +kernel

/-- **C64, partial.** A length written as a plain decimal number of kilometres, the unit directly behind it, is that many
thousands of metres; without a unit it is a number of feet. -/
theorem C64_length_partial {o : Obj} {n : Txt} {x : ℚ} (hn : Numeral n x) :
    (o.get "length".toList = .ok (n ++ "km".toList) → (parseLineLength o).map Prod.fst = .ok (1000 * x)) ∧
    (o.get "length".toList = .ok n → (parseLineLength o).map Prod.fst = .ok (x * (3048 / 10000))) := by
  constructor <;> intro h
  · rw [parseLineLength, h]
    have hf : (find "km".toList (n ++ "km".toList)).isSome = true := find_plain_unit hn.plain (by decide)
    have hr : removeNonnum (n ++ "km".toList) = n := removeNonnum_unit hn.plain (by decide)
    simp only [hf, if_true, hr, floatOf_numeral hn, bind, Except.bind, Except.map]
    rw [mul_comm]
  · rw [parseLineLength, h]
    have hf : (find "km".toList n).isSome = false := find_plain hn.plain (by decide)
    simp only [hf, Bool.false_eq_true, if_false, floatOf_numeral hn, bind, Except.bind, Except.map]

/-- The hypotheses are met by `2.5km`. -/
example : (parseLineLength ⟨"overhead_line".toList, [("length".toList, "2.5km".toList)]⟩).map Prod.fst = .ok 2500 := by
  have h := (C64_length_partial (o := ⟨"overhead_line".toList, [("length".toList, "2.5km".toList)]⟩)
    (.point "2".toList "5".toList (by decide) (by decide) (by decide))).1 (by decide)
  have h2 : decimal "2".toList = 2 := by decide
  have h5 : decimal "5".toList = 5 := by decide
  have hl : "5".toList.length = 1 := by decide
  rw [h, h2, h5, hl]
  norm_num

/-! ### C88 -/

/-- A conductor whose radius is given in centimetres and whose resistance in ohms per kilometre. -/
def metricConductor : Obj :=
  ⟨"overhead_line_conductor".toList, [("geometric_mean_radius".toList, "3.048cm".toList), ("resistance".toList, "1Ohm/km".toList)]⟩

/-- **C88 fails.** Reading the conductor for one line removes the units from it, so the next line that uses it reads centimetres as
feet and ohms per kilometre as ohms per mile. -/
theorem C88_second_line_fails : ∃ o, overheadConductor metricConductor 'A' = .ok (⟨'A', some (1 / 2), some (1 / 10), some (1609344 / 1000000)⟩, o) ∧
    (overheadConductor o 'A').map Prod.fst = .ok ⟨'A', some (1 / 2), some (3048 / 1000), some 1⟩ :=
  ⟨⟨"overhead_line_conductor".toList, [("geometric_mean_radius".toList, "3.048".toList), ("resistance".toList, "1".toList)]⟩, by decide +kernel, by decide +kernel⟩

/-- **C88, partial.** The first line to use a conductor reads its radius and its resistance in the units written, feet and ohms
per mile if there are none. If no unit is written the conductor is left as it is, so every line reads the same. -/
theorem C88_units_partial {o : Obj} {n m : Txt} {x y : ℚ} (p : Char) (hn : Numeral n x) (hm : Numeral m y)
    (hd : o.get "diameter".toList = .error .attribute) (mr mz : Bool)
    (hr : o.get "geometric_mean_radius".toList = .ok (n ++ if mr then "cm".toList else []))
    (hz : o.get "resistance".toList = .ok (m ++ if mz then "Ohm/km".toList else [])) :
    ∃ o', overheadConductor o p =
        .ok (⟨p, some (1 / 2), some (if mr then x / (3048 / 100) else x), some (if mz then y * (1609344 / 1000000) else y)⟩, o') ∧
      (mr = false → mz = false → o' = o) := by
  have hfd : floatAttribute o "diameter".toList = .ok none := by rw [floatAttribute, hd]
  have h1 : ∃ o1, unitAttribute o "geometric_mean_radius".toList "cm".toList (1 / (3048 / 100)) = .ok (some (if mr then x / (3048 / 100) else x), o1) ∧
      (mr = false → o1 = o) ∧ o1.get "resistance".toList = o.get "resistance".toList := by
    rw [unitAttribute, hr]
    cases mr with
    | true =>
      have hf : (find "cm".toList (n ++ "cm".toList)).isSome = true := find_plain_unit hn.plain (by decide)
      have hr : removeNonnum (n ++ "cm".toList) = n := removeNonnum_unit hn.plain (by decide)
      simp only [if_true, hf, hr, floatOf_numeral hn, bind, Except.bind]
      refine ⟨{ o with attrs := store "geometric_mean_radius".toList n o.attrs }, ?_, by simp, ?_⟩
      · rw [mul_one_div]
      · exact get_store_ne n (by decide) o.attrs o.cls
    | false =>
      have hf : (find "cm".toList n).isSome = false := find_plain hn.plain (by decide)
      simp only [Bool.false_eq_true, if_false, List.append_nil, hf, floatOf_numeral hn, bind, Except.bind]
      exact ⟨o, rfl, fun _ => rfl, rfl⟩
  obtain ⟨o1, e1, k1, g1⟩ := h1
  have h2 : ∃ o2, unitAttribute o1 "resistance".toList "Ohm/km".toList (1609344 / 1000000) = .ok (some (if mz then y * (1609344 / 1000000) else y), o2) ∧
      (mz = false → o2 = o1) := by
    rw [unitAttribute, g1, hz]
    cases mz with
    | true =>
      have hf : (find "Ohm/km".toList (m ++ "Ohm/km".toList)).isSome = true := find_plain_unit hm.plain (by decide)
      have hr : removeNonnum (m ++ "Ohm/km".toList) = m := removeNonnum_unit hm.plain (by decide)
      simp only [if_true, hf, hr, floatOf_numeral hm, bind, Except.bind]
      exact ⟨_, rfl, by simp⟩
    | false =>
      have hf : (find "Ohm/km".toList m).isSome = false := find_plain hm.plain (by decide)
      simp only [Bool.false_eq_true, if_false, List.append_nil, hf, floatOf_numeral hm, bind, Except.bind]
      exact ⟨o1, rfl, fun _ => rfl⟩
  obtain ⟨o2, e2, k2⟩ := h2
  refine ⟨o2, ?_, fun h h' => (k2 h').trans (k1 h)⟩
  simp only [overheadConductor, hfd, e1, e2, bind, Except.bind, Option.getD_none]

/-- The hypotheses are met by a conductor with radius `0.03` feet and resistance `1Ohm/km`. -/
example : ∃ o', overheadConductor ⟨"overhead_line_conductor".toList, [("geometric_mean_radius".toList, "0.03".toList), ("resistance".toList, "1Ohm/km".toList)]⟩ 'B' =
    .ok (⟨'B', some (1 / 2), some (decimal "0".toList + decimal "03".toList / 10 ^ 2), some ((decimal "1".toList : ℚ) * (1609344 / 1000000))⟩, o') := by
  obtain ⟨o', h, -⟩ := C88_units_partial (o := ⟨"overhead_line_conductor".toList, [("geometric_mean_radius".toList, "0.03".toList), ("resistance".toList, "1Ohm/km".toList)]⟩)
    'B' (.point "0".toList "03".toList (by decide) (by decide) (by decide)) (.whole "1".toList (by decide) (by decide)) (by decide) false true (by decide) (by decide)
  exact ⟨o', h⟩

end Verif.Glm
