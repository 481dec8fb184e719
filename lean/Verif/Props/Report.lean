import Verif.Lemmas.Report
import Verif.Props.Results
import Verif.Props.RawQuantities
import Verif.Model.RawNetwork

/-!
# Output files and display: C115, C117, C118, C120
-/

namespace Verif

open ComplexConjugate

/-! ### C120: output files -/

theorem csv_busRow {names : List BusName} {b : BusResult} (hn : ∀ n ∈ names, OneField n.name ∧ OneField n.phase) (hb : b.bus < names.length) :
    '\n' ∉ b.csv names ∧ VoltageRow names b ((b.csv names).splitOn ',') := by
  obtain ⟨n, hget⟩ : ∃ n, names[b.bus]? = some n := ⟨_, List.getElem?_eq_getElem hb⟩
  have hat : busNameAt names b.bus = n := by simp [busNameAt, List.getD_eq_getElem?_getD, hget]
  obtain ⟨hf, hp⟩ := hn n (List.mem_of_getElem? hget)
  have hnp : OneField (n.name ++ ':' :: n.phase) := by
    constructor <;> simp [hf.1, hf.2, hp.1, hp.2]
  have h4 := four_fields (hourText_field n.number) hnp (fixedText_field 3 b.mag) (fixedText_field 3 b.deg)
  have he : b.csv names = hourText n.number ++ ',' :: ((n.name ++ ':' :: n.phase) ++ ',' :: (fixedText 3 b.mag ++ ',' :: fixedText 3 b.deg)) := by
    simp [BusResult.csv, hat]
  rw [he]
  refine ⟨h4.2, n, hget, _, _, _, h4.1, hourText_number _, fixedText_shows (by decide) _, fixedText_shows (by decide) _⟩

theorem csv_sourceRow {names : List BusName} {g : GenResult} (hb : g.bus < names.length) :
    '\n' ∉ g.csv names ∧ SourceRow names g ((g.csv names).splitOn ',') := by
  obtain ⟨n, hget⟩ : ∃ n, names[g.bus]? = some n := ⟨_, List.getElem?_eq_getElem hb⟩
  have hat : busNameAt names g.bus = n := by simp [busNameAt, List.getD_eq_getElem?_getD, hget]
  have hk : OneField g.kind.text := by cases g.kind <;> constructor <;> decide
  have h4 := four_fields (hourText_field n.number) hk (fixedText_field 2 g.P) (fixedText_field 2 g.Q)
  have he : g.csv names = hourText n.number ++ ',' :: (g.kind.text ++ ',' :: (fixedText 2 g.P ++ ',' :: fixedText 2 g.Q)) := by
    simp [GenResult.csv, hat]
  rw [he]
  refine ⟨h4.2, n, hget, _, _, _, ?_, hourText_number _, fixedText_shows (by decide) _, fixedText_shows (by decide) _⟩
  rw [h4.1]
  cases g.kind <;> rfl

theorem csv_loadRow {names : List BusName} {l : LoadResult} (hn : ∀ n ∈ names, OneField n.name ∧ OneField n.phase)
    (hb : ∀ k, l.bus = some k → k < names.length) : '\n' ∉ l.csv names ∧ LoadRow names l ((l.csv names).splitOn ',') := by
  have hr : OneField (refName names l.bus) ∧ ∀ k, l.bus = some k → ∃ n : BusName, names[k]? = some n ∧ refName names l.bus = n.name := by
    cases hl : l.bus with
    | none => exact ⟨⟨by simp [refName], by simp [refName]⟩, fun k hk => by cases hk⟩
    | some k =>
      have hk := hb k hl
      have hget : names[k]? = some names[k] := List.getElem?_eq_getElem hk
      have he : refName names (some k) = names[k].name := by simp [refName, busNameAt, List.getD_eq_getElem?_getD, hget]
      refine ⟨?_, fun j hj => ?_⟩
      · rw [he]; exact (hn _ (List.getElem_mem hk)).1
      · injection hj with hj; subst hj; exact ⟨_, hget, he⟩
  have h4 := four_fields hr.1 (b := "PQ".toList) ⟨by decide, by decide⟩ (fixedText_field 2 l.P) (fixedText_field 2 l.Q)
  refine ⟨h4.2, _, _, _, h4.1, hr.2, fixedText_shows (by decide) _, fixedText_shows (by decide) _⟩

theorem trailer_rows (v : Bool) : (if v = true then "VIOLATED EQUIPMENT RATINGS".toList else []).splitOn '\n' = trailer v ∧
    (trailer v).map (fun l => l.splitOn ',') = [trailer v] := by
  cases v <;> decide +kernel

theorem forall₂_map_self {α β : Type} {P : α → β → Prop} {f : α → β} {l : List α} (h : ∀ a ∈ l, P a (f a)) : List.Forall₂ P l (l.map f) := by
  induction l with
  | nil => exact .nil
  | cons a l ih => exact .cons (h a List.mem_cons_self) (ih fun b hb => h b (List.mem_cons_of_mem _ hb))

/-- **C120, what holds for voltages.** For all results and all names without commas and line ends: read back as a comma separated file, the voltage file of
a failed run is the word FAILURE; that of a successful run has the row of headings, one row for each reported bus in order, whose four fields are
the bus number, name and phase, and numbers within half a thousandth of the magnitude and the angle, and then the word on violations, which
is there exactly if ratings are violated. Missing: names with commas or line ends, see `C120_comma_fails`. -/
theorem C120_voltage_file_partial (names : List BusName) (r : Results) (h : NamesFit names r) :
    (r.success = false → csvRows (r.voltageText names) = [["FAILURE".toList]]) ∧
    (r.success = true → ∃ rows, csvRows (r.voltageText names) =
        ["bus".toList, "name".toList, "v_magnitude".toList, "v_ang_degrees".toList] :: rows ++ [trailer r.violates] ∧
      List.Forall₂ (VoltageRow names) r.buses rows) := by
  constructor
  · intro hs
    rw [Results.voltageText, if_pos hs]
    decide +kernel
  · intro hs
    have hb : ∀ b ∈ r.buses, _ := fun b hb => csv_busRow h.fit (h.buses b hb)
    refine ⟨r.buses.map fun b => (b.csv names).splitOn ',', ?_, forall₂_map_self fun b hb' => (hb b hb').2⟩
    rw [Results.voltageText, if_neg (by simp [hs]), List.append_assoc]
    have hh : "bus,name,v_magnitude,v_ang_degrees\n".toList = "bus,name,v_magnitude,v_ang_degrees".toList ++ '\n' :: [] := by decide +kernel
    rw [csvRows, hh, List.append_assoc, List.cons_append, List.nil_append, splitOn_first (by decide +kernel),
      splitOn_lines _ _ fun b hb' => (hb b hb').1, (trailer_rows _).1]
    simp only [List.map_cons, List.map_append, List.map_map, (trailer_rows _).2]
    have hc : "bus,name,v_magnitude,v_ang_degrees".toList.splitOn ',' =
      ["bus".toList, "name".toList, "v_magnitude".toList, "v_ang_degrees".toList] := by decide +kernel
    rw [hc]
    rfl

/-- **C120, what holds for powers.** Likewise the power file: the headings, one row for each generator, slack and infeasibility result in order
with bus number, kind and both powers within half a hundredth, one row for each load with the name of its bus and both powers, and the word on violations.
Missing: names with commas or line ends, and the number of a load's bus in the column `bus`, see `C120_comma_fails` and `C120_bus_column_fails`. -/
theorem C120_power_file_partial (names : List BusName) (r : Results) (h : NamesFit names r) :
    (r.success = false → csvRows (r.powerText names) = [["FAILURE".toList]]) ∧
    (r.success = true → ∃ rows lrows, csvRows (r.powerText names) =
        ["bus".toList, "name".toList, "P(MW)".toList, "Q(MVar)".toList] :: rows ++ lrows ++ [trailer r.violates] ∧
      List.Forall₂ (SourceRow names) r.generators rows ∧ List.Forall₂ (LoadRow names) r.loads lrows) := by
  constructor
  · intro hs
    rw [Results.powerText, if_pos hs]
    decide +kernel
  · intro hs
    have hg : ∀ g ∈ r.generators, _ := fun g hg => csv_sourceRow (h.sources g hg)
    have hl : ∀ l ∈ r.loads, _ := fun l hl => csv_loadRow h.fit (h.loads l hl)
    refine ⟨r.generators.map fun b => (b.csv names).splitOn ',', r.loads.map fun b => (b.csv names).splitOn ',', ?_,
      forall₂_map_self fun b hb' => (hg b hb').2, forall₂_map_self fun b hb' => (hl b hb').2⟩
    rw [Results.powerText, if_neg (by simp [hs]), List.append_assoc, List.append_assoc]
    have hh : "bus,name,P(MW),Q(MVar)\n".toList = "bus,name,P(MW),Q(MVar)".toList ++ '\n' :: [] := by decide +kernel
    rw [csvRows, hh, List.append_assoc, List.cons_append, List.nil_append, splitOn_first (by decide +kernel),
      splitOn_lines _ _ fun b hb' => (hg b hb').1, splitOn_lines _ _ fun b hb' => (hl b hb').1, (trailer_rows _).1]
    simp only [List.map_cons, List.map_append, List.map_map, (trailer_rows _).2]
    have hc : "bus,name,P(MW),Q(MVar)".toList.splitOn ',' =
      ["bus".toList, "name".toList, "P(MW)".toList, "Q(MVar)".toList] := by decide +kernel
    rw [hc]
    simp [Function.comp_def]

/-- **C120 fails** for names with a comma: the row of a bus called `A,B` has five fields, whatever its voltage. -/
theorem C120_comma_fails (mag deg : ℝ) : ∃ (names : List BusName) (r : Results), r.success = true ∧ r.buses = [⟨0, 0, none, mag, deg⟩] ∧
    names = [⟨1, ['A', ',', 'B'], ['A']⟩] ∧ ∃ row ∈ csvRows (r.voltageText names), row.length = 5 := by
  refine ⟨[⟨1, ['A', ',', 'B'], ['A']⟩], ⟨true, [⟨0, 0, none, mag, deg⟩], [], [], none, false⟩, rfl, rfl, rfl, ?_⟩
  have h1 := fixedText_field 3 mag
  have h2 := fixedText_field 3 deg
  set t := (⟨0, 0, none, mag, deg⟩ : BusResult).csv [⟨1, ['A', ',', 'B'], ['A']⟩] with ht
  have he : t = ['1'] ++ ',' :: (['A'] ++ ',' :: (['B', ':', 'A'] ++ ',' :: (fixedText 3 mag ++ ',' :: fixedText 3 deg))) := by
    rw [ht]
    have : hourText 1 = ['1'] := by decide +kernel
    simp [BusResult.csv, busNameAt, this]
  have hnl : '\n' ∉ t := by
    rw [he]; simp [h1.2, h2.2]
  refine ⟨t.splitOn ',', ?_, ?_⟩
  · rw [csvRows, Results.voltageText, if_neg (by simp), List.append_assoc]
    have hh : "bus,name,v_magnitude,v_ang_degrees\n".toList = "bus,name,v_magnitude,v_ang_degrees".toList ++ '\n' :: [] := by decide +kernel
    rw [hh, List.append_assoc, List.cons_append, List.nil_append, splitOn_first (by decide +kernel),
      splitOn_lines _ _ (by simpa using hnl)]
    simp only [List.map_cons, List.map_nil, List.map_append, List.mem_cons, List.mem_append]
    exact Or.inr (Or.inl (Or.inl (by rw [ht])))
  · rw [he, splitOn_first (by decide), splitOn_first (by decide), splitOn_first (by decide), splitOn_first h1.1, List.splitOn_eq_singleton h2.1]
    rfl

/-- **C120 fails** for the column `bus` of a load: it holds the name of the bus, not its number. A load at bus 7, called `3`, is listed as one at bus 3. -/
theorem C120_bus_column_fails (P Q : ℝ) : ∃ (names : List BusName) (r : Results), r.success = true ∧ r.loads = [⟨some 0, P, Q⟩] ∧
    names.map BusName.number = [7] ∧ NamesFit names r ∧
    ∀ row ∈ (csvRows (r.powerText names)).drop 1, ¬ ∃ f0 ∈ row.head?, Glm.Number f0 7 := by
  refine ⟨[⟨7, ['3'], ['A']⟩], ⟨true, [], [], [⟨some 0, P, Q⟩], none, false⟩, rfl, rfl, rfl, ?_, ?_⟩
  · constructor
    · intro n hn
      simp only [List.mem_singleton] at hn
      subst hn
      constructor <;> constructor <;> decide
    · simp
    · simp
    · simp
  · have hfit : NamesFit [⟨7, ['3'], ['A']⟩] (⟨true, [], [], [⟨some 0, P, Q⟩], none, false⟩ : Results) := by
      constructor
      · intro n hn
        simp only [List.mem_singleton] at hn
        subst hn
        constructor <;> constructor <;> decide
      · simp
      · simp
      · simp
    obtain ⟨rows, lrows, he, h1, h2⟩ := (C120_power_file_partial _ _ hfit).2 rfl
    rw [he]
    cases h1
    cases h2 with
    | cons h3 h4 =>
      cases h4
      obtain ⟨f0, f2, f3, rfl, hb, -, -⟩ := h3
      obtain ⟨n, hn, rfl⟩ := hb 0 rfl
      simp only [List.getElem?_cons_zero, Option.some.injEq] at hn
      subst hn
      rintro row hrow ⟨g, hg, hnum⟩
      simp only [List.cons_append, List.nil_append, List.drop_succ_cons, List.drop_zero, List.mem_cons, List.not_mem_nil, or_false] at hrow
      rcases hrow with rfl | rfl
      · simp only [List.head?_cons, Option.mem_def, Option.some.injEq] at hg
        subst hg
        exact three_not_seven hnum
      · simp only [trailer, Bool.false_eq_true, if_false, List.head?_cons, Option.mem_def, Option.some.injEq] at hg
        subst hg
        exact nil_not_number hnum

/-! ### C115: the end of a run -/

theorem sum_reportInfeasible (l : List GenResult) (f : GenResult → ℝ) (hk : ∀ g ∈ l, g.kind = .Inf)
    (hz : ∀ g ∈ l, |g.P| < 1 / 100000 → |g.Q| < 1 / 100000 → f g = 0) : ((reportInfeasible l).map f).sum = (l.map f).sum := by
  induction l with
  | nil => rfl
  | cons g l ih =>
    have ih := ih (fun x hx => hk x (List.mem_cons_of_mem _ hx)) fun x hx => hz x (List.mem_cons_of_mem _ hx)
    have h1 := hk g List.mem_cons_self
    have h2 := hz g List.mem_cons_self
    unfold reportInfeasible at ih ⊢
    by_cases h : |g.P| < 1 / 100000 ∧ |g.Q| < 1 / 100000
    · rw [List.filter_cons_of_neg (by rw [decide_eq_true h]; simp), List.map_cons, List.sum_cons, h2 h.1 h.2, zero_add, ih]
    · rw [List.filter_cons_of_pos (by simp only [h, h1]; decide), List.map_cons, List.sum_cons, List.map_cons, List.sum_cons, ih]

theorem cutSmall_small {x : ℝ} (h : |cutSmall x| < 1 / 100000) : cutSmall x = 0 := by
  unfold cutSmall at h ⊢
  split_ifs at h ⊢ with hx
  · rfl
  · rw [abs_of_nonneg (by linarith)] at h; exact absurd h hx

theorem reportInfeasible_none (l : List GenResult) (hk : ∀ g ∈ l, g.kind ≠ .Inf) : reportInfeasible l = [] := by
  unfold reportInfeasible
  rw [List.filter_eq_nil_iff]
  intro g hg
  simp [hk g hg]

/-- **C115, what holds.** Without `--verbose` the display of the results of any network ends normally and shows whether the run was successful, the number of
iterations, the largest residual with its row, and as infeasible power the totals of the results, zero if there is no optimization. Missing: with `--verbose`,
see `C115_verbose_fails`. -/
theorem C115_display_partial (N : Network) (infos : List BusInfo) (a : Assignment) (success : Bool) (v : ℕ → ℝ) (n : ℕ) (res : ℝ) (i : ℕ) :
    ∃ lines, (Results.make N infos a success v).display n res i false = (lines, none) ∧
      (∀ b, .successful b ∈ lines ↔ b = success) ∧ (∀ k, .iterations k ∈ lines ↔ k = n) ∧ (∀ x j, .maxResidual x j ∈ lines ↔ x = res ∧ j = i) ∧
      (∀ x, .infP x ∈ lines ↔ x = ((infTotals N a v).getD (0, 0)).1) ∧ (∀ x, .infQ x ∈ lines ↔ x = ((infTotals N a v).getD (0, 0)).2) := by
  have hnot : ∀ g ∈ pvResults N a v ++ slackResults N a v, g.kind ≠ .Inf := by
    intro g hg
    rw [List.mem_append] at hg
    unfold pvResults slackResults at hg
    rcases hg with hg | hg <;> rw [List.mem_filterMap] at hg <;> obtain ⟨⟨e, ps⟩, -, hx⟩ := hg <;> cases e <;> simp at hx <;> subst hx <;> simp
  have hsum : ∀ f : GenResult → ℝ, (∀ g : GenResult, (g.P = 0 → g.Q = 0 → f g = 0)) →
      ((reportInfeasible (Results.make N infos a success v).generators).map f).sum =
        (N.optimization.elim 0 fun k => ((infResults k a v).map f).sum) := by
    intro f hf
    have hg : (Results.make N infos a success v).generators = pvResults N a v ++ slackResults N a v ++ (match N.optimization with
      | none => []
      | some k => infResults k a v) := rfl
    rw [hg]
    have happ : ∀ l l' : List GenResult, reportInfeasible (l ++ l') = reportInfeasible l ++ reportInfeasible l' := fun l l' => by simp [reportInfeasible]
    rw [happ, reportInfeasible_none _ hnot, List.nil_append]
    cases N.optimization with
    | none => rfl
    | some k =>
      have hin : ∀ g ∈ infResults k a v, g.kind = .Inf ∧ (|g.P| < 1 / 100000 → g.P = 0) ∧ (|g.Q| < 1 / 100000 → g.Q = 0) := by
        intro g hg
        unfold infResults at hg
        obtain ⟨x, -, rfl⟩ := List.mem_map.1 hg
        exact ⟨rfl, fun h => cutSmall_small h, fun h => cutSmall_small h⟩
      exact sum_reportInfeasible _ f (fun g hg => (hin g hg).1) fun g hg h1 h2 => hf g ((hin g hg).2.1 h1) ((hin g hg).2.2 h2)
  have hP := hsum GenResult.P fun g h _ => h
  have hQ := hsum GenResult.Q fun g _ h => h
  refine ⟨_, rfl, ?_, ?_, ?_, ?_, ?_⟩
  · intro b; simp [Results.make]
  · intro b; simp
  · intro x j; simp
  · intro x
    simp only [List.mem_append, List.mem_cons, reduceCtorEq, List.not_mem_nil, or_false, false_or, ShownLine.infP.injEq, hP, infTotals]
    cases N.optimization <;> rfl
  · intro x
    simp only [List.mem_append, List.mem_cons, reduceCtorEq, List.not_mem_nil, or_false, false_or, ShownLine.infQ.injEq, hQ, infTotals]
    cases N.optimization <;> rfl

/-- **C115, what holds of a run.** Without `--verbose`, and if displaying does not fail, a run ends as `mainRun` says: with the same exception, or with the same
errors, results and files. -/
theorem C115_run_partial {σ R : Type} (disp : R → Bool → Option String) (hd : ∀ r, disp r false = none) (C : TSConfig σ R) (fuel : ℕ) (setup : Option String)
    (factor : Option ℝ) (s : σ) (loads : List NamedLoad) :
    (mainEnd disp false C fuel setup factor s loads).map (fun m => match m.raised with
      | some e => (.error e : Except String (Seen R))
      | none => .ok ⟨m.errors, m.shown, m.files⟩) = mainRun C fuel setup factor s loads := by
  unfold mainEnd mainRun
  cases setup with
  | some e =>
    simp only [Option.map_some]
    cases hs : (C.solve s (modifyLoadFactor loads (factor.getD (-1)) (factor.getD (-1)))).1 with
    | error e' => simp
    | ok r => simp [hd]
  | none =>
    simp only [Option.map_map]
    congr 1
    funext x
    simp only [Function.comp]
    have hp : ∀ (errors : List String) (st : TSState σ R), (match (match (C.solve st.devices st.loads).1 with
        | .error e => (⟨some e, errors, [], st.files⟩ : MainEnd R)
        | .ok r => ⟨none, errors, [r], writeFiles C.outputfile r st.files⟩) with
        | m => match m.raised with
          | some e => (.error e : Except String (Seen R))
          | none => .ok ⟨m.errors, m.shown, m.files⟩) = (match (C.solve st.devices st.loads).1 with
        | .error e => .error e
        | .ok r => .ok ⟨errors, [r], writeFiles C.outputfile r st.files⟩) := by
      intro errors st
      cases (C.solve st.devices st.loads).1 <;> rfl
    rcases x with ⟨x | x, st⟩
    · simp only [hd]; exact hp _ _
    · cases x with
      | nothing => simp only [hd]; exact hp _ _
      | snapshot r => simp [hd]
      | hours l =>
        have : (l.map Prod.snd).findSome? (fun r => disp r false) = none := by simp [hd]
        simp [this]

/-- **C115 fails** with `--verbose`: displaying any result raises an exception, and every run without load file and swing bus ends with an exception before it writes
its files, though the network was solved. -/
theorem C115_verbose_fails {σ : Type} (n : ℕ) (res : ℝ) (i : ℕ) (C : TSConfig σ Results) (fuel : ℕ) (factor : Option ℝ) (s : σ) (loads : List NamedLoad)
    (h : C.loadfile = none ∧ C.swing = none) :
    (∀ r : Results, (r.display n res i true).2 ≠ none) ∧
    ∃ m, mainEnd (fun r verbose => (r.display n res i verbose).2) true C fuel none factor s loads = some m ∧
      m.raised ≠ none ∧ m.shown = [] ∧ m.files = [] := by
  refine ⟨fun r => by simp [Results.display], ?_⟩
  simp only [mainEnd, tsExecute, h.1, h.2, Option.map_some]
  refine ⟨_, rfl, ?_⟩
  cases (C.solve s (modifyLoadFactor loads (factor.getD (-1)) (factor.getD (-1)))).1 with
  | error e => exact ⟨by simp, rfl, rfl⟩
  | ok r => exact ⟨by simp [Results.display], by simp [Results.display], by simp [Results.display]⟩

/-! ### C117, C118: reported loads -/

/-- The complex power an element takes in between two terminals at the voltages `V`, if it draws only there (spec). -/
noncomputable def takenIn (t : ℝ) (V : Ref → ℂ) (w : List ℝ) (e : Element) : ℂ := ((e.draws t V w).map fun d => V d.1 * conj d.2).sum

theorem taken_load (t : ℝ) (V : Ref → ℂ) (w : List ℝ) (f u : Ref) (l : Load) (h : V f - V u ≠ 0) :
    takenIn t V w (.load f u l) = ⟨l.P, l.Q⟩ + (V f - V u) * conj (⟨l.IP, l.IQ⟩ + (1 - t) * l.Z⁻¹ * (V f - V u)) := by
  simp only [takenIn, Element.draws, branch, List.map_cons, List.map_nil, List.sum_cons, List.sum_nil, add_zero, map_add, map_neg, Complex.conj_conj]
  field_simp
  ring

/-- **C117, what holds.** For every network and all voltages: the loads are reported in order, and the power reported for a load without impedance and current parts is
the complex power it takes in. Missing: the other loads, see `C117_parts_fails`. -/
theorem C117_load_power_partial (N : Network) (V : Ref → ℂ) (w : List ℝ) :
    List.Forall₂ (fun e (r : LoadResult) => ∃ f u l, e = .load f u l ∧ r.bus = f ∧
        (V f - V u ≠ 0 → l.Z = 0 → l.IP = 0 → l.IQ = 0 → takenIn 0 V w e = ⟨r.P, r.Q⟩))
      (N.elements.filter Element.isLoad) (loadResults N) := by
  unfold loadResults
  induction N.elements with
  | nil => exact .nil
  | cons e es ih =>
    cases e with
    | load f u l =>
      refine .cons ⟨f, u, l, rfl, rfl, fun hv hz h1 h2 => ?_⟩ ih
      rw [taken_load _ _ _ _ _ _ hv, hz, h1, h2, show (⟨0, 0⟩ : ℂ) = 0 from rfl]
      simp
    | _ => exact ih

/-- **C117 fails** for the other parts: at every voltage, a load whose current part takes in power is reported with another power, and so is one whose impedance takes in power. -/
theorem C117_parts_fails (V : Ref → ℂ) (f u : Ref) (hV : V f - V u ≠ 0) (N : Network) :
    (∀ P Q IP IQ : ℝ, (IP ≠ 0 ∨ IQ ≠ 0) → N.elements = [.load f u ⟨P, Q, 0, IP, IQ⟩] →
      ∃ r ∈ loadResults N, ∀ e ∈ N.elements, takenIn 0 V [] e ≠ ⟨r.P, r.Q⟩) ∧
    (∀ P Q : ℝ, ∀ Z : ℂ, Z ≠ 0 → N.elements = [.load f u ⟨P, Q, Z, 0, 0⟩] →
      ∃ r ∈ loadResults N, ∀ e ∈ N.elements, takenIn 0 V [] e ≠ ⟨r.P, r.Q⟩) := by
  constructor
  · intro P Q IP IQ hI he
    refine ⟨⟨f, P, Q⟩, by simp [loadResults, he], ?_⟩
    intro e hm
    rw [he, List.mem_singleton] at hm
    subst hm
    rw [taken_load _ _ _ _ _ _ hV]
    intro h
    have h0 : (V f - V u) * conj (⟨IP, IQ⟩ : ℂ) = 0 := by simpa using h
    rcases mul_eq_zero.1 h0 with h1 | h1
    · exact hV h1
    · rw [map_eq_zero] at h1
      have := congrArg Complex.re h1
      have := congrArg Complex.im h1
      simp at *
      tauto
  · intro P Q Z hZ he
    refine ⟨⟨f, P, Q⟩, by simp [loadResults, he], ?_⟩
    intro e hm
    rw [he, List.mem_singleton] at hm
    subst hm
    rw [taken_load _ _ _ _ _ _ hV, show (⟨0, 0⟩ : ℂ) = 0 from rfl]
    intro h
    have h0 : (V f - V u) * conj (Z⁻¹ * (V f - V u)) = 0 := by simpa using h
    rcases mul_eq_zero.1 h0 with h1 | h1
    · exact hV h1
    · rw [map_eq_zero] at h1
      rcases mul_eq_zero.1 h1 with h2 | h2
      · exact hZ (inv_eq_zero.1 h2)
      · exact hV h2

/-- What `loadResults` reads from an element. -/
def loadOf : Element → Option LoadResult
  | .load f _ l => some ⟨f, l.P, l.Q⟩
  | _ => none

theorem loadResults_eq (N : Network) : loadResults N = N.elements.filterMap loadOf := by
  rfl

theorem loadResults_raw (o : Raw.Out) : loadResults o.toNetwork = o.loads.map fun x => ⟨some (o.pos x.bus), x.l.P, x.l.Q⟩ := by
  have hnone : ∀ {α : Type} (l : List α) (f : α → Element), (∀ x, loadOf (f x) = none) → (l.map f).filterMap loadOf = [] := fun l f h => by
    rw [List.filterMap_map]; exact List.filterMap_eq_nil_iff.2 fun x _ => h x
  have h6 : (o.loads.map o.demand).filterMap loadOf = o.loads.map fun x => ⟨some (o.pos x.bus), x.l.P, x.l.Q⟩ := by
    rw [List.filterMap_map]; exact List.filterMap_eq_map_iff_forall_eq_some.2 fun x _ => rfl
  rw [loadResults_eq, Raw.Out.toNetwork]
  simp only [List.filterMap_append, hnone _ o.line fun _ => rfl, hnone _ o.xfmr fun _ => rfl, hnone _ o.swing fun _ => rfl,
    hnone _ o.machine fun _ => rfl, hnone _ o.shunt fun _ => rfl, h6, List.nil_append, List.append_nil]

open Classical in
/-- **C118, what holds.** For every loaded RAW case: besides machines of fixed reactive power, the power file lists the load records in service in order, with their constant power divided
by one hundred: the columns `P(MW)` and `Q(MVar)` are per unit of 100 MVA. Missing: the unit of the heading, see `C118_unit_fails`. -/
theorem C118_per_unit_partial {c : Raw.Case} {o : Raw.Out} (hd : c.DistinctBuses) (h : Raw.parseRaw c = .ok o) :
    ∃ own ls, loadResults o.toNetwork = own ++ ls ∧
      List.Forall₂ (fun (r : Raw.LoadRec) (l : LoadResult) => l.bus = some (o.pos r.i) ∧ 100 * l.P = r.pl ∧ 100 * l.Q = r.ql)
        (c.loads.filter fun r => r.Served c) ls := by
  obtain ⟨own, ls, ho, -, hf⟩ := Raw.C48_loads_once hd h
  refine ⟨_, _, by rw [loadResults_raw, ho, List.map_append], ?_⟩
  rw [List.forall₂_map_right_iff]
  refine hf.imp fun r l hl => ?_
  obtain ⟨h1, h2, h3⟩ := hl
  refine ⟨by rw [h1], ?_, ?_⟩
  · simp only [h2]; ring
  · simp only [h3]; ring

/-- **C118 fails**: in a loaded case no load record of non-zero active power has its megawatts in the file; the field `P(MW)` of a load of 50 MW holds a number within half a hundredth of 0.5,
and that of a load of 0.4 MW one within half a hundredth of 0.004, so that zero may be shown. -/
theorem C118_unit_fails : (∀ (r : Raw.LoadRec), r.i = 1 ∧ r.status = 1 → r.pl ≠ 0 → ∃ o l, Raw.parseRaw (Raw.oneLoad r) = .ok o ∧
      loadResults o.toNetwork = [l] ∧ l.P ≠ r.pl) ∧
    (∃ o l, Raw.parseRaw (Raw.oneLoad ⟨1, 1, 50, 0, 0, 0, 0, 0⟩) = .ok o ∧ loadResults o.toNetwork = [l] ∧ l.P = 1 / 2 ∧ ¬ Shows 2 50 (fixedText 2 l.P)) ∧
    (∃ o l, Raw.parseRaw (Raw.oneLoad ⟨1, 1, 2 / 5, 0, 0, 0, 0, 0⟩) = .ok o ∧ loadResults o.toNetwork = [l] ∧ Shows 2 l.P "0.00".toList) := by
  refine ⟨fun r hr hp => ⟨_, ⟨some 0, r.pl / 100, r.ql / 100⟩, Raw.oneLoad_load r hr, ?_, ?_⟩, ⟨_, ⟨some 0, 50 / 100, 0 / 100⟩, Raw.oneLoad_load _ ⟨rfl, rfl⟩, ?_, ?_, ?_⟩,
    ⟨_, ⟨some 0, 2 / 5 / 100, 0 / 100⟩, Raw.oneLoad_load _ ⟨rfl, rfl⟩, ?_, ?_⟩⟩
  · rw [loadResults_raw]; simp [Raw.Out.pos]
  · intro he
    simp only at he
    apply hp
    linarith
  · rw [loadResults_raw]; simp [Raw.Out.pos]
  · norm_num
  · rintro ⟨q, hq, hd⟩
    obtain ⟨q', hq', hd'⟩ := fixedText_shows (k := 2) (by decide) ((50 : ℝ) / 100)
    rw [number_unique hq hq'] at hd
    rw [abs_le] at hd hd'
    norm_num at hd hd'
    linarith [hd.1, hd'.2]
  · rw [loadResults_raw]; simp [Raw.Out.pos]
  · refine ⟨0, ?_, by norm_num⟩
    have := Glm.Number.mk _ _ _ _ _ _ Glm.Sign.none (Glm.Numeral.point ['0'] ['0', '0'] (by decide) (by decide) (by decide)) Glm.Exponent.none
    have h0 : Glm.decimal ['0'] = 0 := by decide +kernel
    have h1 : Glm.decimal ['0', '0'] = 0 := by decide +kernel
    rw [h0, h1] at this
    simpa using this

/-! ### Worked examples -/

theorem roundEven_nat (n : ℕ) : roundEven (n : ℝ) = n := by simp [roundEven]

/-- The text of a number with at most `k` decimals. -/
theorem fixedText_exact {k n : ℕ} {x : ℝ} (h : |x| * 10 ^ k = n) : fixedText k x =
    (if x < 0 then ['-'] else []) ++ (Nat.toDigits 10 (n / 10 ^ k) ++ '.' :: padZeros k (Nat.toDigits 10 (n % 10 ^ k))) := by
  simp only [fixedText, h, roundEven_nat]

/-- A result of one bus, one slack and one load. -/
noncomputable def smallResult : Results := ⟨true, [⟨0, 1, none, 1, -30⟩], [⟨0, 1 / 2, -1 / 4, .Slack⟩], [⟨some 0, 1 / 2, 1 / 5⟩], none, false⟩

/-- Its bus. -/
def smallNames : List BusName := [⟨7, ['N', '1'], ['A']⟩]

theorem small_fit : NamesFit smallNames smallResult := by
  constructor
  · intro n hn
    simp only [smallNames, List.mem_singleton] at hn
    subst hn
    constructor <;> constructor <;> decide
  · simp [smallNames, smallResult]
  · simp [smallNames, smallResult]
  · simp [smallNames, smallResult]

/-- The files of the small result, letter by letter. -/
theorem small_texts : smallResult.voltageText smallNames = "bus,name,v_magnitude,v_ang_degrees\n7,N1:A,1.000,-30.000\n".toList ∧
    smallResult.powerText smallNames = "bus,name,P(MW),Q(MVar)\n7,Slack,0.50,-0.25\nN1,PQ,0.50,0.20\n".toList := by
  have h1 : fixedText 3 1 = "1.000".toList := by
    rw [fixedText_exact (n := 1000) (by norm_num), if_neg (by norm_num)]; decide +kernel
  have h2 : fixedText 3 (-30) = "-30.000".toList := by
    rw [fixedText_exact (n := 30000) (by norm_num), if_pos (by norm_num)]; decide +kernel
  have h3 : fixedText 2 (1 / 2) = "0.50".toList := by
    rw [fixedText_exact (n := 50) (by norm_num [abs_of_pos]), if_neg (by norm_num)]; decide +kernel
  have h4 : fixedText 2 (-1 / 4) = "-0.25".toList := by
    rw [fixedText_exact (n := 25) (by rw [abs_of_neg (by norm_num)]; norm_num), if_pos (by norm_num)]; decide +kernel
  have h5 : fixedText 2 (1 / 5) = "0.20".toList := by
    rw [fixedText_exact (n := 20) (by norm_num [abs_of_pos]), if_neg (by norm_num)]; decide +kernel
  constructor
  · simp only [Results.voltageText, smallResult, Bool.true_eq_false, if_false, Bool.false_eq_true, List.flatMap_cons, List.flatMap_nil, BusResult.csv, h1, h2]
    decide +kernel
  · simp only [Results.powerText, smallResult, Bool.true_eq_false, if_false, Bool.false_eq_true, List.flatMap_cons, List.flatMap_nil, GenResult.csv, LoadResult.csv, h3, h4, h5]
    decide +kernel

/-- `C120_voltage_file_partial` on the small result: one row, of bus 7, named `N1:A`. -/
example : ∃ row f0 f2 f3, csvRows (smallResult.voltageText smallNames) =
    [["bus".toList, "name".toList, "v_magnitude".toList, "v_ang_degrees".toList], row, [[]]] ∧ row = [f0, "N1:A".toList, f2, f3] ∧
    Glm.Number f0 7 ∧ Shows 3 1 f2 ∧ Shows 3 (-30) f3 := by
  obtain ⟨rows, he, hf⟩ := (C120_voltage_file_partial smallNames smallResult small_fit).2 rfl
  cases hf with
  | cons h1 h2 =>
    cases h2
    obtain ⟨n, hn, f0, f2, f3, hr, h3, h4, h5⟩ := h1
    cases hn
    exact ⟨_, f0, f2, f3, he, hr, by simpa using h3, h4, h5⟩

/-- `C120_power_file_partial` on the small result: a row for the slack and a row for the load. -/
example : ∃ row lrow, csvRows (smallResult.powerText smallNames) =
    [["bus".toList, "name".toList, "P(MW)".toList, "Q(MVar)".toList], row, lrow, [[]]] ∧ row[1]? = some "Slack".toList ∧ lrow[0]? = some ['N', '1'] := by
  obtain ⟨rows, lrows, he, hf, hl⟩ := (C120_power_file_partial smallNames smallResult small_fit).2 rfl
  cases hf with
  | cons h1 h2 =>
    cases h2
    cases hl with
    | cons h3 h4 =>
      cases h4
      obtain ⟨n, hn, f0, f2, f3, rfl, -⟩ := h1
      obtain ⟨g0, g2, g3, rfl, hb, -⟩ := h3
      obtain ⟨n', hn', rfl⟩ := hb 0 rfl
      cases hn'
      exact ⟨_, _, he, by simp, rfl⟩

/-- `C115_display_partial` on a network without optimization: no infeasible power is shown. -/
example (v : ℕ → ℝ) : ∃ lines, (Results.make ⟨1, [], none⟩ [⟨false, 1⟩] ⟨[], [], [], 0⟩ true v).display 3 0 0 false = (lines, none) ∧
    .successful true ∈ lines ∧ .iterations 3 ∈ lines ∧ .infP 0 ∈ lines := by
  obtain ⟨lines, h1, h2, h3, -, h5, -⟩ := C115_display_partial ⟨1, [], none⟩ [⟨false, 1⟩] ⟨[], [], [], 0⟩ true v 3 0 0
  exact ⟨lines, h1, (h2 _).2 rfl, (h3 _).2 rfl, (h5 _).2 rfl⟩

/-- A run that only solves, with results of a fixed kind. -/
noncomputable def plainConfig : TSConfig Unit Results := ⟨fun _ _ => (.ok smallResult, ()), fun _ => [], .ok, none, 0, 0, none, none, some ['o']⟩

/-- `C115_run_partial` and `C115_verbose_fails` on a run that only solves: without `--verbose` the files are written, with it they are not. -/
example : (mainEnd (fun r verbose => (r.display 3 0 0 verbose).2) false plainConfig 1 none (some 1) () []).map (fun m => match m.raised with
      | some e => (.error e : Except String (Seen Results))
      | none => .ok ⟨m.errors, m.shown, m.files⟩) = some (.ok ⟨[], [smallResult], [(['o'], smallResult)]⟩) ∧
    ∃ m, mainEnd (fun r verbose => (r.display 3 0 0 verbose).2) true plainConfig 1 none (some 1) () [] = some m ∧ m.raised ≠ none ∧ m.shown = [] ∧ m.files = [] := by
  constructor
  · refine (C115_run_partial (fun (r : Results) verbose => (r.display 3 0 0 verbose).2) (fun r => by simp [Results.display]) plainConfig 1 none (some 1) () []).trans ?_
    simp [mainRun, tsExecute, plainConfig, writeFiles]
  · exact (C115_verbose_fails 3 0 0 plainConfig 1 (some 1) () [] ⟨rfl, rfl⟩).2

/-- `C117_load_power_partial` on a single load of 2 + j at ten volts. -/
example : ∀ r ∈ loadResults ⟨1, [.load (some 0) none ⟨2, 1, 0, 0, 0⟩], none⟩,
    takenIn 0 (fun k => if k = none then 0 else 10) [] (.load (some 0) none ⟨2, 1, 0, 0, 0⟩) = ⟨r.P, r.Q⟩ := by
  intro r hr
  have h := C117_load_power_partial ⟨1, [.load (some 0) none ⟨2, 1, 0, 0, 0⟩], none⟩ (fun k => if k = none then 0 else 10) []
  simp only [loadResults, List.filterMap_cons, List.filterMap_nil, List.mem_singleton] at hr
  subst hr
  cases h with
  | cons h1 _ =>
    obtain ⟨f, u, l, he, -, h2⟩ := h1
    cases he
    exact h2 (by simp) rfl rfl rfl

/-- `C118_per_unit_partial` on a case with a load of 50 MW and 20 Mvar: 0.5 and 0.2 are reported. -/
example : ∃ o, Raw.parseRaw (Raw.oneLoad ⟨1, 1, 50, 20, 0, 0, 0, 0⟩) = .ok o ∧ loadResults o.toNetwork = [⟨some 0, 50 / 100, 20 / 100⟩] := by
  refine ⟨_, Raw.oneLoad_load _ ⟨rfl, rfl⟩, ?_⟩
  rw [loadResults_raw]; simp [Raw.Out.pos]

end Verif
