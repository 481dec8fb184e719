import Verif.Model.CommandLine
import Verif.Lemmas.Report
import Verif.Lemmas.Cache
import Verif.Lemmas.Numbers
import Verif.Props.TimeSeries

/-!
# C131: options of the command line have the effect they name

`--loadstart` and `--loadend` name the hours of a time series, `--select_island` keeps one island, `--load_factor` scales the loads, and a run
without options for time series is a plain power flow.
-/

namespace Verif

variable {σ R : Type}

/-! ### Numerals -/

theorem digit_isSpace {c : Char} (h : c.isDigit = true) : Glm.isSpace c = false := by
  simp only [Char.isDigit, Bool.and_eq_true, decide_eq_true_eq] at h
  obtain ⟨h1, h2⟩ := h
  have h1' : 48 ≤ c.val.toNat := h1
  have h2' : c.val.toNat ≤ 57 := h2
  by_contra hc
  simp only [Bool.not_eq_false] at hc
  simp only [Glm.isSpace, Bool.or_eq_true, decide_eq_true_eq] at hc
  rcases hc with ((((hc | hc) | hc) | hc) | hc) | hc <;> subst hc <;> revert h1' h2' <;> decide

/-- The decimal text of an integer is read as this integer. -/
theorem intOf_hourText (h : ℤ) : Glm.intOf (hourText h) = .ok h := by
  have hd : ∀ c ∈ Nat.toDigits 10 h.natAbs, c.isDigit = true := toDigits_digit
  have hs : ∀ c ∈ hourText h, Glm.isSpace c = false := by
    intro c hc
    unfold hourText at hc
    split at hc
    · rcases List.mem_cons.1 hc with rfl | hc
      · decide
      · exact digit_isSpace (hd c hc)
    · exact digit_isSpace (hd c hc)
  have hst : Glm.strip (hourText h) = hourText h := by
    have := Glm.strip_black (l := []) (r := []) (t := hourText h) (by simp [Glm.Blank]) hs (by simp [Glm.Blank])
    simpa using this
  have hall : (Nat.toDigits 10 h.natAbs).all Char.isDigit = true := List.all_eq_true.2 hd
  have hval : Glm.natOf (Nat.toDigits 10 h.natAbs) = h.natAbs := by rw [Glm.natOf_decimal, decimal_toDigits]
  unfold Glm.intOf
  rw [hst]
  by_cases hn : h < 0
  · have e : Glm.signOf (hourText h) = (-1, Nat.toDigits 10 h.natAbs) := by rw [hourText, if_pos hn]; rfl
    rw [e]
    simp only
    rw [if_pos ⟨toDigits_ne_nil _, hall⟩, hval]
    congr 1
    omega
  · have e : Glm.signOf (hourText h) = (1, Nat.toDigits 10 h.natAbs) := by
      rw [hourText, if_neg hn]
      have hne := toDigits_ne_nil h.natAbs
      revert hd hne
      cases Nat.toDigits 10 h.natAbs with
      | nil => intro _ h; exact absurd rfl h
      | cons c cs =>
        intro hd _
        have hc := hd c List.mem_cons_self
        unfold Glm.signOf
        split
        · rename_i h; simp at h; rw [h.1] at hc; exact absurd hc (by decide)
        · rename_i h; simp at h; rw [h.1] at hc; exact absurd hc (by decide)
        · rfl
    rw [e]
    simp only
    rw [if_pos ⟨toDigits_ne_nil _, hall⟩, hval]
    congr 1
    omega

theorem hourText_ne_nil (h : ℤ) : hourText h ≠ [] := by
  unfold hourText
  split
  · simp
  · exact toDigits_ne_nil _

theorem hourOption_text (h : ℤ) : hourOption (some (hourText h)) = .ok h := by
  simp only [hourOption]
  rw [if_neg (hourText_ne_nil h), intOf_hourText]

/-! ### The options of a time series -/

/-- **C131, partial.** A run with a load file and the hours `a` to `b` that ends without error shows one result for each of these hours, in order, and with
`--outputfile` writes each of them to the file of its hour. Missing: hours that are not given, see `C131_no_end_fails`, and texts that are no
integers, see `C131_refused_hour_fails`. -/
theorem C131_hours_partial (W : Surroundings σ R) (o : Options) (fuel : ℕ) (s : σ) (loads : List NamedLoad) (f : Txt) (cols : List Column) (a b : ℤ)
    (hf : o.loadfile = some f) (hr : W.readCsv f = .ok cols) (hn : (cols.map Column.name).Nodup) (ha : o.loadstart = some (hourText a))
    (hb : o.loadend = some (hourText b)) (m : MainEnd R) (h : commandRun W o fuel s loads = some m) (he : m.raised = none) (hm : m.errors = []) :
    m.shown.length = (b - a).toNat ∧
      ∀ n, o.outputfile = some n → m.files = m.shown.zipIdx.map fun x => (n ++ '_' :: hourText (a + x.2), x.1) := by
  have plain : ∀ (e : String) st, (plainEnd W o [e] st).errors ≠ [] := by
    intro e st
    unfold plainEnd
    split
    · simp
    · split <;> simp
  unfold commandRun at h
  cases hfac : factorOption o.loadFactor with
  | error e =>
    rw [hfac] at h
    simp only [Option.some.injEq] at h
    rw [← h] at he
    cases he
  | ok x =>
    rw [hfac] at h
    simp only at h
    cases hp : prepare W o s (modifyLoadFactor loads x x) with
    | mk c rest =>
      obtain ⟨s', loads'⟩ := rest
      rw [hp] at h
      cases c with
      | error e =>
        simp only [Option.some.injEq] at h
        rw [← h] at hm
        exact absurd hm (plain _ _)
      | ok C =>
        simp only at h
        have hC : C.loadfile = some cols ∧ C.start = a ∧ C.stop = b ∧ C.outputfile = o.outputfile := by
          unfold prepare at hp
          rw [ha, hb, hourOption_text, hourOption_text, hf] at hp
          simp only [hr, Except.map] at hp
          split at hp
          · cases hp
          · split at hp
            · cases hp
            · split at hp
              · cases hp
              · simp only [Prod.mk.injEq, Except.ok.injEq] at hp
                rw [← hp.1]
                exact ⟨rfl, rfl, rfl, rfl⟩
        obtain ⟨⟨out, st⟩, hx, hy⟩ := Option.map_eq_some_iff.1 h
        cases out with
        | error e =>
          simp only at hy
          rw [← hy] at hm
          exact absurd hm (plain _ _)
        | ok out =>
          obtain ⟨res, rfl, hlen, hat, hfiles, -⟩ := C42_hours_partial C cols hC.1 hn fuel s' loads' out st hx
          simp only at hy
          split at hy
          · rw [← hy] at hm
            exact absurd hm (plain _ _)
          · subst hy
            rw [hC.2.1, hC.2.2.1] at hlen
            refine ⟨by simpa using hlen, fun n hn' => ?_⟩
            simp only
            rw [hfiles n (by rw [hC.2.2.2, hn'])]
            apply List.ext_getElem?
            intro k
            simp only [List.getElem?_map, List.getElem?_zipIdx]
            cases hk : res[k]? with
            | none => simp
            | some x =>
              have := hat k x hk
              rw [hC.2.1] at this
              simp [this]

/-- **C131 fails without `--loadend`.** A run with a load file and any first hour that is not negative, but without `--loadend`, ends without any
result, file or message. -/
theorem C131_no_end_fails (W : Surroundings σ R) (o : Options) (fuel : ℕ) (s : σ) (loads : List NamedLoad) (f : Txt) (cols : List Column) (x : ℚ)
    (hx : factorOption o.loadFactor = .ok x) (hf : o.loadfile = some f) (hr : W.readCsv f = .ok cols) (hi : W.isFile f = true) (ht : W.threePhase = true)
    (hs : o.selectIsland = none) (ha : o.loadstart = none ∨ ∃ a : ℤ, 0 ≤ a ∧ o.loadstart = some (hourText a)) (hb : o.loadend = none) :
    commandRun W o fuel s loads = some ⟨none, [], [], []⟩ := by
  obtain ⟨a, h0, ha⟩ : ∃ a : ℤ, 0 ≤ a ∧ hourOption o.loadstart = .ok a := by
    rcases ha with ha | ⟨a, h0, ha⟩
    · exact ⟨0, le_rfl, by rw [ha]; rfl⟩
    · exact ⟨a, h0, by rw [ha, hourOption_text]⟩
  have hb : hourOption o.loadend = .ok 0 := by rw [hb]; rfl
  have hR : hourRange a 0 = [] := by
    unfold hourRange
    rw [Int.toNat_of_nonpos (by omega)]
    rfl
  unfold commandRun
  rw [hx]
  simp only
  have hp : prepare W o s (modifyLoadFactor loads x x) = (.ok ⟨W.solve, W.gens, W.mark, some cols, a, 0, o.swing, o.negativeloads, o.outputfile⟩, s,
      modifyLoadFactor loads x x) := by
    unfold prepare
    rw [ha, hb]
    simp [hf, hr, hs, selectOption, Except.map, ht, hi]
  rw [hp]
  simp [tsExecute, hR, hoursLoop]

/-- **C131 fails for hours that are no integers.** With a text that is not read as an integer, such as `24.0`, the results of a plain power flow are
shown and written in place of those of the hours, after a message. -/
theorem C131_refused_hour_fails (W : Surroundings σ R) (o : Options) (fuel : ℕ) (s : σ) (loads : List NamedLoad) (x : ℚ)
    (hx : factorOption o.loadFactor = .ok x) (t : Txt) (he : ∃ e, Glm.intOf t = .error e) (ht : t ≠ []) (hs : o.loadstart = some t) (r : R)
    (hr : (W.solve s (modifyLoadFactor loads x x)).1 = .ok r) (hd : W.display r o.verbose = none) :
    ∃ e, commandRun W o fuel s loads = some ⟨none, [e], [r], writeFiles o.outputfile r []⟩ := by
  obtain ⟨e', he⟩ := he
  unfold commandRun
  rw [hx]
  simp only
  have hp : prepare W o s (modifyLoadFactor loads x x) = (.error "invalid literal for int() with base 10", s, modifyLoadFactor loads x x) := by
    unfold prepare
    simp [hs, hourOption, ht, he]
  rw [hp]
  refine ⟨"invalid literal for int() with base 10", ?_⟩
  simp [plainEnd, hr, hd]

/-! ### Runs without time series -/

/-- **C131.** On a distribution network, a run without load file and swing bus is a plain power flow of the loads times the load factor, whatever the other
options for time series are. -/
theorem C131_plain (W : Surroundings σ R) (o : Options) (fuel : ℕ) (s : σ) (loads : List NamedLoad) (x : ℚ) (hx : factorOption o.loadFactor = .ok x)
    (hf : o.loadfile = none) (hw : o.swing = none) (ht : W.threePhase = true) (a b : ℤ) (ha : hourOption o.loadstart = .ok a)
    (hb : hourOption o.loadend = .ok b) (r : R) (hr : (W.solve s (loads.map (NamedLoad.scale x x))).1 = .ok r) (hd : W.display r o.verbose = none) :
    commandRun W o fuel s loads = some ⟨none, [], [r], writeFiles o.outputfile r []⟩ := by
  have hp : prepare W o s (modifyLoadFactor loads x x) = (.ok ⟨W.solve, W.gens, W.mark, none, a, b, none, o.negativeloads, o.outputfile⟩, s,
      modifyLoadFactor loads x x) := by
    unfold prepare
    rw [ha, hb]
    cases hs : selectOption o.selectIsland <;> simp [hf, hw, ht]
  unfold commandRun
  rw [hx]
  simp only
  rw [hp]
  have hr' : (W.solve s (modifyLoadFactor loads x x)).1 = .ok r := hr
  simp [tsExecute, plainEnd, hr', hd]

/-- **C131 fails without `--load_factor`.** A plain run without this option solves the network with every load negated: what is shown and written is the power
flow of loads that feed in what they should take. -/
theorem C131_default_factor_fails (W : Surroundings σ R) (o : Options) (fuel : ℕ) (s : σ) (loads : List NamedLoad) (hx : o.loadFactor = none)
    (hf : o.loadfile = none) (hw : o.swing = none) (ht : W.threePhase = true) (a b : ℤ) (ha : hourOption o.loadstart = .ok a)
    (hb : hourOption o.loadend = .ok b) (r : R) (hr : (W.solve s (loads.map fun l => { l with load := { l.load with P := -l.load.P, Q := -l.load.Q } })).1 = .ok r)
    (hd : W.display r o.verbose = none) :
    commandRun W o fuel s loads = some ⟨none, [], [r], writeFiles o.outputfile r []⟩ := by
  refine C131_plain W o fuel s loads (-1) (by rw [hx]; rfl) hf hw ht a b ha hb r ?_ hd
  rw [← hr]
  congr 2
  refine List.map_congr_left fun l _ => ?_
  simp [NamedLoad.scale]

/-- **C131 fails for transmission networks.** Every run on a transmission network prints that post-processing is not supported, though none was asked
for. -/
theorem C131_transmission_fails (W : Surroundings σ R) (o : Options) (fuel : ℕ) (s : σ) (loads : List NamedLoad) (x : ℚ)
    (hx : factorOption o.loadFactor = .ok x) (hf : o.loadfile = none ∧ o.loadstart = none ∧ o.loadend = none) (hw : o.swing = none ∧ o.negativeloads = none)
    (ht : W.threePhase = false) (m : MainEnd R) (h : commandRun W o fuel s loads = some m) :
    m.errors = ["Post-processing options only currently supported for distribution networks"] := by
  have hp : prepare W o s (modifyLoadFactor loads x x) = (.error "Post-processing options only currently supported for distribution networks", s,
      modifyLoadFactor loads x x) := by
    unfold prepare
    rw [hf.2.1, hf.2.2]
    cases hs : selectOption o.selectIsland <;> simp [hourOption, hf.1, hw.1, ht]
  unfold commandRun at h
  rw [hx] at h
  simp only at h
  rw [hp] at h
  simp only [Option.some.injEq] at h
  rw [← h]
  unfold plainEnd
  split
  · rfl
  · split <;> rfl

/-- **C131.** With a load factor that is no number nothing is solved, shown or written, and `main` raises. -/
theorem C131_refused_factor (W : Surroundings σ R) (o : Options) (fuel : ℕ) (s : σ) (loads : List NamedLoad) (t : Txt) (ho : o.loadFactor = some t)
    (ht : Glm.pyFloat t = none) : ∃ e, commandRun W o fuel s loads = some ⟨some e, [], [], []⟩ := by
  unfold commandRun
  rw [ho, factorOption, ht]
  exact ⟨_, rfl⟩

/-! ### Selecting an island -/

/-- **C131.** Whatever text follows `--select_island`, the run is the same; `False` selects the island as `True` does. -/
theorem C131_select_text (W : Surroundings σ R) (o : Options) (fuel : ℕ) (s : σ) (loads : List NamedLoad) (t u : Txt) (ht : t ≠ []) (hu : u ≠ []) :
    commandRun W { o with selectIsland := some t } fuel s loads = commandRun W { o with selectIsland := some u } fuel s loads := by
  have hp : ∀ l, prepare W { o with selectIsland := some t } s l = prepare W { o with selectIsland := some u } s l := by
    intro l
    unfold prepare
    simp [selectOption, ht, hu]
  unfold commandRun
  simp only [hp]
  rfl

/-- **C131.** An empty text after `--select_island` selects nothing. -/
theorem C131_select_empty (W : Surroundings σ R) (o : Options) (fuel : ℕ) (s : σ) (loads : List NamedLoad) :
    commandRun W { o with selectIsland := some [] } fuel s loads = commandRun W { o with selectIsland := none } fuel s loads := by
  have hp : ∀ l, prepare W { o with selectIsland := some [] } s l = prepare W { o with selectIsland := none } s l := by
    intro l
    unfold prepare
    simp [selectOption]
  unfold commandRun
  simp only [hp]
  rfl

/-- **C131.** With any other text and a swing bus, the island is selected before anything is solved: if that raises, the message is printed and the network
that is left is solved in place of the island. -/
theorem C131_select_raises (W : Surroundings σ R) (o : Options) (fuel : ℕ) (s : σ) (loads : List NamedLoad) (x : ℚ) (hx : factorOption o.loadFactor = .ok x)
    (t sw : Txt) (ht : o.selectIsland = some t) (hne : t ≠ []) (hw : o.swing = some sw) (hf : o.loadfile = none) (a b : ℤ) (ha : hourOption o.loadstart = .ok a)
    (hb : hourOption o.loadend = .ok b) (e : String) (s' : σ) (left : List NamedLoad) (he : W.select sw s (loads.map (NamedLoad.scale x x)) = (.error e, s', left))
    (r : R) (hr : (W.solve s' left).1 = .ok r) (hd : W.display r o.verbose = none) :
    commandRun W o fuel s loads = some ⟨none, [e], [r], writeFiles o.outputfile r []⟩ := by
  have he' : W.select sw s (modifyLoadFactor loads x x) = (.error e, s', left) := he
  have hp : prepare W o s (modifyLoadFactor loads x x) = (.error e, s', left) := by
    unfold prepare
    rw [ha, hb]
    simp [hf, hw, ht, selectOption, hne, he']
  unfold commandRun
  rw [hx]
  simp only
  rw [hp]
  simp [plainEnd, hr, hd]

/-- **C131 fails for `--select_island` without `--artificialswingbus`.** Such an option has no effect. -/
theorem C131_select_ignored_fails (W : Surroundings σ R) (o : Options) (fuel : ℕ) (s : σ) (loads : List NamedLoad) (t : Txt) (hw : o.swing = none) :
    commandRun W { o with selectIsland := some t } fuel s loads = commandRun W { o with selectIsland := none } fuel s loads := by
  have hp : ∀ l, prepare W { o with selectIsland := some t } s l = prepare W { o with selectIsland := none } s l := by
    intro l
    unfold prepare
    cases hs : selectOption (some t) <;> simp [hw, hs, selectOption]
  unfold commandRun
  simp only [hp]
  rfl

/-- **C131, refinement.** Where the options are read and no island is selected, `main` is the run the claims C39, C42, C71, C72 and C115 are about. -/
theorem C131_run (W : Surroundings σ R) (o : Options) (fuel : ℕ) (s : σ) (loads : List NamedLoad) (x : ℚ) (hx : factorOption o.loadFactor = .ok x)
    (a b : ℤ) (ha : hourOption o.loadstart = .ok a) (hb : hourOption o.loadend = .ok b) (cols : Option (List Column))
    (hf : ∀ f, o.loadfile = some f → ∃ l, W.readCsv f = .ok l ∧ cols = some l ∧ W.isFile f = true) (hn : o.loadfile = none → cols = none)
    (hs : o.selectIsland = none) (ht : W.threePhase = true) :
    commandRun W o fuel s loads = mainEnd W.display o.verbose ⟨W.solve, W.gens, W.mark, cols, a, b, o.swing, o.negativeloads, o.outputfile⟩ fuel none
      (some (x : ℝ)) s loads := by
  have hp : prepare W o s (modifyLoadFactor loads x x) = (.ok ⟨W.solve, W.gens, W.mark, cols, a, b, o.swing, o.negativeloads, o.outputfile⟩, s,
      modifyLoadFactor loads x x) := by
    unfold prepare
    rw [ha, hb]
    cases h : o.loadfile with
    | none => simp [hs, selectOption, ht, hn h]
    | some f =>
      obtain ⟨l, h1, h2, h3⟩ := hf f h
      simp [hs, selectOption, ht, h1, h2, h3, Except.map]
  unfold commandRun mainEnd
  rw [hx]
  simp only
  rw [hp]
  simp only [Option.getD_some]
  rfl

/-! ### A case -/

/-- The options of `run_solver.py case.glm --load_factor 1 --loadfile l.csv --loadstart 3 --loadend 5 --outputfile out`. -/
def dayOptions : Options := ⟨some ['l'], some ['3'], some ['5'], none, none, some ['o'], false, some ['1'], none⟩

/-- A power flow that returns the active powers of the loads; the load file has a column for the load `cl_7A`; islands lose all loads. -/
noncomputable def daySurroundings : Surroundings Unit (List ℝ) where
  solve := fun _ ls => (.ok (ls.map fun l => l.load.P), ())
  gens := fun _ => []
  mark := fun r => .ok r
  display := fun _ _ => none
  readCsv := fun _ => .ok [⟨"cl_7A".toList, fun h => some h⟩]
  isFile := fun _ => true
  select := fun _ s _ => (.ok (), s, [])
  threePhase := true

/-- One load of five units. -/
def dayLoads : List NamedLoad := [⟨['7'], ['A'], none, ⟨5, 0, 0, 0, 0⟩⟩]

theorem day_run : ∃ m, commandRun daySurroundings dayOptions 1 () dayLoads = some m ∧ m.raised = none ∧ m.errors = [] := by
  have h3 : hourOption (some ['3']) = .ok 3 := by decide +kernel
  have h5 : hourOption (some ['5']) = .ok 5 := by decide +kernel
  have h1 : factorOption (some ['1']) = .ok 1 := by decide +kernel
  have hR : hourRange 3 5 = [3, 4] := by decide
  unfold commandRun
  rw [show dayOptions.loadFactor = some ['1'] from rfl, h1]
  simp only
  have hp : ∀ l, prepare daySurroundings dayOptions () l = (.ok ⟨daySurroundings.solve, daySurroundings.gens, daySurroundings.mark,
      some [⟨"cl_7A".toList, fun h => some h⟩], 3, 5, none, none, some ['o']⟩, (), l) := by
    intro l
    unfold prepare
    rw [show dayOptions.loadstart = some ['3'] from rfl, show dayOptions.loadend = some ['5'] from rfl, h3, h5]
    rfl
  rw [hp]
  simp [tsExecute, hR, hoursLoop, executePowerflow, balanceLoop, adjustGenerators, daySurroundings, Except.bind]

/-- The run of these options shows two results and writes them to the files of hours 3 and 4. -/
example : ∃ m, commandRun daySurroundings dayOptions 1 () dayLoads = some m ∧ m.shown.length = 2 ∧
    m.files.map Prod.fst = [['o', '_', '3'], ['o', '_', '4']] := by
  obtain ⟨m, hm, h1, h2⟩ := day_run
  obtain ⟨h3, h4⟩ := C131_hours_partial daySurroundings dayOptions 1 () dayLoads ['l'] [⟨"cl_7A".toList, fun h => some h⟩] 3 5 rfl rfl (by decide) (by decide)
    (by decide) m hm h1 h2
  refine ⟨m, hm, h3, ?_⟩
  rw [h4 ['o'] rfl]
  obtain ⟨x, y, hxy⟩ : ∃ x y, m.shown = [x, y] := List.length_eq_two.1 h3
  rw [hxy]
  simp only [List.zipIdx_cons, List.zipIdx_nil, List.map_cons, List.map_nil]
  decide

/-- The same options without `--loadend`: nothing is shown. -/
example : commandRun daySurroundings { dayOptions with loadend := none } 1 () dayLoads = some ⟨none, [], [], []⟩ :=
  C131_no_end_fails _ _ _ _ _ ['l'] _ 1 (by decide +kernel) rfl rfl rfl rfl rfl (Or.inr ⟨3, by decide, by decide⟩) rfl

/-- With `--loadstart 3.0` the loads of the network itself are solved and written. -/
example : ∃ e, commandRun daySurroundings { dayOptions with loadstart := some ['3', '.', '0'] } 1 () dayLoads = some ⟨none, [e], [[5 * 1]], [(['o'], [5 * 1])]⟩ := by
  obtain ⟨e, he⟩ := C131_refused_hour_fails daySurroundings { dayOptions with loadstart := some ['3', '.', '0'] } 1 () dayLoads 1 (by decide +kernel)
    ['3', '.', '0'] ⟨.value, by decide +kernel⟩ (by decide) rfl [5 * 1] (by simp [daySurroundings, modifyLoadFactor, dayLoads, NamedLoad.scale]) rfl
  exact ⟨e, by rw [he]; rfl⟩

/-- Without load file the load is solved as it is. -/
example : commandRun daySurroundings { dayOptions with loadfile := none } 1 () dayLoads = some ⟨none, [], [[5 * 1]], [(['o'], [5 * 1])]⟩ := by
  rw [C131_plain daySurroundings { dayOptions with loadfile := none } 1 () dayLoads 1 (by decide +kernel) rfl rfl rfl 3 5 (by decide +kernel)
    (by decide +kernel) [5 * 1] (by simp [daySurroundings, dayLoads, NamedLoad.scale]) rfl]
  rfl

/-- Without the option it feeds in five units. -/
example : commandRun daySurroundings { dayOptions with loadfile := none, loadFactor := none } 1 () dayLoads = some ⟨none, [], [[-5]], [(['o'], [-5])]⟩ := by
  rw [C131_default_factor_fails daySurroundings { dayOptions with loadfile := none, loadFactor := none } 1 () dayLoads rfl rfl rfl rfl 3 5 (by decide +kernel)
    (by decide +kernel) [-5] (by simp [daySurroundings, dayLoads]) rfl]
  rfl

/-- An island that is not found: the load of the whole network is solved. An empty text changes nothing. -/
example : commandRun { daySurroundings with select := fun _ s l => (.error "not found", s, l) } { dayOptions with loadfile := none, swing := some ['s'], selectIsland := some ['1'] }
      1 () dayLoads = some ⟨none, ["not found"], [[5 * 1]], [(['o'], [5 * 1])]⟩ ∧
    commandRun daySurroundings { dayOptions with selectIsland := some [] } 1 () dayLoads = commandRun daySurroundings { dayOptions with selectIsland := none } 1 () dayLoads := by
  refine ⟨?_, C131_select_empty _ _ _ _ _⟩
  rw [C131_select_raises { daySurroundings with select := fun _ s l => (.error "not found", s, l) }
    { dayOptions with loadfile := none, swing := some ['s'], selectIsland := some ['1'] } 1 () dayLoads 1 (by decide +kernel) ['1'] ['s'] rfl (by decide) rfl rfl 3 5
    (by decide +kernel) (by decide +kernel) "not found" () _ rfl [5 * 1] (by simp [daySurroundings, dayLoads, NamedLoad.scale]) rfl]
  rfl

/-- On a transmission network the same run prints an error. -/
example : ∃ m, commandRun { daySurroundings with threePhase := false } ⟨none, none, none, none, none, none, false, some ['1'], none⟩ 1 () dayLoads = some m ∧
    m.errors.length = 1 := by
  refine ⟨_, rfl, ?_⟩
  rw [C131_transmission_fails { daySurroundings with threePhase := false } ⟨none, none, none, none, none, none, false, some ['1'], none⟩ 1 () dayLoads 1
    (by decide +kernel) ⟨rfl, rfl, rfl⟩ ⟨rfl, rfl⟩ rfl _ rfl]
  rfl

/-- `--load_factor half` is refused. -/
example : ∃ e, commandRun daySurroundings { dayOptions with loadFactor := some ['h', 'a', 'l', 'f'] } 1 () dayLoads = some ⟨some e, [], [], []⟩ :=
  C131_refused_factor _ _ _ _ _ ['h', 'a', 'l', 'f'] rfl (by decide +kernel)

/-- **C131 fails for `--select_island False`.** There are a network and options for which the run with `--select_island False` shows another result than the
run without this option. -/
theorem C131_select_fails : ∃ (W : Surroundings Unit (List ℝ)) (o : Options) (loads : List NamedLoad), o.selectIsland = none ∧
    commandRun W { o with selectIsland := some ['F', 'a', 'l', 's', 'e'] } 1 () loads ≠ commandRun W o 1 () loads := by
  have h1 : factorOption (some ['1']) = .ok 1 := by decide +kernel
  refine ⟨daySurroundings, ⟨none, none, none, none, some ['s'], none, false, some ['1'], none⟩, dayLoads, rfl, ?_⟩
  simp [commandRun, h1, prepare, hourOption, selectOption, daySurroundings, tsExecute, executePowerflow, balanceLoop, adjustGenerators, Except.bind,
    dayLoads, modifyLoadFactor]

/-- With a swing bus, `--select_island no` and `--select_island yes` are the same run; without, the option has no effect. -/
example : commandRun daySurroundings { dayOptions with swing := some ['s'], selectIsland := some ['n', 'o'] } 1 () dayLoads =
      commandRun daySurroundings { dayOptions with swing := some ['s'], selectIsland := some ['y', 'e', 's'] } 1 () dayLoads ∧
    commandRun daySurroundings { dayOptions with selectIsland := some ['y', 'e', 's'] } 1 () dayLoads =
      commandRun daySurroundings { dayOptions with selectIsland := none } 1 () dayLoads :=
  ⟨C131_select_text daySurroundings { dayOptions with swing := some ['s'] } 1 () dayLoads _ _ (by decide) (by decide),
    C131_select_ignored_fails _ _ _ _ _ _ rfl⟩

/-- The run of the options above is that of the other claims. -/
example : commandRun daySurroundings dayOptions 1 () dayLoads = mainEnd daySurroundings.display false ⟨daySurroundings.solve, daySurroundings.gens,
    daySurroundings.mark, some [⟨"cl_7A".toList, fun h => some h⟩], 3, 5, none, none, some ['o']⟩ 1 none (some ((1 : ℚ) : ℝ)) () dayLoads :=
  C131_run daySurroundings dayOptions 1 () dayLoads 1 (by decide +kernel) 3 5 (by decide +kernel) (by decide +kernel) _
    (fun _ _ => ⟨_, rfl, rfl, rfl⟩) (fun h => by cases h) rfl rfl

end Verif
