import Verif.Lemmas.LoadNames
import Verif.Lemmas.TimeSeries
import Verif.Model.LoadNames
import Verif.Spec.TimeSeries
import Verif.Props.GlmFile
import Verif.Props.GlmStarts

/-!
# C152: a column of the load file reaches the load it names

From the objects of the file to the powers of an hour: the reader gives every load the ending of its name and its phases, the time series makes the name of the column of these.
-/

namespace Verif.Glm

variable {M : Type} {readLine : LineReader M} {schedules : List (Txt × Txt)} {objs : List (Txt × Obj)} {g : Grid M}

/-- **C152, names.** The loads of the network are the loads of the file, in order, and each carries the ending of the name of its object, its phases, and, for split-phase objects, the
phase of the feeder. -/
theorem C152_names (hR : Keeps readLine objs) (hO : OuterFile objs) (hk : (objs.map Prod.fst).Nodup) (hb : NoBasePower objs)
    (h : parseGrid readLine objs schedules = .ok g) :
    List.Forall₂ (fun d x => IsDeclared objs g d.2 x ∧ x.phase = d.2.phases ∧ NameEnding d.1.1 x.num ∧ x.triplex = splitPhase d.1.2) (namedLoads objs) g.loads := by
  obtain ⟨s, groups, hr⟩ := parseGrid_read hR hO h
  have h1 := hr.loads hk hb
  rw [← namedLoads_declared, List.forall₂_map_left_iff] at h1
  have h2 := hr.loadNames hk hb
  rw [List.forall₂_iff_get] at h1 h2 ⊢
  exact ⟨h1.1, fun i hi hj => ⟨h1.2 i hi hj, h2.2 i hi hj⟩⟩

theorem namedLoads_phases {d : (Txt × Obj) × DeclaredLoad} (h : d ∈ namedLoads objs) :
    d.2.phases ∈ ([['A'], ['B'], ['C'], ['A', 'B'], ['B', 'C'], ['C', 'A'], ['1'], ['2'], ['1', '2']] : List Txt) :=
  declaredLoads_phases (by rw [← namedLoads_declared]; exact List.mem_map_of_mem h)

/-- The time series looks for a load of the network under the name of its column. -/
theorem named_column {name phases : Txt} (hp : phases ∈ ([['A'], ['B'], ['C'], ['A', 'B'], ['B', 'C'], ['C', 'A'], ['1'], ['2'], ['1', '2']] : List Txt)) {x : GLoad}
    (h1 : x.phase = phases) (h2 : NameEnding name x.num) (col : Txt) : ColumnFor name phases col ↔ x.named.name = col := by
  have hname : x.named.name = if allChars Char.isAlpha phases then ['c', 'l', '_'] ++ x.num ++ phases
      else if allChars Char.isDigit phases then ['r', 'l', '_'] ++ x.num ++ ['_'] ++ phases.take 1 else x.num ++ ['_'] ++ phases := by
    rw [← h1]; rfl
  have hcol : ColumnFor name phases col ↔ ((∀ p ∈ phases, p ∈ ['A', 'B', 'C']) ∧ col = ['c', 'l', '_'] ++ x.num ++ phases ∨
      (∀ p ∈ phases, p ∈ ['1', '2']) ∧ col = ['r', 'l', '_'] ++ x.num ++ ['_'] ++ phases.take 1) := by
    constructor
    · rintro ⟨num, hn, h⟩
      rw [hn.unique h2] at h
      exact h
    · exact fun h => ⟨x.num, h2, h⟩
  rw [hcol, hname]
  have hk : (allChars Char.isAlpha phases = true ∧ (∀ p ∈ phases, p ∈ ['A', 'B', 'C']) ∧ ¬ ∀ p ∈ phases, p ∈ ['1', '2']) ∨
      (allChars Char.isAlpha phases = false ∧ allChars Char.isDigit phases = true ∧ (¬ ∀ p ∈ phases, p ∈ ['A', 'B', 'C']) ∧ ∀ p ∈ phases, p ∈ ['1', '2']) := by
    clear hname hcol h1 h2
    revert phases
    decide
  rcases hk with ⟨a, b, c⟩ | ⟨a, b, c, d⟩
  · rw [a, if_pos rfl]
    exact ⟨fun h => h.elim (fun h => h.2.symm) (fun h => absurd h.1 c), fun h => .inl ⟨b, h.symm⟩⟩
  · rw [a, b, if_neg (by simp), if_pos rfl]
    exact ⟨fun h => h.elim (fun h => absurd h.1 c) (fun h => h.2.symm), fun h => .inr ⟨d, h.symm⟩⟩

section

variable (hR : Keeps readLine objs) (hO : OuterFile objs) (hk : (objs.map Prod.fst).Nodup) (hb : NoBasePower objs)
  (h : parseGrid readLine objs schedules = .ok g)

include hR hO hk hb h

theorem named_get {i : ℕ} {d : (Txt × Obj) × DeclaredLoad} (hd : (namedLoads objs)[i]? = some d) : ∃ x, g.loads[i]? = some x ∧ IsDeclared objs g d.2 x ∧
    NameEnding d.1.1 x.num ∧ x.triplex = splitPhase d.1.2 ∧ ∀ col, ColumnFor d.1.1 d.2.phases col ↔ x.named.name = col := by
  have hF := C152_names hR hO hk hb h
  rw [List.forall₂_iff_get] at hF
  obtain ⟨hi, rfl⟩ := List.getElem?_eq_some_iff.1 hd
  have hj : i < g.loads.length := hF.1 ▸ hi
  obtain ⟨h1, h2, h3, h4⟩ := hF.2 i hi hj
  exact ⟨g.loads[i], List.getElem?_eq_getElem hj, h1, h3, h4, named_column (namedLoads_phases (List.getElem_mem hi)) h2 h3⟩

theorem named_at {j : ℕ} {l : NamedLoad} (hl : (g.loads.map GLoad.named)[j]? = some l) : ∃ d, (namedLoads objs)[j]? = some d ∧
    ∀ col, ColumnFor d.1.1 d.2.phases col ↔ l.name = col := by
  have hF := (C152_names hR hO hk hb h).length_eq
  have hj : j < (namedLoads objs).length := by
    obtain ⟨hj, -⟩ := List.getElem?_eq_some_iff.1 hl
    rw [List.length_map] at hj; omega
  obtain ⟨x, hx, -, -, -, hc⟩ := named_get hR hO hk hb h (List.getElem?_eq_getElem hj)
  refine ⟨_, List.getElem?_eq_getElem hj, ?_⟩
  rw [List.getElem?_map, hx] at hl
  rw [← Option.some.inj hl]
  exact hc

theorem column_index {i : ℕ} {d : (Txt × Obj) × DeclaredLoad} (hd : (namedLoads objs)[i]? = some d) {col : Txt} :
    loadIndex (g.loads.map GLoad.named) col = some i ↔ ColumnFor d.1.1 d.2.phases col ∧
      ∀ j d', i < j → (namedLoads objs)[j]? = some d' → ¬ ColumnFor d'.1.1 d'.2.phases col := by
  obtain ⟨x, hx, -, -, -, hc⟩ := named_get hR hO hk hb h hd
  have hx' : (g.loads.map GLoad.named)[i]? = some x.named := by rw [List.getElem?_map, hx]; rfl
  rw [loadIndex, lastIndex_some, hc]
  refine and_congr ⟨?_, ?_⟩ ⟨?_, ?_⟩
  · rintro ⟨y, hy, hn⟩
    rw [hx'] at hy
    rw [Option.some.inj hy]
    simpa using hn
  · exact fun hn => ⟨x.named, hx', by simpa using hn⟩
  · intro hl j d' hj hd'
    obtain ⟨y, hy, -, -, -, hcy⟩ := named_get hR hO hk hb h hd'
    rw [hcy]
    simpa using hl j hj y.named (by rw [List.getElem?_map, hy]; rfl)
  · intro hl j hj y hy
    obtain ⟨d', hd', hcy⟩ := named_at hR hO hk hb h hy
    have := hl j d' hj hd'
    rw [hcy] at this
    simpa using this

/-- **C152, columns.** A load of the file given by a constant power gets the power of the hour from its column, if no load after it has the same column: the magnitude of the
column with the power factor of the file, and nothing else. -/
theorem C152_columns {cols : List Column} (hn : (cols.map Column.name).Nodup) (hour : ℤ) {i : ℕ} {d : (Txt × Obj) × DeclaredLoad}
    (hd : (namedLoads objs)[i]? = some d) (hp : d.2.kind = .power) {c : Column} (hc : c ∈ cols) (hcol : ColumnFor d.1.1 d.2.phases c.name)
    (hlast : ∀ j d', i < j → (namedLoads objs)[j]? = some d' → ¬ ColumnFor d'.1.1 d'.2.phases c.name) {m : ℝ} (hm : c.value hour = some m) :
    ∃ x l, g.loads[i]? = some x ∧ IsDeclared objs g d.2 x ∧ (setLoadValues cols hour (g.loads.map GLoad.named))[i]? = some l ∧
      (‖toComplex d.2.value‖ : ℂ) * l.S = m * toComplex d.2.value ∧ (0 ≤ m → ‖l.S‖ = m) ∧ l.load.Z = 0 ∧ l.load.IP = 0 ∧ l.load.IQ = 0 := by
  obtain ⟨x, hx, hdx, -, -, -⟩ := named_get hR hO hk hb h hd
  have hidx := (column_index hR hO hk hb h hd).2 ⟨hcol, hlast⟩
  have hget := setLoadValues_get cols hn hour (g.loads.map GLoad.named) c hc i hidx
  rw [List.getElem?_map, hx, hm] at hget
  have hS : x.named.S = toComplex d.2.value := by
    obtain ⟨a, rest, -, -, -, e, -⟩ := hdx
    rw [if_pos hp] at e
    rw [← e]; rfl
  have hdz := hdx
  obtain ⟨a, rest, -, -, -, -, ez, ei⟩ := hdz
  rw [if_neg (by rw [hp]; simp)] at ez ei
  refine ⟨x, x.named.setMagnitude m, hx, hdx, hget, ?_, fun h0 => setMagnitude_norm m h0 _, ?_, ?_, ?_⟩
  · rw [setMagnitude_S, hS, mul_left_comm, Complex.norm_mul_exp_arg_mul_I]
  · show complexPair x.z = 0
    rw [ez]; exact toComplex_zero
  · show ((x.i.1 : ℚ) : ℝ) = 0
    rw [ei]; exact Rat.cast_zero
  · show ((x.i.2 : ℚ) : ℝ) = 0
    rw [ei]; exact Rat.cast_zero

/-- **C152, the others.** A load without a column keeps the power of the file in every hour. -/
theorem C152_unnamed (cols : List Column) (hour : ℤ) {i : ℕ} {d : (Txt × Obj) × DeclaredLoad} (hd : (namedLoads objs)[i]? = some d)
    (hc : ∀ c ∈ cols, ¬ ColumnFor d.1.1 d.2.phases c.name) :
    ∃ x l, g.loads[i]? = some x ∧ IsDeclared objs g d.2 x ∧ (setLoadValues cols hour (g.loads.map GLoad.named))[i]? = some l ∧
      l.S = (if d.2.kind = .power then toComplex d.2.value else 0) ∧ l.load.Z = (if d.2.kind = .impedance then toComplex d.2.value else 0) := by
  obtain ⟨x, hx, hdx, -, -, -⟩ := named_get hR hO hk hb h hd
  refine ⟨x, x.named, hx, hdx, ?_, ?_, ?_⟩
  · rw [setLoadValues_other cols hour _ i fun c hcm hi => hc c hcm ((column_index hR hO hk hb h hd).1 hi).1, List.getElem?_map, hx]
    rfl
  · obtain ⟨a, rest, -, -, -, e, -⟩ := hdx
    show toComplex (x.p, x.q) = _
    rw [e]
    split_ifs
    · rfl
    · exact toComplex_zero
  · obtain ⟨a, rest, -, -, -, -, e, -⟩ := hdx
    show toComplex x.z = _
    rw [e]
    split_ifs
    · rfl
    · exact toComplex_zero

/-- **C152, shared columns.** Of loads with the same column only the last one gets its values: the others keep the power of the file in every hour, whatever the load file says. -/
theorem C152_shared (cols : List Column) (hour : ℤ) {i j : ℕ} {d d' : (Txt × Obj) × DeclaredLoad} (hd : (namedLoads objs)[i]? = some d)
    (hd' : (namedLoads objs)[j]? = some d') (hij : i < j) (hs : ∀ col, ColumnFor d.1.1 d.2.phases col → ColumnFor d'.1.1 d'.2.phases col) :
    ∃ x, g.loads[i]? = some x ∧ IsDeclared objs g d.2 x ∧ (setLoadValues cols hour (g.loads.map GLoad.named))[i]? = some x.named := by
  obtain ⟨x, hx, hdx, -, -, -⟩ := named_get hR hO hk hb h hd
  refine ⟨x, hx, hdx, ?_⟩
  rw [setLoadValues_other cols hour _ i fun c hcm hi => ?_, List.getElem?_map, hx]
  · rfl
  · obtain ⟨h1, h2⟩ := (column_index hR hO hk hb h hd).1 hi
    exact h2 j d' hij hd' (hs _ h1)

/-- **C152, balancing.** The loads of an object the user names as negative load are negative loads for the balancing, on their own phases or on the phase of the feeder their
split-phase object is at. -/
theorem C152_negative (neg : List Txt) {i : ℕ} {d : (Txt × Obj) × DeclaredLoad} (hd : (namedLoads objs)[i]? = some d) (hneg : d.1.1 ∈ neg) :
    ∃ x, g.loads[i]? = some x ∧ IsDeclared objs g d.2 x ∧ x.named.IsNegative neg ∧
      x.named.onPhase = (match splitPhase d.1.2 with | some p => [p] | none => d.2.phases) := by
  have hF := C152_names hR hO hk hb h
  rw [List.forall₂_iff_get] at hF
  obtain ⟨hi, rfl⟩ := List.getElem?_eq_some_iff.1 hd
  have hj : i < g.loads.length := hF.1 ▸ hi
  obtain ⟨h1, h2, h3, h4⟩ := hF.2 i hi hj
  simp only [List.get_eq_getElem] at h1 h2 h3 h4
  refine ⟨g.loads[i], List.getElem?_eq_getElem hj, h1, ⟨h3.1, _, hneg, h3.2⟩, ?_⟩
  rw [← h4, ← h2, NamedLoad.onPhase, GLoad.named]
  cases g.loads[i].triplex <;> rfl

end

/-! ### Examples -/

/-- The column of a load, computed. -/
theorem columnFor_iff {name phases col : Txt} : ColumnFor name phases col ↔
    ((∀ p ∈ phases, p ∈ ['A', 'B', 'C']) ∧ col = "cl_".toList ++ ((splitOn '_' name).getLast?).getD [] ++ phases ∨
      (∀ p ∈ phases, p ∈ ['1', '2']) ∧ col = "rl_".toList ++ ((splitOn '_' name).getLast?).getD [] ++ "_".toList ++ phases.take 1) := by
  constructor
  · rintro ⟨num, hn, h⟩
    rw [hn.unique (splitOn_ending name)] at h
    exact h
  · exact fun h => ⟨_, splitOn_ending name, h⟩

/-- The four loads of the feeder with their objects. -/
theorem feeder_named : (namedLoads feeder).map (fun d => (d.1.1, d.2)) = [("l_7".toList, ⟨"m2".toList, "A".toList, .power, (100, 20)⟩),
    ("l_7".toList, ⟨"m2".toList, "B".toList, .impedance, (5, 1)⟩), ("l_8".toList, ⟨"l_8".toList, "CA".toList, .current, (3, -1)⟩),
    ("h".toList, ⟨"tm".toList, "12".toList, .power, (3000, 1000)⟩)] := by decide +kernel

theorem feeder_at (i : ℕ) (hi : i < 4) : ∃ d, (namedLoads feeder)[i]? = some d := by
  have hl : (namedLoads feeder).length = 4 := by decide +kernel
  exact ⟨_, List.getElem?_eq_getElem (hl ▸ hi)⟩

/-- The load of 100 W and 20 var on phase A of `l_7` gets the magnitude of the column `cl_7A` in every hour, with its power factor; the house on the two legs of `h` has no column here
and keeps 3000 W and 1000 var. If it is to balance, it does so on phase B of the feeder. -/
example : ∃ g, parseGrid noLines feeder [] = .ok g ∧
    (∀ hour : ℤ, ∃ l, (setLoadValues [⟨"cl_7A".toList, fun h => some (50 + h)⟩] hour (g.loads.map GLoad.named))[0]? = some l ∧
      (‖toComplex (100, 20)‖ : ℂ) * l.S = ((50 + hour : ℝ) : ℂ) * toComplex (100, 20)) ∧
    (∀ hour : ℤ, ∃ l, (setLoadValues [⟨"cl_7A".toList, fun h => some (50 + h)⟩] hour (g.loads.map GLoad.named))[3]? = some l ∧ l.S = toComplex (3000, 1000)) ∧
    ∃ x, g.loads[3]? = some x ∧ x.named.IsNegative ["h".toList] ∧ x.named.onPhase = ['B'] := by
  obtain ⟨g, hg⟩ := feeder_read
  obtain ⟨d0, h0⟩ := feeder_at 0 (by decide)
  obtain ⟨d3, h3⟩ := feeder_at 3 (by decide)
  have e0 : d0.1.1 = "l_7".toList ∧ d0.2 = ⟨"m2".toList, "A".toList, .power, (100, 20)⟩ := by
    have := congrArg (fun l => l[0]?) feeder_named
    rw [List.getElem?_map, h0] at this
    exact ⟨congrArg Prod.fst (Option.some.inj this), congrArg Prod.snd (Option.some.inj this)⟩
  have e3 : d3.1.1 = "h".toList ∧ d3.2 = ⟨"tm".toList, "12".toList, .power, (3000, 1000)⟩ := by
    have := congrArg (fun l => l[3]?) feeder_named
    rw [List.getElem?_map, h3] at this
    exact ⟨congrArg Prod.fst (Option.some.inj this), congrArg Prod.snd (Option.some.inj this)⟩
  have s3 : splitPhase d3.1.2 = some 'B' := by
    have : (namedLoads feeder)[3]?.map (fun d => splitPhase d.1.2) = some (some 'B') := by decide +kernel
    rw [h3] at this
    exact Option.some.inj this
  refine ⟨g, hg, fun hour => ?_, fun hour => ?_, ?_⟩
  · have hlast : ∀ j d', 0 < j → (namedLoads feeder)[j]? = some d' → ¬ ColumnFor d'.1.1 d'.2.phases "cl_7A".toList := by
      intro j d' hj hd'
      have : ∀ d' ∈ (namedLoads feeder).drop 1, ¬ ColumnFor d'.1.1 d'.2.phases "cl_7A".toList := by
        simp only [columnFor_iff]
        decide +kernel
      refine this d' (List.mem_of_getElem? (i := j - 1) ?_)
      rw [List.getElem?_drop, ← hd']
      congr 1; omega
    obtain ⟨x, l, -, -, h1, h2, -⟩ := C152_columns noLines_keeps feeder_outer feeder_keys feeder_noBase hg
      (cols := [⟨"cl_7A".toList, fun h => some (50 + h)⟩]) (by simp) hour h0 (by rw [e0.2]) (List.mem_singleton_self _)
      (by rw [e0.1, e0.2, columnFor_iff]; decide +kernel) hlast rfl
    rw [e0.2] at h2
    exact ⟨l, h1, h2⟩
  · obtain ⟨x, l, -, -, h1, h2, -⟩ := C152_unnamed noLines_keeps feeder_outer feeder_keys feeder_noBase hg
      [⟨"cl_7A".toList, fun h => some (50 + h)⟩] hour h3 (fun c hc => by
        rw [List.mem_singleton.1 hc, e3.1, e3.2, columnFor_iff]; decide +kernel)
    rw [e3.2, if_pos rfl] at h2
    exact ⟨l, h1, h2⟩
  · obtain ⟨x, h1, -, h2, h4⟩ := C152_negative noLines_keeps feeder_outer feeder_keys feeder_noBase hg ["h".toList] h3 (by rw [e3.1]; exact List.mem_singleton_self _)
    rw [s3] at h4
    exact ⟨x, h1, h2, h4⟩

/-- Two loads whose names end alike, and one given by its impedance. -/
def likeNames : List (Txt × Obj) := [
  fileObject "node" [("name", "n1"), ("phases", "ABCN"), ("bustype", "SWING"), ("nominal_voltage", "2400")],
  fileObject "load" [("name", "north_1"), ("phases", "AN"), ("parent", "n1"), ("constant_power_A", "100+0j")],
  fileObject "load" [("name", "south_1"), ("phases", "AN"), ("parent", "n1"), ("constant_power_A", "200+0j")],
  fileObject "load" [("name", "heat_2"), ("phases", "AN"), ("parent", "n1"), ("constant_impedance_A", "5+1j")]]

theorem likeNames_read : ∃ g, parseGrid noLines likeNames [] = .ok g := by
  have : (parseGrid noLines likeNames []).isOk = true := by decide +kernel
  match h : parseGrid noLines likeNames [] with
  | .ok g => exact ⟨g, rfl⟩
  | .error e => rw [h] at this; cases this

theorem likeNames_noBase : NoBasePower likeNames := by
  have : ∀ x ∈ likeNames, isLoadObj x.2 = true → ∀ c ∈ loadEndings, x.2.attr ("base_power_".toList ++ c) = none := by decide +kernel
  exact fun name o hm => this (name, o) hm

theorem likeNames_named : (namedLoads likeNames).map (fun d => (d.1.1, d.2)) = [("north_1".toList, ⟨"n1".toList, "A".toList, .power, (100, 0)⟩),
    ("south_1".toList, ⟨"n1".toList, "A".toList, .power, (200, 0)⟩), ("heat_2".toList, ⟨"n1".toList, "A".toList, .impedance, (5, 1)⟩)] := by decide +kernel

theorem likeNames_at (i : ℕ) (hi : i < 3) : ∃ d, (namedLoads likeNames)[i]? = some d ∧
    some (d.1.1, d.2) = ((namedLoads likeNames).map fun d => (d.1.1, d.2))[i]? := by
  have hl : (namedLoads likeNames).length = 3 := by decide +kernel
  refine ⟨_, List.getElem?_eq_getElem (hl ▸ hi), ?_⟩
  rw [List.getElem?_map, List.getElem?_eq_getElem (hl ▸ hi)]
  rfl

/-- **C152 fails, names that end alike.** The column `cl_1A` is the column of the loads `north_1` and `south_1`. The first has 100 W in every hour, whatever the load file says. -/
theorem C152_shared_fails : ∃ g, parseGrid noLines likeNames [] = .ok g ∧ ColumnFor "north_1".toList "A".toList "cl_1A".toList ∧
    ∀ cols hour, ∃ l, (setLoadValues cols hour (g.loads.map GLoad.named))[0]? = some l ∧ l.S = 100 := by
  obtain ⟨g, hg⟩ := likeNames_read
  obtain ⟨d0, h0, e0⟩ := likeNames_at 0 (by decide)
  obtain ⟨d1, h1, e1⟩ := likeNames_at 1 (by decide)
  rw [likeNames_named] at e0 e1
  obtain ⟨a0, b0⟩ := Prod.mk.inj (Option.some.inj e0)
  obtain ⟨a1, b1⟩ := Prod.mk.inj (Option.some.inj e1)
  refine ⟨g, hg, columnFor_iff.2 (by decide +kernel), fun cols hour => ?_⟩
  obtain ⟨x, hx, hd, hl⟩ := C152_shared noLines_keeps (outerFile_of_check (by decide +kernel)) (by decide +kernel) likeNames_noBase hg cols hour h0 h1
    (by decide) (fun col => by rw [a0, b0, a1, b1, columnFor_iff, columnFor_iff]; exact id)
  refine ⟨x.named, hl, ?_⟩
  obtain ⟨a, rest, -, -, -, e, -⟩ := hd
  show toComplex (x.p, x.q) = _
  rw [e, b0, if_pos rfl]
  apply Complex.ext <;> simp [toComplex]

/-- **C152 fails, impedances.** A load given by its impedance gets the power of its column on top of the impedance: a column of 1000 VA makes it a load of 1000 W at unit power
factor beside the impedance of the file. -/
theorem C152_impedance_fails : ∃ g, parseGrid noLines likeNames [] = .ok g ∧
    ∃ l, (setLoadValues [⟨"cl_2A".toList, fun _ => some 1000⟩] 0 (g.loads.map GLoad.named))[2]? = some l ∧ l.S = 1000 ∧ l.load.Z = toComplex (5, 1) := by
  obtain ⟨g, hg⟩ := likeNames_read
  obtain ⟨d, h0, e0⟩ := likeNames_at 2 (by decide)
  rw [likeNames_named] at e0
  obtain ⟨a0, b0⟩ := Prod.mk.inj (Option.some.inj e0)
  have hO : OuterFile likeNames := outerFile_of_check (by decide +kernel)
  have hk : (likeNames.map Prod.fst).Nodup := by decide +kernel
  obtain ⟨x, hx, hdx, -⟩ := named_get noLines_keeps hO hk likeNames_noBase hg h0
  have hl : (namedLoads likeNames).length = 3 := by decide +kernel
  have hidx := (column_index noLines_keeps hO hk likeNames_noBase hg h0 (col := "cl_2A".toList)).2 ⟨by rw [a0, b0, columnFor_iff]; decide +kernel, fun j d' hj hd' => by
    have := (List.getElem?_eq_some_iff.1 hd').1
    omega⟩
  have hget := setLoadValues_get [⟨"cl_2A".toList, fun _ => some 1000⟩] (by simp) 0 (g.loads.map GLoad.named) _ (List.mem_singleton_self _) 2 hidx
  rw [List.getElem?_map, hx] at hget
  obtain ⟨a, rest, -, -, -, e, ez, -⟩ := hdx
  rw [b0] at e ez
  refine ⟨g, hg, x.named.setMagnitude 1000, hget, ?_, ?_⟩
  · have hS : x.named.S = 0 := by
      show toComplex (x.p, x.q) = _
      rw [e, if_neg (by decide)]; exact toComplex_zero
    rw [setMagnitude_S, hS]
    simp
  · show toComplex x.z = _
    rw [ez]; rfl

end Verif.Glm
