import Verif.Model.LineReader
import Verif.Lemmas.GlmFile
import Verif.Lemmas.LineImpedance

/-!
# Lemmas on the reading of lines
-/

namespace Verif.Glm

open Matrix

/-! ### Conductors -/

theorem find_km_of_ohm {t : Txt} (h : (find "Ohm/km".toList t).isSome) : (find "km".toList t).isSome := by
  induction t with
  | nil => cases h
  | cons c t ih =>
    rw [find] at h ⊢
    by_cases hp : "km".toList.isPrefixOf (c :: t) = true
    · rw [if_pos hp]; rfl
    · rw [if_neg hp, Option.isSome_map]
      by_cases hq : "Ohm/km".toList.isPrefixOf (c :: t) = true
      · clear h ih hp
        rw [List.isPrefixOf_iff_prefix] at hq
        obtain ⟨r, hr⟩ := hq
        have : t = 'h' :: 'm' :: '/' :: 'k' :: 'm' :: r := by
          have h1 : ("Ohm/km".toList ++ r) = 'O' :: 'h' :: 'm' :: '/' :: 'k' :: 'm' :: r := rfl
          rw [h1] at hr
          exact (List.cons.inj hr).2.symm
        subst this
        rfl
      · rw [if_neg hq, Option.isSome_map] at h
        exact ih h

theorem unitAttribute_same {o o' : Obj} {k unit : Txt} {f : ℚ} {x : Option ℚ} (h : unitAttribute o k unit f = .ok (x, o'))
    (hk : k ∈ writtenAttributes) (hu : ∀ t, (find unit t).isSome → HasUnit t) (hc : o.cls ∈ conductorClasses) : SameObj o o' := by
  rw [unitAttribute] at h
  split at h
  · cases h; exact SameObj.refl o
  · rename_i t ht
    split at h
    · rename_i hf
      obtain ⟨y, -, h⟩ := bind_eq_ok h
      cases h
      have ht' : o.attr k = some t := by
        rw [Obj.get] at ht
        rw [Obj.attr]
        split at ht
        · rename_i v hv; cases ht; exact hv
        · cases ht
      refine ⟨rfl, fun a ha => lookup_store_ne _ (fun e => ha (by rw [e]; exact hk)) _, fun h => absurd hc h,
        fun h => absurd (hu t hf) (h k hk t ht'), fun a => ?_⟩
      by_cases e : a = k
      · rw [e]
        exact Or.inr ⟨t, ht', lookup_store_self _ _ _⟩
      · exact Or.inl (lookup_store_ne _ e _)
    · obtain ⟨y, -, h⟩ := bind_eq_ok h
      cases h; exact SameObj.refl o

theorem overheadConductor_same {o : Obj} {p : Char} {w : BareWire × Obj} (h : overheadConductor o p = .ok w) (hc : o.cls ∈ conductorClasses) :
    SameObj o w.2 := by
  rw [overheadConductor] at h
  obtain ⟨d, -, h⟩ := bind_eq_ok h
  obtain ⟨⟨g, o1⟩, h1, h⟩ := bind_eq_ok h
  obtain ⟨⟨r, o2⟩, h2, h⟩ := bind_eq_ok h
  cases h
  have s1 := unitAttribute_same h1 (by decide) (fun t ht => Or.inr ht) hc
  exact s1.trans (unitAttribute_same h2 (by decide) (fun t ht => Or.inl (find_km_of_ohm ht)) (by rw [s1.cls]; exact hc))

theorem triplexConductor_same {o : Obj} {p : Char} {w : TriplexWire × Obj} (h : triplexConductor o p = .ok w) : SameObj o w.2 := by
  rw [triplexConductor] at h
  obtain ⟨d, -, h⟩ := bind_eq_ok h
  obtain ⟨g, -, h⟩ := bind_eq_ok h
  cases h
  exact SameObj.refl o

theorem undergroundConductor_same {o : Obj} {p : Char} {w : CableWire × Obj} (h : undergroundConductor o p = .ok w) (hc : o.cls ∈ conductorClasses) :
    SameObj o w.2 := by
  rw [undergroundConductor] at h
  obtain ⟨_, -, h⟩ := bind_eq_ok h
  obtain ⟨_, -, h⟩ := bind_eq_ok h
  obtain ⟨_, -, h⟩ := bind_eq_ok h
  obtain ⟨_, -, h⟩ := bind_eq_ok h
  obtain ⟨_, -, h⟩ := bind_eq_ok h
  obtain ⟨⟨r, o1⟩, h1, h⟩ := bind_eq_ok h
  obtain ⟨_, -, h⟩ := bind_eq_ok h
  obtain ⟨_, -, h⟩ := bind_eq_ok h
  cases h
  exact unitAttribute_same h1 (by decide) (fun t ht => Or.inl (find_km_of_ohm ht)) hc

theorem store_same {objs : List (Txt × Obj)} {n : Txt} {o o' : Obj} (hl : lookup n objs = some o) (h : SameObj o o') : SameObjs objs (store n o' objs) := by
  intro k
  by_cases hk : k = n
  · subst hk
    rw [hl, lookup_store_self]
    exact .some h
  · rw [lookup_store_ne _ hk]
    exact SameObjs.refl objs k

/-- The objects the names stand for are conductors. -/
def AreConductors (objs : List (Txt × Obj)) (names : List (Char × Txt)) : Prop := ∀ x ∈ names, ∀ o, lookup x.2 objs = some o → o.cls ∈ conductorClasses

theorem AreConductors.same {objs objs' : List (Txt × Obj)} (h : SameObjs objs objs') {names : List (Char × Txt)} (hn : AreConductors objs names) :
    AreConductors objs' names := by
  intro x hx o ho
  obtain ⟨o0, h0, hs⟩ := h.to_some ho
  rw [hs.cls]
  exact hn x hx o0 h0

theorem readWires_same {α : Type} {read : Obj → Char → Py (α × Obj)} (hr : ∀ o p w, read o p = .ok w → o.cls ∈ conductorClasses → SameObj o w.2)
    {names : List (Char × Txt)} {objs : List (Txt × Obj)} {r : List α × List (Txt × Obj)} (h : readWires read objs names = .ok r)
    (hn : AreConductors objs names) : SameObjs objs r.2 := by
  induction names generalizing objs r with
  | nil => cases h; exact SameObjs.refl objs
  | cons x names ih =>
    obtain ⟨p, n⟩ := x
    rw [readWires] at h
    split at h
    · cases h
    · rename_i o ho
      obtain ⟨w, hw, h⟩ := bind_eq_ok h
      obtain ⟨_, -, h⟩ := bind_eq_ok h
      obtain ⟨r', hr', h⟩ := bind_eq_ok h
      cases h
      have s1 : SameObjs objs (store n w.2 objs) := store_same ho (hr o p w hw (hn (p, n) (by simp) o ho))
      have s2 := ih hr' fun y hy => AreConductors.same s1 hn y (List.mem_cons_of_mem _ hy)
      exact s1.trans s2

theorem conductorNames_conductors {objs objs' : List (Txt × Obj)} (hf : ConductorsNamed objs) (hs : SameObjs objs objs') {o c : Obj}
    (hc : configurationOf objs' o = .ok c) {ps : List Char} (hps : ∀ p ∈ ps, p ∈ "ABCN12".toList) : AreConductors objs' (conductorNames c ps) := by
  refine AreConductors.same hs fun x hx ob hob => ?_
  rw [configurationOf] at hc
  split at hc
  · cases hc
  split at hc
  · cases hc
  rename_i c' hc'
  cases hc
  obtain ⟨c0, h0, hsc⟩ := hs.to_some hc'
  obtain ⟨p, hp, hx⟩ := List.mem_filterMap.1 hx
  obtain ⟨n, hn, rfl⟩ := Option.map_eq_some_iff.1 hx
  refine hf _ c0 h0 p (hps p hp) n ?_ ob hob
  rw [← hn]
  refine (hsc.attr _ ?_).symm
  intro hm
  simp only [writtenAttributes, List.map_cons, List.map_nil, List.mem_cons, List.not_mem_nil, or_false] at hm
  rcases hm with hm | hm | hm <;> · have := congrArg List.length hm; simp at this

/-! ### What is read for a line -/

/-- What is read for an overhead line, `v` being the variable `distances` after it. -/
structure OverheadRead (v : Option Table) (objs : List (Txt × Obj)) (o : Obj) (ph : Phases) (d : List Char × LineData) (objs' : List (Txt × Obj))
    (c : Obj) (wires : List BareWire) (T : Table) (len : ℚ × Obj) (Z : Matrix _ _ ℂ) (B : Matrix _ _ ℝ) : Prop where
  length : parseLineLength o = .ok len
  config : configurationOf objs o = .ok c
  conductors : readWires overheadConductor objs (conductorNames c "ABCN".toList) = .ok (wires, objs')
  table : v = some T
  series : overheadImpedance wires T ph.phases ph.hasNeutral = .ok Z
  charging : overheadCharging wires T = .ok B
  data : d = ((wires.map BareWire.phase).filter (· ≠ 'N'), ⟨_, perMeter Z, shuntPerMeter B, len.1⟩)

theorem tableSet_ok {v : Option Table} {T : Table} (h : tableSet v = .ok T) : v = some T := by
  cases v with
  | none => cases h
  | some T' => cases h; rfl

theorem readOverhead_ok {v v' : Option Table} {objs objs' : List (Txt × Obj)} {o : Obj} {ph : Phases} {d : List Char × LineData}
    (h : readOverhead v objs o ph = .ok ((d, objs'), v')) : ∃ c wires T len Z B, OverheadRead v' objs o ph d objs' c wires T len Z B ∧
      overheadTable v objs' c (wires.map BareWire.phase) = .ok v' := by
  rw [readOverhead] at h
  obtain ⟨len, h1, h⟩ := bind_eq_ok h
  obtain ⟨c, h2, h⟩ := bind_eq_ok h
  obtain ⟨⟨ws, ob⟩, h3, h⟩ := bind_eq_ok h
  obtain ⟨u, h4, h⟩ := bind_eq_ok h
  obtain ⟨T, h5, h⟩ := bind_eq_ok h
  obtain ⟨Z, h6, h⟩ := bind_eq_ok h
  obtain ⟨B, h7, h⟩ := bind_eq_ok h
  cases h
  exact ⟨c, ws, T, len, Z, B, ⟨h1, h2, h3, tableSet_ok h5, h6, h7, rfl⟩, h4⟩

/-- What is read for a triplex line. -/
structure TriplexRead (objs : List (Txt × Obj)) (o : Obj) (d : List Char × LineData) (objs' : List (Txt × Obj)) (c : Obj) (wires : List TriplexWire)
    (x : Option (ℚ × ℚ)) (len : ℚ × Obj) (Z : Matrix (Fin 2) (Fin 2) ℂ) : Prop where
  length : parseLineLength o = .ok len
  config : configurationOf objs o = .ok c
  conductors : readWires triplexConductor objs (conductorNames c "12N".toList) = .ok (wires, objs')
  distances : triplexDistances c wires = .ok x
  series : triplexImpedance wires x = .ok Z
  data : d = ((wires.map TriplexWire.phase).filter (· ≠ 'N'), ⟨_, perMeter Z, fun _ _ => none, len.1⟩)

theorem readTriplexLine_ok {objs objs' : List (Txt × Obj)} {o : Obj} {d : List Char × LineData} (h : readTriplexLine objs o = .ok (d, objs')) :
    ∃ c wires x len Z, TriplexRead objs o d objs' c wires x len Z := by
  rw [readTriplexLine] at h
  obtain ⟨len, h1, h⟩ := bind_eq_ok h
  obtain ⟨c, h2, h⟩ := bind_eq_ok h
  obtain ⟨⟨ws, ob⟩, h3, h⟩ := bind_eq_ok h
  obtain ⟨x, h4, h⟩ := bind_eq_ok h
  obtain ⟨Z, h5, h⟩ := bind_eq_ok h
  cases h
  exact ⟨c, ws, x, len, Z, h1, h2, h3, h4, h5, rfl⟩

/-- What is read for an underground line, `v` being the variable `distances` after it. -/
structure UndergroundRead (v : Option Table) (objs : List (Txt × Obj)) (o : Obj) (d : List Char × LineData) (objs' : List (Txt × Obj))
    (c : Obj) (wires : List CableWire) (T : Table) (len : ℚ × Obj) (Z : Matrix _ _ ℂ) (B : Matrix (Fin 3) (Fin 3) ℝ) : Prop where
  length : parseLineLength o = .ok len
  config : configurationOf objs o = .ok c
  conductors : readWires undergroundConductor objs (conductorNames c "ABCN".toList) = .ok (wires, objs')
  table : v = some T
  series : undergroundImpedance wires T = .ok Z
  charging : undergroundCharging wires = .ok B
  data : d = ((wires.map CableWire.phase).filter (· ≠ 'N'), ⟨_, perMeter Z, shuntPerMeter B, len.1⟩)

theorem readUnderground_ok {v v' : Option Table} {objs objs' : List (Txt × Obj)} {o : Obj} {d : List Char × LineData}
    (h : readUnderground v objs o = .ok ((d, objs'), v')) : ∃ c wires T len Z B, UndergroundRead v' objs o d objs' c wires T len Z B ∧
      undergroundTable v objs' c wires = .ok v' := by
  rw [readUnderground] at h
  obtain ⟨len, h1, h⟩ := bind_eq_ok h
  obtain ⟨c, h2, h⟩ := bind_eq_ok h
  obtain ⟨⟨ws, ob⟩, h3, h⟩ := bind_eq_ok h
  obtain ⟨u, h4, h⟩ := bind_eq_ok h
  obtain ⟨T, h5, h⟩ := bind_eq_ok h
  obtain ⟨Z, h6, h⟩ := bind_eq_ok h
  obtain ⟨B, h7, h⟩ := bind_eq_ok h
  cases h
  exact ⟨c, ws, T, len, Z, B, ⟨h1, h2, h3, tableSet_ok h5, h6, h7, rfl⟩, h4⟩

/-- A line is of one of three kinds. -/
theorem readLineVar_ok {v v' : Option Table} {objs objs' : List (Txt × Obj)} {o : Obj} {ph : Phases} {d : List Char × LineData}
    (h : readLineVar v objs o ph = .ok ((d, objs'), v')) : (o.cls = "overhead_line".toList ∧ readOverhead v objs o ph = .ok ((d, objs'), v')) ∨
      (o.cls = "triplex_line".toList ∧ readTriplexLine objs o = .ok (d, objs') ∧ v' = v) ∨
      (o.cls ≠ "overhead_line".toList ∧ o.cls ≠ "triplex_line".toList ∧ readUnderground v objs o = .ok ((d, objs'), v')) := by
  rw [readLineVar] at h
  by_cases h1 : o.cls = "overhead_line".toList
  · rw [if_pos h1] at h
    exact Or.inl ⟨h1, h⟩
  · rw [if_neg h1] at h
    by_cases h2 : o.cls = "triplex_line".toList
    · rw [if_pos h2] at h
      obtain ⟨r, hr, h⟩ := bind_eq_ok h
      cases h
      exact Or.inr (Or.inl ⟨h2, hr, rfl⟩)
    · rw [if_neg h2] at h
      exact Or.inr (Or.inr ⟨h1, h2, h⟩)

theorem readLineVar_keeps {objs0 : List (Txt × Obj)} (hf : ConductorsNamed objs0) {v v' : Option Table} {objs objs' : List (Txt × Obj)}
    (hs : SameObjs objs0 objs) {o : Obj} {ph : Phases} {d : List Char × LineData} (h : readLineVar v objs o ph = .ok ((d, objs'), v')) :
    SameObjs objs objs' := by
  rcases readLineVar_ok h with ⟨-, h⟩ | ⟨-, h, -⟩ | ⟨-, -, h⟩
  · obtain ⟨c, ws, T, len, Z, B, hr, -⟩ := readOverhead_ok h
    exact readWires_same (fun o p w h hc => overheadConductor_same h hc) hr.conductors (conductorNames_conductors hf hs hr.config (by decide))
  · obtain ⟨c, ws, x, len, Z, hr⟩ := readTriplexLine_ok h
    exact readWires_same (fun o p w h _ => triplexConductor_same h) hr.conductors (conductorNames_conductors hf hs hr.config (by decide))
  · obtain ⟨c, ws, T, len, Z, B, hr, -⟩ := readUnderground_ok h
    exact readWires_same (fun o p w h hc => undergroundConductor_same h hc) hr.conductors (conductorNames_conductors hf hs hr.config (by decide))

theorem lineReader_ok {objs objs' : List (Txt × Obj)} {o : Obj} {ph : Phases} {d : List Char × LineData}
    (h : lineReader objs o ph = .ok (d, objs')) : ∃ v', readLineVar none objs o ph = .ok ((d, objs'), v') := by
  rw [lineReader] at h
  obtain ⟨⟨r, v'⟩, h1, h⟩ := bind_eq_ok h
  cases h
  exact ⟨v', h1⟩

/-- The reading of lines rewrites nothing but conductors. -/
theorem lineReader_keeps {objs : List (Txt × Obj)} (hf : ConductorsNamed objs) : Keeps lineReader objs := by
  intro objs1 o ph d objs2 hs h
  obtain ⟨v', h⟩ := lineReader_ok h
  exact readLineVar_keeps hf hs h

/-! ### Tables of distances -/

/-- A table that is the same both ways. -/
def Table.Symm (T : Table) : Prop := ∀ i j, T i j = T j i

theorem Table.Symm.striped {T : Table} (h : T.Symm) (i j : ℕ) : stripedDistance T i j = stripedDistance T j i := by
  have hk : columnsKept T = rowsKept T := List.filter_congr fun a _ => by
    rw [show (fun i => decide (T i a = 0)) = fun i => decide (T a i = 0) from funext fun i => by rw [h]]
  rw [stripedDistance, stripedDistance, hk]
  cases (rowsKept T)[i]? <;> cases (rowsKept T)[j]? <;> simp only
  rw [h]

theorem Table.Symm.put {T : Table} (h : T.Symm) (i j : ℕ) (d : ℚ) : (((T.put i j d).put j i d).put i i 0).put j j 0 |>.Symm := by
  intro a b
  simp only [Table.put]
  have := h a b
  by_cases h1 : a = i <;> by_cases h2 : a = j <;> by_cases h3 : b = i <;> by_cases h4 : b = j <;> simp_all

theorem foldlM_symm {f : Table → ℕ × ℕ → Py Table} (hf : ∀ T T' p, f T p = .ok T' → T.Symm → T'.Symm) {l : List (ℕ × ℕ)} {T T' : Table}
    (h : l.foldlM f T = .ok T') (hT : T.Symm) : T'.Symm := by
  induction l generalizing T with
  | nil => cases h; exact hT
  | cons p l ih =>
    rw [List.foldlM_cons] at h
    obtain ⟨T1, h1, h⟩ := bind_eq_ok h
    exact ih h (hf T T1 p h1 hT)

theorem overheadSpacing_symm {o : Obj} {T : Table} (h : overheadSpacing o = .ok T) : T.Symm := by
  refine foldlM_symm (fun T T' p hp hT => ?_) h fun _ _ => rfl
  rw [overheadSpacingStep] at hp
  split at hp
  · cases hp; exact hT
  · obtain ⟨d, -, hp⟩ := bind_eq_ok hp
    split at hp
    · cases hp; exact hT
    · cases hp; exact hT.put _ _ _

theorem undergroundSpacing_symm {outers : List ℚ} {o : Obj} {T : Table} (h : undergroundSpacing outers o = .ok T) : T.Symm := by
  refine foldlM_symm (fun T T' p hp hT => ?_) h fun _ _ => rfl
  rw [undergroundSpacingStep] at hp
  split at hp
  · cases hp; exact hT
  · obtain ⟨d, -, hp⟩ := bind_eq_ok hp
    obtain ⟨d', -, hp⟩ := bind_eq_ok hp
    cases hp; exact hT.put _ _ _

theorem overheadTable_some {v v' : Option Table} {objs : List (Txt × Obj)} {c : Obj} {ps : List Char} (h : overheadTable v objs c ps = .ok v') :
    (c.attr "spacing".toList = none ∧ v' = v) ∨ ∃ n s T, c.attr "spacing".toList = some n ∧ lookup n objs = some s ∧ overheadSpacing s = .ok T ∧
      placeWires T ps = .ok () ∧ v' = some T := by
  rw [overheadTable] at h
  split at h
  · rename_i hn
    cases h
    exact Or.inl ⟨hn, rfl⟩
  · rename_i n hn
    split at h
    · cases h
    · rename_i s hs
      obtain ⟨T, hT, h⟩ := bind_eq_ok h
      obtain ⟨_, hp, h⟩ := bind_eq_ok h
      cases h
      exact Or.inr ⟨n, s, T, hn, hs, hT, hp, rfl⟩

theorem undergroundTable_some {v v' : Option Table} {objs : List (Txt × Obj)} {c : Obj} {ws : List CableWire} (h : undergroundTable v objs c ws = .ok v') :
    v' = v ∨ ∃ n s T, c.attr "spacing".toList = some n ∧ lookup n objs = some s ∧ undergroundSpacing (ws.filterMap CableWire.outer) s = .ok T ∧
      v' = some T := by
  rw [undergroundTable] at h
  split at h
  · cases h
    exact Or.inl rfl
  · rename_i n hn
    split at h
    · cases h
    · rename_i s hs
      split at h
      · cases h
        exact Or.inl rfl
      · obtain ⟨T, hT, h⟩ := bind_eq_ok h
        cases h
        exact Or.inr ⟨n, s, T, hn, hs, hT, rfl⟩

/-- The variable `distances` is always the same both ways. -/
theorem readLineVar_symm {v v' : Option Table} {objs objs' : List (Txt × Obj)} {o : Obj} {ph : Phases} {d : List Char × LineData}
    (h : readLineVar v objs o ph = .ok ((d, objs'), v')) (hv : ∀ T, v = some T → T.Symm) : ∀ T, v' = some T → T.Symm := by
  rcases readLineVar_ok h with ⟨-, h⟩ | ⟨-, h, rfl⟩ | ⟨-, -, h⟩
  · obtain ⟨c, ws, T, len, Z, B, hr, ht⟩ := readOverhead_ok h
    rcases overheadTable_some ht with ⟨-, rfl⟩ | ⟨n, s, T', -, -, hT, -, rfl⟩
    · exact hv
    · rintro T1 e; cases e; exact overheadSpacing_symm hT
  · exact hv
  · obtain ⟨c, ws, T, len, Z, B, hr, ht⟩ := readUnderground_ok h
    rcases undergroundTable_some ht with rfl | ⟨n, s, T', -, -, hT, rfl⟩
    · exact hv
    · rintro T1 e; cases e; exact undergroundSpacing_symm hT

end Verif.Glm
