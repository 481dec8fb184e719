import Verif.Lemmas.RawUnique
import Verif.Lemmas.RawVersion
import Verif.Props.RawLoads
import Verif.Props.RawPowerFlow

/-!
# C109–C112: the text of a RAW file
-/

namespace Verif.Raw

open Glm (Blank Number)

/-- **C109.** A text of lines with comma-separated fields is cut into these fields: quotes are taken off and doubled quotes are one quote, commas between
quotes belong to the field, white space around the content is dropped, a blank line is a row without fields. The first line has at least two fields. -/
theorem C109_rows {s a b : Txt} {ts : Row} {rows : List Row} (h : TextOf s ((a :: b :: ts) :: rows)) : rowsOf s = .ok ((a :: b :: ts) :: rows) :=
  rowsOf_text h

/-- **C109, second part.** A text has one such reading only. -/
theorem C109_unique {s a b : Txt} {ts : Row} {rows rows' : List Row} {r : Row} (h : TextOf s ((a :: b :: ts) :: rows)) (h' : TextOf s (r :: rows'))
    (hr : 2 ≤ r.length) : (a :: b :: ts) :: rows = r :: rows' := by
  obtain ⟨a', b', ts', rfl⟩ : ∃ a' b' ts', r = a' :: b' :: ts' := by
    match r, hr with
    | a' :: b' :: ts', _ => exact ⟨a', b', ts', rfl⟩
  have h1 := rowsOf_text h
  rw [rowsOf_text h'] at h1
  exact (Except.ok.inj h1).symm

/-- **C110 for sound records.** Take rows that lay out a document in one of the versions 32, 33 and 34: case identification, two rows of title, the
sections in their order, each with its terminator, with comments between records or an early end of the file if nothing follows. Let the records be sound:
fields fit their columns, required fields are there, names are distinct. Then the rows are read, and the case handed to `parse_raw` has the base of the
file and exactly the buses, loads, shunts, generators, branches and transformers the records state, with the defaults of the format for blank fields;
the buses come in the order of their numbers.
Missing from the full claim: version 30; tap control in version 34 (`C110_control_fails`); records the format allows and the reader does not, see the
other `C110_…_fails`. -/
theorem C110_rows_partial {v : ℤ} (hv : v = 32 ∨ v = 33 ∨ v = 34) {sbase : ℝ} {d : Document} {rows : List Row} (h : FileOf v sbase d rows)
    (hs : d.Sound v) : ∃ f c, readRows rows = .ok f ∧ f.toCase = .ok c ∧ c.sbase = sbase ∧ d.Means v c ∧ (c.buses.map BusRec.i).Pairwise (· < ·) := by
  obtain ⟨f, h1, h2, h3, h4⟩ := readRows_file hv h hs
  obtain ⟨c, h5, h6, h7, h8⟩ := toCase_collected hv h3 h4
  exact ⟨f, c, h1, h5, h6.trans h2, h7, h8⟩

/-- **C110, the case is determined.** Two cases a document states have the same buses, loads, shunts, generators, branches and, in versions 32 and 33,
two-winding transformers, up to their order. -/
theorem C110_determined {v : ℤ} {d : Document} {c c' : Case} (h : d.Means v c) (h' : d.Means v c') :
    c.buses.Perm c'.buses ∧ c.loads.Perm c'.loads ∧ c.fixed.Perm c'.fixed ∧ c.generators.Perm c'.generators ∧ c.branches.Perm c'.branches ∧
    c.switched.Perm c'.switched ∧ (v ≠ 34 → c.two.Perm c'.two) :=
  ⟨Listed.unique (P := StatesBus v) (fun _ _ _ x y => x.unique y) h.buses h'.buses, Listed.unique (P := StatesLoad) (fun _ _ _ x y => x.unique y) h.loads h'.loads,
    Listed.unique (P := StatesFixed) (fun _ _ _ x y => x.unique y) h.fixed h'.fixed, Listed.unique (P := StatesGen) (fun _ _ _ x y => x.unique y) h.generators h'.generators,
    Listed.unique (P := StatesBranch v) (fun _ _ _ x y => x.unique y) h.branches h'.branches, Listed.unique (P := StatesSwitched) (fun _ _ _ x y => StatesSwitched.unique x y) h.switched h'.switched,
    fun hv => h.two.unique (fun _ _ _ x y => x.1.unique y.1 (x.2 hv) (y.2 hv)) h'.two⟩

/-- **C110 on texts.** -/
theorem C110_text_partial {v : ℤ} (hv : v = 32 ∨ v = 33 ∨ v = 34) {sbase : ℝ} {d : Document} {s a b : Txt} {ts : Row} {rows : List Row}
    (ht : TextOf s ((a :: b :: ts) :: rows)) (h : FileOf v sbase d ((a :: b :: ts) :: rows)) (hs : d.Sound v) :
    ∃ c, parseRawText s = parseRaw c ∧ c.sbase = sbase ∧ d.Means v c ∧ (c.buses.map BusRec.i).Pairwise (· < ·) := by
  obtain ⟨f, c, h1, h2, h3, h4, h5⟩ := C110_rows_partial hv h hs
  refine ⟨c, ?_, h3, h4, h5⟩
  simp only [parseRawText, readText, rowsOf_text ht, h1, h2]

/-- **C111 for sound records.** Two files of the same base and version whose sections have the same sound records, in whatever order and with whatever
comments between them, are loaded with the same outcome. Missing from the full claim: files with two records of the same name, of which the later one wins
(`C111_names_fails`), and version 30. -/
theorem C111_order_partial {v : ℤ} (hv : v = 32 ∨ v = 33 ∨ v = 34) {sbase : ℝ} {d d' : Document} {s s' a b a' b' : Txt} {ts ts' : Row} {rows rows' : List Row}
    (ht : TextOf s ((a :: b :: ts) :: rows)) (ht' : TextOf s' ((a' :: b' :: ts') :: rows'))
    (h : FileOf v sbase d ((a :: b :: ts) :: rows)) (h' : FileOf v sbase d' ((a' :: b' :: ts') :: rows'))
    (hs : d.Sound v) (hs' : d'.Sound v) (hd : d.Rearranged d') : parseRawText s = parseRawText s' := by
  obtain ⟨f, h1, h2, h3, h4⟩ := readRows_file hv h hs
  obtain ⟨f', h1', h2', h3', h4'⟩ := readRows_file hv h' hs'
  have hb : f.sbase = f'.sbase := by exact_mod_cast h2.trans h2'.symm
  simp only [parseRawText, readText, rowsOf_text ht, rowsOf_text ht', h1, h1', toCase_rearranged h4 h4' hd h3 h3' hv hb]

/-- **C112 for sound records and supported cases.** A text that writes down a sound document is loaded if the case the document states is one `parse_raw`
supports. Missing from the full claim: what is missing from `C110_text_partial` and `C78_supported_loads_partial`. -/
theorem C112_loads_partial {v : ℤ} (hv : v = 32 ∨ v = 33 ∨ v = 34) {sbase : ℝ} {d : Document} {s a b : Txt} {ts : Row} {rows : List Row}
    (ht : TextOf s ((a :: b :: ts) :: rows)) (h : FileOf v sbase d ((a :: b :: ts) :: rows)) (hs : d.Sound v)
    (hc : ∀ c : Case, c.sbase = sbase → d.Means v c → (c.buses.map BusRec.i).Pairwise (· < ·) → c.Supported) : ∃ o, parseRawText s = .ok o := by
  obtain ⟨c, h1, h2, h3, h4⟩ := C110_text_partial hv ht h hs
  obtain ⟨o, ho⟩ := C78_supported_loads_partial (hc c h2 h3 h4)
  exact ⟨o, h1.trans ho⟩

/-- **C112, from the text to the equations.** Take a text that writes down a sound document and loads, and let the case the document states be plain in the
sense of C79. At bus voltages that are not zero, the assembled equations of the loaded network have a solution with these voltages exactly when the voltages
satisfy the power flow equations of the records. -/
theorem C112_power_flow_partial {v : ℤ} (hv : v = 32 ∨ v = 33 ∨ v = 34) {L : Library} (hL : L.Loaded) {sbase : ℝ} {d : Document} {s a b : Txt} {ts : Row}
    {rows : List Row} (ht : TextOf s ((a :: b :: ts) :: rows)) (h : FileOf v sbase d ((a :: b :: ts) :: rows)) (hs : d.Sound v)
    (hc : ∀ c : Case, c.sbase = sbase → d.Means v c → (c.buses.map BusRec.i).Pairwise (· < ·) → c.Plain) {o : Out} (ho : parseRawText s = .ok o) :
    ∃ c : Case, c.sbase = sbase ∧ d.Means v c ∧ (c.buses.map BusRec.i).Pairwise (· < ·) ∧ ∃ Z : TwoRec → ℂ, ∀ V : ℤ → ℂ, (∀ k, c.Energised k → V k ≠ 0) →
      ((∃ x, (∀ k, c.Energised k → (o.toNetwork.assign L).voltages x (some (o.pos k)) = V k) ∧
        ∀ i, networkEq (o.toNetwork.assign L).all 0 x i = 0) ↔ c.PowerFlow Z V) := by
  obtain ⟨c, h1, h2, h3, h4⟩ := C110_text_partial hv ht h hs
  exact ⟨c, h2, h3, h4, C79_power_flow_partial hL (hc c h2 h3 h4) (h1.symm.trans ho)⟩

/-- **C113.** A text whose case identification states a version other than 30, 32, 33 and 34 is never loaded, whatever follows. -/
theorem C113_version {s : Txt} {header fields title1 title2 : Row} {first body : List Row} (hfirst : first = [] ∨ ∃ c, Comment c ∧ first = [c])
    (hh : HeaderRow header fields) (hf : Fits caseColumns 6 ["IC", "SBASE"] fields) {v : ℤ} (hv : Int' (some 33) (under caseColumns fields "REV") v)
    (hs : rowsOf s = .ok (first ++ header :: title1 :: title2 :: body)) (h : v ≠ 30 ∧ v ≠ 32 ∧ v ≠ 33 ∧ v ≠ 34) (o : Out) : parseRawText s ≠ .ok o := by
  intro e
  simp only [parseRawText, readText, hs] at e
  split at e
  · cases e
  · rename_i f hf'
    have hrev := readRows_rev hfirst hh hf hv hf'
    have hno : f.rev ∉ ([30, 32, 33, 34] : List ℤ) := by rw [hrev]; simpa using h
    split at e
    · cases e
    · rename_i c hc
      have hb : f.buses = [] := by
        by_contra hb
        rw [RawFile.toCase, if_pos ⟨hno, hb⟩] at hc
        cases hc
      rw [RawFile.toCase, if_neg (by simp [hb])] at hc
      obtain ⟨g, -, hc⟩ := bind_ok hc
      obtain ⟨t, -, hc⟩ := bind_ok hc
      cases hc
      have hon : ∀ c : Case, c.buses = [] → parseRaw c ≠ .ok o := by
        intro c hb e
        have hl : largest c.online = .error .value := by
          have : c.online = [] := by simp [Case.online, hb]
          rw [this]; rfl
        unfold parseRaw at e
        simp only [hl] at e
        repeat (split at e; · cases e)
        cases e
      exact hon _ (by simp [hb, sortedBy]) e

/-! ### A concrete file -/

/-- The lines of a file of version 33, with a comment. -/
def feedLines : List (List Written) :=
  let p := plainField
  let q := quotedField
  [[p "0", p "   100.00", p " 33", p " 0", p " 0", p " 60.00     / A FEEDER"],
   [p "two buses"],
   [p "and a line", p " with a comma"],
   [p "1", q 0 "ONE, SWING  " 0, p " 138.0", p "3", p "   1", p "   1", p "   1", p "1.00000", p "   0.0000", p "1.1", p "0.9", p "1.1", p "0.9"],
   [p "@ a comment"],
   [p "2", q 1 "O'TWO       " 1, p " 138.0", p "1", p "   1", p "   1", p "   1", p "", p "", p "1.1", p "0.9", p "1.1", p "0.9"],
   [p "0 / END OF BUS DATA", p " BEGIN LOAD DATA"],
   [p "2", q 0 "1 " 0, p "1", p "   1", p "   1", p "    80.000", p "     0.000", p "", p "", p "", p "", p "   1", p "1"],
   [p "0 / END OF LOAD DATA"],
   [p " 0 / END OF FIXED SHUNT DATA"],
   [p "1", q 0 "1 " 0, p "     0.000", p "     0.000", p "    50.000", p "   -50.000", p "1.00000", p "0", p "   100.000", p "0.0", p "1.0", p "0", p "0", p "1.0", p "1",
     p "  100.0", p "  9999.000", p " -9999.000"],
   [p "0 / END OF GENERATOR DATA"],
   [p "1", p "    2", q 0 "1 " 0, p "0.0", p " .5", p "0.0", p "", p "", p "", p "", p "", p "", p "", p "1"],
   [p "0"],
   [p "Q"]]

/-- The same, character by character. -/
theorem feedLines_text : renderText feedLines = [
    "0,   100.00, 33, 0, 0, 60.00     / A FEEDER\n",
    "two buses\n",
    "and a line, with a comma\n",
    "1,'ONE, SWING  ', 138.0,3,   1,   1,   1,1.00000,   0.0000,1.1,0.9,1.1,0.9\n",
    "@ a comment\n",
    "2, 'O''TWO       ' , 138.0,1,   1,   1,   1,,,1.1,0.9,1.1,0.9\n",
    "0 / END OF BUS DATA, BEGIN LOAD DATA\n",
    "2,'1 ',1,   1,   1,    80.000,     0.000,,,,,   1,1\n",
    "0 / END OF LOAD DATA\n",
    " 0 / END OF FIXED SHUNT DATA\n",
    "1,'1 ',     0.000,     0.000,    50.000,   -50.000,1.00000,0,   100.000,0.0,1.0,0,0,1.0,1,  100.0,  9999.000, -9999.000\n",
    "0 / END OF GENERATOR DATA\n",
    "1,    2,'1 ',0.0, .5,0.0,,,,,,,,1\n",
    "0\n",
    "Q\n"].flatMap String.toList := by decide +kernel

/-- The records of the file. -/
def feedDocument : Document where
  buses := ([feedLines[3], feedLines[5]]).map fun l => l.map Written.text
  loads := [feedLines[7].map Written.text]
  generators := [feedLines[10].map Written.text]
  branches := [feedLines[12].map Written.text]

theorem feed_text : TextOf (renderText feedLines) (contents feedLines) := renderText_text (by decide +kernel)

theorem feed_sound : feedDocument.Sound 33 where
  buses := fun r hr => fitsB_fits (by revert r; decide +kernel)
  loads := fun r hr => fitsB_fits (by revert r; decide +kernel)
  fixed := fun r hr => absurd hr List.not_mem_nil
  generators := fun r hr => ⟨fitsB_fits (by revert r; decide +kernel), .inl (by revert r; decide +kernel)⟩
  branches := fun r hr => fitsB_fits (by revert r; decide +kernel)
  two := fun r hr => absurd hr List.not_mem_nil
  three := fun r hr => absurd hr List.not_mem_nil
  switched := fun r hr => absurd hr List.not_mem_nil
  areas := fun r hr => absurd hr List.not_mem_nil
  twoTerminal := fun r hr => absurd hr List.not_mem_nil
  vsc := fun r hr => absurd hr List.not_mem_nil
  corrections := fun _ r hr => absurd hr List.not_mem_nil
  multiSection := fun r hr => absurd hr List.not_mem_nil
  zones := fun r hr => absurd hr List.not_mem_nil
  interarea := fun r hr => absurd hr List.not_mem_nil
  owners := fun r hr => absurd hr List.not_mem_nil
  facts := fun r hr => absurd hr List.not_mem_nil
  clean := fun r hr t ht => trimmed_of (by revert t; revert r; decide +kernel) (by revert t; revert r; decide +kernel)
  busNames := pairsB_pairwise (fun _ _ => apartB_apart) (by decide +kernel)
  loadNames := pairsB_pairwise (fun _ _ => apartB_apart) (by decide +kernel)
  fixedNames := .nil
  generatorNames := pairsB_pairwise (fun _ _ => apartB_apart) (by decide +kernel)
  branchNames := pairsB_pairwise (fun _ _ => apartB_apart) (by decide +kernel)
  twoNames := .nil
  threeNames := .nil
  switchedNames := .nil

theorem feed_header {d : Document} {body : List Row} (h : LaysOut (Tail 33) (d.sections 33) body) : FileOf 33 100 d (contents (feedLines.take 3) ++ body) := by
  refine ⟨[], feedLines[0].map Written.text, ["0", "100.00", "33", "0", "0", "60.00"].map String.toList, feedLines[1].map Written.text, feedLines[2].map Written.text,
    body, rfl, .inl rfl, ?_, fitsB_fits (by decide +kernel), ?_, ?_, h⟩
  · have : feedLines[0].map Written.text = ["0", "100.00", "33", "0", "0"].map String.toList ++ ["60.00".toList ++ "     ".toList ++ '/' :: " A FEEDER".toList] := by
      decide +kernel
    rw [this]
    exact .comment _ [] _ _ _ rfl (by unfold Blank; decide +kernel) (by decide +kernel)
  · have h := Number.mk [] "100.00".toList [] 1 0 _ .none (.point "100".toList "00".toList (by decide) (by decide) (by decide)) .none
    have e : ((1 : ℤ) : ℚ) * ((Glm.decimal "100".toList : ℚ) + (Glm.decimal "00".toList : ℚ) / 10 ^ "00".toList.length) * 10 ^ (0 : ℤ) = 100 := by
      decide +kernel
    rw [e] at h
    exact ⟨100, by norm_num, .inr h⟩
  · exact .inr ⟨[], "33".toList, 1, .none, by decide, by decide, by decide +kernel, by decide +kernel⟩

theorem feed_opening (k : ℕ) (hk : openingB ((feedLines.getD k []).map Written.text) = true) : Opening ((feedLines.getD k []).map Written.text) := openingB_opening hk

theorem feed_rest : LaysOut (Tail 33) (feedDocument.sections 33).tail (contents (feedLines.drop 7)) := by
  have h2 : Terminator (feedLines[8].map Written.text) := .inr ⟨" END OF LOAD DATA".toList, [], by decide +kernel⟩
  have h3 : Terminator (feedLines[9].map Written.text) := .inr ⟨" END OF FIXED SHUNT DATA".toList, [], by decide +kernel⟩
  have h4 : Terminator (feedLines[11].map Written.text) := .inr ⟨" END OF GENERATOR DATA".toList, [], by decide +kernel⟩
  have h5 : Terminator (feedLines[13].map Written.text) := .inl (by decide +kernel)
  have hq : FileEnd (feedLines[14].map Written.text) := ⟨'Q', [], [], by decide +kernel, .inr rfl⟩
  exact .sect (.item (feed_opening 7 (by decide +kernel)) (.stop h2)) (.sect (.stop h3) (.sect (.item (feed_opening 10 (by decide +kernel)) (.stop h4))
    (.sect (.item (feed_opening 12 (by decide +kernel)) (.stop h5))
    (.early (cs := []) (by simp) (by decide +kernel) (by simp) hq))))

theorem feed_stop : Terminator (feedLines[6].map Written.text) := .inr ⟨" END OF BUS DATA".toList, ["BEGIN LOAD DATA".toList], by decide +kernel⟩

theorem feed_rows : FileOf 33 100 feedDocument (contents feedLines) := by
  have hc : Comment (feedLines[4].map Written.text) := ⟨" a comment".toList, [], by decide +kernel⟩
  refine feed_header (body := contents (feedLines.drop 3)) ?_
  exact .sect (.item (feed_opening 3 (by decide +kernel)) (.comment hc (.item (feed_opening 5 (by decide +kernel)) (.stop feed_stop)))) feed_rest

/-- C109 applies: the text is cut into these fields. -/
example : rowsOf (renderText feedLines) = .ok (contents feedLines) := C109_rows feed_text

/-- Commas and quotes between quotes belong to the field. -/
example : (contents feedLines)[3][1]! = "ONE, SWING".toList ∧ (contents feedLines)[5][1]! = "O'TWO".toList := by decide +kernel

/-- C110 applies: the case is read. -/
example : ∃ c, parseRawText (renderText feedLines) = parseRaw c ∧ c.sbase = 100 ∧ feedDocument.Means 33 c ∧ (c.buses.map BusRec.i).Pairwise (· < ·) :=
  C110_text_partial (.inr (.inl rfl)) feed_text feed_rows feed_sound

theorem feed_means : feedDocument.Means 33 feedCase where
  buses := by
    refine ⟨_, .refl _, .cons ⟨int_of ?_ ?_, int_of ?_ ?_, num_of 1 ?_ ?_ ?_, num_of 0 ?_ ?_ ?_, num_of 138 ?_ ?_ ?_⟩
      (.cons ⟨int_of ?_ ?_, int_of ?_ ?_, num_blank 1 ?_ ?_, num_blank 0 ?_ ?_, num_of 138 ?_ ?_ ?_⟩ .nil)⟩
    all_goals first | decide +kernel | norm_num
  loads := by
    refine ⟨_, .refl _, .cons ⟨int_of ?_ ?_, int_of ?_ ?_, num_of 80 ?_ ?_ ?_, num_of 0 ?_ ?_ ?_, num_blank 0 ?_ ?_, num_blank 0 ?_ ?_, num_blank 0 ?_ ?_,
      num_blank 0 ?_ ?_⟩ .nil⟩
    all_goals first | decide +kernel | norm_num
  fixed := ⟨[], .refl _, .nil⟩
  generators := by
    refine ⟨_, .refl _, .cons ⟨int_of ?_ ?_, num_of 0 ?_ ?_ ?_, num_of 0 ?_ ?_ ?_, num_of 50 ?_ ?_ ?_, num_of (-50) ?_ ?_ ?_, num_of 1 ?_ ?_ ?_, int_of ?_ ?_,
      .inl ⟨?_, ?_⟩, num_blank 1 ?_ ?_⟩ .nil⟩
    all_goals first | decide +kernel | norm_num
  branches := by
    refine ⟨_, .refl _, .cons ⟨int_of ?_ ?_, int_of ?_ ?_, num_of 0 ?_ ?_ ?_, num_of (1 / 2) ?_ ?_ ?_, num_of 0 ?_ ?_ ?_, num_blank 0 ?_ ?_, num_blank 0 ?_ ?_,
      num_blank 0 ?_ ?_, num_blank 0 ?_ ?_, int_of ?_ ?_⟩ .nil⟩
    all_goals first | decide +kernel | norm_num
  two := ⟨[], .refl _, .nil⟩
  three := ⟨[], .refl _, .nil⟩
  switched := ⟨[], .refl _, .nil⟩

/-- The only case the document states, with buses in order. -/
theorem feed_case {c : Case} (hb : c.sbase = 100) (h : feedDocument.Means 33 c) (ho : (c.buses.map BusRec.i).Pairwise (· < ·)) : c = feedCase := by
  obtain ⟨h1, h2, h3, h4, h5, h6, h7⟩ := C110_determined h feed_means
  have h8 : c.three = [] := by
    obtain ⟨l, hl, hf⟩ := h.three
    cases hf
    exact hl.nil_eq.symm
  have h1' : c.buses = feedCase.buses := by
    refine List.Perm.eq_of_pairwise (le := fun a b => a.i < b.i) ?_ (List.pairwise_map.1 ho) ?_ h1
    · intro a b _ _ x y
      exact absurd x (lt_asymm y)
    · exact List.pairwise_map.1 (by simp [feedCase])
  obtain ⟨sbase, buses, generators, switched, fixed, loads, branches, two, three⟩ := c
  simp only at hb h1' h2 h3 h4 h5 h6 h7 h8
  subst hb h1' h8
  have e2 := h2.symm.singleton_eq
  have e3 := h3.eq_nil
  have e4 := h4.symm.singleton_eq
  have e5 := h5.symm.singleton_eq
  have e6 := h6.eq_nil
  have e7 := (h7 (by decide)).eq_nil
  rw [← e2, e3, ← e4, ← e5, e6, e7]
  rfl

/-- C112 applies: the text is loaded. -/
example : ∃ o, parseRawText (renderText feedLines) = .ok o :=
  C112_loads_partial (.inr (.inl rfl)) feed_text feed_rows feed_sound fun _ hb hm ho => feed_case hb hm ho ▸ feedCase_supported

/-- Its equations have the power flow of the feeder as a solution. -/
example {L : Library} (hL : L.Loaded) : ∃ o, parseRawText (renderText feedLines) = .ok o ∧
    ∃ x, (o.toNetwork.assign L).voltages x (some (o.pos 2)) = ⟨4 / 5, -2 / 5⟩ ∧ ∀ i, networkEq (o.toNetwork.assign L).all 0 x i = 0 := by
  obtain ⟨o, ho⟩ := C112_loads_partial (.inr (.inl rfl)) feed_text feed_rows feed_sound fun _ hb hm ho => feed_case hb hm ho ▸ feedCase_supported
  refine ⟨o, ho, ?_⟩
  obtain ⟨c, hb, hm, hord, Z, hZ⟩ := C112_power_flow_partial (.inr (.inl rfl)) hL feed_text feed_rows feed_sound
    (fun _ hb hm ho => feed_case hb hm ho ▸ feedCase_plain) ho
  obtain rfl := feed_case hb hm hord
  obtain ⟨x, hx, h0⟩ := (hZ feedVolts (fun k _ => by
    unfold feedVolts
    split
    · norm_num
    · intro h
      have := congrArg Complex.re h
      norm_num at this)).2 (feedCase_flow Z)
  exact ⟨x, by simpa [feedVolts] using hx 2 (by simp [Case.Energised, feedCase]), h0⟩

/-- The case identification of a file of version 35. -/
def lateHeader : List Written := [plainField "0", plainField "100.0", plainField "35", plainField "0", plainField "0", plainField "60"]

/-- C113 applies to a file of version 35. -/
example (o : Out) : parseRawText (renderText (lateHeader :: feedLines.tail)) ≠ .ok o :=
  C113_version (first := []) (fields := lateHeader.map Written.text) (.inl rfl) (.plain _ [] rfl) (fitsB_fits (by decide +kernel))
    (int_of (n := 35) (by decide +kernel) (by decide +kernel)) (C109_rows (renderText_text (lines := lateHeader :: feedLines.tail) (by decide +kernel))) (by decide) o

/-- The lines with the buses in another order and without the comment. -/
def turnedLines : List (List Written) := feedLines.take 3 ++ [feedLines[5], feedLines[3]] ++ feedLines.drop 6

/-- Their records. -/
def turnedDocument : Document := { feedDocument with buses := feedDocument.buses.reverse }

theorem turned_sound : turnedDocument.Sound 33 := { feed_sound with
  buses := fun r hr => feed_sound.buses r (List.mem_reverse.1 hr)
  busNames := pairsB_pairwise (fun _ _ => apartB_apart) (by decide +kernel) }

theorem turned_rows : FileOf 33 100 turnedDocument (contents turnedLines) := by
  refine feed_header (body := contents (turnedLines.drop 3)) ?_
  exact .sect (.item (feed_opening 5 (by decide +kernel)) (.item (feed_opening 3 (by decide +kernel)) (.stop feed_stop))) feed_rest

/-- C111 applies: both texts give the same network. -/
example : parseRawText (renderText feedLines) = parseRawText (renderText turnedLines) :=
  C111_order_partial (.inr (.inl rfl)) feed_text (renderText_text (lines := turnedLines) (by decide +kernel)) feed_rows turned_rows feed_sound turned_sound
    ⟨(List.reverse_perm _).symm, .refl _, .refl _, .refl _, .refl _, .refl _, .refl _, .refl _⟩

end Verif.Raw
