import Verif.Lemmas.RawSections

/-!
# Records
-/

namespace Verif.Raw

open Glm (Blank strip cutAt Number Sign Exponent Numeral)

/-- The versions whose columns are described. -/
def Version (v : ℤ) : Prop := v = 32 ∨ v = 33 ∨ v = 34

/-! ### Comments behind fields -/

theorem Number.noSlash {t : Txt} {x : ℚ} (h : Number t x) : '/' ∉ t := by
  have hd : ∀ ds : Txt, (∀ c ∈ ds, c.isDigit = true) → '/' ∉ ds := fun ds h hm => absurd (h _ hm) (by decide)
  have hs : ∀ (s : Txt) (k : ℤ), Sign s k → '/' ∉ s := by
    rintro s k (_ | _ | _) <;> decide
  obtain ⟨s, n, e, k, j, y, h1, h2, h3⟩ := h
  simp only [List.mem_append, not_or]
  refine ⟨⟨hs s k h1, ?_⟩, ?_⟩
  · cases h2 with
    | whole ds _ hds => exact hd _ hds
    | point a b _ ha hb =>
      simp only [List.mem_append, List.mem_cons, not_or]
      exact ⟨hd _ ha, by decide, hd _ hb⟩
  · cases h3 with
    | none => simp
    | some c s ds k hc hs' _ hds =>
      simp only [List.mem_cons, List.mem_append, not_or]
      exact ⟨by rcases hc with rfl | rfl <;> decide, hs _ _ hs', hd _ hds⟩

theorem cut_noSlash {t : Txt} (h : '/' ∉ t) : cutAt "/".toList t = t := by
  have := Glm.cutAt_append '/' [] t [] h
  rw [List.append_nil, Glm.cutAt_nil, List.append_nil] at this
  exact this

theorem cut_holds {c : Content} {t : Txt} (hn : c ≠ .text) (h : t = [] ∨ c.Holds t) : cutAt "/".toList t = t := by
  rcases h with rfl | h
  · rfl
  · obtain ⟨x, hx⟩ := Content.Holds.toNumber hn h
    exact cut_noSlash (Number.noSlash hx)

theorem under_cut {cols : List Heading} {n : ℕ} {req : List String} {row : Row} (h : Fits cols n req row) {k : ℕ} {name : String} {c : Content}
    (hc : colAt cols k name c = true) (hn : c ≠ .text) : under cols (row.map fun t => cutAt "/".toList t) name = under cols row name := by
  have hh := h.holds hc
  rw [under_eq hc] at hh
  rw [under_eq hc, under_eq hc]
  rw [List.getD_eq_getElem?_getD] at hh ⊢
  rw [List.getD_eq_getElem?_getD, List.getElem?_map]
  cases hk : row[k]? with
  | none => rfl
  | some t =>
    rw [hk] at hh
    exact cut_holds hn hh

theorem Fits.cut {cols : List Heading} {n : ℕ} {req : List String} {row : Row} (h : Fits cols n req row)
    (hr : ∀ name ∈ req, ∃ k c, colAt cols k name c = true ∧ c ≠ .text) : Fits cols n req (row.map fun t => cutAt "/".toList t) where
  typed k c t hc ht := by
    rw [List.getElem?_map] at ht
    cases hk : row[k]? with
    | none => rw [hk] at ht; cases ht
    | some t' =>
      rw [hk] at ht
      cases ht
      by_cases hn : c.2 = .text
      · rw [hn]; exact .inr trivial
      · have h0 := h.typed k c t' hc hk
        show cutAt "/".toList t' = [] ∨ c.2.Holds (cutAt "/".toList t')
        rw [cut_holds hn h0]
        exact h0
  width := by rw [List.length_map]; exact h.width
  filled name hn := by
    obtain ⟨k, c, hc, hc'⟩ := hr name hn
    rw [under_cut h hc hc']
    exact h.filled name hn

/-! ### Buses -/

theorem readBus_fits {v : ℤ} (hv : Version v) {row : Row} (h : Fits (busColumns v) (busColumns v).length ["I"] row) :
    ∃ b, readBus v row = .ok b ∧ StatesBus v row b.toRec ∧ Integer (under (busColumns v) row "I") b.i := by
  have hw : padRow row (busWidth v) = .ok (row.map fun t => cutAt "/".toList t) := by
    rw [padRow, if_neg]
    have := h.width
    rcases hv with rfl | rfl | rfl <;> exact not_lt.2 this
  have hw9 : 9 ≤ row.length := le_trans (by rcases hv with rfl | rfl | rfl <;> decide +kernel) h.width
  have c0 : colAt (busColumns v) 0 "I" .integer = true := by rcases hv with rfl | rfl | rfl <;> decide +kernel
  have c2 : colAt (busColumns v) 2 "BASKV" .number = true := by rcases hv with rfl | rfl | rfl <;> decide +kernel
  have c3 : colAt (busColumns v) 3 "IDE" .integer = true := by rcases hv with rfl | rfl | rfl <;> decide +kernel
  have c7 : colAt (busColumns v) 7 "VM" .number = true := by rcases hv with rfl | rfl | rfl <;> decide +kernel
  have c8 : colAt (busColumns v) 8 "VA" .number = true := by rcases hv with rfl | rfl | rfl <;> decide +kernel
  have h' := h.cut fun name hn => by
    obtain rfl := List.mem_singleton.1 hn
    exact ⟨0, .integer, c0, by decide⟩
  have hl : (row.map fun t => cutAt "/".toList t).length = row.length := List.length_map _
  obtain ⟨i, ei, si⟩ := intAt_filled h' "I" c0 (by omega) (by simp)
  obtain ⟨ide, eide, side⟩ := intAt_default h' 1 c3 (by omega)
  obtain ⟨vm, evm, svm⟩ := floatAt_default h' .number 1 c7 (by decide) (by omega)
  obtain ⟨va, eva, sva⟩ := floatAt_default h' .number 0 c8 (by decide) (by omega)
  obtain ⟨kv, ekv, skv⟩ := floatAt_default h' .number 0 c2 (by decide) (by omega)
  have k1 : checkFields (row.map fun t => cutAt "/".toList t) [(4, .int, true)] = .ok () :=
    checkFields_fits h' _ (by rcases hv with rfl | rfl | rfl <;> decide +kernel) (by simp; omega)
  have k2 : checkFields (row.map fun t => cutAt "/".toList t) [(5, .int, true), (6, .int, true)] = .ok () :=
    checkFields_fits h' _ (by rcases hv with rfl | rfl | rfl <;> decide +kernel) (by simp; omega)
  rw [under_cut h c0 (by decide)] at si
  rw [under_cut h c2 (by decide)] at skv
  rw [under_cut h c3 (by decide)] at side
  rw [under_cut h c7 (by decide)] at svm
  rw [under_cut h c8 (by decide)] at sva
  refine ⟨⟨i, ide, vm, va, kv⟩, ?_, ⟨.inr si, side, svm, sva, skv⟩, si⟩
  have h30 : v ≠ 30 := by rcases hv with rfl | rfl | rfl <;> decide
  rw [readBus, hw, ok_then, if_neg h30]
  simp only [ei, eide, evm, eva, ekv, k1, k2, ok_then]

/-! ### Loads and fixed shunts -/

theorem strip_clean {t : Txt} (h : Trimmed t) : strip t = t := by
  have := strip_trimmed (l := []) (r := []) (fun _ h => by cases h) (fun _ h => by cases h) h
  simpa using this

theorem identifier_strip (cols : List Heading) {row : Row} (name : String) (ht : ∀ t ∈ row, Trimmed t) :
    strip (identifier (under cols row name)) = identifier (under cols row name) := by
  rw [identifier]
  split
  · decide
  · rename_i h
    rw [under] at h ⊢
    rw [List.getD_eq_getElem?_getD] at h ⊢
    cases hk : row[(cols.map Prod.fst).idxOf name]? with
    | none => rw [hk] at h; exact absurd rfl h
    | some t => exact strip_clean (ht t (List.mem_of_getElem? hk))

theorem readLoad_fits {v : ℤ} {row : Row} (h : Fits loadColumns 13 ["I"] row) (hc : ∀ t ∈ row, Trimmed t) :
    ∃ l, readLoad v row = .ok l ∧ StatesLoad row l.toRec ∧ Integer (under loadColumns row "I") l.i ∧ l.id = identifier (under loadColumns row "ID") := by
  have hw := h.width
  obtain ⟨i, ei, si⟩ := intAt_filled (k := 0) h "I" (by decide +kernel) (by omega) (by simp)
  have eid := textAt_identifier (cols := loadColumns) (row := row) (k := 1) (name := "ID") (c := .text) (by decide +kernel) (by omega)
  obtain ⟨st, est, sst⟩ := intAt_default (k := 2) (name := "STATUS") h 1 (by decide +kernel) (by omega)
  obtain ⟨pl, epl, spl⟩ := floatAt_default (k := 5) (name := "PL") h .number 0 (by decide +kernel) (by decide) (by omega)
  obtain ⟨ql, eql, sql⟩ := floatAt_default (k := 6) (name := "QL") h .number 0 (by decide +kernel) (by decide) (by omega)
  obtain ⟨ip, eip, sip⟩ := floatAt_default (k := 7) (name := "IP") h .number 0 (by decide +kernel) (by decide) (by omega)
  obtain ⟨iq, eiq, siq⟩ := floatAt_default (k := 8) (name := "IQ") h .number 0 (by decide +kernel) (by decide) (by omega)
  obtain ⟨yp, eyp, syp⟩ := floatAt_default (k := 9) (name := "YP") h .number 0 (by decide +kernel) (by decide) (by omega)
  obtain ⟨yq, eyq, syq⟩ := floatAt_default (k := 10) (name := "YQ") h .number 0 (by decide +kernel) (by decide) (by omega)
  have k1 : checkFields row [(3, .int, true), (4, .int, true)] = .ok () := checkFields_fits h _ (by decide +kernel) (by simp; omega)
  have k2 : checkFields row [(11, .int, true)] = .ok () := checkFields_fits h _ (by decide +kernel) (by simp; omega)
  have k3 : checkFields row [(12, .int, true)] = .ok () := checkFields_fits h _ (by decide +kernel) (by simp; omega)
  refine ⟨⟨i, strip (identifier (under loadColumns row "ID")), st, pl, ql, ip, iq, yp, yq⟩, ?_, ⟨.inr si, sst, spl, sql, sip, siq, syp, syq⟩, si,
    identifier_strip _ _ hc⟩
  rw [readLoad]
  simp only [ei, eid, est, epl, eql, eip, eiq, eyp, eyq, k1, k2, k3, ok_then, ite_self]

theorem readFixed_fits {row : Row} (h : Fits fixedColumns 5 ["I"] row) (hc : ∀ t ∈ row, Trimmed t) :
    ∃ s, readFixed row = .ok s ∧ StatesFixed row s.toRec ∧ Integer (under fixedColumns row "I") s.i ∧ s.id = identifier (under fixedColumns row "ID") := by
  have hw := h.width
  obtain ⟨i, ei, si⟩ := intAt_filled (k := 0) h "I" (by decide +kernel) (by omega) (by simp)
  have eid := textAt_identifier (cols := fixedColumns) (row := row) (k := 1) (name := "ID") (c := .text) (by decide +kernel) (by omega)
  obtain ⟨st, est, sst⟩ := intAt_default (k := 2) (name := "STATUS") h 1 (by decide +kernel) (by omega)
  obtain ⟨gl, egl, sgl⟩ := floatAt_default (k := 3) (name := "GL") h .number 0 (by decide +kernel) (by decide) (by omega)
  obtain ⟨bl, ebl, sbl⟩ := floatAt_default (k := 4) (name := "BL") h .number 0 (by decide +kernel) (by decide) (by omega)
  refine ⟨⟨i, strip (identifier (under fixedColumns row "ID")), st, gl, bl⟩, ?_, ⟨.inr si, sst, sgl, sbl⟩, si, identifier_strip _ _ hc⟩
  rw [readFixed]
  simp only [ei, eid, est, egl, ebl, ok_then]

/-! ### Generators -/

theorem digitsIn_digits {t : Txt} (hne : t ≠ []) (h : ∀ c ∈ t, c.isDigit = true) : digitsIn t = .ok t := by
  have h1 : t.dropWhile (fun c => !c.isDigit) = t := by
    cases t with
    | nil => rfl
    | cons c t => rw [List.dropWhile_cons, if_neg]; simp [h c (by simp)]
  have h2 : t.takeWhile Char.isDigit = t := by
    clear h1 hne
    induction t with
    | nil => rfl
    | cons c t ih => rw [List.takeWhile_cons, if_pos (h c (by simp)), ih fun d hd => h d (by simp [hd])]
  rw [digitsIn]
  simp only [h1]
  rw [if_neg hne, h2]

theorem readWind_fits {v : ℤ} (hv : Version v) {row : Row} (h : FitsGen row) :
    ∃ w, readWind v row = .ok w ∧ Int' (some 0) (under genColumns row "WMOD") w.1 ∧ Num (some 1) (under genColumns row "WPF") w.2 := by
  have c26 : colAt genColumns 26 "WMOD" .integer = true := by decide +kernel
  have c27 : colAt genColumns 27 "WPF" .number = true := by decide +kernel
  have h30 : v ≠ 30 := by rcases hv with rfl | rfl | rfl <;> decide
  rcases h.wind with hl | ⟨hl, hp, hm⟩
  · refine ⟨(0, 1), ?_, .inl ⟨?_, rfl⟩, 1, by simp, .inl ⟨?_, rfl⟩⟩
    · rw [readWind, if_neg (by omega)]
    · rw [under_eq c26, List.getD_eq_getElem?_getD, List.getElem?_eq_none (by omega)]; rfl
    · rw [under_eq c27, List.getD_eq_getElem?_getD, List.getElem?_eq_none (by omega)]; rfl
  · have e1 : cell row (row.length - 2) = .ok (under genColumns row "WMOD") := by
      rw [hl, under_eq c26]; exact cell_eq (by omega)
    rcases h.fits.holds c27 with e | ⟨x, hx⟩
    · exact absurd e hp
    have e2 : floatAt row (row.length - 1) (some 0) = .ok x := by
      rw [hl, floatAt, cell_eq (by omega), ok_then]
      show parseToken toFloat (some 0) (row.getD 27 []) = .ok x
      rw [← under_eq c27, parseToken_ne _ _ hp, toFloat_number hx]
    have e3 : readWind v row = (do
        let wmod ← parseToken (fun t => do
          let ds ← digitsIn t
          toInt ds) (some 0) (under genColumns row "WMOD")
        (Except.ok (wmod, x) : Py (ℤ × ℚ))) := by
      rw [readWind, if_pos (by omega), e1, ok_then, e2]
      rfl
    rw [e3]
    rcases h.fits.holds c26 with e | ⟨n, hn⟩
    · exact ⟨(0, x), by unfold parseToken; rw [if_pos e]; rfl, .inl ⟨e, rfl⟩, x, rfl, .inr hx⟩
    · refine ⟨(n, x), ?_, .inr hn, x, rfl, .inr hx⟩
      rw [parseToken_ne _ _ (Number.ne_nil hn.number), digitsIn_digits (Number.ne_nil hn.number) hm, ok_then, toInt_integer hn]
      rfl

theorem readGen_fits {v : ℤ} (hv : Version v) {row : Row} (h : FitsGen row) (hc : ∀ t ∈ row, Trimmed t) :
    ∃ g, readGen v row = .ok (some g) ∧ StatesGen row g.toRec ∧ Integer (under genColumns row "I") g.i ∧ g.id = identifier (under genColumns row "ID") := by
  obtain ⟨w, ew, sm, sp⟩ := readWind_fits hv h
  have hf := h.fits.fullRow 28
  have hw := hf.width
  have hu := under_fullRow genColumns row 28
  obtain ⟨i, ei, si⟩ := intAt_filled (k := 0) hf "I" (by decide +kernel) (by omega) (by simp)
  have eid := textAt_identifier (cols := genColumns) (row := fullRow row 28) (k := 1) (name := "ID") (c := .text) (by decide +kernel) (by omega)
  obtain ⟨pg, epg, spg⟩ := floatAt_default (k := 2) (name := "PG") hf .number 0 (by decide +kernel) (by decide) (by omega)
  obtain ⟨qg, eqg, sqg⟩ := floatAt_default (k := 3) (name := "QG") hf .number 0 (by decide +kernel) (by decide) (by omega)
  obtain ⟨qt, eqt, sqt⟩ := floatAt_default (k := 4) (name := "QT") hf .number 9999 (by decide +kernel) (by decide) (by omega)
  obtain ⟨qb, eqb, sqb⟩ := floatAt_default (k := 5) (name := "QB") hf .number (-9999) (by decide +kernel) (by decide) (by omega)
  obtain ⟨vs, evs, svs⟩ := floatAt_default (k := 6) (name := "VS") hf .number 1 (by decide +kernel) (by decide) (by omega)
  obtain ⟨st, est, sst⟩ := intAt_default (k := 14) (name := "STAT") hf 1 (by decide +kernel) (by omega)
  have k1 : checkFields (fullRow row 28) [(16, .float, true), (17, .float, true)] = .ok () := checkFields_fits hf _ (by decide +kernel) (by simp; omega)
  have k2 : checkFields (fullRow row 28) [(7, .int, true), (8, .float, true), (9, .float, true), (10, .float, true), (11, .float, true),
      (12, .float, true), (13, .float, true), (15, .float, true), (18, .int, true), (19, .digits, true), (20, .int, true),
      (21, .digits, true), (22, .int, true), (23, .digits, true), (24, .int, true), (25, .digits, true)] = .ok () :=
    checkFields_fits hf _ (by decide +kernel) (by simp; omega)
  rw [hu] at si eid spg sqg sqt sqb svs sst
  refine ⟨⟨i, strip (identifier (under genColumns row "ID")), pg, qg, qt, qb, vs, st, w.1, w.2⟩, ?_, ⟨.inr si, spg, sqg, sqt, sqb, svs, sst, sm, sp⟩, si,
    identifier_strip _ _ hc⟩
  rw [readGen, if_neg (not_lt.2 h.fits.width), ew, ok_then]
  simp only [ei, eid, epg, eqg, eqt, eqb, evs, est, k1, k2, ok_then]

/-! ### Branches -/

theorem readBranch_fits {v : ℤ} (hv : Version v) {row : Row} (h : Fits (branchHeadings v) 0 ["I", "J", "R", "X", "ST"] row) (hc : ∀ t ∈ row, Trimmed t) :
    ∃ b, readBranch v row = .ok b ∧ StatesBranch v row b.toRec ∧ Integer (under (branchHeadings v) row "I") b.i ∧
      Integer (under (branchHeadings v) row "J") b.j ∧ b.ckt = identifier (under (branchHeadings v) row "CKT") := by
  have hf := h.fullRow (branchColumns v).width
  have hw := hf.width
  have hu := under_fullRow (branchHeadings v) row (branchColumns v).width
  have hsh : (branchColumns v).shunts + 3 < (branchColumns v).width := by rcases hv with rfl | rfl | rfl <;> decide
  have hst : (branchColumns v).st < (branchColumns v).width := by rcases hv with rfl | rfl | rfl <;> decide
  have h9 : 9 ≤ (branchColumns v).width := by rcases hv with rfl | rfl | rfl <;> decide
  obtain ⟨i, ei, si⟩ := intAt_filled (k := 0) hf "I" (by rcases hv with rfl | rfl | rfl <;> decide +kernel) (by omega) (by simp)
  obtain ⟨j, ej, sj⟩ := intAt_filled (k := 1) hf "J" (by rcases hv with rfl | rfl | rfl <;> decide +kernel) (by omega) (by simp)
  have eid := textAt_identifier (cols := branchHeadings v) (row := fullRow row (branchColumns v).width) (k := 2) (name := "CKT") (c := .text)
    (by rcases hv with rfl | rfl | rfl <;> decide +kernel) (by omega)
  obtain ⟨r, er, sr⟩ := floatAt_filled (k := 3) hf "R" .number (by rcases hv with rfl | rfl | rfl <;> decide +kernel) (by decide) (by omega) (by simp)
  obtain ⟨x, ex, sx⟩ := floatAt_filled (k := 4) hf "X" .number (by rcases hv with rfl | rfl | rfl <;> decide +kernel) (by decide) (by omega) (by simp)
  obtain ⟨b, eb, sb⟩ := floatAt_default (k := 5) (name := "B") hf .number 0 (by rcases hv with rfl | rfl | rfl <;> decide +kernel) (by decide) (by omega)
  obtain ⟨gi, egi, sgi⟩ := floatAt_default (k := (branchColumns v).shunts) (name := "GI") hf .number 0 (by rcases hv with rfl | rfl | rfl <;> decide +kernel) (by decide) (by omega)
  obtain ⟨bi, ebi, sbi⟩ := floatAt_default (k := (branchColumns v).shunts + 1) (name := "BI") hf .number 0 (by rcases hv with rfl | rfl | rfl <;> decide +kernel) (by decide) (by omega)
  obtain ⟨gj, egj, sgj⟩ := floatAt_default (k := (branchColumns v).shunts + 2) (name := "GJ") hf .number 0 (by rcases hv with rfl | rfl | rfl <;> decide +kernel) (by decide) (by omega)
  obtain ⟨bj, ebj, sbj⟩ := floatAt_default (k := (branchColumns v).shunts + 3) (name := "BJ") hf .number 0 (by rcases hv with rfl | rfl | rfl <;> decide +kernel) (by decide) (by omega)
  obtain ⟨st, est, sst⟩ := intAt_filled (k := (branchColumns v).st) hf "ST" (by rcases hv with rfl | rfl | rfl <;> decide +kernel) (by omega) (by simp)
  have k1 : checkFields (fullRow row (branchColumns v).width) (branchColumns v).ratings = .ok () :=
    checkFields_fits hf _ (by rcases hv with rfl | rfl | rfl <;> decide +kernel)
      (fun e he => lt_of_lt_of_le (b := (branchColumns v).width) (by revert e; rcases hv with rfl | rfl | rfl <;> decide +kernel) hw)
  have k2 : checkFields (fullRow row (branchColumns v).width) (branchColumns v).rest = .ok () :=
    checkFields_fits hf _ (by rcases hv with rfl | rfl | rfl <;> decide +kernel)
      (fun e he => lt_of_lt_of_le (b := (branchColumns v).width) (by revert e; rcases hv with rfl | rfl | rfl <;> decide +kernel) hw)
  rw [hu] at si sj eid sb sgi sbi sgj sbj sst
  simp only [hu] at sr sx
  refine ⟨⟨i, j, strip (identifier (under (branchHeadings v) row "CKT")), r, x, b, gi, bi, gj, bj, st⟩, ?_,
    ⟨.inr si, .inr sj, sr _, sx _, sb, sgi, sbi, sgj, sbj, .inr sst⟩, si, sj, identifier_strip _ _ hc⟩
  rw [readBranch]
  simp only [ei, ej, eid, er, ex, eb, egi, ebi, egj, ebj, est, k1, k2, ok_then]

/-! ### Transformers -/

theorem readTurns_fits {v : ℤ} (hv : Version v) {n : ℕ} {row : Row} (h : Fits (windingColumns v) n ["WINDV"] row) (hn : 2 ≤ n) :
    ∃ w u : ℚ, floatAt row 0 (some 1) = .ok w ∧ floatAt row 1 (some 0) = .ok u ∧ Num none (under (windingColumns v) row "WINDV") w ∧
      Num (some 0) (under (windingColumns v) row "NOMV") u := by
  have hw := h.width
  obtain ⟨w, ew, sw⟩ := floatAt_filled (k := 0) h "WINDV" .number (by rcases hv with rfl | rfl | rfl <;> decide +kernel) (by decide) (by omega) (by simp)
  obtain ⟨u, eu, su⟩ := floatAt_default (k := 1) (name := "NOMV") h .number 0 (by rcases hv with rfl | rfl | rfl <;> decide +kernel) (by decide) (by omega)
  exact ⟨w, u, ew _, eu, sw _, su⟩

/-- The fields of a winding row that are read as numbers. -/
theorem winding_fits {v : ℤ} (hv : Version v) {row : Row} (h : Fits (windingColumns v) (if v = 32 then 16 else 17) ["WINDV"] row) :
    ∃ windv nomv ang cod rma rmi ntp : ℚ, floatAt row 0 (some 1) = .ok windv ∧ floatAt row 1 (some 0) = .ok nomv ∧ floatAt row 2 (some 0) = .ok ang ∧
      floatAt row 6 (some 0) = .ok cod ∧ floatAt row 8 (some (11 / 10)) = .ok rma ∧ floatAt row 9 (some (9 / 10)) = .ok rmi ∧
      floatAt row 12 (some 33) = .ok ntp ∧ StatesTurns v row (WindingRow.toRec ⟨windv, nomv, ang, cod, rma, rmi, ntp⟩) ∧
      (v ≠ 34 → StatesControl v row (WindingRow.toRec ⟨windv, nomv, ang, cod, rma, rmi, ntp⟩)) ∧
      checkFields row [(3, .float, true), (4, .float, true), (5, .float, true)] = .ok () ∧ checkFields row [(7, .float, true)] = .ok () ∧
      checkFields row [(10, .float, true), (11, .float, true)] = .ok () ∧ checkFields row [(13, .float, true)] = .ok () ∧
      checkFields row [(13, .float, true), (14, .float, true), (15, .float, true)] = .ok () ∧
      ((v = 33 ∨ v = 34) → checkFields row [(16, .float, true)] = .ok ()) := by
  have hw : 16 ≤ row.length := le_trans (by split <;> omega) h.width
  obtain ⟨w, u, ew, eu, sw, su⟩ := readTurns_fits hv h (by split <;> omega)
  obtain ⟨a, ea, sa⟩ := floatAt_default (k := 2) (name := "ANG") h .number 0 (by rcases hv with rfl | rfl | rfl <;> decide +kernel) (by decide) (by omega)
  have hctl : ∃ cod rma rmi ntp : ℚ, floatAt row 6 (some 0) = .ok cod ∧ floatAt row 8 (some (11 / 10)) = .ok rma ∧
      floatAt row 9 (some (9 / 10)) = .ok rmi ∧ floatAt row 12 (some 33) = .ok ntp ∧ (v ≠ 34 → Num (some 0) (under (windingColumns v) row "COD") cod ∧
      Num (some (11 / 10)) (under (windingColumns v) row "RMA") rma ∧ Num (some (9 / 10)) (under (windingColumns v) row "RMI") rmi ∧
      Num (some 33) (under (windingColumns v) row "NTP") ntp) := by
    by_cases h34 : v = 34
    · subst h34
      obtain ⟨c, ec, _⟩ := floatAt_default (k := 6) (name := "RATE4") h .number 0 (by decide +kernel) (by decide) (by omega)
      obtain ⟨m, em, _⟩ := floatAt_default (k := 8) (name := "RATE6") h .number (11 / 10) (by decide +kernel) (by decide) (by omega)
      obtain ⟨l, el, _⟩ := floatAt_default (k := 9) (name := "RATE7") h .number (9 / 10) (by decide +kernel) (by decide) (by omega)
      obtain ⟨t, et, _⟩ := floatAt_default (k := 12) (name := "RATE10") h .number 33 (by decide +kernel) (by decide) (by omega)
      exact ⟨c, m, l, t, ec, em, el, et, fun h => absurd rfl h⟩
    · have hv' : v = 32 ∨ v = 33 := by rcases hv with h | h | h <;> tauto
      obtain ⟨c, ec, sc⟩ := floatAt_default (k := 6) (name := "COD") h .integer 0 (by rcases hv' with rfl | rfl <;> decide +kernel) (by decide) (by omega)
      obtain ⟨m, em, sm⟩ := floatAt_default (k := 8) (name := "RMA") h .number (11 / 10) (by rcases hv' with rfl | rfl <;> decide +kernel) (by decide) (by omega)
      obtain ⟨l, el, sl⟩ := floatAt_default (k := 9) (name := "RMI") h .number (9 / 10) (by rcases hv' with rfl | rfl <;> decide +kernel) (by decide) (by omega)
      obtain ⟨t, et, st⟩ := floatAt_default (k := 12) (name := "NTP") h .integer 33 (by rcases hv' with rfl | rfl <;> decide +kernel) (by decide) (by omega)
      exact ⟨c, m, l, t, ec, em, el, et, fun _ => ⟨sc, sm, sl, st⟩⟩
  obtain ⟨c, m, l, t, ec, em, el, et, hs⟩ := hctl
  refine ⟨w, u, a, c, m, l, t, ew, eu, ea, ec, em, el, et, ⟨sw, su, sa⟩, fun h34 => ⟨(hs h34).1, (hs h34).2.1, (hs h34).2.2.1, (hs h34).2.2.2⟩,
    ?_, ?_, ?_, ?_, ?_, fun h3 => ?_⟩
  all_goals refine checkFields_fits h _ (by rcases hv with rfl | rfl | rfl <;> first | decide +kernel | omega) ?_
  all_goals simp
  all_goals try omega
  have := h.width
  rw [if_neg (by omega)] at this
  omega

theorem readWinding_fits {v : ℤ} (hv : Version v) {row : Row} (h : Fits (windingColumns v) (if v = 32 then 16 else 17) ["WINDV"] row) :
    ∃ w, readWinding v row = .ok w ∧ StatesTurns v row w.toRec ∧ (v ≠ 34 → StatesControl v row w.toRec) := by
  obtain ⟨w, u, a, c, m, l, t, ew, eu, ea, ec, em, el, et, s1, s2, k1, k2, k3, k4, k5, k6⟩ := winding_fits hv h
  refine ⟨⟨w, u, a, c, m, l, t⟩, ?_, s1, s2⟩
  rw [readWinding]
  simp only [ew, eu, ea, ec, em, el, et, k1, k2, k3, k5, ok_then]
  split
  · rename_i h3
    rw [k6 h3]; rfl
  · rfl

theorem compatible_mono {cols : List Heading} {req : List String} {e : ℕ × Kind × Bool} (h : Compatible cols [] e = true) : Compatible cols req e = true := by
  rw [Compatible] at h ⊢
  cases hc : cols[e.1]? with
  | none => rw [hc] at h; cases h
  | some nc =>
    rw [hc] at h
    simp only [Bool.and_eq_true, Bool.or_eq_true] at h ⊢
    refine ⟨⟨h.1.1, ?_⟩, h.2⟩
    rcases h.1.2 with h' | h'
    · exact .inl h'
    · simp at h'

theorem ite_then {β : Type} {p : Prop} [Decidable p] {a : Py Unit} {x : Py β} (h : p → a = .ok ()) : (if p then (a >>= fun _ => x) else x) = x := by
  split
  · rename_i hp
    rw [h hp]; rfl
  · rfl

theorem readWinding3_fits {v : ℤ} (hv : Version v) {m : ℕ} {req : List String} {first row : Row} (hf : Fits (xfmrColumns v) m req first)
    (h : Fits (windingColumns v) (if v = 32 then 16 else 17) ["WINDV"] row) :
    ∃ w, readWinding3 v first row = .ok w ∧ StatesTurns v row w.toRec := by
  obtain ⟨w, u, a, c, m, l, t, ew, eu, ea, ec, em, el, et, s1, s2, k1, k2, k3, k4, k5, k6⟩ := winding_fits hv h
  refine ⟨⟨w, u, a, c, m, l, t⟩, ?_, s1⟩
  have f1 : 14 < first.length → checkFields first [(14, .float, true)] = .ok () := fun hl =>
    checkFields_fits hf _ (fun e he => compatible_mono (by revert e; rcases hv with rfl | rfl | rfl <;> decide +kernel)) (by simpa using hl)
  have f2 : 15 < first.length → checkFields first [(15, .float, true)] = .ok () := fun hl =>
    checkFields_fits hf _ (fun e he => compatible_mono (by revert e; rcases hv with rfl | rfl | rfl <;> decide +kernel)) (by simpa using hl)
  rw [readWinding3]
  simp only [ew, eu, ea, ec, em, el, et, k1, k2, k3, k4, ok_then]
  rw [ite_then f1, ite_then f2, ite_then k6]

theorem readCodes_fits {v : ℤ} (hv : Version v) {req : List String} {row : Row} (h : Fits (xfmrColumns v) (if v = 32 then 14 else 21) req row) :
    ∃ c, readCodes v row = .ok c ∧ Int' (some 1) (under (xfmrColumns v) row "CW") c.cw ∧ Int' (some 1) (under (xfmrColumns v) row "CZ") c.cz ∧
      Int' (some 1) (under (xfmrColumns v) row "CM") c.cm ∧ Num (some 0) (under (xfmrColumns v) row "MAG1") c.mag1 ∧
      Num (some 0) (under (xfmrColumns v) row "MAG2") c.mag2 ∧ Int' (some 1) (under (xfmrColumns v) row "STAT") c.stat := by
  have hw : 14 ≤ row.length := le_trans (by split <;> omega) h.width
  obtain ⟨cw, ecw, scw⟩ := intAt_default (k := 4) (name := "CW") h 1 (by rcases hv with rfl | rfl | rfl <;> decide +kernel) (by omega)
  obtain ⟨cz, ecz, scz⟩ := intAt_default (k := 5) (name := "CZ") h 1 (by rcases hv with rfl | rfl | rfl <;> decide +kernel) (by omega)
  obtain ⟨cm, ecm, scm⟩ := intAt_default (k := 6) (name := "CM") h 1 (by rcases hv with rfl | rfl | rfl <;> decide +kernel) (by omega)
  obtain ⟨m1, em1, sm1⟩ := floatAt_default (k := 7) (name := "MAG1") h .number 0 (by rcases hv with rfl | rfl | rfl <;> decide +kernel) (by decide) (by omega)
  obtain ⟨m2, em2, sm2⟩ := floatAt_default (k := 8) (name := "MAG2") h .number 0 (by rcases hv with rfl | rfl | rfl <;> decide +kernel) (by decide) (by omega)
  obtain ⟨st, est, sst⟩ := intAt_default (k := 11) (name := "STAT") h 1 (by rcases hv with rfl | rfl | rfl <;> decide +kernel) (by omega)
  have k1 : checkFields row [(9, .int, true), (10, .text, true)] = .ok () :=
    checkFields_fits h _ (fun e he => compatible_mono (by revert e; rcases hv with rfl | rfl | rfl <;> decide +kernel)) (by simp; omega)
  have k2 : checkFields row [(12, .int, true), (13, .float, true)] = .ok () :=
    checkFields_fits h _ (fun e he => compatible_mono (by revert e; rcases hv with rfl | rfl | rfl <;> decide +kernel)) (by simp; omega)
  have k3 : 15 < row.length → checkFields row [(14, .int, true), (15, .float, true)] = .ok () := fun hl =>
    checkFields_fits h _ (fun e he => compatible_mono (by revert e; rcases hv with rfl | rfl | rfl <;> decide +kernel)) (by simp; omega)
  have k4 : 17 < row.length → checkFields row [(16, .int, true), (17, .float, true)] = .ok () := fun hl =>
    checkFields_fits h _ (fun e he => compatible_mono (by revert e; rcases hv with rfl | rfl | rfl <;> decide +kernel)) (by simp; omega)
  have k5 : 19 < row.length → checkFields row [(18, .int, true), (19, .float, true)] = .ok () := fun hl =>
    checkFields_fits h _ (fun e he => compatible_mono (by revert e; rcases hv with rfl | rfl | rfl <;> decide +kernel)) (by simp; omega)
  have k6 : (v = 33 ∨ v = 34) → checkFields row [(20, .text, true)] = .ok () := by
    intro h3
    refine checkFields_fits h _ (fun e he => compatible_mono (by revert e; rcases h3 with rfl | rfl <;> decide +kernel)) ?_
    have := h.width
    rw [if_neg (by omega)] at this
    simp; omega
  refine ⟨⟨cw, cz, cm, m1, m2, st⟩, ?_, scw, scz, scm, sm1, sm2, sst⟩
  rw [readCodes]
  simp only [ecw, ecz, ecm, em1, em2, est, k1, k2, ok_then]
  rw [ite_then k3, ite_then k4, ite_then k5, ite_then k6]

theorem readTwo_fits {v : ℤ} (hv : Version v) {x : TwoRows} (h : FitsTwo v x) :
    ∃ (t : TwoRow) (rec : TwoRec), readTwo v x.r1 x.r2 x.r3 x.r4 = .ok t ∧ t.toRec = .ok rec ∧
      StatesTwo v x.r1 x.r2 x.r3 x.r4 rec ∧ (v ≠ 34 → StatesControl v x.r3 rec.w1) ∧
      t.i = under (xfmrColumns v) x.r1 "I" ∧ t.j = under (xfmrColumns v) x.r1 "J" ∧ t.ckt = under (xfmrColumns v) x.r1 "CKT" := by
  have c0 : colAt (xfmrColumns v) 0 "I" .integer = true := by rcases hv with rfl | rfl | rfl <;> decide +kernel
  have c1 : colAt (xfmrColumns v) 1 "J" .integer = true := by rcases hv with rfl | rfl | rfl <;> decide +kernel
  have c3 : colAt (xfmrColumns v) 3 "CKT" .text = true := by rcases hv with rfl | rfl | rfl <;> decide +kernel
  have hw : 14 ≤ x.r1.length := le_trans (by split <;> omega) h.r1.width
  have hw2 := h.r2.width
  obtain ⟨i, hi⟩ := (h.r1.holds c0).resolve_left (h.r1.filled "I" (by simp))
  obtain ⟨j, hj⟩ := (h.r1.holds c1).resolve_left (h.r1.filled "J" (by simp))
  have hck := h.r1.filled "CKT" (by simp)
  have ei : textAt x.r1 0 none = .ok (under (xfmrColumns v) x.r1 "I") := by
    rw [textAt, cell_eq (by omega), ok_then, ← under_eq c0, parseToken_ne _ _ (Number.ne_nil hi.number)]
  have ej : textAt x.r1 1 none = .ok (under (xfmrColumns v) x.r1 "J") := by
    rw [textAt, cell_eq (by omega), ok_then, ← under_eq c1, parseToken_ne _ _ (Number.ne_nil hj.number)]
  have ek : textAt x.r1 3 none = .ok (under (xfmrColumns v) x.r1 "CKT") := by
    rw [textAt, cell_eq (by omega), ok_then, ← under_eq c3, parseToken_ne _ _ hck]
  obtain ⟨c, ec, scw, scz, scm, sm1, sm2, sst⟩ := readCodes_fits hv h.r1
  obtain ⟨r, er, sr⟩ := floatAt_default (k := 0) (name := "R1-2") h.r2 .number 0 (by decide +kernel) (by decide) (by omega)
  obtain ⟨xx, ex, sx⟩ := floatAt_filled (k := 1) h.r2 "X1-2" .number (by decide +kernel) (by decide) (by omega) (by simp)
  obtain ⟨s, es, ss⟩ := floatAt_filled (k := 2) h.r2 "SBASE1-2" .number (by decide +kernel) (by decide) (by omega) (by simp)
  obtain ⟨w1, ew1, st1, sc1⟩ := readWinding_fits hv h.r3
  obtain ⟨w, u, ew, eu, sw, su⟩ := readTurns_fits hv h.r4 le_rfl
  refine ⟨⟨under (xfmrColumns v) x.r1 "I", under (xfmrColumns v) x.r1 "J", under (xfmrColumns v) x.r1 "CKT", c, r, xx, s, w1, w, u⟩, ?_, ?_, ?_, ?_, ?_, rfl, rfl, rfl⟩
  · exact { i := i, j := j, stat := c.stat, cw := c.cw, cz := c.cz, cm := c.cm, mag1 := c.mag1, mag2 := c.mag2, z12 := ⟨r, xx, s⟩, w1 := w1.toRec,
            windv2 := w, nomv2 := u }
  · rw [readTwo]
    simp only [ei, ej, ek, ec, er, ex, es, ew1, ew, eu, ok_then]
  · rw [TwoRow.toRec]
    simp only [toInt_integer hi, toInt_integer hj, ok_then]
  · exact ⟨.inr hi, .inr hj, scw, scz, scm, sm1, sm2, sst, sr, sx _, ss _, st1, sw, su⟩
  · exact sc1

theorem readImpedance_fits {n k : ℕ} {a b c : String} {req : List String} {row : Row} (h : Fits impedanceColumns n req row) (ha : colAt impedanceColumns k a .number = true)
    (hb : colAt impedanceColumns (k + 1) b .number = true) (hc : colAt impedanceColumns (k + 2) c .number = true) (hn : k + 2 < n) (hb' : b ∈ req) (hc' : c ∈ req) :
    ∃ z, readImpedance row k = .ok z ∧ Num (some 0) (under impedanceColumns row a) z.r ∧ Num none (under impedanceColumns row b) z.x ∧
      Num none (under impedanceColumns row c) z.sbase := by
  have hw := h.width
  obtain ⟨r, er, sr⟩ := floatAt_default h .number 0 ha (by decide) (by omega)
  obtain ⟨x, ex, sx⟩ := floatAt_filled h b .number hb (by decide) (by omega) hb'
  obtain ⟨s, es, ss⟩ := floatAt_filled h c .number hc (by decide) (by omega) hc'
  refine ⟨⟨r, x, s⟩, ?_, sr, sx _, ss _⟩
  rw [readImpedance]
  simp only [er, ex, es, ok_then]

theorem readThree_fits {v : ℤ} (hv : Version v) {x : ThreeRows} (h : FitsThree v x) :
    ∃ t : ThreeRow, readThree v x.r1 x.r2 x.r3 x.r4 x.r5 = .ok t ∧ StatesThree v x.r1 x.r2 x.r3 x.r4 x.r5 t.toRec ∧
      Integer (under (xfmrColumns v) x.r1 "I") t.i ∧ Integer (under (xfmrColumns v) x.r1 "J") t.j ∧ Integer (under (xfmrColumns v) x.r1 "K") t.k ∧
      t.ckt = identifier (under (xfmrColumns v) x.r1 "CKT") := by
  have c0 : colAt (xfmrColumns v) 0 "I" .integer = true := by rcases hv with rfl | rfl | rfl <;> decide +kernel
  have c1 : colAt (xfmrColumns v) 1 "J" .integer = true := by rcases hv with rfl | rfl | rfl <;> decide +kernel
  have c2 : colAt (xfmrColumns v) 2 "K" .integer = true := by rcases hv with rfl | rfl | rfl <;> decide +kernel
  have c3 : colAt (xfmrColumns v) 3 "CKT" .text = true := by rcases hv with rfl | rfl | rfl <;> decide +kernel
  have hw : 14 ≤ x.r1.length := le_trans (by split <;> omega) h.r1.width
  have hw2 := h.r2.width
  obtain ⟨i, hi⟩ := (h.r1.holds c0).resolve_left (h.r1.filled "I" (by simp))
  obtain ⟨j, hj⟩ := (h.r1.holds c1).resolve_left (h.r1.filled "J" (by simp))
  have ei : busNumber x.r1 0 = .ok i := by rw [busNumber, cell_eq (by omega), ok_then, ← under_eq c0, toInt_integer hi]
  have ej : busNumber x.r1 1 = .ok j := by rw [busNumber, cell_eq (by omega), ok_then, ← under_eq c1, toInt_integer hj]
  obtain ⟨k, ek, sk⟩ := intAt_filled h.r1 "K" c2 (by omega) (by simp)
  have eid := textAt_identifier (row := x.r1) c3 (by omega)
  obtain ⟨c, ec, scw, scz, scm, sm1, sm2, sst⟩ := readCodes_fits hv h.r1
  obtain ⟨z1, ez1, a1, b1, d1⟩ := readImpedance_fits (k := 0) (a := "R1-2") (b := "X1-2") (c := "SBASE1-2") h.r2 (by decide +kernel) (by decide +kernel) (by decide +kernel) (by omega) (by simp) (by simp)
  obtain ⟨z2, ez2, a2, b2, d2⟩ := readImpedance_fits (k := 3) (a := "R2-3") (b := "X2-3") (c := "SBASE2-3") h.r2 (by decide +kernel) (by decide +kernel) (by decide +kernel) (by omega) (by simp) (by simp)
  obtain ⟨z3, ez3, a3, b3, d3⟩ := readImpedance_fits (k := 6) (a := "R3-1") (b := "X3-1") (c := "SBASE3-1") h.r2 (by decide +kernel) (by decide +kernel) (by decide +kernel) (by omega) (by simp) (by simp)
  have k1 : checkFields x.r2 [(9, .float, true), (10, .float, true)] = .ok () := checkFields_fits h.r2 _ (by decide +kernel) (by simp; omega)
  obtain ⟨w1, ew1, st1, _⟩ := readWinding_fits hv h.r3
  obtain ⟨w2, ew2, st2, _⟩ := readWinding_fits hv h.r4
  obtain ⟨w3, ew3, st3⟩ := readWinding3_fits hv h.r1 h.r5
  refine ⟨⟨i, j, k, identifier (under (xfmrColumns v) x.r1 "CKT"), c, z1, z2, z3, w1, w2, w3⟩, ?_, ?_, hi, hj, sk, rfl⟩
  · rw [readThree]
    simp only [ei, ej, ek, eid, ec, ez1, ez2, ez3, k1, ew1, ew2, ew3, ok_then]
  · exact ⟨.inr hi, .inr hj, .inr sk, scw, scz, scm, sm1, sm2, sst, a1, b1, d1, a2, b2, d2, a3, b3, d3, st1, st2, st3⟩

/-! ### Switched shunts -/

theorem readBlocks_fits {n : ℕ} {req : List String} {row : Row} (h : Fits switchedColumns n req row) (hn : 26 ≤ n) :
    ∀ (hs : List (String × String)) (k : ℕ), k + 2 * hs.length ≤ 26 →
      (∀ m a b, hs[m]? = some (a, b) → colAt switchedColumns (k + 2 * m) a .integer = true ∧ colAt switchedColumns (k + 2 * m + 1) b .number = true) →
      ∃ bs : List (ℤ × ℚ), readBlocks row k hs.length = .ok bs ∧ List.Forall₂ (fun h nb => Int' (some 0) (under switchedColumns row h.1) nb.1 ∧
        Num (some 0) (under switchedColumns row h.2) nb.2) hs (bs.map fun nb => (nb.1, (nb.2 : ℝ))) := by
  have hw := h.width
  intro hs
  induction hs with
  | nil => intro k _ _; exact ⟨[], rfl, .nil⟩
  | cons ab hs ih =>
    intro k hk hc
    obtain ⟨a, b⟩ := ab
    obtain ⟨ha, hb⟩ := hc 0 a b rfl
    rw [List.length_cons] at hk
    obtain ⟨m, em, sm⟩ := intAt_default h 0 ha (by omega)
    obtain ⟨q, eq, sq⟩ := floatAt_default h .number 0 hb (by decide) (by omega)
    obtain ⟨bs, ebs, sbs⟩ := ih (k + 2) (by omega) fun m a b hm => by
      have := hc (m + 1) a b hm
      rwa [show k + 2 * (m + 1) = k + 2 + 2 * m by ring] at this
    refine ⟨(m, q) :: bs, ?_, .cons ⟨sm, sq⟩ sbs⟩
    rw [List.length_cons, readBlocks]
    have em' : intAt row k (some 0) = .ok m := em
    have eq' : floatAt row (k + 1) (some 0) = .ok q := eq
    simp only [em', eq', ebs, ok_then]

theorem readSwitched_fits {v : ℤ} (hv : Version v) {row : Row} (h : Fits switchedColumns 0 ["I"] row) :
    ∃ s, readSwitched v row = .ok (some s) ∧ StatesSwitched row s.toRec ∧ Integer (under switchedColumns row "I") s.i := by
  have hf := h.fullRow 26
  have hw := hf.width
  have hu := under_fullRow switchedColumns row 26
  obtain ⟨i, ei, si⟩ := intAt_filled (k := 0) hf "I" (by decide +kernel) (by omega) (by simp)
  obtain ⟨st, est, sst⟩ := intAt_default (k := 3) (name := "STAT") hf 1 (by decide +kernel) (by omega)
  obtain ⟨b, eb, sb⟩ := floatAt_default (k := 9) (name := "BINIT") hf .number 0 (by decide +kernel) (by decide) (by omega)
  obtain ⟨m, em, sm⟩ := intAt_default (k := 1) (name := "MODSW") hf 1 (by decide +kernel) (by omega)
  obtain ⟨hi, ehi, shi⟩ := floatAt_default (k := 4) (name := "VSWHI") hf .number 1 (by decide +kernel) (by decide) (by omega)
  obtain ⟨lo, elo, slo⟩ := floatAt_default (k := 5) (name := "VSWLO") hf .number 1 (by decide +kernel) (by decide) (by omega)
  obtain ⟨bs, ebs, sbs⟩ := readBlocks_fits hf le_rfl blockHeadings 10 (by decide) (by
    intro m a b hm
    have hlt : m < 8 := by
      obtain ⟨h, _⟩ := List.getElem?_eq_some_iff.1 hm
      exact h
    have key : ∀ m < 8, (blockHeadings[m]?).all (fun ab => colAt switchedColumns (10 + 2 * m) ab.1 .integer && colAt switchedColumns (10 + 2 * m + 1) ab.2 .number) = true := by
      decide +kernel
    have := key m hlt
    rw [hm, Option.all_some, Bool.and_eq_true] at this
    exact this)
  have ebs' : readBlocks (fullRow row 26) 10 8 = .ok bs := ebs
  have k1 : checkFields (fullRow row 26) [(2, .int, true)] = .ok () := checkFields_fits hf _ (by decide +kernel) (by simp; omega)
  have k2 : checkFields (fullRow row 26) [(6, .int, true), (7, .float, true)] = .ok () := checkFields_fits hf _ (by decide +kernel) (by simp; omega)
  simp only [hu] at si sst sb sm shi slo sbs
  refine ⟨⟨i, m, st, hi, lo, b, bs⟩, ?_, ⟨.inr si, sm, sst, shi, slo, sb, sbs⟩, si⟩
  rw [readSwitched, if_pos (show v = 32 ∨ v = 33 ∨ v = 34 from hv)]
  simp only [ei, est, eb, em, ehi, elo, ebs', k1, k2, ok_then]

end Verif.Raw
