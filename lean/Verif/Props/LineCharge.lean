import Verif.Lemmas.LineCharge

/-!
# C55: the charging of lines of a file
-/

namespace Verif.Glm

open Matrix

theorem CablesCharged.same {objs objs' : List (Txt × Obj)} (h : SameObjs objs objs') {o : Obj} {y : Char → ℝ} (hy : CablesCharged objs o y) : CablesCharged objs' o y := by
  obtain ⟨c, hc, hy⟩ := hy
  obtain ⟨c', hcc, hc'⟩ := hc.same h (SameObj.refl _) (by decide)
  refine ⟨c', hc', fun p hp => ?_⟩
  rw [conductorLetters_same hcc] at hp
  obtain ⟨w, outer, strand, conductor, k, h1, h2, h3, h4, h5, h6⟩ := hy p hp
  obtain ⟨w', hw, h1'⟩ := h1.same h hcc (conductor_not_written p)
  exact ⟨w', outer, strand, conductor, k, h1', h2.same hw, h3.same hw, h4.same hw, h5.same hw, h6⟩

theorem WiresCharged.same {f : ℚ} {objs objs' : List (Txt × Obj)} (h : SameObjs objs objs') {o : Obj} {P : Char → Char → ℝ} (hP : WiresCharged f objs o P) :
    WiresCharged f objs' o P := by
  obtain ⟨c, s, δ, D, t, hc, hs, hN, ht, h1, h2, h3⟩ := hP
  obtain ⟨c', hcc, hc'⟩ := hc.same h (SameObj.refl _) (by decide)
  obtain ⟨s', hss, hs'⟩ := hs.same h hcc (by decide)
  refine ⟨c', s', δ, D, t, hc', hs', by rw [conductorLetters_same hcc]; exact hN, ht, fun p hp => ?_, fun p hp q hq hpq => ?_, h3⟩
  · rw [conductorLetters_same hcc] at hp
    obtain ⟨a1, w, a2, a3⟩ := h1 p hp
    obtain ⟨w', hw, a2'⟩ := a2.same h hcc (conductor_not_written p)
    exact ⟨(Spaced.same hss).2 a1, w', a2', a3.same hw⟩
  · rw [conductorLetters_same hcc] at hp hq
    exact ⟨(h2 p hp q hq hpq).1, (Spaced.same hss).2 (h2 p hp q hq hpq).2⟩

/-- An underground line that is read and built. -/
theorem cables_charging {v v' : Option Table} {objs objs0 objs' : List (Txt × Obj)} (hf : ConductorsNamed objs0) (hso : SameObjs objs0 objs) {o : Obj} {ph : Phases}
    {d : List Char × LineData} (h : readLineVar v objs o ph = .ok ((d, objs'), v'))
    (hc1 : o.cls ≠ "overhead_line".toList) (hc2 : o.cls ≠ "triplex_line".toList) {y : Char → ℝ} (hy : CablesCharged objs o y) {x : ℚ} (hx : Miles o x)
    {pairs : List (ℕ × ℕ)} {e : Element} (he : lineMade d.2 pairs = .ok e) (hp : pairs.length = d.1.length) :
    ∃ Y sh, e = .unbalanced pairs Y sh ∧ ∀ (V : Ref → ℂ) (U : Char → ℂ), EndVoltages d.1 pairs V U → ∀ i < d.1.length,
      shuntCurrent (pairs.map Prod.fst) sh V i + shuntCurrent (pairs.map Prod.snd) sh V i =
        1 / 2 * (Complex.I * ((x * y (d.1.getD i 'A') : ℝ) : ℂ) * U (d.1.getD i 'A')) := by
  rcases readLineVar_ok h with ⟨hc, -⟩ | ⟨hc, -⟩ | ⟨-, -, hr⟩
  · exact absurd hc hc1
  · exact absurd hc hc2
  obtain ⟨c, ws, T, len, Z, B, hr, -⟩ := readUnderground_ok hr
  obtain ⟨c', h1, hy⟩ := hy
  obtain rfl := config_of hr.config h1
  have hps := readWires_phases (phase := CableWire.phase) (fun _ _ _ h => undergroundConductor_phase h) hr.conductors
  rw [conductorNames_fst] at hps
  change _ = conductorLetters c "ABCN".toList at hps
  have hF := readWires_kept (P := fun p (w : CableWire) => w.phase = p ∧ (p ≠ 'N' → ∀ b, wireSusceptance w = .ok b → b = some (y p)))
    (Q := fun p w => p ≠ 'N' → ∃ (outer strand conductor : ℚ) (k : ℕ), Valued w "outer_diameter" outer ∧ Valued w "neutral_diameter" strand ∧
      Valued w "neutral_strands" k ∧ Valued w "conductor_diameter" conductor ∧ y p = concentricSusceptance outer strand conductor k)
    (fun o p w hw hq => by
      refine ⟨undergroundConductor_phase hw, fun hN b hb => ?_⟩
      obtain ⟨outer, strand, conductor, k, a1, a2, a3, a4, a5⟩ := hq hN
      obtain ⟨b1, b2, b3, b4, b5⟩ := undergroundConductor_charged hw a1 a2 a3 a4
      rw [a5]
      exact wireSusceptance_charged (by rw [b1]; exact hN) b2 b3 b4 b5 hb)
    (fun o p w h hc => undergroundConductor_same h hc)
    (fun o o' p hs hq hN => by
      obtain ⟨outer, strand, conductor, k, a1, a2, a3, a4, a5⟩ := hq hN
      exact ⟨outer, strand, conductor, k, a1.same hs, a2.same hs, a3.same hs, a4.same hs, a5⟩)
    hr.conductors (conductorNames_conductors hf hso hr.config (by decide))
    (names_phases (Q := fun p w => ∃ (outer strand conductor : ℚ) (k : ℕ), Valued w "outer_diameter" outer ∧ Valued w "neutral_diameter" strand ∧
      Valued w "neutral_strands" k ∧ Valued w "conductor_diameter" conductor ∧ y p = concentricSusceptance outer strand conductor k) fun p hp => by
      obtain ⟨w, outer, strand, conductor, k, h1, h2⟩ := hy p hp
      exact ⟨w, h1, outer, strand, conductor, k, h2⟩)
  have hw := forall₂_attr (P := fun p (w : CableWire) => w.phase = p ∧ (p ≠ 'N' → ∀ b, wireSusceptance w = .ok b → b = some (y p))) (phase := CableWire.phase)
    (fun p w hw => hw.1) hF
  have hch := hr.charging
  rw [undergroundCharging] at hch
  obtain ⟨bs, hbs, hch⟩ := bind_eq_ok hch
  cases hch
  have hbs := mapM_forall₂ hbs
  have hdata := hr.data
  subst hdata
  have hph : (ws.map CableWire.phase).filter (· ≠ 'N') = conductorLetters c "ABC".toList := by rw [hps, conductorLetters_phases]
  dsimp only at hp he ⊢
  rw [hph] at hp ⊢
  have hle : (conductorLetters c "ABC".toList).length ≤ 3 := (List.length_filter_le _ _).trans (by decide)
  have hphase : ∀ i (hi : i < (conductorLetters c "ABC".toList).length), ∃ hw : i < ws.length, ws[i].phase = (conductorLetters c "ABC".toList)[i] := by
    intro i hi
    have hl : i < (ws.map CableWire.phase).length := by rw [hps, conductorLetters_append, List.length_append]; omega
    refine ⟨by simpa using hl, ?_⟩
    have e : (ws.map CableWire.phase)[i] = (conductorLetters c "ABC".toList)[i] := by
      simp only [hps, conductorLetters_append, List.getElem_append_left hi]
    rw [← e, List.getElem_map]
  obtain ⟨Y, sh, hE, key⟩ := made_charging (B := (cableMatrix bs).submatrix (Fin.castLE hle) (Fin.castLE hle)) he (fun i j => by
    show shuntPerMeter _ _ _ = _
    rw [shuntPerMeter, shuntPerMeter, dif_pos ⟨by omega, by omega⟩, dif_pos ⟨i.2, j.2⟩]
    rfl) hp (miles_length hx hr.length)
  refine ⟨Y, sh, hE, fun V U hV i hi => ?_⟩
  obtain ⟨hiw, hip⟩ := hphase i hi
  have hget : (conductorLetters c "ABC".toList).getD i 'A' = (conductorLetters c "ABC".toList)[i] := by
    rw [List.getD_eq_getElem?_getD, List.getElem?_eq_getElem hi]; rfl
  have hN : ws[i].phase ≠ 'N' := by
    rw [hip]
    intro e
    have hm : (conductorLetters c "ABC".toList)[i] ∈ "ABC".toList := (List.mem_filter.1 (List.getElem_mem hi)).1
    rw [e] at hm
    revert hm
    decide
  have hil : i < bs.length := by rw [← hbs.length_eq]; exact hiw
  have hb := (hw _ (List.getElem_mem hiw)).2 hN bs[i] (hbs.get hiw hil)
  rw [key V (hV.same hp) ⟨i, hi⟩, Finset.sum_eq_single ⟨i, hi⟩]
  · rw [(hV i hi).1, hget, ← hip]
    rw [submatrix_apply, cableMatrix, if_pos rfl]
    have : (bs.getD (Fin.castLE hle ⟨i, hi⟩) none).getD 0 = y ws[i].phase := by
      show (bs.getD i none).getD 0 = _
      rw [List.getD_eq_getElem?_getD, List.getElem?_eq_getElem hil, Option.getD_some, hb]
      rfl
    rw [this]
    push_cast
    ring
  · intro j _ hj
    rw [submatrix_apply, cableMatrix, if_neg fun e => hj (Fin.castLE_injective hle e).symm]
    simp
  · intro h
    exact absurd (Finset.mem_univ _) h

/-- An overhead line without neutral, all conductors at one height, that is read and built. -/
theorem wires_charging {v v' : Option Table} {objs objs0 objs' : List (Txt × Obj)} (hf : ConductorsNamed objs0) (hso : SameObjs objs0 objs) {o : Obj} {ph : Phases}
    {d : List Char × LineData} (h : readLineVar v objs o ph = .ok ((d, objs'), v'))
    (hc : o.cls = "overhead_line".toList) {P : Char → Char → ℝ} (hP : WiresCharged 1 objs o P) {x : ℚ} (hx : Miles o x)
    {pairs : List (ℕ × ℕ)} {e : Element} (he : lineMade d.2 pairs = .ok e) (hp : pairs.length = d.1.length) :
    ∃ Y sh, e = .unbalanced pairs Y sh ∧ ∀ (V : Ref → ℂ) (U : Char → ℂ), EndVoltages d.1 pairs V U → ∃ Q : Char → ℂ,
      (∀ p ∈ d.1, U p = (d.1.map fun q => (P p q : ℂ) * Q q).sum) ∧ ∀ i < d.1.length,
      shuntCurrent (pairs.map Prod.fst) sh V i + shuntCurrent (pairs.map Prod.snd) sh V i =
        1 / 2 * (Complex.I * ((2 * Real.pi * 60 / 1000000 * x : ℝ) : ℂ) * Q (d.1.getD i 'A')) := by
  rcases readLineVar_ok h with ⟨-, hr⟩ | ⟨hc', -⟩ | ⟨hc', -⟩
  · obtain ⟨c, ws, T, len, Z, B, hr, ht⟩ := readOverhead_ok hr
    obtain ⟨c', s, δ, D, t, h1, hsp, hN, htpos, h2, h3, h4⟩ := hP
    obtain rfl := config_of hr.config h1
    have hps := readWires_phases (phase := BareWire.phase) (fun _ _ _ h => overheadConductor_phase h) hr.conductors
    rw [conductorNames_fst] at hps
    change _ = conductorLetters c "ABCN".toList at hps
    rw [conductorLetters_append, hN, List.append_nil] at hps
    have hF := readWires_kept (P := fun p (w : BareWire) => w.phase = p ∧ (p ≠ 'N' → w.diameter = some (δ p))) (Q := fun p w => p ≠ 'N' → Valued w "diameter" (δ p))
      (fun o p w hw hq => ⟨overheadConductor_phase hw, fun hN => (overheadConductor_charged hw (hq hN)).2⟩)
      (fun o p w h hc => overheadConductor_same h hc) (fun o o' p hs hq hN => (hq hN).same hs)
      hr.conductors (conductorNames_conductors hf hso hr.config (by decide)) (names_phases fun p hp => (h2 p hp).2)
    have hw := forall₂_attr (P := fun p (w : BareWire) => w.phase = p ∧ (p ≠ 'N' → w.diameter = some (δ p))) (phase := BareWire.phase) (fun p w hw => hw.1) hF
    have hsame := readWires_same (fun o p w h hc => overheadConductor_same h hc) hr.conductors (conductorNames_conductors hf hso hr.config (by decide))
    have hT : ∃ s', SameObj s s' ∧ overheadSpacing s' = .ok T := by
      obtain ⟨n, hn, hnl⟩ := hsp
      rcases overheadTable_some ht with ⟨e, -⟩ | ⟨n', s', T', e1, e2, e3, -, e5⟩
      · rw [hn] at e; cases e
      · rw [hn, Option.some.injEq] at e1
        subst e1
        obtain ⟨s0, hs0, hss⟩ := hsame.to_some e2
        rw [hnl, Option.some.injEq] at hs0
        subst hs0
        rw [hr.table, Option.some.injEq] at e5
        subst e5
        exact ⟨s', hss, e3⟩
    obtain ⟨s', hss, hT⟩ := hT
    have hABC : ∀ w ∈ ws, w.phase ∈ conductorLetters c "ABC".toList := fun w hwm => by rw [← hps]; exact List.mem_map_of_mem hwm
    have hnotN : ∀ p ∈ "ABC".toList, p ≠ 'N' := by decide
    have hmem : ∀ p ∈ conductorLetters c "ABC".toList, p ∈ "ABC".toList := fun p hp => (List.mem_filter.1 hp).1
    have hN' : 'N' ∉ ws.map BareWire.phase := by rw [hps]; exact fun h => hnotN _ (hmem _ h) rfl
    have hall : ws.filter (·.phase ≠ 'N') = ws := List.filter_eq_self.2 fun w hwm => by simpa using hnotN _ (hmem _ (hABC w hwm))
    have hnd : (ws.map BareWire.phase).Nodup := by rw [hps]; exact List.Nodup.filter _ (by decide)
    have hch := hr.charging
    rw [overheadCharging] at hch
    split at hch
    · cases hch
    rename_i hread
    rw [not_not] at hread
    rw [if_neg fun h => hN' h.1] at hch
    split at hch
    · cases hch
    rename_i hdet
    cases hch
    have hdata := hr.data
    subst hdata
    have hph : (ws.map BareWire.phase).filter (· ≠ 'N') = conductorLetters c "ABC".toList := by
      rw [hps]
      exact List.filter_eq_self.2 fun p hp => by simpa using hnotN _ (hmem _ hp)
    have hlen : (conductorLetters c "ABC".toList).length = (ws.filter (·.phase ≠ 'N')).length := by rw [hall, ← hps, List.length_map]
    dsimp only at hp he ⊢
    rw [hph] at hp ⊢
    have hM : ∀ i j : Fin (ws.filter (·.phase ≠ 'N')).length, potentialReduced ws T i j =
        P ((conductorLetters c "ABC".toList).getD i 'A') ((conductorLetters c "ABC".toList).getD j 'A') := by
      intro i j
      have hi : (i : ℕ) < ws.length := i.2.trans_eq (by rw [hall])
      have hj : (j : ℕ) < ws.length := j.2.trans_eq (by rw [hall])
      have hg : ∀ (i : ℕ) (hi : i < ws.length), (conductorLetters c "ABC".toList).getD i 'A' = ws[i].phase := by
        intro i hi
        rw [← hps, List.getD_eq_getElem?_getD, List.getElem?_eq_getElem (by simpa using hi), Option.getD_some, List.getElem_map]
      rw [potentialReduced, if_neg hN', hg i hi, hg j hj, h4]
      exact potential_charged hT hread htpos (fun w hwm => ⟨(hw w hwm).2 (hnotN _ (hmem _ (hABC w hwm))), hmem _ (hABC w hwm), (Spaced.same hss).2 (h2 _ (hABC w hwm)).1⟩)
        (fun v hv w hwm hne => ⟨(h3 _ (hABC v hv) _ (hABC w hwm) hne).1, (Spaced.same hss).2 (h3 _ (hABC v hv) _ (hABC w hwm) hne).2⟩) hnd hi hj
    obtain ⟨Y, sh, hE, key⟩ := made_charging he (fun i j => rfl) (hp.trans hlen) (miles_length hx hr.length)
    refine ⟨Y, sh, hE, fun V U hV => ?_⟩
    obtain ⟨Q, hQ1, hQ2⟩ := charges_exist (hps ▸ hnd) hlen hdet hM U
    refine ⟨Q, hQ1, fun i hi => ?_⟩
    have hi' : i < (ws.filter (·.phase ≠ 'N')).length := by rw [← hlen]; exact hi
    rw [key V (hV.same hp) ⟨i, hi'⟩, hQ2 ⟨i, hi'⟩, Finset.mul_sum, Finset.mul_sum]
    refine Finset.sum_congr rfl fun j _ => ?_
    rw [(hV j (by rw [hlen]; exact j.2)).1, chargingOfPotential]
    push_cast
    ring
  · rw [hc] at hc'; exact absurd hc' (by decide)
  · exact absurd hc hc'

/-- **C55, partial: lines of a file.** The lines of a file are read, and one of them is built. An underground line: with the same voltages at its two ends, the current
into its shunts at both ends together is, for every phase, half the current of the susceptance of the cable the file gives for this phase, over the length of the line. An
overhead line without neutral, its conductors at one height: the current is half that of the charges on conductors with these voltages and the potential coefficients of
the conductors of the file, except for their radii. What is missing: the halves (`C55_charging_fails`), and the radii, which should be a twelfth (`C94_radius_fails`). -/
theorem C55_file_partial (objs : List (Txt × Obj)) (hf : ConductorsNamed objs) (lines : List (Obj × Phases)) (ds : List (List Char × LineData))
    (h : readLinesVar none objs lines = .ok ds) :
    List.Forall₂ (fun x d => ∀ (m : ℚ) (pairs : List (ℕ × ℕ)) (e : Element), Miles x.1 m → lineMade d.2 pairs = .ok e → pairs.length = d.1.length →
      ∃ Y sh, e = .unbalanced pairs Y sh ∧ ∀ (V : Ref → ℂ) (U : Char → ℂ), EndVoltages d.1 pairs V U →
        (x.1.cls ≠ "overhead_line".toList → x.1.cls ≠ "triplex_line".toList → ∀ y, CablesCharged objs x.1 y → ∀ i < d.1.length,
          shuntCurrent (pairs.map Prod.fst) sh V i + shuntCurrent (pairs.map Prod.snd) sh V i =
            1 / 2 * (Complex.I * ((m * y (d.1.getD i 'A') : ℝ) : ℂ) * U (d.1.getD i 'A'))) ∧
        (x.1.cls = "overhead_line".toList → ∀ P, WiresCharged 1 objs x.1 P → ∃ Q : Char → ℂ, (∀ p ∈ d.1, U p = (d.1.map fun q => (P p q : ℂ) * Q q).sum) ∧
          ∀ i < d.1.length, shuntCurrent (pairs.map Prod.fst) sh V i + shuntCurrent (pairs.map Prod.snd) sh V i =
            1 / 2 * (Complex.I * ((2 * Real.pi * 60 / 1000000 * m : ℝ) : ℂ) * Q (d.1.getD i 'A')))) lines ds := by
  suffices H : ∀ v objs' ds, SameObjs objs objs' → readLinesVar v objs' lines = .ok ds → List.Forall₂ (fun x d =>
      ∀ (m : ℚ) (pairs : List (ℕ × ℕ)) (e : Element), Miles x.1 m → lineMade d.2 pairs = .ok e → pairs.length = d.1.length →
      ∃ Y sh, e = .unbalanced pairs Y sh ∧ ∀ (V : Ref → ℂ) (U : Char → ℂ), EndVoltages d.1 pairs V U →
        (x.1.cls ≠ "overhead_line".toList → x.1.cls ≠ "triplex_line".toList → ∀ y, CablesCharged objs x.1 y → ∀ i < d.1.length,
          shuntCurrent (pairs.map Prod.fst) sh V i + shuntCurrent (pairs.map Prod.snd) sh V i =
            1 / 2 * (Complex.I * ((m * y (d.1.getD i 'A') : ℝ) : ℂ) * U (d.1.getD i 'A'))) ∧
        (x.1.cls = "overhead_line".toList → ∀ P, WiresCharged 1 objs x.1 P → ∃ Q : Char → ℂ, (∀ p ∈ d.1, U p = (d.1.map fun q => (P p q : ℂ) * Q q).sum) ∧
          ∀ i < d.1.length, shuntCurrent (pairs.map Prod.fst) sh V i + shuntCurrent (pairs.map Prod.snd) sh V i =
            1 / 2 * (Complex.I * ((2 * Real.pi * 60 / 1000000 * m : ℝ) : ℂ) * Q (d.1.getD i 'A')))) lines ds from H none objs ds (SameObjs.refl _) h
  clear h
  induction lines with
  | nil => intro v objs' ds _ h; cases h; exact .nil
  | cons x xs ih =>
    intro v objs' ds hs h
    rw [readLinesVar] at h
    obtain ⟨⟨⟨d0, objs1⟩, v'⟩, h1, h⟩ := bind_eq_ok h
    obtain ⟨rest, h2, h⟩ := bind_eq_ok h
    cases h
    refine .cons (fun m pairs e hm he hp => ?_) (ih v' objs1 rest (hs.trans (readLineVar_keeps hf hs h1)) h2)
    obtain ⟨Y, -, -, -, -, hE⟩ := makeUnbalanced_ok he
    refine ⟨_, _, hE, fun V U hV => ⟨fun c1 c2 y hy => ?_, fun c1 P hP => ?_⟩⟩
    · obtain ⟨Y', sh', hE', key⟩ := cables_charging hf hs h1 c1 c2 (hy.same hs) hm he hp
      rw [hE] at hE'
      cases hE'
      exact key V U hV
    · obtain ⟨Y', sh', hE', key⟩ := wires_charging hf hs h1 c1 (hP.same hs) hm he hp
      rw [hE] at hE'
      cases hE'
      exact key V U hV

end Verif.Glm
