import Verif.Lemmas.Ratings
import Verif.Props.LineAcceptance
import Verif.Props.GlmTransformers

/-!
# The ratings equipment is checked against: C133
-/

namespace Verif.Glm

variable {M : Type}

/-! ### Lines -/

/-- **C133, lines.** Every phase of a line of the file, whatever was read before it, is checked against the emergency rating of the conductor that the
configuration of the line names for this phase: its test raises nothing, answers no if the conductor has no such rating, and otherwise answers
whether the reported current is above it. A neutral does not shift the ratings. -/
theorem C133_lines {objs objs1 objs2 : List (Txt × Obj)} {o o1 : Obj} (hs : SameObjs objs objs1) (ho : SameObj o o1) {v v' : Option Table} {ph : Phases}
    {d : List Char × LineData} (h : readLineVar v objs1 o1 ph = .ok ((d, objs2), v')) :
    ∃ amps, lineAmpacities objs1 o1 = .ok amps ∧ ∀ (i : ℕ) (p : Char), d.1[i]? = some p → ∃ w, UsesConductor objs o p w ∧
      ∀ (nodes : List Node) (pairs : List (ℕ × ℕ)) (y : ℕ → ℕ → ℂ) (u : ℕ → ℝ),
        (w.attr "rating.summer.emergency".toList = none → phaseTest nodes pairs y (lineRating amps).amps u i = .ok false) ∧
        ∀ x, Valued w "rating.summer.emergency" x → ∃ b, phaseTest nodes pairs y (lineRating amps).amps u i = .ok b ∧
          (b = true ↔ (x : ℝ) < ‖lineResult (nodeAt nodes (some (pairs.getD i (0, 0)).1)) (nodeAt nodes (some (pairs.getD i (0, 0)).2)) (y i i).re (y i i).im u‖) := by
  suffices H : ∃ amps, lineAmpacities objs1 o1 = .ok amps ∧ ∀ (i : ℕ) (p : Char), d.1[i]? = some p → ∃ w e, UsesConductor objs1 o1 p w ∧
      floatAttribute w "rating.summer.emergency".toList = .ok e ∧ amps[i]? = some e by
    obtain ⟨amps, ha, H⟩ := H
    refine ⟨amps, ha, fun i p hi => ?_⟩
    obtain ⟨w', e, hu, he, hi⟩ := H i p hi
    obtain ⟨w, hw, hws⟩ := hu.back hs ho
    refine ⟨w, hw, fun nodes pairs y u => ⟨fun hn => ?_, fun x hx => ?_⟩⟩
    · rw [← hws.attr _ (by decide)] at hn
      rw [floatAttribute, Obj.get, show lookup _ w'.attrs = none from hn] at he
      cases he
      rw [phaseTest, lineRating]
      simp only [List.getElem?_map, hi, Option.map_some, Option.map_none]
    · rw [(hx.same hws).float] at he
      cases he
      refine ⟨_, ?_, decide_eq_true_iff⟩
      rw [phaseTest, lineRating]
      simp only [List.getElem?_map, hi, Option.map_some]
  rcases readLineVar_ok h with ⟨hc, h⟩ | ⟨hc, h, -⟩ | ⟨hc1, hc2, h⟩
  · obtain ⟨c, ws, T, len, Z, B, hr, -⟩ := readOverhead_ok h
    obtain ⟨rs, h1, h2⟩ := amps_named (ps := "ABC".toList) (fun o p w h => overheadConductor_phase h) (fun o p w h => overheadConductor_emergency h)
      hr.config (by decide) hr.conductors
    refine ⟨rs.map Prod.snd, ?_, by rw [hr.data]; exact h2⟩
    rw [lineAmpacities, hr.config]
    simp only [bind, Except.bind]
    rw [if_pos hc]
    rw [show "ABCN".toList = "ABC".toList ++ ['N'] from rfl, h1]
  · obtain ⟨c, ws, x, len, Z, hr⟩ := readTriplexLine_ok h
    obtain ⟨rs, h1, h2⟩ := amps_named (ps := "12".toList) (fun o p w h => triplexConductor_phase h) (fun o p w h => triplexConductor_emergency h)
      hr.config (by decide) hr.conductors
    refine ⟨rs.map Prod.snd, ?_, by rw [hr.data]; exact h2⟩
    rw [lineAmpacities, hr.config]
    simp only [bind, Except.bind]
    rw [if_neg (by rw [hc]; decide), if_pos hc]
    rw [show "12N".toList = "12".toList ++ ['N'] from rfl, h1]
  · obtain ⟨c, ws, T, len, Z, B, hr, -⟩ := readUnderground_ok h
    obtain ⟨rs, h1, h2⟩ := amps_named (ps := "ABC".toList) (fun o p w h => undergroundConductor_phase h) (fun o p w h => undergroundConductor_emergency h)
      hr.config (by decide) hr.conductors
    refine ⟨rs.map Prod.snd, ?_, by rw [hr.data]; exact h2⟩
    rw [lineAmpacities, hr.config]
    simp only [bind, Except.bind]
    rw [if_neg hc1, if_neg hc2]
    rw [show "ABCN".toList = "ABC".toList ++ ['N'] from rfl, h1]

/-- The overhead line of the feeder: its conductors are rated 600 A. -/
example : ∃ d objs2 v' amps, readLineVar none wiredFeeder wiredFeeder[13].2 ⟨['A', 'B'], true, false, false⟩ = .ok ((d, objs2), v') ∧
    lineAmpacities wiredFeeder wiredFeeder[13].2 = .ok amps ∧ ∀ (i : ℕ) (p : Char), d.1[i]? = some p →
      ∀ (nodes : List Node) (pairs : List (ℕ × ℕ)) (y : ℕ → ℕ → ℂ) (u : ℕ → ℝ), ∃ b, phaseTest nodes pairs y (lineRating amps).amps u i = .ok b ∧
        (b = true ↔ (600 : ℝ) < ‖lineResult (nodeAt nodes (some (pairs.getD i (0, 0)).1)) (nodeAt nodes (some (pairs.getD i (0, 0)).2)) (y i i).re (y i i).im u‖) := by
  have hm : wiredFeeder[13].2 ∈ declaredLines wiredFeeder := by rw [wiredFeeder_declared]; simp
  have hS : SoundLine wiredFeeder wiredFeeder[13].2 ⟨['A', 'B'], true, false, false⟩ :=
    (wiredFeeder_lines _ hm).1 "AB".toList _ (by decide +kernel) (by decide +kernel)
  obtain ⟨d, objs2, v', h1, -⟩ := hS.accepted (v := none)
  obtain ⟨amps, h2, h3⟩ := C133_lines (SameObjs.refl _) (SameObj.refl _) h1
  refine ⟨d, objs2, v', amps, h1, h2, fun i p hi nodes pairs y u => ?_⟩
  obtain ⟨w, ⟨k, c, n, e1, e2, e3, e4⟩, h4⟩ := h3 i p hi
  have hk : wiredFeeder[13].2.attr "configuration".toList = some "c1".toList := by decide +kernel
  rw [hk] at e1
  cases e1
  have hc : lookup "c1".toList wiredFeeder = some wiredFeeder[10].2 := by decide +kernel
  rw [hc] at e2
  cases e2
  have hall : ∀ a ∈ wiredFeeder[10].2.attrs, a.1.take 10 = "conductor_".toList → a.2 = "w1".toList := by decide +kernel
  have hn : n = "w1".toList := hall _ (mem_of_lookup e3) rfl
  subst hn
  have hw : lookup "w1".toList wiredFeeder = some wiredFeeder[5].2 := by decide +kernel
  rw [hw] at e4
  cases e4
  simpa using (h4 nodes pairs y u).2 600 ⟨"600".toList, by decide +kernel, numeral_whole (by decide) (by decide) (by decide +kernel)⟩

/-! ### Transformers -/

section File

variable {readLine : LineReader M} {schedules : List (Txt × Txt)} {objs : List (Txt × Obj)} {g : Grid M}

/-- **C133, transformers, partial.** Every coil and every center tap of the file is checked against the rated power of its configuration. Missing: for a
coil this is the power of the whole bank, of which it only carries its share, see `C133_bank_fails`. -/
theorem C133_transformers_partial (hR : Keeps readLine objs) (hO : OuterFile objs) (hk : (objs.map Prod.fst).Nodup) (hp : PlainConfigurations objs)
    (h : parseGrid readLine objs schedules = .ok g) : List.Forall₂ (fun d x => ∃ c s, ((∃ o p q, d = .coil o (some c) p q) ∨ ∃ o, d = .tap o c) ∧
      IsRating c s ∧ ∀ S : ℝ × ℝ, powerTest S x.rating.power = true ↔ (s : ℝ) < ‖(⟨S.1, S.2⟩ : ℂ)‖) (declaredXfmrs objs) g.transformers := by
  refine (C60_coils hR hO hk hp h).imp fun d x hd => ?_
  cases d with
  | coil o c p q =>
    obtain ⟨c', rfl, fp, fn, tp, tn, v1, v2, d1, d2, r, y, s, rfl, -, -, -, -, -, -, -, -, -, -, -, hr⟩ := hd
    exact ⟨c', s, .inl ⟨o, p, q, rfl⟩, hr, fun S => decide_eq_true_iff⟩
  | tap o c =>
    obtain ⟨p, f, b0, b1, t1, b2, t2, v0, v1, v2, r0, r1, r2, x0, x1, x2, s, rfl, -, -, -, -, -, -, -, -, -, -, -, -, -, -, -, hr⟩ := hd
    exact ⟨c, s, .inr ⟨o, rfl⟩, hr, fun S => decide_eq_true_iff⟩

end File

/-- The transformers of the feeder: a bank of 75 kVA and a center tap of 25 kVA. -/
example : ∃ g, parseGrid noLines feeder [] = .ok g ∧ List.Forall₂ (fun d x => ∃ c s, ((∃ o p q, d = .coil o (some c) p q) ∨ ∃ o, d = .tap o c) ∧
    IsRating c s ∧ ∀ S : ℝ × ℝ, powerTest S x.rating.power = true ↔ (s : ℝ) < ‖(⟨S.1, S.2⟩ : ℂ)‖) (declaredXfmrs feeder) g.transformers := by
  obtain ⟨g, hg⟩ := feeder_read
  exact ⟨g, hg, C133_transformers_partial noLines_keeps feeder_outer feeder_keys feeder_plain hg⟩

/-- **C133 fails for banks.** A bank of three coils rated 75 kVA: each coil is checked against 75 kVA, so a bank that carries almost three times what it
is rated for, the same in each coil, passes. -/
theorem C133_bank_fails : ∃ g x y z, parseGrid noLines (withTransformer []) [] = .ok g ∧ g.transformers = [x, y, z] ∧
    ∀ S : ℝ × ℝ, ‖(⟨S.1, S.2⟩ : ℂ)‖ = 74000 → (75000 : ℝ) < ‖(⟨S.1, S.2⟩ + ⟨S.1, S.2⟩ + ⟨S.1, S.2⟩ : ℂ)‖ ∧
      ∀ t ∈ g.transformers, powerTest S t.rating.power = false := by
  obtain ⟨g, hg, h1, h2⟩ := read_of_check (objs := withTransformer [])
    (p := fun g => g.transformers.length = 3 ∧ ∀ t ∈ g.transformers, t.power = 75000) (by decide +kernel)
  obtain ⟨x, y, z, he⟩ := List.length_eq_three.1 h1
  refine ⟨g, x, y, z, hg, he, fun S hS => ⟨?_, fun t ht => ?_⟩⟩
  · rw [show (⟨S.1, S.2⟩ + ⟨S.1, S.2⟩ + ⟨S.1, S.2⟩ : ℂ) = 3 * ⟨S.1, S.2⟩ by ring, norm_mul, hS]
    norm_num
  · rw [GXfmr.rating, h2 t ht]
    refine decide_eq_false ?_
    rw [hS]
    norm_num

end Verif.Glm
