import Verif.Lemmas.LineAccept

/-!
# Sound overhead lines are read
-/

namespace Verif.Glm

open Matrix

/-! ### The places of the wires -/

/-- Whether a row of the table is used: that of a conductor, or of the earth if heights are given. -/
def rowUsed (ps : List Char) (e : Bool) (i : ℕ) : Bool := if i < 4 then decide (spacingLetters.getD i ' ' ∈ ps) else decide (i = 4) && e

theorem sublist_abcn {ps : List Char} (h : ps.Sublist "ABCN".toList) : ps ∈ "ABCN".toList.sublists := List.mem_sublists.2 h

theorem entries_used : ∀ ps ∈ "ABCN".toList.sublists, ∀ e : Bool,
    Nat.sqrt (((List.range 5).flatMap fun i => (List.range 5).map fun j => (i, j)).countP fun p => rowUsed ps e p.1 && rowUsed ps e p.2) - (if e then 1 else 0) = ps.length := by
  decide +kernel

theorem two_letters : ∀ ps ∈ "ABCN".toList.sublists, ps.length = 2 → ∃ a b, (a, b) ∈ [(0, 1), (0, 2), (0, 3), (1, 2), (1, 3), (2, 3)] ∧
    ps = [spacingLetters.getD a ' ', spacingLetters.getD b ' '] := by
  intro ps h hl
  have e : "ABCN".toList.sublists = [[], ['A'], ['B'], ['A', 'B'], ['C'], ['A', 'C'], ['B', 'C'], ['A', 'B', 'C'], ['N'], ['A', 'N'], ['B', 'N'], ['A', 'B', 'N'],
    ['C', 'N'], ['A', 'C', 'N'], ['B', 'C', 'N'], ['A', 'B', 'C', 'N']] := by decide
  rw [e] at h
  simp only [List.mem_cons, List.not_mem_nil, or_false] at h
  rcases h with rfl | rfl | rfl | rfl | rfl | rfl | rfl | rfl | rfl | rfl | rfl | rfl | rfl | rfl | rfl | rfl <;> try (simp at hl; done)
  · exact ⟨0, 1, by decide, rfl⟩
  · exact ⟨0, 2, by decide, rfl⟩
  · exact ⟨1, 2, by decide, rfl⟩
  · exact ⟨0, 3, by decide, rfl⟩
  · exact ⟨1, 3, by decide, rfl⟩
  · exact ⟨2, 3, by decide, rfl⟩

theorem furthest_only {T : Table} {a b : ℕ} (h : (a, b) ∈ [(0, 1), (0, 2), (0, 3), (1, 2), (1, 3), (2, 3)]) (hab : T a b ≠ -1)
    (hT : ∀ p ∈ [(0, 1), (0, 2), (0, 3), (1, 2), (1, 3), (2, 3)], p ≠ (a, b) → T p.1 p.2 = -1) : furthest T = some (a, b) := by
  rw [furthest]
  simp only [List.mem_cons, List.not_mem_nil, or_false, Prod.mk.injEq] at h
  simp only [List.forall_mem_cons] at hT
  rcases h with ⟨rfl, rfl⟩ | ⟨rfl, rfl⟩ | ⟨rfl, rfl⟩ | ⟨rfl, rfl⟩ | ⟨rfl, rfl⟩ | ⟨rfl, rfl⟩ <;>
    simp at hT <;> simp [hT, hab]

/-- Finding the places of the wires raises nothing, if all distances are given and the heights fit. -/
theorem place_total {T : Table} {ps : List Char} (hs : ps.Sublist "ABCN".toList) {e : Bool} (hT : ∀ i < 5, ∀ j < 5, (T i j ≠ -1 ↔ rowUsed ps e i = true ∧ rowUsed ps e j = true))
    (h44 : e = true → T 4 4 = 0) (hh : e = true → ∀ a b, a < b → b < 4 → spacingLetters.getD a ' ' ∈ ps → spacingLetters.getD b ' ' ∈ ps → |T a 4 - T b 4| ≤ T a b) :
    placeWires T ps = .ok () := by
  have hearth : hasEarth T = e := by
    rw [hasEarth]
    cases e with
    | true =>
      rw [List.any_eq_true]
      exact ⟨4, by simp, by rw [h44 rfl]; norm_num⟩
    | false =>
      rw [List.any_eq_false]
      intro j hj
      have := hT 4 (by norm_num) j (List.mem_range.1 hj)
      have h4 : T 4 j = -1 := by
        by_contra hne
        have := (this.1 hne).1
        simp [rowUsed] at this
      rw [h4]
      simp
  have hcount : spacedEntries T - (if hasEarth T then 1 else 0) = ps.length := by
    rw [hearth, ← entries_used ps (sublist_abcn hs) e, spacedEntries]
    congr 2
    refine List.countP_congr fun p hp => ?_
    obtain ⟨i, hi, hp⟩ := List.mem_flatMap.1 hp
    obtain ⟨j, hj, rfl⟩ := List.mem_map.1 hp
    rw [decide_eq_true_iff, Bool.and_eq_true]
    exact hT i (List.mem_range.1 hi) j (List.mem_range.1 hj)
  rw [placeWires, hcount]
  split
  · rename_i hc
    obtain ⟨a, b, hab, rfl⟩ := two_letters ps (sublist_abcn hs) hc.1
    have hlt : a < b ∧ b < 4 := (show ∀ p ∈ [(0, 1), (0, 2), (0, 3), (1, 2), (1, 3), (2, 3)], p.1 < p.2 ∧ p.2 < 4 by decide) (a, b) hab
    have ha : rowUsed [spacingLetters.getD a ' ', spacingLetters.getD b ' '] e a = true := by
      rw [rowUsed, if_pos (by omega)]; simp
    have hb : rowUsed [spacingLetters.getD a ' ', spacingLetters.getD b ' '] e b = true := by
      rw [rowUsed, if_pos (by omega)]; simp
    have hf : furthest T = some (a, b) := by
      refine furthest_only hab ((hT a (by omega) b (by omega)).2 ⟨ha, hb⟩) fun p hp hne => ?_
      by_contra hv
      have hp4 : p.1 < p.2 ∧ p.2 < 4 := (show ∀ p ∈ [(0, 1), (0, 2), (0, 3), (1, 2), (1, 3), (2, 3)], p.1 < p.2 ∧ p.2 < 4 by decide) p hp
      obtain ⟨u1, u2⟩ := (hT p.1 (by omega) p.2 (by omega)).1 hv
      rw [rowUsed, if_pos (by omega), decide_eq_true_iff] at u1 u2
      have inj : ∀ a < 4, ∀ b < 4, spacingLetters.getD a ' ' = spacingLetters.getD b ' ' → a = b := by decide
      simp only [List.mem_cons, List.not_mem_nil, or_false] at u1 u2
      have v1 : p.1 = a ∨ p.1 = b := u1.imp (inj _ (by omega) _ (by omega)) (inj _ (by omega) _ (by omega))
      have v2 : p.2 = a ∨ p.2 = b := u2.imp (inj _ (by omega) _ (by omega)) (inj _ (by omega) _ (by omega))
      exact hne (Prod.ext (by omega) (by omega))
    rw [hf]
    dsimp only
    have hrev : ∀ a < 4, revLookup (spacingLetters.getD a ' ') = some a := by decide
    rw [if_neg, if_neg]
    · rintro ⟨h1, h2⟩
      rw [hearth] at h1
      exact h2 (hh h1 a b hlt.1 hlt.2 (by simp) (by simp))
    · rw [List.any_eq_true]
      rintro ⟨p, hp, hp'⟩
      rw [decide_eq_true_iff] at hp'
      simp only [List.mem_cons, List.not_mem_nil, or_false] at hp
      rcases hp with rfl | rfl
      · exact hp'.1 (hrev a (by omega))
      · exact hp'.2 (hrev b (by omega))
  · rfl

/-! ### The table of distances -/

theorem entry_used {s : Obj} {T : Table} (hT : overheadSpacing s = .ok T) {i j : ℕ} (hi : i < 5) (hj : j < 5) (h : T i j ≠ -1) : T i i = 0 ∧ T j j = 0 := by
  have key : ∀ i j, i < j → j < 5 → (T i j ≠ -1 ∨ T j i ≠ -1) → T i i = 0 ∧ T j j = 0 := by
    intro i j hij hj h
    have hp : pairDist s (i, j) ≠ none := by
      intro hn
      have := (spacing_table hT).1 i j hij hj
      rw [hn] at this
      exact h.elim (fun h => h this.1) (fun h => h this.2)
    have hm := mem_spacingPairs i j hij hj
    constructor
    · rcases (spacing_table hT).2 i with ⟨h, -⟩ | ⟨-, h⟩
      · exact h
      · exact absurd (h _ hm (Or.inl rfl)) hp
    · rcases (spacing_table hT).2 j with ⟨h, -⟩ | ⟨-, h⟩
      · exact h
      · exact absurd (h _ hm (Or.inr rfl)) hp
  rcases Nat.lt_trichotomy i j with hl | rfl | hl
  · exact key i j hl hj (Or.inl h)
  · rcases (spacing_table hT).2 i with ⟨h, -⟩ | ⟨h', -⟩
    · exact ⟨h, h⟩
    · exact absurd h' h
  · exact (key j i hl hi (Or.inr h)).symm

/-- What is known of the table of a sound overhead line. -/
structure TableOf (T : Table) (ps : List Char) (D : Char → Char → ℚ) (e : Bool) : Prop where
  used : ∀ i < 5, ∀ j < 5, (T i j ≠ -1 ↔ rowUsed ps e i = true ∧ rowUsed ps e j = true)
  earth : e = true → T 4 4 = 0
  own : ∀ a < 4, spacingLetters.getD a ' ' ∈ ps → T a a = 0
  dist : ∀ a < 4, ∀ b < 4, a ≠ b → spacingLetters.getD a ' ' ∈ ps → spacingLetters.getD b ' ' ∈ ps →
    T a b = D (spacingLetters.getD a ' ') (spacingLetters.getD b ' ') ∧ 0 < T a b
  height : ∀ a < 4, spacingLetters.getD a ' ' ∈ ps → if e then 0 < T a 4 else T a 4 = -1
  near : ∀ a < 4, ∀ b < 4, a ≠ b → spacingLetters.getD a ' ' ∈ ps → spacingLetters.getD b ' ' ∈ ps → |T a 4 - T b 4| ≤ T a b

theorem table_of {s : Obj} (hw : WellSpaced s) {T : Table} (hT : overheadSpacing s = .ok T) {ps : List Char} (hne : ps ≠ []) (hs : ps.Sublist "ABCN".toList)
    {D : Char → Char → ℚ} (hD : ∀ p ∈ ps, ∀ q ∈ ps, p ≠ q → 0 < D p q ∧ Spaced s p q (D p q)) (hm : ∀ x ∈ "ABCN".toList, (x ∈ ps ↔ ∃ y d, Spaced s x y d))
    (hh : HeightsFit s ps D) : ∃ e, TableOf T ps D e := by
  have inj : ∀ a < 4, ∀ b < 4, spacingLetters.getD a ' ' = spacingLetters.getD b ' ' → a = b := by decide
  have hl : ∀ a < 4, spacingLetters.getD a ' ' ∈ "ABCN".toList := by decide
  have hdist : ∀ a < 4, ∀ b < 4, a ≠ b → spacingLetters.getD a ' ' ∈ ps → spacingLetters.getD b ' ' ∈ ps →
      T a b = D (spacingLetters.getD a ' ') (spacingLetters.getD b ' ') ∧ 0 < T a b := by
    intro a ha b hb hab hpa hpb
    obtain ⟨h1, h2⟩ := hD _ hpa _ hpb fun e => hab (inj a ha b hb e)
    have := spaced_entry hT (by omega) (by omega) h1.ne' h2
    exact ⟨this, this ▸ h1⟩
  have hown : ∀ a < 4, (T a a = 0 ↔ spacingLetters.getD a ' ' ∈ ps) := by
    intro a ha
    rw [mentioned_iff hw hT, hm _ (hl a ha)]
    constructor
    · rintro ⟨y, d, -, h⟩; exact ⟨y, d, h⟩
    · rintro ⟨y, d, h⟩; exact ⟨y, d, by omega, h⟩
  obtain ⟨p0, hp0⟩ := List.exists_mem_of_ne_nil _ hne
  rcases hh with ⟨h, hh1, hh2⟩ | hh
  · have hE : ∀ a < 4, spacingLetters.getD a ' ' ∈ ps → T a 4 = h (spacingLetters.getD a ' ') ∧ 0 < T a 4 ∧ T 4 a = T a 4 := by
      intro a ha hpa
      obtain ⟨h1, h2⟩ := hh1 _ hpa
      have := spaced_entry hT (a := a) (b := 4) (by omega) (by norm_num) h1.ne' h2
      exact ⟨this, this ▸ h1, spacing_symm hT 4 a (by norm_num) (by omega)⟩
    have h44 : T 4 4 = 0 := by
      rw [mentioned_iff hw hT]
      exact ⟨_, _, by norm_num, spaced_symm (hh1 p0 hp0).2⟩
    refine ⟨true, fun i hi j hj => ?_, fun _ => h44, fun a ha hp => (hown a ha).2 hp, hdist, fun a ha hp => by rw [if_pos rfl]; exact (hE a ha hp).2.1, ?_⟩
    · have hrow : ∀ i < 5, (rowUsed ps true i = true ↔ T i i = 0) := by
        intro i hi
        rw [rowUsed]
        split
        · rw [decide_eq_true_iff, hown i (by assumption)]
        · obtain rfl : i = 4 := by omega
          simp [h44]
      rw [hrow i hi, hrow j hj]
      refine ⟨entry_used hT hi hj, fun ⟨h1, h2⟩ => ?_⟩
      by_cases hij : i = j
      · rw [hij, h2]; norm_num
      · rcases Nat.lt_or_ge i 4 with hi4 | hi4 <;> rcases Nat.lt_or_ge j 4 with hj4 | hj4
        · have := (hdist i hi4 j hj4 hij ((hown i hi4).1 h1) ((hown j hj4).1 h2)).2
          linarith
        · obtain rfl : j = 4 := by omega
          have := (hE i hi4 ((hown i hi4).1 h1)).2.1
          linarith
        · obtain rfl : i = 4 := by omega
          have := (hE j hj4 ((hown j hj4).1 h2)).2
          rw [this.2]
          linarith [this.1]
        · omega
    · intro a ha b hb hab hpa hpb
      rw [(hE a ha hpa).1, (hE b hb hpb).1, (hdist a ha b hb hab hpa hpb).1]
      exact hh2 _ hpa _ hpb fun e => hab (inj a ha b hb e)
  · have h44 : T 4 4 ≠ 0 := by
      rw [Ne, mentioned_iff hw hT]
      rintro ⟨y, d, -, h⟩
      exact hh y d (spaced_symm h)
    have hE : ∀ a < 5, T a 4 = -1 ∧ T 4 a = -1 := by
      intro a ha
      constructor <;> by_contra hv
      · exact h44 (entry_used hT ha (by norm_num) hv).2
      · exact h44 (entry_used hT (by norm_num) ha hv).1
    refine ⟨false, fun i hi j hj => ?_, fun h => (by cases h), fun a ha hp => (hown a ha).2 hp, hdist, fun a ha hp => (by rw [if_neg (by decide)]; exact (hE a (by omega)).1), ?_⟩
    · have hrow : ∀ i < 5, (rowUsed ps false i = true ↔ T i i = 0) := by
        intro i hi
        rw [rowUsed]
        split
        · rw [decide_eq_true_iff, hown i (by assumption)]
        · obtain rfl : i = 4 := by omega
          simp [h44]
      rw [hrow i hi, hrow j hj]
      refine ⟨entry_used hT hi hj, fun ⟨h1, h2⟩ => ?_⟩
      by_cases hij : i = j
      · rw [hij, h2]; norm_num
      · rcases Nat.lt_or_ge i 4 with hi4 | hi4 <;> rcases Nat.lt_or_ge j 4 with hj4 | hj4
        · have := (hdist i hi4 j hj4 hij ((hown i hi4).1 h1) ((hown j hj4).1 h2)).2
          linarith
        · obtain rfl : j = 4 := by omega
          exact absurd h2 h44
        · obtain rfl : i = 4 := by omega
          exact absurd h1 h44
        · omega
    · intro a ha b hb hab hpa hpb
      rw [(hE a (by omega)).1, (hE b (by omega)).1, sub_self, abs_zero]
      exact (hdist a ha b hb hab hpa hpb).2.le

theorem TableOf.place {T : Table} {ps : List Char} {D : Char → Char → ℚ} {e : Bool} (h : TableOf T ps D e) (hs : ps.Sublist "ABCN".toList) : placeWires T ps = .ok () :=
  place_total hs h.used h.earth fun _ a b hab hb hpa hpb => h.near a (by omega) b hb (by omega) hpa hpb

/-- The charging of a sound overhead line can be computed but for the inversion. -/
theorem TableOf.charging {T : Table} {ps : List Char} {D : Char → Char → ℚ} {e : Bool} (h : TableOf T ps D e) (hs : ps.Sublist "ABCN".toList) {wires : List BareWire}
    (hw : wires.map BareWire.phase = ps) {δ : Char → ℚ} (hd : ∀ w ∈ wires, w.diameter = some (δ w.phase) ∧ 0 < δ w.phase) : ChargingReadable wires T := by
  have hrev : ∀ p ∈ "ABCN".toList, ∀ a, revLookup p = some a → a < 4 ∧ spacingLetters.getD a ' ' = p := by
    intro p hp a ha
    have : ∀ p ∈ "ABCN".toList, ∃ b < 4, revLookup p = some b ∧ spacingLetters.getD b ' ' = p := by decide
    obtain ⟨b, hb, e1, e2⟩ := this p hp
    rw [ha, Option.some.injEq] at e1
    subst e1
    exact ⟨hb, e2⟩
  have hmem : ∀ w ∈ wires, w.phase ∈ ps := fun w hwm => hw ▸ List.mem_map_of_mem hwm
  have hz : ∀ a < 4, spacingLetters.getD a ' ' ∈ ps → T a 4 ≠ 0 := by
    intro a ha hp
    have := h.height a ha hp
    split at this
    · exact this.ne'
    · rw [this]; norm_num
  refine ⟨fun w hwm => ⟨_, (hd w hwm).1, (hd w hwm).2⟩, ?_, ?_⟩
  · intro u hu v hv huv a b ha hb
    obtain ⟨ha4, hal⟩ := hrev _ (hs.subset (hmem u hu)) a ha
    obtain ⟨hb4, hbl⟩ := hrev _ (hs.subset (hmem v hv)) b hb
    have hpa : spacingLetters.getD a ' ' ∈ ps := hal ▸ hmem u hu
    have hpb : spacingLetters.getD b ' ' ∈ ps := hbl ▸ hmem v hv
    have hab : a ≠ b := by
      rintro rfl
      exact huv (hal.symm.trans hbl)
    refine ⟨(h.dist a ha4 b hb4 hab hpa hpb).2, fun hN => ?_⟩
    obtain rfl : b = 3 := by
      rw [hN, show revLookup 'N' = some 3 by decide, Option.some.injEq] at hb
      exact hb.symm
    have hn := h.near a ha4 3 hb4 hab hpa hpb
    have h0 := (h.dist a ha4 3 hb4 hab hpa hpb).2
    have h1 : (T a 4 - T 3 4) ^ 2 ≤ T a 3 ^ 2 := sq_le_sq' (by linarith [(abs_le.1 hn).1]) (abs_le.1 hn).2
    refine ⟨h1, ?_⟩
    have h2 : 0 < (T a 4 + T 3 4) ^ 2 := by
      refine (sq_nonneg _).lt_of_ne' (pow_ne_zero 2 ?_)
      have u := h.height a ha4 hpa
      have v := h.height 3 hb4 hpb
      split at u
      · rw [if_pos (by assumption)] at v
        exact (add_pos u v).ne'
      · rw [if_neg (by assumption)] at v
        rw [u, v]
        norm_num
    linarith
  · intro u hu a ha
    obtain ⟨ha4, hal⟩ := hrev _ (hs.subset (hmem u hu)) a ha
    have hpa : spacingLetters.getD a ' ' ∈ ps := hal ▸ hmem u hu
    exact ⟨h.own a ha4 hpa, hz a ha4 hpa⟩

/-! ### Overhead lines -/

theorem filter_bare (wires : List BareWire) : (wires.filter (·.phase ≠ 'N')).length = ((wires.map BareWire.phase).filter (· ≠ 'N')).length := by
  rw [List.filter_map, List.length_map]
  rfl

theorem SoundOverhead.accepted {v : Option Table} {objs : List (Txt × Obj)} {o : Obj} {ph : Phases} (h : SoundOverhead objs o ph) {m : ℚ} (hm : Miles o m) (h0 : m ≠ 0) :
    ∃ d objs' v', readOverhead v objs o ph = .ok ((d, objs'), v') ∧ (∃ c, Refers objs o "configuration".toList c ∧ d.1 = conductorLetters c "ABC".toList) ∧
      ∀ pairs : List (ℕ × ℕ), pairs.length = d.1.length → ∃ e, lineMade d.2 pairs = .ok e := by
  obtain ⟨c, s, r, g, δ, D, h1, h2, h3, h4, h5, h6, h7, h8, h9, h10, h11⟩ := h
  obtain ⟨len, hlen, hl⟩ := hm.read
  obtain ⟨⟨ws, objs'⟩, hw, hF, hsame⟩ := readWires_total (read := overheadConductor) (P := fun p w => w = ⟨p, some (δ p), some (g p), some (r p)⟩)
    (Q := fun p w => SoundWire (r p) (g p) (δ p) w) (fun w p hq => ⟨_, hq.read p, rfl⟩) (fun w p hq => hq.2.2.2.2.2.2) (names_given h2)
  have hps : ws.map BareWire.phase = conductorLetters c "ABCN".toList :=
    forall₂_phases (P := fun p w => w = ⟨p, some (δ p), some (g p), some (r p)⟩) (fun p w h => by rw [h]) hF
  have hwv := forall₂_attr (P := fun p w => w = ⟨p, some (δ p), some (g p), some (r p)⟩) (phase := BareWire.phase) (fun p w h => by rw [h]) hF
  have hmem : ∀ w ∈ ws, w.phase ∈ conductorLetters c "ABCN".toList := fun w hwm => hps ▸ List.mem_map_of_mem hwm
  have hpos : ∀ w ∈ ws, 0 < r w.phase ∧ 0 < g w.phase ∧ 0 < δ w.phase := fun w hwm => by
    obtain ⟨u, -, -, -, a, b, c, -⟩ := h2 _ (hmem w hwm)
    exact ⟨a, b, c⟩
  have hsub := conductorLetters_sublist c "ABCN".toList
  have hnd : (conductorLetters c "ABCN".toList).Nodup := hsub.nodup (by decide)
  have hne : conductorLetters c "ABCN".toList ≠ [] := by
    obtain ⟨p, hp, hpp⟩ := h8
    exact List.ne_nil_of_mem ((h7 p hp).2 hpp)
  obtain ⟨T, hT⟩ := spacing_total h4
  obtain ⟨e, htab⟩ := table_of h4 hT hne hsub h5 h6 h10
  have htable : overheadTable v objs' c (ws.map BareWire.phase) = .ok (some T) := by
    obtain ⟨n, hn1, hn2⟩ := h3
    rw [overheadTable, hn1]
    dsimp only
    rw [hsame, hn2]
    dsimp only
    rw [hT, ok_bind', hps, htab.place hsub]
    rfl
  have hlen4 : ws.length = (conductorLetters c "ABCN".toList).length := by rw [← hps, List.length_map]
  have hread : OverheadReadable ws T := by
    refine ⟨fun w hwm => ?_, fun w hwm r' g' _ hg => ?_, fun i hi j hj hij => ?_⟩
    · have : ∀ p ∈ "ABCN".toList, ∃ a < 4, revLookup p = some a := by decide
      exact this _ (hsub.subset (hmem w hwm))
    · rw [hwv w hwm] at hg
      cases hg
      exact (hpos w hwm).2.1
    · rw [hlen4] at hi hj
      have hne : (conductorLetters c "ABCN".toList)[i] ≠ (conductorLetters c "ABCN".toList)[j] := fun e => hij ((hnd.getElem_inj_iff).1 e)
      obtain ⟨hp, hsp⟩ := h5 _ (List.getElem_mem hi) _ (List.getElem_mem hj) hne
      exact ⟨_, striped_spaced h4 hT hsub h6 hi hj hp hsp, hp⟩
  have hres : ∀ w ∈ ws, ∃ r g, w.resistance = some r ∧ w.gmr = some g ∧ 0 < r := fun w hwm => by
    refine ⟨r w.phase, g w.phase, ?_, ?_, (hpos w hwm).1⟩ <;> rw [hwv w hwm]
  have hcov : ∀ p ∈ "ABC".toList, p ∈ ph.phases → p ∈ ws.map BareWire.phase := fun p hp hpp => by rw [hps]; exact (h7 p hp).2 hpp
  obtain ⟨Z, hZ, -⟩ := C93_accepted hT ws ph.phases ph.hasNeutral hread hres hcov (by rw [hps]; exact h9) h8 (fun _ _ => none) 1 one_ne_zero
    (List.replicate (keptPhases ph.phases).length (0, 0)) (List.length_replicate ..)
  have hinv := h11 ws T hps (fun w hwm => by rw [hwv w hwm]) hT
  have hB : ∃ B, overheadCharging ws T = .ok B := by
    rw [overheadCharging, if_neg (not_not.2 (htab.charging hsub hps fun w hwm => ⟨by rw [hwv w hwm], (hpos w hwm).2.2⟩)), if_neg, if_neg hinv.2]
    · exact ⟨_, rfl⟩
    · rintro ⟨hN, hz⟩
      exact hinv.1 (hps ▸ hN) hz
  obtain ⟨B, hB⟩ := hB
  have hph : (ws.map BareWire.phase).filter (· ≠ 'N') = conductorLetters c "ABC".toList := by rw [hps, conductorLetters_phases]
  refine ⟨((ws.map BareWire.phase).filter (· ≠ 'N'), ⟨_, perMeter Z, shuntPerMeter B, len.1⟩), objs', some T, ?_, ⟨c, h1, hph⟩, fun pairs hp => ?_⟩
  · rw [readOverhead]
    simp only [hlen, config_given h1, hw, htable, tableSet, hZ, hB, ok_bind']
  · have hk : ((ws.map BareWire.phase).filter (· ≠ 'N')).length = (keptPhases ph.phases).length := by
      rw [hps]
      refine kept_length (q := fun p => (c.attr ("conductor_".toList ++ [p])).isSome) fun p hp => ?_
      rw [← h7 p hp, conductorLetters, List.mem_filter]
      have : ∀ p ∈ "ABC".toList, p ∈ "ABCN".toList := by decide
      exact ⟨fun h => ⟨this p hp, h⟩, And.right⟩
    dsimp only at hp
    rw [hk] at hp
    have hne : len.1 ≠ 0 := by
      rw [hl]
      exact mul_ne_zero h0 (by norm_num)
    have hb := kept_bound h8
    exact lineMade_of_strict (d := ⟨_, perMeter Z, shuntPerMeter B, len.1⟩) hb hne (fun I hI => perMeter_strict (overhead_strict (striped_symm hT) hZ hres hcov hI)) hp

/-! ### Lines -/

theorem NumberIf.same {o o' : Obj} (h : SameObj o o') {a : Txt} (ha : a ∉ writtenAttributes) (hn : NumberIf o a) : NumberIf o' a := by
  rw [NumberIf, h.attr a ha]
  exact hn

theorem RatingsRead.same {o o' : Obj} (h : SameObj o o') (hr : RatingsRead o) : RatingsRead o' :=
  ⟨hr.1.same h (by decide), hr.2.same h (by decide)⟩

theorem SoundWire.same {o o' : Obj} (h : SameObj o o') {r g δ : ℚ} (hs : SoundWire r g δ o) : SoundWire r g δ o' := by
  obtain ⟨h1, h2, h3, h4, h5, h6, h7⟩ := hs
  exact ⟨h1.same h, h2.same h, h3, h4, h5, h6.imp (·.same h) fun h' => ⟨(h.attr "diameter".toList (by decide)).trans h'.1, h'.2⟩, h7.same h⟩

theorem SoundCable.same {o o' : Obj} (h : SameObj o o') {k : ℕ} {x : CableData} {δ : ℚ} (hs : SoundCable k x δ o) : SoundCable k x δ o' := by
  obtain ⟨h1, h2, h3, h4, h5, h6, h7, h8, h9, h10, h11, h12, h13, h14, h15, h16, h17⟩ := hs
  exact ⟨h1.same h, h2.same h, h3.same h, h4.same h, h5.same h, h6.same h, h7.same h, h8.same h, h9, h10, h11, h12, h13, h14, h15, h16.same h, h17⟩

theorem SoundNeutral.same {o o' : Obj} (h : SameObj o o') {r g : ℚ} (hs : SoundNeutral r g o) : SoundNeutral r g o' := by
  obtain ⟨h1, h2, h3, h4, h5, h6, h7⟩ := hs
  refine ⟨by rwa [h.attr "outer_diameter".toList (by decide)], h2.same h, h3.same h, h4, h5, fun a ha => (h6 a ha).same h ?_, h7.same h⟩
  have : ∀ a ∈ ["outer_diameter", "neutral_diameter", "neutral_strands", "conductor_diameter", "neutral_gmr", "neutral_resistance"].map String.toList,
    a ∉ writtenAttributes := by decide
  exact this a ha

theorem overheadSpacing_same {s s' : Obj} (h : SameObj s s') : overheadSpacing s' = overheadSpacing s := by
  rw [overheadSpacing, overheadSpacing]
  refine foldlM_congr (fun p _ T => ?_) _
  have e : s'.get (distanceName p.1 p.2) = s.get (distanceName p.1 p.2) := get_same h (distance_not_written _ _)
  rw [overheadSpacingStep, overheadSpacingStep, e]

theorem SoundLine.same {objs objs' : List (Txt × Obj)} (h : SameObjs objs objs') {o : Obj} {ph : Phases} (hs : SoundLine objs o ph) : SoundLine objs' o ph := by
  obtain ⟨hm, hs⟩ := hs
  refine ⟨hm, ?_⟩
  split
  · rename_i hc
    rw [if_pos hc] at hs
    obtain ⟨c, s, r, g, δ, D, h1, h2, h3, h4, h5, h6, h7, h8, h9, h10, h11⟩ := hs
    obtain ⟨c', hcc, hr⟩ := h1.same h (SameObj.refl o) (by decide)
    obtain ⟨s', hss, hr'⟩ := h3.same h hcc (by decide)
    simp only [← conductorLetters_same hcc, ← Spaced.same hss] at h2 h5 h6 h7 h9 h10 h11
    refine ⟨c', s', r, g, δ, D, hr, fun p hp => ?_, hr', h4.same hss, h5, h6, h7, h8, h9, ?_, ?_⟩
    · obtain ⟨w, a1, a2⟩ := h2 p hp
      obtain ⟨w', hw, a1'⟩ := a1.same h hcc (conductor_not_written p)
      exact ⟨w', a1', a2.same hw⟩
    · rw [HeightsFit] at h10 ⊢
      simpa only [← Spaced.same hss] using h10
    · rw [PotentialsInvert] at h11 ⊢
      simpa only [← overheadSpacing_same hss] using h11
  · rename_i hc
    rw [if_neg hc] at hs
    split
    · rename_i hc'
      rw [if_pos hc'] at hs
      obtain ⟨c, r, g, d, t, h1, h2, h3, h4, h5, h6⟩ := hs
      obtain ⟨c', hcc, hr⟩ := h1.same h (SameObj.refl o) (by decide)
      refine ⟨c', r, g, d, t, hr, fun p hp => ?_, h3.same hcc, h4.same hcc, h5, h6⟩
      obtain ⟨w, a1, a2, a3, a4, a5, a6⟩ := h2 p hp
      obtain ⟨w', hw, a1'⟩ := a1.same h hcc (conductor_not_written p)
      exact ⟨w', a1', a2.same hw, a3.same hw, a4, a5, a6.same hw⟩
    · rename_i hc'
      rw [if_neg hc'] at hs
      obtain ⟨c, s, k, x, δ, r, g, D, h1, hk, h2, h3, h4, h5, h6, h7⟩ := hs
      obtain ⟨c', hcc, hr⟩ := h1.same h (SameObj.refl o) (by decide)
      obtain ⟨s', hss, hr'⟩ := h3.same h hcc (by decide)
      simp only [← conductorLetters_same hcc, ← Spaced.same hss] at h2 h5 h6 h7
      refine ⟨c', s', k, x, δ, r, g, D, hr, hk, fun p hp => ?_, hr', h4.same hss, h5, h6, h7⟩
      obtain ⟨w, a1, a2⟩ := h2 p hp
      obtain ⟨w', hw, a1'⟩ := a1.same h hcc (conductor_not_written p)
      refine ⟨w', a1', ?_⟩
      split at a2 <;> rename_i hN
      · rw [if_pos hN]; exact a2.same hw
      · rw [if_neg hN]; exact a2.same hw

/-- A sound line is read and built, whatever was read before it. -/
theorem SoundLine.accepted {v : Option Table} {objs : List (Txt × Obj)} {o : Obj} {ph : Phases} (h : SoundLine objs o ph) :
    ∃ d objs' v', readLineVar v objs o ph = .ok ((d, objs'), v') ∧ (∀ p ∈ d.1, lineLetters objs o p) ∧
      ∀ pairs : List (ℕ × ℕ), pairs.length = d.1.length → ∃ e, lineMade d.2 pairs = .ok e := by
  obtain ⟨⟨m, hm, h0⟩, h⟩ := h
  rw [readLineVar]
  split at h
  · rename_i hc
    obtain ⟨d, objs', v', h1, ⟨c, h2, h3⟩, h4⟩ := h.accepted (v := v) hm h0
    refine ⟨d, objs', v', by rw [if_pos hc, h1], fun p hp => ⟨c, h2, ?_⟩, h4⟩
    rw [if_neg (by rw [hc]; decide), ← h3]
    exact hp
  · rename_i hc
    split at h
    · rename_i hc'
      obtain ⟨d, objs', h1, h3, h4⟩ := h.accepted hm h0
      refine ⟨d, objs', v, by rw [if_neg hc, if_pos hc', h1]; rfl, fun p hp => ?_, h4⟩
      obtain ⟨c, r, g, _, t, h2, h5, -⟩ := h
      refine ⟨c, h2, ?_⟩
      rw [if_pos hc', conductorLetters, List.mem_filter]
      rw [h3] at hp
      have : ∀ p ∈ "12".toList, p ∈ "12N".toList := by decide
      obtain ⟨w, ⟨n, hn, -⟩, -⟩ := h5 p (this p hp)
      exact ⟨hp, by rw [hn]; rfl⟩
    · rename_i hc'
      obtain ⟨d, objs', v', h1, ⟨c, h2, h3⟩, h4⟩ := h.accepted (v := v) hm h0
      refine ⟨d, objs', v', by rw [if_neg hc, if_neg hc', h1], fun p hp => ⟨c, h2, ?_⟩, h4⟩
      rw [if_neg hc', ← h3]
      exact hp

theorem lineLetters_same {objs objs' : List (Txt × Obj)} (h : SameObjs objs objs') {o : Obj} {p : Char} (hp : lineLetters objs' o p) : lineLetters objs o p := by
  obtain ⟨c', ⟨n, h1, h2⟩, h3⟩ := hp
  obtain ⟨c, hc, hs⟩ := h.to_some h2
  exact ⟨c, ⟨n, h1, hc⟩, by rwa [conductorLetters_same hs] at h3⟩

/-- Sound lines are accepted. -/
theorem SoundLines.accepted {objs : List (Txt × Obj)} (h : SoundLines objs) : LinesAccepted lineReader lineMade objs := by
  intro o ho objs1 hs t ph ht hph
  obtain ⟨d, objs', v', h1, h2, h3⟩ := ((h o ho).1 t ph ht hph).same hs |>.accepted (v := none)
  refine ⟨d, objs', ?_, fun p hp => (h o ho).2 p (lineLetters_same hs (h2 p hp)), fun ps hl => h3 ps hl⟩
  rw [lineReader, h1]
  rfl

end Verif.Glm
