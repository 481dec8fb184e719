import Verif.Lemmas.GlmFile
import Verif.Spec.LoadNames

/-!
# Names of the loads of a feeder
-/

namespace Verif.Glm

variable {M : Type}

theorem NameEnding.unique {name a b : Txt} (ha : NameEnding name a) (hb : NameEnding name b) : a = b := by
  obtain ⟨ha, ha'⟩ := ha
  obtain ⟨hb, hb'⟩ := hb
  have key : ∀ (p q a b : Txt), '_' ∉ a → '_' ∉ b → p ++ '_' :: a = q ++ '_' :: b → a = b := by
    intro p q a b ha hb e
    rcases List.append_eq_append_iff.1 e with ⟨c, -, e2⟩ | ⟨c, -, e2⟩
    · cases c with
      | nil => exact (List.cons.inj e2).2
      | cons x c => exact absurd (show '_' ∈ a by rw [(List.cons.inj e2).2]; simp) ha
    · cases c with
      | nil => exact (List.cons.inj e2).2.symm
      | cons x c => exact absurd (show '_' ∈ b by rw [(List.cons.inj e2).2]; simp) hb
  rcases ha' with rfl | ⟨p, rfl⟩
  · rcases hb' with h | ⟨q, rfl⟩
    · exact h
    · exact absurd (by simp) ha
  · rcases hb' with h | ⟨q, hq⟩
    · rw [← h] at hb; exact absurd (by simp) hb
    · exact key p q a b ha hb hq

theorem NameEnding.load {name num : Txt} (h : NameEnding ("load_".toList ++ name) num) : NameEnding name num := by
  have hs : NameEnding name (((splitOn '_' name).getLast?).getD []) := splitOn_ending name
  have : NameEnding ("load_".toList ++ name) (((splitOn '_' name).getLast?).getD []) := by
    refine ⟨hs.1, .inr ?_⟩
    rcases hs.2 with e | ⟨pre, e⟩
    · exact ⟨"load".toList, by rw [← e]; rfl⟩
    · exact ⟨"load_".toList ++ pre, by rw [List.append_assoc, ← e]⟩
  rw [h.unique this]
  exact hs

theorem namedLoads_declared (objs : List (Txt × Obj)) : (namedLoads objs).map Prod.snd = declaredLoads objs := by
  rw [namedLoads, declaredLoads, List.map_flatMap]
  refine List.flatMap_congr fun x _ => ?_
  split_ifs
  · rw [List.map_map]; exact List.map_id _
  · rfl

theorem readLoad_names {schedules : List (Txt × Txt)} {name : Txt} {o : Obj} {l : DLoad × Option DNode} (h : readLoad schedules name o = .ok l) :
    (∀ num, NameEnding l.1.name num → NameEnding name num) ∧ l.1.triplex = splitPhase o := by
  have ht : (if decide ('S' ∈ phaseText o) = true then (phaseText o).head? else none) = splitPhase o := by
    rw [splitPhase, phaseText]
    cases o.attr "phases".toList with
    | none => decide
    | some t => simp only [Option.getD_some, decide_eq_true_eq]
  rw [readLoad] at h
  obtain ⟨_, _, h⟩ := bind_eq_ok h
  obtain ⟨_, _, h⟩ := bind_eq_ok h
  obtain ⟨_, _, h⟩ := bind_eq_ok h
  obtain ⟨ls, hls, h⟩ := bind_eq_ok h
  cases hp : o.attr "parent".toList with
  | some q => simp only [hp] at h; cases h; exact ⟨fun _ h => h, ht⟩
  | none => simp only [hp] at h; cases h; exact ⟨fun _ h => h.load, ht⟩

theorem ReadAs.loadNames {readLine : LineReader M} {schedules : List (Txt × Txt)} {objs objs' : List (Txt × Obj)} {name : Txt}
    {o : Obj} {ms : List (DModel M)} (h : ReadAs readLine schedules objs name o ms objs') (hc : isLoadObj o = true) :
    ∀ p ∈ loadPieces ms, (∀ num, NameEnding p.1.name num → NameEnding name num) ∧ p.1.triplex = splitPhase o := by
  intro p hp
  cases h with
  | load hc t ph l ht hph hl =>
    have h2 : loadPieces (.load l.1 :: (l.2.map DModel.node).toList : List (DModel M)) = l.1.loads.map fun pl => (l.1, pl) := by
      cases l.2 <;> simp [loadPieces]
    rw [h2] at hp
    obtain ⟨pl, -, rfl⟩ := List.mem_map.1 hp
    exact readLoad_names hl
  | _ => simp [loadPieces] at hp

theorem forall₂_with {α β : Type} {R : α → β → Prop} {P : β → Prop} {as : List α} {bs : List β} (h : List.Forall₂ R as bs) (hP : ∀ b ∈ bs, P b) :
    List.Forall₂ (fun a b => R a b ∧ P b) as bs := by
  induction h with
  | nil => exact .nil
  | cons h _ ih => exact .cons ⟨h, hP _ (by simp)⟩ (ih fun b hb => hP b (by simp [hb]))

/-- The loads of the network carry the names and phases of the file. -/
theorem FileRead.loadNames {readLine : LineReader M} {schedules : List (Txt × Txt)} {objs : List (Txt × Obj)} {s : DState M}
    {groups : List (List (DModel M))} {g : Grid M} (h : FileRead readLine schedules objs s groups g) (hk : (objs.map Prod.fst).Nodup)
    (hb : NoBasePower objs) : List.Forall₂ (fun (d : (Txt × Obj) × DeclaredLoad) (x : GLoad) => x.phase = d.2.phases ∧ NameEnding d.1.1 x.num ∧
      x.triplex = splitPhase d.1.2) (namedLoads objs) g.loads := by
  have h1 : List.Forall₂ (fun (d : (Txt × Obj) × DeclaredLoad) (x : DLoad × PhaseLoad) => Declares x.1 d.2 x.2 ∧
      (∀ num, NameEnding x.1.name num → NameEnding d.1.1 num) ∧ x.1.triplex = splitPhase d.1.2) (namedLoads objs) (loadPieces s.models) := by
    rw [pieces_groups (X := loadPieces) rfl loadPieces_cons (fun m => by cases m <;> rfl) h.models, namedLoads]
    refine forall₂_flatMap (List.forall₂_map_left_iff.1 h.gives) fun x hx ms hg => ?_
    obtain ⟨o0, o, objs1, objs2, hmem, hl, hso, _, hr⟩ := hg.object
    have : o0 = x.2 := by
      have := lookup_of_mem hk (show (x.1, x.2) ∈ objs from hx)
      rw [hl] at this; cases this; rfl
    subst this
    by_cases hc : isLoadObj x.2 = true
    · have := hso.other (isLoadObj_notLine hc)
      subst this
      have h2 := hr.loads fun _ => hb x.1 _ hx hc
      rw [if_pos hc] at h2 ⊢
      rw [List.forall₂_map_left_iff]
      exact forall₂_with h2 (hr.loadNames hc)
    · have hc' : isLoadObj o = false := by rw [isLoadObj_same hso]; simpa using hc
      have := hr.loads fun hc'' => by rw [hc'] at hc''; cases hc''
      rw [hc', if_neg (by simp)] at this
      rw [if_neg hc]
      rw [List.forall₂_nil_left_iff.1 this]
      exact .nil
  refine forall₂_trans ?_ h1 h.placed.loads
  rintro d ⟨l, pl⟩ x ⟨⟨-, hphase, -⟩, hn, ht⟩ ⟨a, rest, h1, -, -, -, -, -, -, e5, e6, e7⟩
  simp only at hphase hn ht h1 e5 e6 e7
  refine ⟨?_, hn _ e6, e7.trans ht⟩
  rcases hphase with hp | hp
  · rw [hp] at h1; cases h1
  · rw [hp] at h1; exact e5.trans (Option.some.inj h1).symm

end Verif.Glm
