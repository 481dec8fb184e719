import Verif.Lemmas.GlmInner
import Verif.Lemmas.GlmBuses
import Verif.Lemmas.LoadNames
import Verif.Spec.Summary
import Mathlib.Data.Finset.Card
import Mathlib.Data.Finset.Dedup

/-!
# Counting buses and names
-/

namespace Verif.Glm

variable {M : Type}

/-- Entries that satisfy `p` are as many as a list of their positions without repetition. -/
theorem filter_length {α : Type} (l : List α) (p : α → Bool) {bs : List ℕ} (hn : bs.Nodup) (h : ∀ b, b ∈ bs ↔ ∃ x, l[b]? = some x ∧ p x = true) :
    (l.filter p).length = bs.length := by
  have h1 : (l.filter p).length = ((l.zipIdx.filter fun x => p x.1).map Prod.snd).length := by
    conv_lhs => rw [← List.zipIdx_map_fst 0 l]
    rw [List.filter_map, List.length_map, List.length_map]
    rfl
  rw [h1]
  refine List.Perm.length_eq ((List.perm_ext_iff_of_nodup ?_ hn).2 fun b => ?_)
  · refine List.Nodup.sublist (List.Sublist.map _ List.filter_sublist) ?_
    rw [List.zipIdx_map_snd]
    exact List.nodup_range' ..
  · rw [h]
    constructor
    · intro hb
      obtain ⟨⟨x, k⟩, hx, rfl⟩ := List.mem_map.1 hb
      obtain ⟨hx, hp⟩ := List.mem_filter.1 hx
      exact ⟨x, List.mem_zipIdx_iff_getElem?.1 hx, hp⟩
    · rintro ⟨x, hx, hp⟩
      exact List.mem_map.2 ⟨(x, b), List.mem_filter.2 ⟨List.mem_zipIdx_iff_getElem?.2 hx, hp⟩, rfl⟩

/-- The inner buses of a network, if all inner buses of its devices are inner buses. -/
theorem inner_length {g : Grid M} (h : InnerOnce g) (hi : ∀ b ∈ innerOf g.transformers g.regulators g.fuses, Inner g b) :
    (g.buses.filter fun x => x.virtual).length = (innerOf g.transformers g.regulators g.fuses).length :=
  filter_length _ _ h.1 fun b => ⟨hi b, fun ⟨x, hx, hv⟩ => h.2.2 b x hx hv⟩

theorem buses_length (g : Grid M) : g.buses.length = (outerBuses g).length + (g.buses.filter fun x => x.virtual).length := by
  rw [outerBuses, List.length_map]
  have := List.length_eq_countP_add_countP (fun x : PhaseBus => x.virtual) (l := g.buses)
  rw [List.countP_eq_length_filter, List.countP_eq_length_filter] at this
  simp only [Bool.not_eq_true] at this
  have e : (fun x : PhaseBus => !x.virtual) = fun x => decide (x.virtual = false) := by funext x; cases x.virtual <;> rfl
  rw [e]
  omega

theorem taps_length {objs : List (Txt × Obj)} {g : Grid M} {ds : List DeclaredXfmr} {xs : List GXfmr} (h : List.Forall₂ (IsXfmr objs g) ds xs) :
    (xs.flatMap GXfmr.inner).length = 3 * ds.countP DeclaredXfmr.isTap ∧
      ∀ b ∈ xs.flatMap GXfmr.inner, Inner g b := by
  induction h with
  | nil => exact ⟨rfl, fun b hb => by cases hb⟩
  | @cons d x ds xs hd _ ih =>
    rw [List.flatMap_cons, List.length_append, ih.1]
    cases d with
    | coil o c p q =>
      obtain ⟨c', -, fp, fn, tp, tn, v1, v2, d1, d2, r, y, s, rfl, -⟩ := hd
      refine ⟨?_, fun b hb => ?_⟩
      · rw [List.countP_cons_of_neg (by simp [DeclaredXfmr.isTap]), GXfmr.inner]
        simp
      · rw [GXfmr.inner, List.nil_append] at hb
        exact ih.2 b hb
    | tap o c =>
      obtain ⟨p, f, b0, b1, t1, b2, t2, v0, v1, v2, r0, r1, r2, x0, x1, x2, s, rfl, -, -, -, -, i0, i1, i2, -⟩ := hd
      refine ⟨?_, fun b hb => ?_⟩
      · rw [List.countP_cons_of_pos rfl, GXfmr.inner]
        simp only [List.length_cons, List.length_nil]
        ring
      · rcases List.mem_append.1 hb with hb | hb
        · simp only [GXfmr.inner, List.mem_cons, List.not_mem_nil, or_false] at hb
          rcases hb with rfl | rfl | rfl <;> assumption
        · exact ih.2 b hb

theorem forall₂_right {α β : Type} {R : α → β → Prop} {P : β → Prop} {as : List α} {bs : List β} (h : List.Forall₂ R as bs) (hP : ∀ a b, R a b → P b) :
    ∀ b ∈ bs, P b := by
  induction h with
  | nil => intro b hb; cases hb
  | cons h _ ih =>
    intro b hb
    rcases List.mem_cons.1 hb with rfl | hb
    · exact hP _ _ h
    · exact ih b hb

/-- Distinct values of `f` on a list as many as the entries of another one, on which `f'` is injective, with the same values. -/
theorem dedup_length {α β γ : Type} [DecidableEq β] {l : List α} {l' : List γ} {f : α → β} {f' : γ → β} (hn : l'.Nodup)
    (hinj : ∀ x ∈ l', ∀ y ∈ l', f' x = f' y → x = y) (h : ∀ b, b ∈ l.map f ↔ b ∈ l'.map f') : (l.map f).dedup.length = l'.length := by
  have h1 : (l.map f).dedup.length = (l'.map f').length := by
    refine List.Perm.length_eq ((List.perm_ext_iff_of_nodup (List.nodup_dedup _) ?_).2 fun b => ?_)
    · exact List.Nodup.map_on hinj hn
    · rw [List.mem_dedup]; exact h b
  rw [h1, List.length_map]

end Verif.Glm
