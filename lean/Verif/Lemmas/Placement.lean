import Verif.Model.Placement
import Verif.Lemmas.Physics
import Verif.Lemmas.Transformer

/-! Helper lemmas about index assignment. -/

namespace Verif

open Ex Devices

theorem allocMissing_present (d : Dict) (n : ℕ) (a b : List Sym) (h : ∀ s ∈ a, (d s).isSome) :
    allocMissing d n (a ++ b) = allocMissing d n b := by
  induction a with
  | nil => rfl
  | cons s a ih =>
    rw [List.cons_append, allocMissing, if_pos (h s (by simp)), ih fun x hx => h x (by simp [hx])]

theorem allocMissing_fresh (d : Dict) (n : ℕ) (l : List Sym) (hn : l.Nodup) (h : ∀ s ∈ l, d s = none) :
    (allocMissing d n l).2 = n + l.length ∧
    ∀ x, (allocMissing d n l).1 x = if x ∈ l then some (some (n + l.idxOf x)) else d x := by
  induction l generalizing d n with
  | nil => simp [allocMissing]
  | cons s l ih =>
    rw [List.nodup_cons] at hn
    have hs : (d s).isSome = false := by simp [h s (by simp)]
    rw [allocMissing, if_neg (by simp [hs])]
    have hd : ∀ x ∈ l, (d.set s (some n)) x = none := by
      intro x hx
      have : x ≠ s := fun e => hn.1 (e ▸ hx)
      simp [Dict.set, this, h x (by simp [hx])]
    obtain ⟨h1, h2⟩ := ih (d.set s (some n)) (n + 1) hn.2 hd
    refine ⟨by rw [h1, List.length_cons]; omega, fun x => ?_⟩
    rw [h2 x]
    by_cases hx : x ∈ l
    · have hne : x ≠ s := fun e => hn.1 (e ▸ hx)
      simp only [hx, if_true, List.mem_cons, or_true]
      rw [List.idxOf_cons_ne _ (Ne.symm hne)]
      congr 2; omega
    · by_cases hxs : x = s
      · subst hxs; simp [hx, Dict.set]
      · simp [hx, hxs, Dict.set]

theorem skipMissing_spec (d : Dict) (l : List Sym) (x : Sym) :
    (skipMissing d l) x = if x ∈ l ∧ d x = none then some none else d x := by
  induction l generalizing d with
  | nil => simp [skipMissing]
  | cons s l ih =>
    rw [skipMissing]
    by_cases hs : (d s).isSome
    · rw [if_pos hs, ih]
      by_cases hx : x = s
      · subst hx
        have : d x ≠ none := by intro h0; simp [h0] at hs
        simp [this]
      · simp [hx]
    · rw [if_neg hs, ih]
      have h0 : d s = none := by simpa using hs
      by_cases hx : x = s
      · subst hx; simp [Dict.set, h0]
      · simp [hx, Dict.set]

/-- What `build_two_terminal_stamp_details` produces for a segment with own unknowns `own` and own multipliers
`lams`. -/
theorem twoTerminalDetails_spec {seg : Segment} (f t : Node) (n : ℕ) (opt : Bool) {own lams : List Sym}
    (hp : seg.primals = terminals ++ own) (hd : seg.duals = [.LrFrom, .LiFrom, .LrTo, .LiTo] ++ lams)
    (hn : (own ++ lams).Nodup) (hmiss : ∀ s ∈ own ++ lams, terminalDict f t s = none) :
    let d := twoTerminalDetails seg f t n opt
    d.1.seg = seg ∧ d.1.eqnMap = d.1.varMap ∧ d.1.opt = opt ∧
    (∀ s i, terminalDict f t s = some i → d.1.varMap s = i) ∧
    (∀ s ∈ own, d.1.varMap s = some (n + own.idxOf s)) ∧
    (∀ s ∈ lams, d.1.varMap s = if opt then some (n + own.length + lams.idxOf s) else none) ∧
    d.2 = n + own.length + (if opt then lams.length else 0) := by
  have hno : own.Nodup := (List.nodup_append.1 hn).1
  have hnl : lams.Nodup := (List.nodup_append.1 hn).2.1
  have hdis : ∀ s ∈ lams, s ∉ own := fun s hs ho => (List.nodup_append.1 hn).2.2 s ho s hs rfl
  have hpres : ∀ s ∈ terminals, (terminalDict f t s).isSome := by
    intro s hs; simp [terminals] at hs; rcases hs with rfl | rfl | rfl | rfl <;> rfl
  have ha := allocMissing_present (terminalDict f t) n terminals own hpres
  obtain ⟨h1, h2⟩ := allocMissing_fresh (terminalDict f t) n own hno fun s hs => hmiss s (by simp [hs])
  have hnot : ∀ s i, terminalDict f t s = some i → s ∉ own ∧ s ∉ lams := by
    intro s i hi
    constructor <;> intro ho
    · rw [hmiss s (by simp [ho])] at hi; simp at hi
    · rw [hmiss s (by simp [ho])] at hi; simp at hi
  set A := (allocMissing (terminalDict f t) n own).1 with hA
  have hA1 : ∀ s ∈ [Sym.LrFrom, .LiFrom, .LrTo, .LiTo], (A s).isSome := by
    intro s hs
    have : ∃ i, terminalDict f t s = some i := by
      simp at hs; rcases hs with rfl | rfl | rfl | rfl <;> exact ⟨_, rfl⟩
    obtain ⟨i, hi⟩ := this
    rw [h2, if_neg (hnot s i hi).1, hi]; rfl
  have hA2 : ∀ s ∈ lams, A s = none := by
    intro s hs
    rw [h2, if_neg (hdis s hs), hmiss s (by simp [hs])]
  cases opt with
  | true =>
    obtain ⟨h3, h4⟩ := allocMissing_fresh A (n + own.length) lams hnl hA2
    have hb := allocMissing_present A (n + own.length) [.LrFrom, .LiFrom, .LrTo, .LiTo] lams hA1
    have hr : (twoTerminalDetails seg f t n true) =
        (⟨seg, fun s => ((allocMissing A (n + own.length) lams).1 s).join,
          fun s => ((allocMissing A (n + own.length) lams).1 s).join, true⟩, (allocMissing A (n + own.length) lams).2) := by
      unfold twoTerminalDetails
      simp only [hp, hd, ha, h1, ← hA, if_true, hb]
    intro d
    have hd' : d = _ := hr
    rw [hd']
    refine ⟨rfl, rfl, rfl, ?_, ?_, ?_, ?_⟩
    · intro s i hi
      simp only [h4, if_neg (hnot s i hi).2, h2, if_neg (hnot s i hi).1, hi, Option.join_some]
    · intro s hs
      have : s ∉ lams := fun hl => hdis s hl hs
      simp only [h4, if_neg this, h2, if_pos hs, Option.join_some]
    · intro s hs
      simp only [h4, if_pos hs, Option.join_some, if_true]
    · simp only [h3, if_true]
  | false =>
    have hr : (twoTerminalDetails seg f t n false) =
        (⟨seg, fun s => (skipMissing A seg.duals s).join, fun s => (skipMissing A seg.duals s).join, false⟩,
          n + own.length) := by
      unfold twoTerminalDetails
      simp only [hp, ha, h1, ← hA, Bool.false_eq_true, if_false]
    intro d
    have hd' : d = _ := hr
    rw [hd']
    refine ⟨rfl, rfl, rfl, ?_, ?_, ?_, ?_⟩
    · intro s i hi
      have : A s = some i := by rw [h2, if_neg (hnot s i hi).1, hi]
      simp [skipMissing_spec, this]
    · intro s hs
      have : A s = some (some (n + own.idxOf s)) := by rw [h2, if_pos hs]
      simp [skipMissing_spec, this]
    · intro s hs
      have : s ∈ seg.duals := by rw [hd]; simp [hs]
      simp [skipMissing_spec, hA2 s hs, this]
    · simp

variable {L : Library}

/-- The own unknowns and multipliers of the library segments. -/
theorem slack_shape (hL : L.Loaded) : ∃ m, L.slack.primals = terminals ++ [.ISr, .ISi] ∧
    L.slack.duals = [.LrFrom, .LiFrom, .LrTo, .LiTo] ++ [.lam m, .lam (m + 1)] ∧ L.slack.constants = [.Vrset, .Viset] := by
  obtain ⟨n, h⟩ := hL.slack
  exact ⟨n, by rw [seg_primals h]; rfl, by rw [seg_duals h]; rfl, by rw [seg_constants h]; rfl⟩

theorem vs_shape (hL : L.Loaded) : ∃ m, L.vs.primals = terminals ++ [.Ir, .Ii] ∧
    L.vs.duals = [.LrFrom, .LiFrom, .LrTo, .LiTo] ++ [.lam m, .lam (m + 1)] ∧ L.vs.constants = [.VrSet, .ViSet] := by
  obtain ⟨n, h⟩ := hL.vs
  exact ⟨n, by rw [seg_primals h]; rfl, by rw [seg_duals h]; rfl, by rw [seg_constants h]; rfl⟩

theorem gen_shape (hL : L.Loaded) : ∃ m, L.gen.primals = terminals ++ [.Q] ∧
    L.gen.duals = [.LrFrom, .LiFrom, .LrTo, .LiTo] ++ [.lam m] ∧ L.gen.constants = [.P, .Vset] := by
  obtain ⟨n, h⟩ := hL.gen
  exact ⟨n, by rw [seg_primals h]; rfl, by rw [seg_duals h]; rfl, by rw [seg_constants h]; rfl⟩

theorem pq_shape (hL : L.Loaded) : L.pq.primals = terminals ++ [] ∧
    L.pq.duals = [.LrFrom, .LiFrom, .LrTo, .LiTo] ++ [] ∧ L.pq.constants = [.P, .Q] := by
  obtain ⟨n, h⟩ := hL.pq
  exact ⟨by rw [seg_primals h]; rfl, by rw [seg_duals h]; rfl, by rw [seg_constants h]; rfl⟩

theorem ic_shape (hL : L.Loaded) : L.ic.primals = terminals ++ [] ∧
    L.ic.duals = [.LrFrom, .LiFrom, .LrTo, .LiTo] ++ [] ∧ L.ic.constants = [.IP, .IQ] := by
  obtain ⟨n, h⟩ := hL.ic
  exact ⟨by rw [seg_primals h]; rfl, by rw [seg_duals h]; rfl, by rw [seg_constants h]; rfl⟩

theorem line_shape (hL : L.Loaded) : L.line.primals = terminals ++ [] ∧
    L.line.duals = [.LrFrom, .LiFrom, .LrTo, .LiTo] ++ [] ∧ L.line.constants = [.G, .B, .txFactor] := by
  obtain ⟨n, h⟩ := hL.line
  exact ⟨by rw [seg_primals h]; rfl, by rw [seg_duals h]; rfl, by rw [seg_constants h]; rfl⟩

theorem shunt_shape (hL : L.Loaded) : L.shunt.primals = terminals ++ [] ∧
    L.shunt.duals = [.LrFrom, .LiFrom, .LrTo, .LiTo] ++ [] ∧ L.shunt.constants = [.G, .B, .txFactor] := by
  obtain ⟨n, h⟩ := hL.shunt
  exact ⟨by rw [seg_primals h]; rfl, by rw [seg_duals h]; rfl, by rw [seg_constants h]; rfl⟩

end Verif
