import Verif.Model.DeviceControl
import Verif.Props.Linear

/-!
# C26 - C30: the control loop, fuses, regulators, capacitors
-/

namespace Verif

/-! ### C26: the loop, for every solver and every device behaviour -/

variable {δ ρ : Type}

/-- A sequence of solver calls: each is what the solver does from the given start vector, each but the last succeeded and
its devices wanted an adjustment, which gave the devices of the next call. -/
structure SolveChain (O : DeviceOps δ ρ) (control : Bool) (vInit : ℕ → ℝ) (cs : List (SolveCall δ ρ)) : Prop where
  made : ∀ c ∈ cs, c.result = O.solve c.devices vInit
  next : ∀ (j : ℕ) (c c' : SolveCall δ ρ), cs[j]? = some c → cs[j + 1]? = some c' → control = true ∧
    ∃ r, c.result = .ok r ∧ O.success r = true ∧ O.adjust c.devices (O.volts r) = .ok (c'.devices, true)

/-- How a run ended, from its last call. -/
inductive Ending (O : DeviceOps δ ρ) (control : Bool) (c : SolveCall δ ρ) (n : ℕ) : Except String (ρ × δ) → Prop
  /-- the solver raised -/
  | raised (e : String) : c.result = .error e → Ending O control c n (.error e)
  /-- the solve failed: returned at once, devices untouched -/
  | failed (r : ρ) : c.result = .ok r → O.success r = false → Ending O control c n (.ok (r, c.devices))
  /-- no control: returned at once -/
  | uncontrolled (r : ρ) : c.result = .ok r → O.success r = true → control = false → Ending O control c n (.ok (r, c.devices))
  /-- the devices were asked and wanted no change -/
  | settled (r : ρ) (d : δ) : c.result = .ok r → O.success r = true → control = true →
      O.adjust c.devices (O.volts r) = .ok (d, false) → Ending O control c n (.ok (r, d))
  /-- a device raised -/
  | deviceRaised (r : ρ) (e : String) : c.result = .ok r → O.success r = true → control = true →
      O.adjust c.devices (O.volts r) = .error e → Ending O control c n (.error e)
  /-- every allowed solve was followed by an adjustment -/
  | unsettled (r : ρ) (d : δ) : c.result = .ok r → O.success r = true → control = true →
      O.adjust c.devices (O.volts r) = .ok (d, true) → n = 10 → Ending O control c n (.error unsettledMessage)

theorem deviceLoop_spec (O : DeviceOps δ ρ) (control : Bool) (vInit : ℕ → ℝ) (k : ℕ) (d : δ) (calls : List (SolveCall δ ρ)) :
    ∃ new, (deviceLoop O control vInit (k + 1) d calls).calls = calls ++ new ∧ new.length ≤ k + 1 ∧
      SolveChain O control vInit new ∧ (∀ c, new[0]? = some c → c.devices = d) ∧
      ∃ c, new.getLast? = some c ∧
        ∀ n, (new.length = k + 1 → n = 10) → Ending O control c n (deviceLoop O control vInit (k + 1) d calls).out := by
  induction k generalizing d calls with
  | zero =>
    unfold deviceLoop
    split
    · rename_i e he
      exact ⟨[⟨d, .error e⟩], rfl, by simp, ⟨by simp [he], by simp⟩, by simp, _, rfl, fun n _ => .raised e rfl⟩
    · rename_i r hr
      have hch : SolveChain O control vInit [⟨d, .ok r⟩] := ⟨by simp [hr], by simp⟩
      by_cases h1 : O.success r = false
      · simp only [h1, if_true]
        exact ⟨[⟨d, .ok r⟩], rfl, by simp, hch, by simp, _, rfl, fun n _ => .failed r rfl h1⟩
      · have h1' : O.success r = true := by simpa using h1
        simp only [h1', Bool.true_eq_false, if_false]
        by_cases h2 : control = false
        · simp only [h2, if_true]
          exact ⟨[⟨d, .ok r⟩], rfl, by simp, h2 ▸ hch, by simp, _, rfl, fun n _ => .uncontrolled r rfl h1' rfl⟩
        · have h2' : control = true := by simpa using h2
          simp only [h2', Bool.true_eq_false, if_false]
          split
          · rename_i e he
            exact ⟨[⟨d, .ok r⟩], rfl, by simp, h2' ▸ hch, by simp, _, rfl, fun n _ => .deviceRaised r e rfl h1' rfl he⟩
          · rename_i d' made hd
            by_cases h3 : made = true
            · subst h3
              simp only [if_true]
              exact ⟨[⟨d, .ok r⟩], rfl, by simp, h2' ▸ hch, by simp, _, rfl, fun n hn => .unsettled r d' rfl h1' rfl hd (hn (by simp))⟩
            · have h3' : made = false := by simpa using h3
              subst h3'
              simp only [Bool.false_eq_true, if_false]
              exact ⟨[⟨d, .ok r⟩], rfl, by simp, h2' ▸ hch, by simp, _, rfl, fun n _ => .settled r d' rfl h1' rfl hd⟩
  | succ k ih =>
    unfold deviceLoop
    split
    · rename_i e he
      exact ⟨[⟨d, .error e⟩], rfl, by simp, ⟨by simp [he], by simp⟩, by simp, _, rfl, fun n _ => .raised e rfl⟩
    · rename_i r hr
      have hch : SolveChain O control vInit [⟨d, .ok r⟩] := ⟨by simp [hr], by simp⟩
      by_cases h1 : O.success r = false
      · simp only [h1, if_true]
        exact ⟨[⟨d, .ok r⟩], rfl, by simp, hch, by simp, _, rfl, fun n _ => .failed r rfl h1⟩
      · have h1' : O.success r = true := by simpa using h1
        simp only [h1', Bool.true_eq_false, if_false]
        by_cases h2 : control = false
        · simp only [h2, if_true]
          exact ⟨[⟨d, .ok r⟩], rfl, by simp, h2 ▸ hch, by simp, _, rfl, fun n _ => .uncontrolled r rfl h1' rfl⟩
        · have h2' : control = true := by simpa using h2
          simp only [h2', Bool.true_eq_false, if_false]
          split
          · rename_i e he
            exact ⟨[⟨d, .ok r⟩], rfl, by simp, h2' ▸ hch, by simp, _, rfl, fun n _ => .deviceRaised r e rfl h1' rfl he⟩
          · rename_i d' made hd
            by_cases h3 : made = true
            · subst h3
              simp only [if_true]
              subst h2'
              obtain ⟨new, n1, n2, n3, n4, c, n5, n6⟩ := ih d' (calls ++ [⟨d, .ok r⟩])
              have hne : new ≠ [] := by intro h; rw [h] at n5; simp at n5
              refine ⟨⟨d, .ok r⟩ :: new, by rw [n1]; simp, by simp; omega, ⟨?_, ?_⟩, by simp, c, ?_, fun n hn => n6 n fun h => hn (by simp [h])⟩
              · intro c' hc'
                rcases List.mem_cons.1 hc' with rfl | hc'
                · exact hr.symm
                · exact n3.made c' hc'
              · intro j c1 c2 h1c h2c
                cases j with
                | zero =>
                  simp only [List.getElem?_cons_zero, Option.some.injEq] at h1c
                  subst h1c
                  simp only [Nat.zero_add, List.getElem?_cons_succ] at h2c
                  exact ⟨rfl, r, rfl, h1', by rw [n4 c2 h2c]; exact hd⟩
                | succ j =>
                  rw [List.getElem?_cons_succ] at h1c h2c
                  exact n3.next j c1 c2 h1c h2c
              · rw [List.getLast?_cons_of_ne_nil hne]; exact n5
            · have h3' : made = false := by simpa using h3
              subst h3'
              simp only [Bool.false_eq_true, if_false]
              exact ⟨[⟨d, .ok r⟩], rfl, by simp, h2' ▸ hch, by simp, _, rfl, fun n _ => .settled r d' rfl h1' rfl hd⟩

/-- **C26.** For every solver and every set of devices: a run makes at most ten solver calls. The first one sees the devices
as given, after one evaluation at the start vector if control is on. Every further one follows a success whose devices wanted
an adjustment, and sees the adjusted devices. The run ends as described by `Ending` applied to its last call: a raised
exception, a failure returned at once, a success with control off, a success for which the devices wanted no adjustment, or
an exception after ten solves that all needed one. (A device that raises at the start vector ends the run before any solve.) -/
theorem C26_device_loop (O : DeviceOps δ ρ) (control : Bool) (vInit : ℕ → ℝ) (d : δ) :
    let R := deviceRun O control vInit d
    R.calls.length ≤ 10 ∧ SolveChain O control vInit R.calls ∧
    ((∃ e, control = true ∧ O.adjust d vInit = .error e ∧ R.calls = [] ∧ R.out = .error e) ∨
     ∃ c, R.calls.getLast? = some c ∧ Ending O control c R.calls.length R.out ∧
       ∀ c0, R.calls[0]? = some c0 →
         (control = false → c0.devices = d) ∧ (control = true → ∃ made, O.adjust d vInit = .ok (c0.devices, made))) := by
  intro R
  by_cases hc : control = true
  · cases ha : O.adjust d vInit with
    | error e =>
      have hR : R = ⟨[], .error e⟩ := by simp only [R, deviceRun, maxDeviceIterations, hc, if_true, ha]
      rw [hR]
      exact ⟨by simp, ⟨by simp, by simp⟩, Or.inl ⟨e, hc, rfl, rfl, rfl⟩⟩
    | ok p =>
      obtain ⟨d', made⟩ := p
      have hR : R = deviceLoop O control vInit 10 d' [] := by simp only [R, deviceRun, maxDeviceIterations, hc, if_true, ha]
      obtain ⟨new, n1, n2, n3, n4, c, n5, n6⟩ := deviceLoop_spec O control vInit 9 d' []
      rw [hR]
      simp only [List.nil_append] at n1
      rw [n1]
      exact ⟨n2, n3, Or.inr ⟨c, n5, n6 _ fun h => h, fun c0 h0 => ⟨fun h => by rw [hc] at h; simp at h,
        fun _ => ⟨made, by rw [n4 c0 h0]⟩⟩⟩⟩
  · have hR : R = deviceLoop O control vInit 10 d [] := by simp only [R, deviceRun, maxDeviceIterations, hc, if_false]; rfl
    obtain ⟨new, n1, n2, n3, n4, c, n5, n6⟩ := deviceLoop_spec O control vInit 9 d []
    rw [hR]
    simp only [List.nil_append] at n1
    rw [n1]
    exact ⟨n2, n3, Or.inr ⟨c, n5, n6 _ fun h => h, fun c0 h0 => ⟨fun _ => n4 c0 h0, fun h => absurd h hc⟩⟩⟩

/-- **C26, ten adjusted solves.** If the solver always succeeds and the devices always want an adjustment, ten solves are
made and the run raises. -/
theorem C26_unsettled_raises (O : DeviceOps δ ρ) (vInit : ℕ → ℝ) (d : δ)
    (hs : ∀ d, ∃ r, O.solve d vInit = .ok r ∧ O.success r = true) (ha : ∀ d v, ∃ d', O.adjust d v = .ok (d', true)) :
    (deviceRun O true vInit d).calls.length = 10 ∧ (deviceRun O true vInit d).out = .error unsettledMessage := by
  obtain ⟨h1, h2, h3⟩ := C26_device_loop O true vInit d
  rcases h3 with ⟨e, _, h, _⟩ | ⟨c, hl, he, _⟩
  · obtain ⟨d', hd⟩ := ha d vInit; rw [hd] at h; simp at h
  · have hc : c.result = O.solve c.devices vInit := h2.made c (List.mem_of_getLast? hl)
    obtain ⟨r, hr, hrs⟩ := hs c.devices
    rw [hr] at hc
    generalize hout : (deviceRun O true vInit d).out = out at he
    cases he with
    | raised e h => rw [hc] at h; simp at h
    | failed r' h h' => rw [hc] at h; injection h with h; subst h; rw [hrs] at h'; simp at h'
    | uncontrolled r' h h' h'' => simp at h''
    | settled r' d' h _ _ h' => obtain ⟨d2, hd⟩ := ha c.devices (O.volts r'); rw [hd] at h'; simp at h'
    | deviceRaised r' e h _ _ h' => obtain ⟨d2, hd⟩ := ha c.devices (O.volts r'); rw [hd] at h'; simp at h'
    | unsettled r' d' h _ _ h' hn => exact ⟨hn, rfl⟩

/-- Both kinds of run exist: a device that wants three adjustments settles in four solves, one that never settles raises. -/
example : (deviceRun (⟨fun d _ => .ok d, fun _ => true, fun _ _ => 0, fun d _ => .ok (d - 1, decide (d ≠ 0))⟩ : DeviceOps ℕ ℕ) true
      (fun _ => 0) 4).calls.length = 4 ∧
    (deviceRun (⟨fun d _ => .ok d, fun _ => true, fun _ _ => 0, fun d _ => .ok (d, true)⟩ : DeviceOps ℕ ℕ) true (fun _ => 0) 0).out =
      .error unsettledMessage := ⟨rfl, rfl⟩

/-! ### C27: fuses -/

/-- A fuse after a sequence of evaluations, with the number of adjustments it reported. -/
noncomputable def Fuse.history (F : Fuse) : List ℂ → Fuse × ℕ
  | [] => (F, 0)
  | c :: cs =>
    let s := F.adjust c
    let r := s.1.history cs
    (r.1, (if s.2 then 1 else 0) + r.2)

/-- **C27.** After any sequence of measured currents a fuse is blown exactly when it was blown at the start or some
current exceeded its limit; it reported at most one adjustment, exactly one if it blew on the way; its terminals and limit
are unchanged. -/
theorem C27_fuse_history (F : Fuse) (cs : List ℂ) :
    let r := F.history cs
    (r.1.status = .blown ↔ F.status = .blown ∨ ∃ c ∈ cs, F.limit < ‖c‖) ∧
    r.2 ≤ 1 ∧ (r.2 = 1 ↔ F.status = .good ∧ r.1.status = .blown) ∧
    r.1.f = F.f ∧ r.1.i = F.i ∧ r.1.t = F.t ∧ r.1.limit = F.limit := by
  induction cs generalizing F with
  | nil =>
    cases h : F.status <;> simp [Fuse.history, h]
  | cons c cs ih =>
    simp only [Fuse.history]
    by_cases hb : F.status = .blown
    · have e : F.adjust c = (F, false) := by unfold Fuse.adjust; rw [if_pos hb]
      rw [e]
      obtain ⟨h1, h2, h3, h4⟩ := ih F
      have hblown := h1.2 (Or.inl hb)
      simp only [Bool.false_eq_true, if_false, Nat.zero_add]
      refine ⟨?_, h2, h3, h4⟩
      simp [hb, hblown]
    · have hg : F.status = .good := by cases h : F.status <;> simp_all
      by_cases hc : F.limit < ‖c‖
      · have e : F.adjust c = ({ F with status := .blown }, true) := by
          unfold Fuse.adjust; rw [if_neg hb, if_pos hc]
        rw [e]
        obtain ⟨h1, h2, h3, h4⟩ := ih { F with status := .blown }
        have hblown := h1.2 (Or.inl rfl)
        have h0 : (Fuse.history { F with status := .blown } cs).2 = 0 := by
          have := h3.not.2 (by simp)
          omega
        simp only [if_true, h0]
        refine ⟨?_, by omega, ?_, h4⟩
        · simp [hblown, hc]
        · simp [hg, hblown]
      · have e : F.adjust c = (F, false) := by
          unfold Fuse.adjust; rw [if_neg hb, if_neg hc]
        rw [e]
        obtain ⟨h1, h2, h3, h4⟩ := ih F
        simp only [Bool.false_eq_true, if_false, Nat.zero_add]
        refine ⟨?_, h2, h3, h4⟩
        rw [h1]; simp [hc]

/-- A fuse of one ampere that sees half an ampere, then two, then nothing. -/
example : (Fuse.history ⟨some 0, some 1, some 2, 1, .good⟩ [1 / 2, 2, 0]).1.status = .blown :=
  (C27_fuse_history _ _).1.2 (Or.inr ⟨2, by simp, by simp⟩)

/-- Number of blown fuses. -/
def blownCount (is : List Item) : ℕ := (is.filter Item.refuses).length

/-- Number of fuses. -/
def fuseCount (is : List Item) : ℕ := (is.filter fun i => match i with | .fuse _ => true | _ => false).length

theorem blown_le_fuses (is : List Item) : blownCount is ≤ fuseCount is := by
  unfold blownCount fuseCount
  induction is with
  | nil => simp
  | cons i is ih =>
    cases i <;> simp only [List.filter_cons, Item.refuses]
    · simpa using ih
    · rename_i F
      by_cases h : F.status = .blown <;> simp [h] at ih ⊢ <;> omega
    · simpa using ih
    · simpa using ih

/-- No capacitor that may switch by itself. -/
def Item.NoAutoCap : Item → Prop
  | .cap c => c.mode = .manual
  | _ => True

theorem item_adjust_blown (a : Assignment) (v : ℕ → ℝ) (k : ℕ) (i i' : Item) (made : Bool) (hm : i.NoAutoCap)
    (h : i.adjust a v k = .ok (i', made)) :
    i'.NoAutoCap ∧ (i.refuses = true → i'.refuses = true) ∧ (made = true → i.refuses = false ∧ i'.refuses = true) ∧
    fuseCount [i'] = fuseCount [i] := by
  cases i with
  | fixed e =>
    simp only [Item.adjust, Except.ok.injEq, Prod.mk.injEq] at h
    obtain ⟨rfl, rfl⟩ := h
    exact ⟨hm, by simp, by simp, rfl⟩
  | fuse F =>
    simp only [Item.adjust, Except.ok.injEq, Prod.mk.injEq] at h
    obtain ⟨rfl, rfl⟩ := h
    unfold Fuse.adjust
    split_ifs with h1 h2
    · exact ⟨trivial, by simp [Item.refuses], by simp, rfl⟩
    · exact ⟨trivial, by simp [Item.refuses], by simp [Item.refuses, h1], rfl⟩
    · exact ⟨trivial, by simp [Item.refuses], by simp, rfl⟩
  | cap c =>
    have hm' : c.mode = .manual := hm
    simp only [Item.adjust, Cap.adjust, hm', bind, Except.bind, Except.ok.injEq, Prod.mk.injEq] at h
    obtain ⟨rfl, rfl⟩ := h
    exact ⟨hm, by simp, by simp, rfl⟩
  | reg r =>
    simp only [Item.adjust, Reg.adjust, Except.ok.injEq, Prod.mk.injEq] at h
    obtain ⟨rfl, rfl⟩ := h
    exact ⟨hm, by simp, by simp, rfl⟩

theorem adjustItems_blown (a : Assignment) (v : ℕ → ℝ) (k : ℕ) (is is' : List Item) (made : Bool) (hm : ∀ i ∈ is, i.NoAutoCap)
    (h : adjustItems a v k is = .ok (is', made)) :
    (∀ i ∈ is', i.NoAutoCap) ∧ fuseCount is' = fuseCount is ∧ blownCount is + (if made = true then 1 else 0) ≤ blownCount is' := by
  induction is generalizing k is' made with
  | nil =>
    simp only [adjustItems, Except.ok.injEq, Prod.mk.injEq] at h
    obtain ⟨rfl, rfl⟩ := h
    simp
  | cons i is ih =>
    simp only [adjustItems, bind, Except.bind] at h
    split at h
    · simp at h
    · rename_i p hp
      obtain ⟨i', m1⟩ := p
      simp only at h
      split at h
      · simp at h
      · rename_i q hq
        obtain ⟨is'', m2⟩ := q
        simp only [Except.ok.injEq, Prod.mk.injEq] at h
        obtain ⟨rfl, rfl⟩ := h
        obtain ⟨a1, a2, a3, a4⟩ := item_adjust_blown a v k i i' m1 (hm i (by simp)) hp
        obtain ⟨b1, b2, b3⟩ := ih (k + 1) is'' m2 (fun j hj => hm j (by simp [hj])) hq
        refine ⟨?_, ?_, ?_⟩
        · intro j hj
          rcases List.mem_cons.1 hj with rfl | hj
          · exact a1
          · exact b1 j hj
        · have e : ∀ (x : Item) l, fuseCount (x :: l) = fuseCount [x] + fuseCount l := fun x l => by
            unfold fuseCount; rw [List.filter_cons]; cases x <;> simp <;> omega
          rw [e, e i, a4, b2]
        · have e : ∀ (x : Item) l, blownCount (x :: l) = (if x.refuses = true then 1 else 0) + blownCount l := fun x l => by
            unfold blownCount; rw [List.filter_cons]; split_ifs <;> simp; omega
          rw [e, e i']
          cases hr : i.refuses with
          | true =>
            have := a2 hr
            have hm1 : m1 = false := by
              cases m1 with
              | false => rfl
              | true => rw [(a3 rfl).1] at hr; simp at hr
            simp only [this, hm1, Bool.false_or, if_true]; omega
          | false =>
            cases m1 with
            | false => simp only [Bool.false_or, Bool.false_eq_true, if_false]; split_ifs at b3 ⊢ <;> omega
            | true =>
              simp only [Bool.true_or, (a3 rfl).2, if_true, Bool.false_eq_true, if_false]
              split_ifs at b3 <;> omega

/-- Evaluations of all devices at a sequence of vectors, with the number that reported an adjustment. -/
noncomputable def DxNet.history (L : Library) (D : DxNet) : List (ℕ → ℝ) → Except String (DxNet × ℕ)
  | [] => .ok (D, 0)
  | v :: vs => do
    let (D', made) ← D.adjust L v
    let (D'', n) ← D'.history L vs
    .ok (D'', (if made then 1 else 0) + n)

/-- **C27, whole network.** In a network whose capacitors are all manual, over any sequence of voltage vectors, the devices
report at most as many adjustments as there are fuses not blown at the start. -/
theorem C27_adjustments_bounded (L : Library) (D : DxNet) (hm : ∀ i ∈ D.items, i.NoAutoCap) (vs : List (ℕ → ℝ)) (D' : DxNet) (n : ℕ)
    (h : D.history L vs = .ok (D', n)) :
    n + blownCount D.items ≤ blownCount D'.items ∧ n ≤ fuseCount D.items - blownCount D.items := by
  have key : (∀ i ∈ D'.items, i.NoAutoCap) ∧ fuseCount D'.items = fuseCount D.items ∧ n + blownCount D.items ≤ blownCount D'.items := by
    induction vs generalizing D n with
    | nil =>
      simp only [DxNet.history, Except.ok.injEq, Prod.mk.injEq] at h
      obtain ⟨rfl, rfl⟩ := h
      exact ⟨hm, rfl, by omega⟩
    | cons v vs ih =>
      simp only [DxNet.history, bind, Except.bind] at h
      split at h
      · simp at h
      · rename_i p hp
        obtain ⟨D1, made⟩ := p
        simp only at h
        split at h
        · simp at h
        · rename_i q hq
          obtain ⟨D2, n2⟩ := q
          simp only [Except.ok.injEq, Prod.mk.injEq] at h
          obtain ⟨rfl, rfl⟩ := h
          have h1 : (∀ i ∈ D1.items, i.NoAutoCap) ∧ fuseCount D1.items = fuseCount D.items ∧
              blownCount D.items + (if made = true then 1 else 0) ≤ blownCount D1.items := by
            unfold DxNet.adjust at hp
            split_ifs at hp with ht
            · simp only [bind, Except.bind] at hp
              split at hp
              · simp at hp
              · rename_i q2 hq2
                obtain ⟨is, m⟩ := q2
                simp only [Except.ok.injEq, Prod.mk.injEq] at hp
                obtain ⟨rfl, rfl⟩ := hp
                exact adjustItems_blown _ v 0 D.items is m hm hq2
            · simp only [Except.ok.injEq, Prod.mk.injEq] at hp
              obtain ⟨rfl, rfl⟩ := hp
              exact ⟨hm, rfl, by simp⟩
          obtain ⟨b1, b2, b3⟩ := ih D1 h1.1 n2 hq
          exact ⟨b1, b2.trans h1.2.1, by have := h1.2.2; omega⟩
  have := blown_le_fuses D'.items
  obtain ⟨_, k2, k3⟩ := key
  exact ⟨k3, by omega⟩

/-! ### C26 for the modelled solver and devices -/

/-- A device evaluation that reports no adjustment changed nothing. -/
theorem item_adjust_false (a : Assignment) (v : ℕ → ℝ) (k : ℕ) (i i' : Item) (h : i.adjust a v k = .ok (i', false)) : i' = i := by
  cases i with
  | fixed e =>
    simp only [Item.adjust, Except.ok.injEq, Prod.mk.injEq] at h
    exact h.1.symm
  | fuse F =>
    simp only [Item.adjust, Except.ok.injEq, Prod.mk.injEq] at h
    obtain ⟨rfl, h⟩ := h
    unfold Fuse.adjust at h ⊢
    split_ifs at h ⊢ <;> simp_all
  | cap c =>
    simp only [Item.adjust, Cap.adjust, bind, Except.bind] at h
    cases hm : c.mode with
    | manual => simp only [hm, Except.ok.injEq, Prod.mk.injEq] at h; exact h.1.symm
    | volt =>
      simp only [hm] at h
      split_ifs at h <;> simp_all
    | var => simp [hm] at h
    | varvolt => simp [hm] at h
  | reg r =>
    simp only [Item.adjust, Reg.adjust, Except.ok.injEq, Prod.mk.injEq] at h
    exact h.1.symm

theorem adjustItems_false (a : Assignment) (v : ℕ → ℝ) (k : ℕ) (is is' : List Item) (h : adjustItems a v k is = .ok (is', false)) :
    is' = is := by
  induction is generalizing k is' with
  | nil => simp only [adjustItems, Except.ok.injEq, Prod.mk.injEq] at h; exact h.1.symm
  | cons i is ih =>
    simp only [adjustItems, bind, Except.bind] at h
    split at h
    · simp at h
    · rename_i p hp
      obtain ⟨i', m1⟩ := p
      simp only at h
      split at h
      · simp at h
      · rename_i q hq
        obtain ⟨is'', m2⟩ := q
        simp only [Except.ok.injEq, Prod.mk.injEq, Bool.or_eq_false_iff] at h
        obtain ⟨rfl, rfl, rfl⟩ := h
        rw [item_adjust_false a v k i i' hp, ih (k + 1) is'' hq]

theorem adjust_false (L : Library) (D D' : DxNet) (v : ℕ → ℝ) (h : D.adjust L v = .ok (D', false)) : D' = D := by
  unfold DxNet.adjust at h
  split_ifs at h with ht
  · simp only [bind, Except.bind] at h
    split at h
    · simp at h
    · rename_i q hq
      obtain ⟨is, m⟩ := q
      simp only [Except.ok.injEq, Prod.mk.injEq] at h
      obtain ⟨rfl, rfl⟩ := h
      rw [adjustItems_false _ v 0 D.items is hq]
  · simp only [Except.ok.injEq, Prod.mk.injEq] at h
    exact h.1.symm

/-- What a device evaluation keeps: the terminals. -/
theorem item_adjust_valid (a : Assignment) (v : ℕ → ℝ) (k : ℕ) (i i' : Item) (m : Bool) (h : i.adjust a v k = .ok (i', m)) (n : ℕ)
    (hv : i.element.Valid n) : i'.element.Valid n := by
  cases i with
  | fixed e =>
    simp only [Item.adjust, Except.ok.injEq, Prod.mk.injEq] at h
    obtain ⟨rfl, _⟩ := h; exact hv
  | fuse F =>
    simp only [Item.adjust, Except.ok.injEq, Prod.mk.injEq] at h
    obtain ⟨rfl, _⟩ := h
    unfold Fuse.adjust
    split_ifs <;> exact hv
  | cap c =>
    simp only [Item.adjust, Cap.adjust, bind, Except.bind] at h
    cases hm : c.mode with
    | manual => simp only [hm, Except.ok.injEq, Prod.mk.injEq] at h; obtain ⟨rfl, _⟩ := h; exact hv
    | volt =>
      simp only [hm] at h
      split_ifs at h <;> (simp only [Except.ok.injEq, Prod.mk.injEq] at h; obtain ⟨rfl, _⟩ := h; exact hv)
    | var => simp [hm] at h
    | varvolt => simp [hm] at h
  | reg r =>
    simp only [Item.adjust, Reg.adjust, Except.ok.injEq, Prod.mk.injEq] at h
    obtain ⟨rfl, _⟩ := h; exact hv

theorem adjustItems_valid (a : Assignment) (v : ℕ → ℝ) (k : ℕ) (is is' : List Item) (m : Bool)
    (h : adjustItems a v k is = .ok (is', m)) (n : ℕ) (hv : ∀ i ∈ is, i.element.Valid n) : ∀ i ∈ is', i.element.Valid n := by
  induction is generalizing k is' m with
  | nil => simp only [adjustItems, Except.ok.injEq, Prod.mk.injEq] at h; obtain ⟨rfl, _⟩ := h; simp
  | cons i is ih =>
    simp only [adjustItems, bind, Except.bind] at h
    split at h
    · simp at h
    · rename_i p hp
      obtain ⟨i', m1⟩ := p
      simp only at h
      split at h
      · simp at h
      · rename_i q hq
        obtain ⟨is'', m2⟩ := q
        simp only [Except.ok.injEq, Prod.mk.injEq] at h
        obtain ⟨rfl, _⟩ := h
        intro j hj
        rcases List.mem_cons.1 hj with rfl | hj
        · exact item_adjust_valid a v k i j m1 hp n (hv i (by simp))
        · exact ih (k + 1) is'' m2 hq (fun x hx => hv x (by simp [hx])) j hj

theorem adjust_valid (L : Library) (D D' : DxNet) (v : ℕ → ℝ) (m : Bool) (h : D.adjust L v = .ok (D', m)) (hv : D.network.Valid) :
    D'.network.Valid := by
  unfold DxNet.adjust at h
  split_ifs at h with ht
  · simp only [bind, Except.bind] at h
    split at h
    · simp at h
    · rename_i q hq
      obtain ⟨is, m⟩ := q
      simp only [Except.ok.injEq, Prod.mk.injEq] at h
      obtain ⟨rfl, rfl⟩ := h
      intro e he
      simp only [DxNet.network, List.mem_map] at he
      obtain ⟨i, hi, rfl⟩ := he
      refine adjustItems_valid _ v 0 D.items is m hq D.buses ?_ i hi
      intro j hj
      exact hv j.element (List.mem_map.2 ⟨j, hj, rfl⟩)
  · simp only [Except.ok.injEq, Prod.mk.injEq] at h
    rw [← h.1]; exact hv

/-- Something preserved by adjustments holds of every device state that was solved. -/
theorem chain_invariant {O : DeviceOps δ ρ} {control : Bool} {vInit : ℕ → ℝ} {d : δ} (P : δ → Prop) (h0 : P d)
    (hP : ∀ d v d' m, O.adjust d v = .ok (d', m) → P d → P d') (c : SolveCall δ ρ) (hc : c ∈ (deviceRun O control vInit d).calls) :
    P c.devices := by
  obtain ⟨_, h2, h3⟩ := C26_device_loop O control vInit d
  rcases h3 with ⟨_, _, _, hn, _⟩ | ⟨_, _, _, hfirst⟩
  · simp [hn] at hc
  · obtain ⟨j, hj, rfl⟩ := List.getElem_of_mem hc
    have key : ∀ (j : ℕ) (c : SolveCall δ ρ), (deviceRun O control vInit d).calls[j]? = some c → P c.devices := by
      intro j
      induction j with
      | zero =>
        intro c hc
        obtain ⟨f1, f2⟩ := hfirst c hc
        cases hcon : control with
        | false => rw [f1 hcon]; exact h0
        | true => obtain ⟨m, hm⟩ := f2 hcon; exact hP _ _ _ _ hm h0
      | succ j ih =>
        intro c hc
        have hj : j < (deviceRun O control vInit d).calls.length := by
          have := (List.getElem?_eq_some_iff.1 hc).1; omega
        obtain ⟨_, r, _, _, hr⟩ := h2.next j _ c (List.getElem?_eq_getElem hj) hc
        exact hP _ _ _ _ hr (ih _ (List.getElem?_eq_getElem hj))
    exact key j _ (List.getElem?_eq_getElem hj)

/-- The stamper stays usable through a sequence of Newton runs, and the last one, if it succeeded, had all equations below
the tolerance at some vector. -/
theorem callChain_ready {C : NRContext} {opt : Bool} {ps : List Placed} {m m' : Stamper} {v0 : ℕ → ℝ} {it0 : ℤ} {cs : List NRCall}
    (h : CallChain (solverRun C) m cs m') (hr : Ready opt ps m v0 it0) (c : NRCall) (hc : cs.getLast? = some c)
    (hs : c.result.success = true) : ∃ w, ∀ i < C.size, |networkEq ps c.tx w i| < C.tolerance := by
  induction h generalizing v0 it0 with
  | nil => simp at hc
  | @cons m m1 m2 c1 cs h1 _ ih =>
    unfold solverRun at h1
    simp only [bind, Except.bind] at h1
    split at h1
    · simp at h1
    · rename_i p hp
      obtain ⟨r, st⟩ := p
      simp only [Except.ok.injEq, Prod.mk.injEq] at h1
      obtain ⟨h1, rfl⟩ := h1
      obtain ⟨w, w1, w2, _, w4⟩ := run_leaves opt ps m v0 it0 hr C c1.start c1.tx r st hp
      by_cases hn : cs = []
      · subst hn
        simp only [List.getLast?_singleton, Option.some.injEq] at hc
        subst hc
        exact ⟨w, w4 (by rw [h1]; exact hs)⟩
      · rw [List.getLast?_cons_of_ne_nil hn] at hc
        exact ih (Ready.of_at w2 w1) hc

/-- **C26, the returned solution.** With device control on, a returned success of the modelled solver and devices: evaluating
all devices at the returned voltages changes nothing, no fuse is blown, the result is what the solver gives for the returned
devices, and all equations of the network in that device state, at homotopy factor 0, are below the tolerance at some vector
(the one of the last linearisation, see C03). -/
theorem C26_returned_solution {L : Library} (hL : L.Loaded) (C : NRContext) (txStepping : Bool) (vInit : ℕ → ℝ) (D D' : DxNet)
    (hv : D.network.Valid) (r : HomotopyResult Stamper) (h : (D.run L C txStepping true vInit).out = .ok (r, D'))
    (hs : r.success = true) :
    D'.adjust L r.v = .ok (D', false) ∧ (∀ i ∈ D'.items, i.refuses = false) ∧ D'.solve L C txStepping vInit = .ok r ∧
    D'.network.Valid ∧ ∃ w, ∀ i < (D'.network.assign L).size, |networkEq (D'.network.assign L).all 0 w i| < C.tolerance := by
  unfold DxNet.run at h
  obtain ⟨_, h2, h3⟩ := C26_device_loop (DxNet.ops L C txStepping) true vInit D
  rw [h] at h3
  rcases h3 with ⟨e, _, _, _, h3⟩ | ⟨c, hl, he, _⟩
  · simp at h3
  · have hmem := List.mem_of_getLast? hl
    have hval : c.devices.network.Valid := chain_invariant (fun D => D.network.Valid) hv
      (fun d v d' m ha hd => adjust_valid L d d' v m ha hd) c hmem
    have hsolve := h2.made c hmem
    cases he with
    | failed r' _ h5 =>
      have : r.success = false := h5
      rw [hs] at this; simp at this
    | uncontrolled r' _ _ h5 => simp at h5
    | settled r' d' h4 _ _ h5 =>
      have h5' : c.devices.adjust L r.v = .ok (D', false) := h5
      have hD := adjust_false L c.devices D' r.v h5'
      subst hD
      rw [h4] at hsolve
      have hsol : c.devices.solve L C txStepping vInit = .ok r := hsolve.symm
      refine ⟨h5', ?_, hsol, hval, ?_⟩
      · unfold DxNet.solve at hsol
        split_ifs at hsol with hr
        intro i hi
        by_contra hne
        exact hr (List.any_eq_true.2 ⟨i, hi, by simpa using hne⟩)
      · unfold DxNet.solve at hsol
        split_ifs at hsol
        obtain ⟨m, hm, hr⟩ := build_ready c.devices.network.opt (c.devices.network.assign L).all (network_wellPlaced hL _ hval)
        rw [hm] at hsol
        simp only [bind, Except.bind] at hsol
        obtain ⟨c0, steps, e1, _, _, e4, _, _, _, ⟨cl, e5, _, e7, e8⟩, _⟩ := C23_homotopy _ _ _ _ _ hsol
        obtain ⟨w, hw⟩ := callChain_ready e4 hr cl e5 (by rw [← e7]; exact hs)
        rw [e8 hs] at hw
        exact ⟨w, hw⟩

/-! ### C28: blown fuses -/

/-- **C28, what holds.** In a run that returns, no solve ever saw a blown fuse. Missing: the solve after a fuse blows. -/
theorem C28_no_blown_fuse_partial {L : Library} (C : NRContext) (txStepping control : Bool) (vInit : ℕ → ℝ) (D D' : DxNet)
    (r : HomotopyResult Stamper) (h : (D.run L C txStepping control vInit).out = .ok (r, D')) :
    ∀ c ∈ (D.run L C txStepping control vInit).calls, ∀ i ∈ c.devices.items, i.refuses = false := by
  unfold DxNet.run at h ⊢
  obtain ⟨_, h2, h3⟩ := C26_device_loop (DxNet.ops L C txStepping) control vInit D
  rw [h] at h3
  intro c hc i hi
  by_contra hne
  have hsol : c.result = .error "Blown fuses are not supported" := by
    rw [h2.made c hc]
    show c.devices.solve L C txStepping vInit = _
    unfold DxNet.solve
    rw [if_pos (List.any_eq_true.2 ⟨i, hi, by simpa using hne⟩)]
  rcases h3 with ⟨e, _, _, _, h3⟩ | ⟨cl, hl, he, _⟩
  · simp at h3
  · -- a call whose result is an error is the last one, and then the run does not return
    obtain ⟨j, hj, hcj⟩ := List.getElem_of_mem hc
    by_cases hlast : j + 1 = (deviceRun (DxNet.ops L C txStepping) control vInit D).calls.length
    · have : cl = c := by
        rw [List.getLast?_eq_getElem?, ← hlast] at hl
        simp only [Nat.add_sub_cancel] at hl
        rw [List.getElem?_eq_getElem hj, hcj] at hl
        injection hl with hl; exact hl.symm
      subst this
      cases he <;> simp_all
    · obtain ⟨_, r', hr', _⟩ := h2.next j c _ (by rw [← hcj]; exact List.getElem?_eq_getElem hj)
        (List.getElem?_eq_getElem (by omega : j + 1 < _))
      rw [hsol] at hr'; simp at hr'

/-- Position `k` holds a fuse whose measured current exceeds its limit. -/
def DxNet.Overloaded (L : Library) (D : DxNet) (v : ℕ → ℝ) (k : ℕ) : Prop :=
  ∃ F : Fuse, D.items[k]? = some (.fuse F) ∧ F.status = .good ∧ F.limit < ‖(D.network.assign L).sensor k v‖

theorem adjustItems_overloaded (a : Assignment) (v : ℕ → ℝ) (n k : ℕ) (is is' : List Item) (m : Bool) (F : Fuse)
    (h : adjustItems a v n is = .ok (is', m)) (hk : is[k]? = some (.fuse F)) (hg : F.status = .good)
    (ho : F.limit < ‖a.sensor (n + k) v‖) : m = true ∧ is'[k]? = some (.fuse { F with status := .blown }) := by
  induction is generalizing n k is' m with
  | nil => simp at hk
  | cons i is ih =>
    simp only [adjustItems, bind, Except.bind] at h
    split at h
    · simp at h
    · rename_i p hp
      obtain ⟨i', m1⟩ := p
      simp only at h
      split at h
      · simp at h
      · rename_i q hq
        obtain ⟨is'', m2⟩ := q
        simp only [Except.ok.injEq, Prod.mk.injEq] at h
        obtain ⟨rfl, rfl⟩ := h
        cases k with
        | zero =>
          simp only [List.getElem?_cons_zero, Option.some.injEq] at hk
          subst hk
          have : F.adjust (a.sensor n v) = ({ F with status := .blown }, true) := by
            unfold Fuse.adjust
            rw [if_neg (by rw [hg]; simp), if_pos (by simpa using ho)]
          simp only [Item.adjust, this, Except.ok.injEq, Prod.mk.injEq] at hp
          obtain ⟨rfl, rfl⟩ := hp
          simp
        | succ k =>
          rw [List.getElem?_cons_succ] at hk
          obtain ⟨h1, h2⟩ := ih (n + 1) k is'' m2 hq hk (by rw [show n + 1 + k = n + (k + 1) by omega]; exact ho)
          exact ⟨by simp [h1], by rw [List.getElem?_cons_succ]; exact h2⟩

/-- **C28, consequence.** Whenever a successful solve finds a fuse above its limit, the run raises: control blows the fuse
and the next solve refuses it. -/
theorem C28_overload_raises {L : Library} (C : NRContext) (txStepping : Bool) (vInit : ℕ → ℝ) (D : DxNet)
    (c : SolveCall DxNet (HomotopyResult Stamper)) (hc : c ∈ (D.run L C txStepping true vInit).calls) (r : HomotopyResult Stamper)
    (hr : c.result = .ok r) (hs : r.success = true) (ht : c.devices.threePhase = true) (k : ℕ)
    (ho : c.devices.Overloaded L r.v k) : ∃ e, (D.run L C txStepping true vInit).out = .error e := by
  cases hout : (D.run L C txStepping true vInit).out with
  | error e => exact ⟨e, rfl⟩
  | ok p =>
    exfalso
    obtain ⟨r', D'⟩ := p
    have hno := C28_no_blown_fuse_partial C txStepping true vInit D D' r' hout
    unfold DxNet.run at hout hc hno
    obtain ⟨_, h2, h3⟩ := C26_device_loop (DxNet.ops L C txStepping) true vInit D
    obtain ⟨F, f1, f2, f3⟩ := ho
    have hadj : ∀ d' m, c.devices.adjust L r.v = .ok (d', m) → m = true ∧ ∃ i ∈ d'.items, i.refuses = true := by
      intro d' m ha
      unfold DxNet.adjust at ha
      rw [if_pos ht] at ha
      simp only [bind, Except.bind] at ha
      split at ha
      · simp at ha
      · rename_i q hq
        obtain ⟨is, m'⟩ := q
        simp only [Except.ok.injEq, Prod.mk.injEq] at ha
        obtain ⟨rfl, rfl⟩ := ha
        obtain ⟨a1, a2⟩ := adjustItems_overloaded _ r.v 0 k c.devices.items is m' F hq f1 f2 (by simpa using f3)
        exact ⟨a1, _, List.mem_of_getElem? a2, by simp [Item.refuses]⟩
    obtain ⟨j, hj, hcj⟩ := List.getElem_of_mem hc
    rw [hout] at h3
    rcases h3 with ⟨e, _, _, _, h3⟩ | ⟨cl, hl, he, _⟩
    · simp at h3
    · by_cases hlast : j + 1 = (deviceRun (DxNet.ops L C txStepping) true vInit D).calls.length
      · have : cl = c := by
          rw [List.getLast?_eq_getElem?, ← hlast] at hl
          simp only [Nat.add_sub_cancel] at hl
          rw [List.getElem?_eq_getElem hj, hcj] at hl
          injection hl with hl; exact hl.symm
        subst this
        cases he with
        | failed r2 g1 g2 =>
          rw [hr] at g1; injection g1 with g1; subst g1
          have : r.success = false := g2
          rw [hs] at this; simp at this
        | uncontrolled r2 _ _ g => simp at g
        | settled r2 d2 g1 _ _ g2 =>
          rw [hr] at g1; injection g1 with g1; subst g1
          have := (hadj _ _ g2).1
          simp at this
      · have hj' : j + 1 < (deviceRun (DxNet.ops L C txStepping) true vInit D).calls.length := by omega
        obtain ⟨_, r2, g1, _, g2⟩ := h2.next j c _ (by rw [← hcj]; exact List.getElem?_eq_getElem hj) (List.getElem?_eq_getElem hj')
        rw [hr] at g1; injection g1 with g1; subst g1
        obtain ⟨_, i, hi, hb⟩ := hadj _ _ g2
        rw [hno _ (List.getElem_mem hj') i hi] at hb
        simp at hb

/-- The network of the witness: a slack, a fuse of half an ampere, a shunt drawing one ampere. -/
noncomputable def fuseDx : DxNet :=
  ⟨3, [.fixed (.slack 0 (1 + 1 / 20000) (-1 / 20000)), .fuse ⟨some 0, some 1, some 2, 1 / 2, .good⟩, .fixed (.shunt 2 1 0)], none, true⟩

theorem fuseDx_network : fuseDx.network = fuseNet := rfl

theorem fuseDx_sensor {L : Library} (hL : L.Loaded) (v : ℕ → ℝ) : (fuseDx.network.assign L).sensor 1 v = ⟨v 8, v 9⟩ := by
  obtain ⟨h1, _, _, _, h5, h6⟩ := fuseNet_own hL
  have e : (fuseDx.network.assign L).sensor 1 v =
    ⟨readIdx v ((twoTerminalDetails L.vs (plainNode 1) (plainNode 2)
        (twoTerminalDetails L.slack (plainNode 0) Node.ground 6 false).2 false).1.varMap .Ir),
     readIdx v ((twoTerminalDetails L.vs (plainNode 1) (plainNode 2)
        (twoTerminalDetails L.slack (plainNode 0) Node.ground 6 false).2 false).1.varMap .Ii)⟩ := rfl
  rw [e, h1, h5, h6]; rfl

/-- **C28, disagreement.** The network is solved exactly, the fuse carries twice its limit, device control blows it, and the
run ends in an exception instead of a solution with the branch open. From the flat start with no currents. -/
theorem C28_blown_fuse_fails {L : Library} (hL : L.Loaded) :
    ∃ (D : DxNet) (vInit : ℕ → ℝ) (r : HomotopyResult Stamper) (e : String),
      D.network.Valid ∧ (∀ i ∈ D.items, i.refuses = false) ∧ D.adjust L vInit = .ok (D, false) ∧
      D.solve L (plainCtx 10) true vInit = .ok r ∧ r.success = true ∧ D.Overloaded L r.v 1 ∧
      (D.run L (plainCtx 10) true true vInit).out = .error e := by
  let v0 : ℕ → ℝ := fun i => if i < 6 ∧ i % 2 = 0 then 1 else 0
  obtain ⟨m, r, hm, hr, hs, hv⟩ := fuseNet_solve hL v0
  have hsol : fuseDx.solve L (plainCtx 10) true v0 = .ok r := by
    unfold DxNet.solve
    have h1 : fuseDx.items.any Item.refuses = false := rfl
    have h2 : fuseDx.network.opt = false := rfl
    rw [h1, h2, fuseDx_network, hm, if_neg (by simp)]
    rw [fuseNet_size hL] at hr ⊢
    exact hr
  have hadj : fuseDx.adjust L v0 = .ok (fuseDx, false) := by
    have hsen : (fuseDx.network.assign L).sensor 1 v0 = 0 := by
      rw [fuseDx_sensor hL]
      have h8 : v0 8 = 0 := if_neg (by omega)
      have h9 : v0 9 = 0 := if_neg (by omega)
      rw [h8, h9]; rfl
    have hF : (Fuse.mk (some 0) (some 1) (some 2) (1 / 2) .good).adjust ((fuseDx.network.assign L).sensor 1 v0) =
        (⟨some 0, some 1, some 2, 1 / 2, .good⟩, false) := by
      rw [hsen]; unfold Fuse.adjust; rw [if_neg (by simp), if_neg (by simp)]
    unfold DxNet.adjust
    rw [if_pos (show fuseDx.threePhase = true from rfl)]
    simp only [fuseDx, adjustItems, Item.adjust, bind, Except.bind]
    simp only [fuseDx] at hF
    rw [hF]; rfl
  have ho : fuseDx.Overloaded L r.v 1 := by
    refine ⟨⟨some 0, some 1, some 2, 1 / 2, .good⟩, rfl, rfl, ?_⟩
    rw [fuseDx_sensor hL, hv 8 (by omega), hv 9 (by omega)]
    have : (⟨fuseNetSol 8, fuseNetSol 9⟩ : ℂ) = 1 := by
      apply Complex.ext <;> simp [fuseNetSol]
    rw [this]; norm_num
  have hmem : (⟨fuseDx, .ok r⟩ : SolveCall DxNet (HomotopyResult Stamper)) ∈ (fuseDx.run L (plainCtx 10) true true v0).calls := by
    unfold DxNet.run
    obtain ⟨_, h2, h3⟩ := C26_device_loop (DxNet.ops L (plainCtx 10) true) true v0 fuseDx
    rcases h3 with ⟨e, _, h, _⟩ | ⟨cl, hl, _, hfirst⟩
    · rw [show (DxNet.ops L (plainCtx 10) true).adjust fuseDx v0 = _ from hadj] at h; simp at h
    · have hne : 0 < (deviceRun (DxNet.ops L (plainCtx 10) true) true v0 fuseDx).calls.length :=
        List.length_pos_of_mem (List.mem_of_getLast? hl)
      have h0 := List.getElem?_eq_getElem hne
      obtain ⟨m', hm'⟩ := (hfirst _ h0).2 rfl
      rw [show (DxNet.ops L (plainCtx 10) true).adjust fuseDx v0 = _ from hadj] at hm'
      simp only [Except.ok.injEq, Prod.mk.injEq] at hm'
      have hmade := h2.made _ (List.getElem_mem hne)
      have hmem := List.getElem_mem hne
      generalize (deviceRun (DxNet.ops L (plainCtx 10) true) true v0 fuseDx).calls[0] = c at *
      obtain ⟨cd, cr⟩ := c
      simp only at hm' hmade
      obtain ⟨rfl, _⟩ := hm'
      rw [show (DxNet.ops L (plainCtx 10) true).solve fuseDx v0 = _ from hsol] at hmade
      rw [← hmade]; exact hmem
  obtain ⟨e, he⟩ := C28_overload_raises (plainCtx 10) true v0 fuseDx _ hmem r rfl hs rfl 1 ho
  exact ⟨fuseDx, v0, r, e, fuseNet_valid, by decide, hadj, hsol, hs, ho, he⟩

/-! ### C29: regulator taps -/

/-- A regulator driven by a sequence of increments; the reports of change. -/
noncomputable def Reg.drive : Reg → List ℝ → Except String (Reg × List Bool)
  | r, [] => .ok (r, [])
  | r, i :: is => do
    let (r, m) ← r.increment i
    let (r, ms) ← Reg.drive r is
    .ok (r, m :: ms)

/-- The nearest value to `x` in `[lo, hi]`. -/
noncomputable def nearest (lo hi x : ℝ) : ℝ := max lo (min hi x)

/-- Taps of a regulator asked to move by `is`, always kept in range. -/
noncomputable def tapHistory (lo hi : ℝ) : ℝ → List ℝ → List ℝ
  | x, [] => [x]
  | x, i :: is => x :: tapHistory lo hi (nearest lo hi (x + i)) is

/-- The ratio a regulator of the given type has at a tap: type A multiplies the secondary by `1 + step·tap`, type B gives
`1 - step·tap` as ratio. -/
def Reg.RatioOf (kind : RegType) (step tap ratio : ℝ) : Prop :=
  match kind with
  | .A => ratio * (1 + step * tap) = 1
  | .B => ratio = 1 - step * tap

theorem increment_spec (r r' : Reg) (i : ℝ) (m : Bool) (h : r.increment i = .ok (r', m)) (hr : 0 ≤ r.raiseTaps) (hl : 0 ≤ r.lowerTaps) :
    r'.tap = nearest (-r.lowerTaps) r.raiseTaps (r.tap + i) ∧ Reg.RatioOf r.kind r.step r'.tap r'.ratio ∧
    (m = true ↔ r'.tap ≠ r.tap) ∧ r' = { r with tap := r'.tap, ratio := r'.ratio } := by
  have ht : (if r.tap + i ≥ r.raiseTaps then r.raiseTaps else if r.tap + i ≤ -r.lowerTaps then -r.lowerTaps else r.tap + i) =
      nearest (-r.lowerTaps) r.raiseTaps (r.tap + i) := by
    unfold nearest
    split_ifs with h1 h2
    · rw [min_eq_left h1, max_eq_right (by linarith)]
    · rw [min_eq_right (by linarith), max_eq_left h2]
    · rw [min_eq_right (by linarith), max_eq_right (by linarith)]
  unfold Reg.increment at h
  simp only [ht] at h
  cases hk : r.kind with
  | A =>
    simp only [hk] at h
    split_ifs at h with hz
    simp only [Except.ok.injEq, Prod.mk.injEq] at h
    obtain ⟨rfl, rfl⟩ := h
    refine ⟨rfl, inv_mul_cancel₀ hz, ?_, rfl⟩
    rw [decide_eq_true_iff]; exact ne_comm
  | B =>
    simp only [hk, Except.ok.injEq, Prod.mk.injEq] at h
    obtain ⟨rfl, rfl⟩ := h
    refine ⟨rfl, rfl, ?_, rfl⟩
    rw [decide_eq_true_iff]; exact ne_comm

theorem nearest_mem (lo hi x : ℝ) (h : lo ≤ hi) : lo ≤ nearest lo hi x ∧ nearest lo hi x ≤ hi :=
  ⟨le_max_left _ _, max_le h (min_le_left _ _)⟩

theorem drive_spec (is : List ℝ) : ∀ (r r' : Reg) (ms : List Bool), r.drive is = .ok (r', ms) → 0 ≤ r.raiseTaps → 0 ≤ r.lowerTaps →
    -r.lowerTaps ≤ r.tap → r.tap ≤ r.raiseTaps → Reg.RatioOf r.kind r.step r.tap r.ratio →
    (-r.lowerTaps ≤ r'.tap ∧ r'.tap ≤ r.raiseTaps) ∧ Reg.RatioOf r.kind r.step r'.tap r'.ratio ∧
    r' = { r with tap := r'.tap, ratio := r'.ratio } ∧ ms.length = is.length ∧
    (tapHistory (-r.lowerTaps) r.raiseTaps r.tap is).getLast? = some r'.tap ∧
    ∀ k x y, (tapHistory (-r.lowerTaps) r.raiseTaps r.tap is)[k]? = some x →
      (tapHistory (-r.lowerTaps) r.raiseTaps r.tap is)[k + 1]? = some y → (ms[k]? = some true ↔ y ≠ x) := by
  induction is with
  | nil =>
    intro r r' ms h hr hl h1 h2 h3
    simp only [Reg.drive, Except.ok.injEq, Prod.mk.injEq] at h
    obtain ⟨rfl, rfl⟩ := h
    refine ⟨⟨h1, h2⟩, h3, rfl, rfl, rfl, ?_⟩
    intro k x y _ hy
    simp [tapHistory] at hy
  | cons i is ih =>
    intro r r' ms h hr hl h1 h2 h3
    simp only [Reg.drive, bind, Except.bind] at h
    split at h
    · simp at h
    · rename_i p hp
      obtain ⟨r1, m⟩ := p
      simp only at h
      split at h
      · simp at h
      · rename_i q hq
        obtain ⟨r2, ms'⟩ := q
        simp only [Except.ok.injEq, Prod.mk.injEq] at h
        obtain ⟨rfl, rfl⟩ := h
        obtain ⟨i1, i2, i3, i4⟩ := increment_spec r r1 i m hp hr hl
        have hn := nearest_mem (-r.lowerTaps) r.raiseTaps (r.tap + i) (by linarith)
        have e1 : r1.raiseTaps = r.raiseTaps := by rw [i4]
        have e2 : r1.lowerTaps = r.lowerTaps := by rw [i4]
        have e3 : r1.kind = r.kind := by rw [i4]
        have e4 : r1.step = r.step := by rw [i4]
        have := ih r1 r2 ms' hq (by rw [e1]; exact hr) (by rw [e2]; exact hl) (by rw [e2, i1]; exact hn.1) (by rw [e1, i1]; exact hn.2)
          (by rw [e3, e4]; exact i2)
        rw [e1, e2, e3, e4] at this
        obtain ⟨j1, j2, j3, j4, j5, j6⟩ := this
        refine ⟨j1, j2, ?_, by simp [j4], ?_, ?_⟩
        · rw [j3, i4]
        · rw [tapHistory, ← i1]
          cases hh : tapHistory (-r.lowerTaps) r.raiseTaps r1.tap is with
          | nil => rw [hh] at j5; simp at j5
          | cons z zs => rw [List.getLast?_cons_cons, ← hh]; exact j5
        · intro k x y hx hy
          rw [tapHistory, ← i1] at hx hy
          cases k with
          | zero =>
            simp only [List.getElem?_cons_zero, Option.some.injEq, Nat.zero_add, List.getElem?_cons_succ] at hx hy ⊢
            have : y = r1.tap := by
              cases is <;> simp [tapHistory] at hy <;> exact hy.symm
            rw [this, ← hx]; exact i3
          | succ k =>
            simp only [List.getElem?_cons_succ] at hx hy ⊢
            exact j6 k x y hx hy

/-- **C29.** A constructed regulator, however it is then driven: the tap stays in `[-lower, raise]`, it goes through the
nearest admissible taps, the turn ratio always belongs to the tap, and an increment reports a change exactly when the tap
changed. Everything else of the regulator stays. -/
theorem C29_regulator_taps (f c t : Ref) (tap step : ℝ) (kind : RegType) (raiseTaps lowerTaps g b : ℝ) (hr : 0 ≤ raiseTaps)
    (hl : 0 ≤ lowerTaps) (r0 : Reg) (h0 : Reg.make f c t tap step kind raiseTaps lowerTaps g b = .ok r0) (is : List ℝ) (r : Reg)
    (ms : List Bool) (h : r0.drive is = .ok (r, ms)) :
    (-lowerTaps ≤ r.tap ∧ r.tap ≤ raiseTaps) ∧ Reg.RatioOf kind step r.tap r.ratio ∧
    r = ⟨f, c, t, r.tap, step, kind, raiseTaps, lowerTaps, r.ratio, g, b⟩ ∧ ms.length = is.length ∧
    (tapHistory (-lowerTaps) raiseTaps (nearest (-lowerTaps) raiseTaps tap) is).getLast? = some r.tap ∧
    ∀ k x y, (tapHistory (-lowerTaps) raiseTaps (nearest (-lowerTaps) raiseTaps tap) is)[k]? = some x →
      (tapHistory (-lowerTaps) raiseTaps (nearest (-lowerTaps) raiseTaps tap) is)[k + 1]? = some y → (ms[k]? = some true ↔ y ≠ x) := by
  unfold Reg.make at h0
  simp only [bind, Except.bind] at h0
  split at h0
  · simp at h0
  · rename_i p hp
    obtain ⟨r1, m⟩ := p
    simp only [Except.ok.injEq] at h0
    subst h0
    obtain ⟨i1, i2, _, i4⟩ := increment_spec _ r1 0 m hp hr hl
    simp only [add_zero] at i1 i2 i4
    have e1 : r1.raiseTaps = raiseTaps := by rw [i4]
    have e2 : r1.lowerTaps = lowerTaps := by rw [i4]
    have e3 : r1.kind = kind := by rw [i4]
    have e4 : r1.step = step := by rw [i4]
    have hn := nearest_mem (-lowerTaps) raiseTaps tap (by linarith)
    have := drive_spec is r1 r ms h (by rw [e1]; exact hr) (by rw [e2]; exact hl) (by rw [e2, i1]; exact hn.1) (by rw [e1, i1]; exact hn.2)
      (by rw [e3, e4]; exact i2)
    rw [e1, e2, e3, e4, i1] at this
    obtain ⟨j1, j2, j3, j4⟩ := this
    refine ⟨j1, j2, ?_, j4⟩
    rw [j3, i4]

/-- A type B regulator with 16 taps of 1/160 each way, started at tap 15 and raised twice: it stops at 16. -/
example : ∃ r, (Reg.make (some 0) (some 1) (some 2) 15 (1 / 160) .B 16 16 0 0).bind (fun r => r.drive [1, 1]) = .ok (r, [true, false]) ∧
    r.tap = 16 ∧ r.ratio = 9 / 10 := by
  refine ⟨⟨some 0, some 1, some 2, 16, 1 / 160, .B, 16, 16, 9 / 10, 0, 0⟩, ?_, rfl, rfl⟩
  norm_num [Reg.make, Reg.increment, Reg.drive, Except.bind, bind]

/-- **C29, device control.** Device control never moves a regulator: the regulator keeps the tap of the file. -/
theorem C29_control_leaves_taps (a : Assignment) (v : ℕ → ℝ) (k : ℕ) (r : Reg) : (Item.reg r).adjust a v k = .ok (.reg r, false) := rfl

/-! ### C30: capacitor switching -/

/-- **C30, what holds.** Manual capacitors never change; capacitors in an unsupported mode raise; in voltage mode the
capacitor is closed above the high limit and opened below the low limit (the reverse of what is wanted), is otherwise left
alone, reports a change exactly when the switch moved, and a second evaluation at the same voltage changes nothing.
Missing: the direction. -/
theorem C30_capacitor_partial (c : Cap) (V : ℂ) :
    (c.mode = .manual → c.adjust V = .ok (c, false)) ∧
    (c.mode = .var ∨ c.mode = .varvolt → ∃ e, c.adjust V = .error e) ∧
    (c.mode = .volt → c.low ≤ c.high → ∃ s made, c.adjust V = .ok ({ c with switch := s }, made) ∧
      (c.high < ‖V‖ → s = .closed) ∧ (‖V‖ < c.low → s = .opened) ∧ (c.low ≤ ‖V‖ → ‖V‖ ≤ c.high → s = c.switch) ∧
      (made = true ↔ s ≠ c.switch) ∧ Cap.adjust { c with switch := s } V = .ok ({ c with switch := s }, false)) := by
  refine ⟨fun h => ?_, fun h => ?_, fun h hle => ?_⟩
  · unfold Cap.adjust; rw [h]
  · unfold Cap.adjust; rcases h with h | h <;> rw [h] <;> exact ⟨_, rfl⟩
  · have hx : c.high < ‖V‖ → ¬ ‖V‖ < c.low := fun h1 h2 => by linarith
    obtain ⟨f, t, b, mode, high, low, sw⟩ := c
    simp only at h hle hx
    subst h
    by_cases h1 : high < ‖V‖
    · have h2 := hx h1
      refine ⟨.closed, decide (sw = .opened), ?_⟩
      cases sw <;> simp [Cap.adjust, h1, h2, le_of_not_gt] <;> intro <;> linarith
    · by_cases h2 : ‖V‖ < low
      · refine ⟨.opened, decide (sw = .closed), ?_⟩
        cases sw <;> simp [Cap.adjust, h1, h2] <;> intro <;> linarith
      · refine ⟨sw, false, ?_⟩
        cases sw <;> simp [Cap.adjust, h1, h2]

/-- **C30, disagreement.** A capacitor in voltage mode with band 0.9 to 1.1. At 0.8 an open capacitor stays open and a
closed one is switched out; at 1.2 an open one is switched in. -/
theorem C30_direction_fails : ∃ c : Cap, c.mode = .volt ∧ c.low < c.high ∧
    (∃ V : ℂ, ‖V‖ < c.low ∧ Cap.adjust { c with switch := .opened } V = .ok ({ c with switch := .opened }, false) ∧
      Cap.adjust { c with switch := .closed } V = .ok ({ c with switch := .opened }, true)) ∧
    (∃ V : ℂ, c.high < ‖V‖ ∧ Cap.adjust { c with switch := .opened } V = .ok ({ c with switch := .closed }, true) ∧
      Cap.adjust { c with switch := .closed } V = .ok ({ c with switch := .closed }, false)) := by
  refine ⟨⟨some 0, none, 1, .volt, 11 / 10, 9 / 10, .opened⟩, rfl, by norm_num, ⟨((4 / 5 : ℝ) : ℂ), ?_⟩, ⟨((6 / 5 : ℝ) : ℂ), ?_⟩⟩
  · rw [Complex.norm_real]; norm_num [Cap.adjust]; decide
  · rw [Complex.norm_real]; norm_num [Cap.adjust]; decide

/-! ### Examples on whole networks -/

/-- The network of the witness above with a fuse of two amperes, which carries its current. -/
noncomputable def strongDx : DxNet :=
  ⟨3, [.fixed (.slack 0 (1 + 1 / 20000) (-1 / 20000)), .fuse ⟨some 0, some 1, some 2, 2, .good⟩, .fixed (.shunt 2 1 0)], none, true⟩

/-- Where the fuse carries less than its limit, control changes nothing. -/
theorem strongDx_adjust {L : Library} (hL : L.Loaded) (v : ℕ → ℝ) (h : ‖(⟨v 8, v 9⟩ : ℂ)‖ ≤ 2) :
    strongDx.adjust L v = .ok (strongDx, false) := by
  have hF : (Fuse.mk (some 0) (some 1) (some 2) 2 .good).adjust ((strongDx.network.assign L).sensor 1 v) =
      (⟨some 0, some 1, some 2, 2, .good⟩, false) := by
    rw [show (strongDx.network.assign L).sensor 1 v = ⟨v 8, v 9⟩ from fuseDx_sensor hL v]
    unfold Fuse.adjust
    rw [if_neg (by simp), if_neg (by simpa using h)]
  unfold DxNet.adjust
  rw [if_pos (show strongDx.threePhase = true from rfl)]
  simp only [strongDx, adjustItems, Item.adjust, bind, Except.bind]
  simp only [strongDx] at hF
  rw [hF]; rfl

/-- Its run, with control, from currents of zero, returns a success and the devices as they were. -/
theorem strongDx_run {L : Library} (hL : L.Loaded) : ∃ r : HomotopyResult Stamper, r.success = true ∧
    (strongDx.run L (plainCtx 10) true true fun _ => 0).out = .ok (r, strongDx) := by
  obtain ⟨m, r, hm, hr, hs, hv⟩ := fuseNet_solve hL fun _ => 0
  have hsol : strongDx.solve L (plainCtx 10) true (fun _ => 0) = .ok r := by
    unfold DxNet.solve
    have h1 : strongDx.items.any Item.refuses = false := rfl
    have h2 : strongDx.network.opt = false := rfl
    have h3 : strongDx.network = fuseNet := rfl
    rw [h1, h2, h3, hm, if_neg (by simp)]
    rw [fuseNet_size hL] at hr ⊢
    exact hr
  have h0 := strongDx_adjust hL (fun _ => 0) (by
    rw [show (⟨0, 0⟩ : ℂ) = 0 from rfl]; simp)
  have h1 := strongDx_adjust hL r.v (by
    rw [hv 8 (by omega), hv 9 (by omega)]
    have : (⟨fuseNetSol 8, fuseNetSol 9⟩ : ℂ) = 1 := by
      apply Complex.ext <;> simp [fuseNetSol]
    rw [this]; norm_num)
  refine ⟨r, hs, ?_⟩
  unfold DxNet.run deviceRun maxDeviceIterations
  simp only [if_true]
  rw [show (DxNet.ops L (plainCtx 10) true).adjust strongDx (fun _ => 0) = _ from h0]
  simp only [deviceLoop]
  rw [show (DxNet.ops L (plainCtx 10) true).solve strongDx (fun _ => 0) = _ from hsol]
  simp only [show (DxNet.ops L (plainCtx 10) true).success r = true from hs, show (DxNet.ops L (plainCtx 10) true).volts r = r.v from rfl]
  rw [show (DxNet.ops L (plainCtx 10) true).adjust strongDx r.v = _ from h1]
  simp

/-- The returned solution of the example: its fuse is not blown and its equations are met to the tolerance. -/
example {L : Library} (hL : L.Loaded) : (∀ i ∈ strongDx.items, i.refuses = false) ∧ strongDx.network.Valid ∧
    ∃ w, ∀ i < (strongDx.network.assign L).size, |networkEq (strongDx.network.assign L).all 0 w i| < (plainCtx 10).tolerance := by
  obtain ⟨r, hs, h⟩ := strongDx_run hL
  obtain ⟨_, h2, _, h4, h5⟩ := C26_returned_solution hL (plainCtx 10) true _ strongDx strongDx fuseNet_valid r h hs
  exact ⟨h2, h4, h5⟩

/-- At most ten solves, whatever the limit of the fuse. -/
example {L : Library} (D : DxNet) : (D.run L (plainCtx 10) true true fun _ => 0).calls.length ≤ 10 :=
  (C26_device_loop (DxNet.ops L (plainCtx 10) true) true (fun _ => 0) D).1

example {L : Library} (hL : L.Loaded) :
    ∀ c ∈ (strongDx.run L (plainCtx 10) true true fun _ => 0).calls, ∀ i ∈ c.devices.items, i.refuses = false := by
  obtain ⟨r, _, h⟩ := strongDx_run hL
  exact C28_no_blown_fuse_partial (plainCtx 10) true true _ strongDx strongDx r h

/-- A network with one fuse reports at most one adjustment in its whole life. -/
example (L : Library) (vs : List (ℕ → ℝ)) (D' : DxNet) (n : ℕ) (h : strongDx.history L vs = .ok (D', n)) : n ≤ 1 := by
  have := (C27_adjustments_bounded L strongDx (by simp [strongDx, Item.NoAutoCap]) vs D' n h).2
  exact this.trans (by decide)

/-- The hypotheses of `C28_overload_raises` are met by the weak fuse: see `C28_blown_fuse_fails`, which uses it. -/
example {L : Library} (hL : L.Loaded) : ∃ (D : DxNet) (v : ℕ → ℝ) (e : String), (D.run L (plainCtx 10) true true v).out = .error e := by
  obtain ⟨D, v, _, e, _, _, _, _, _, _, h⟩ := C28_blown_fuse_fails hL
  exact ⟨D, v, e, h⟩

/-- A regulator at tap 15 of 16 is left there at any voltage. -/
example (a : Assignment) (v : ℕ → ℝ) :
    (Item.reg ⟨some 0, some 1, some 2, 15, 1 / 160, .B, 16, 16, 29 / 32, 0, 0⟩).adjust a v 3 =
      .ok (.reg ⟨some 0, some 1, some 2, 15, 1 / 160, .B, 16, 16, 29 / 32, 0, 0⟩, false) :=
  C29_control_leaves_taps a v 3 _

/-- A capacitor in voltage mode with band 0.9 to 1.1 is left alone at 1. -/
example : ∃ c : Cap, c.mode = .volt ∧ c.low < c.high ∧ ∃ s made, c.adjust 1 = .ok ({ c with switch := s }, made) ∧ s = c.switch := by
  refine ⟨⟨some 0, none, 1, .volt, 11 / 10, 9 / 10, .closed⟩, rfl, by norm_num, ?_⟩
  obtain ⟨s, made, h1, _, _, h2, _⟩ := (C30_capacitor_partial ⟨some 0, none, 1, .volt, 11 / 10, 9 / 10, .closed⟩ 1).2.2 rfl (by norm_num)
  exact ⟨s, made, h1, h2 (by norm_num) (by norm_num)⟩

end Verif
