import Verif.Lemmas.TimeSeries
import Verif.Spec.TimeSeries
import Verif.Props.Results

/-!
# C39–C43, C71, C72: load factor, hourly loads, balancing, command line
-/

namespace Verif

variable {σ R : Type} {L : Library}

/-! ### C40 -/

/-- **C40.** Every load's constant power is multiplied, nothing else changes, and no load is added or lost. -/
theorem C40_scales (loads : List NamedLoad) (a b : ℝ) :
    (modifyLoadFactor loads a b).length = loads.length ∧
    ∀ (i : ℕ) (l : NamedLoad), loads[i]? = some l → ∃ l' : NamedLoad, (modifyLoadFactor loads a b)[i]? = some l' ∧ l'.load.P = a * l.load.P ∧ l'.load.Q = b * l.load.Q ∧
      l.SameBut l' := by
  refine ⟨by simp [modifyLoadFactor], ?_⟩
  intro i l hl
  refine ⟨l.scale a b, by simp [modifyLoadFactor, hl], mul_comm _ _, mul_comm _ _, rfl, rfl, rfl, rfl, rfl, rfl⟩

/-- **C40.** Two factors one after the other act as their product. -/
theorem C40_compose (loads : List NamedLoad) (a b c d : ℝ) :
    modifyLoadFactor (modifyLoadFactor loads a b) c d = modifyLoadFactor loads (a * c) (b * d) := by
  unfold modifyLoadFactor
  rw [List.map_map]
  congr 1
  funext l
  simp [NamedLoad.scale, mul_assoc]

/-- **C40.** Factor one changes nothing. -/
theorem C40_one (loads : List NamedLoad) : modifyLoadFactor loads 1 1 = loads := by
  unfold modifyLoadFactor
  rw [show NamedLoad.scale 1 1 = id by funext l; simp [NamedLoad.scale], List.map_id]

/-- **C40.** The reciprocal factors restore the loads. -/
theorem C40_inverse (loads : List NamedLoad) (a b : ℝ) (ha : a ≠ 0) (hb : b ≠ 0) :
    modifyLoadFactor (modifyLoadFactor loads a b) a⁻¹ b⁻¹ = loads := by
  rw [C40_compose, mul_inv_cancel₀ ha, mul_inv_cancel₀ hb, C40_one]

/-- **C40, what it means.** With one factor for both, a constant power load draws that many times its current at the same
voltages. -/
theorem C40_current (l : NamedLoad) (a t : ℝ) (V : Ref → ℂ) (f u : Ref) (w : List ℝ) (hZ : l.load.Z = 0) (hI : l.load.IP = 0 ∧ l.load.IQ = 0) :
    (Element.load f u (l.scale a a).load).draws t V w = ((Element.load f u l.load).draws t V w).map fun x => (x.1, (a : ℂ) * x.2) := by
  have h1 : (l.scale a a).load = ⟨l.load.P * a, l.load.Q * a, l.load.Z, l.load.IP, l.load.IQ⟩ := rfl
  have h2 : (⟨l.load.P * a, l.load.Q * a⟩ : ℂ) = a * ⟨l.load.P, l.load.Q⟩ := by
    apply Complex.ext <;> simp [mul_comm]
  have hz : (⟨0, 0⟩ : ℂ) = 0 := rfl
  rw [h1]
  simp only [Element.draws, hZ, hI.1, hI.2, h2, hz, mul_div_assoc, map_mul, Complex.conj_ofReal, inv_zero, mul_zero, zero_mul, add_zero, branch,
    List.map_cons, List.map_nil, mul_neg]

/-- A load of 3 + 4j doubled and restored. -/
example : modifyLoadFactor (modifyLoadFactor [⟨['1'], ['A'], none, ⟨3, 4, 0, 1, 0⟩⟩] 2 2) 2⁻¹ 2⁻¹ = [⟨['1'], ['A'], none, ⟨3, 4, 0, 1, 0⟩⟩] :=
  C40_inverse _ 2 2 two_ne_zero two_ne_zero

/-! ### C39 -/

/-- **C39, every run.** A run with any factor is the run with factor one on the scaled loads; without the argument the loads are
negated. -/
theorem C39_factor (C : TSConfig σ R) (fuel : ℕ) (setup : Option String) (factor : Option ℝ) (s : σ) (loads : List NamedLoad) :
    mainRun C fuel setup factor s loads = mainRun C fuel setup (some 1) s (modifyLoadFactor loads (factor.getD (-1)) (factor.getD (-1))) := by
  have : modifyLoadFactor (modifyLoadFactor loads (factor.getD (-1)) (factor.getD (-1))) 1 1 = modifyLoadFactor loads (factor.getD (-1)) (factor.getD (-1)) :=
    C40_one _
  unfold mainRun
  simp only [Option.getD_some, this]

/-- **C39, what holds.** With factor one and no time series the loads solved and shown are those of the case file. Missing: the
run without the argument. -/
theorem C39_explicit_partial (C : TSConfig σ R) (fuel : ℕ) (s : σ) (loads : List NamedLoad) (hf : C.loadfile = none) (hs : C.swing = none) (r : R)
    (hr : (C.solve s loads).1 = .ok r) :
    mainRun C fuel none (some 1) s loads = some (.ok ⟨[], [r], writeFiles C.outputfile r []⟩) := by
  unfold mainRun tsExecute
  simp [hf, hs, C40_one, hr]

/-- **C39 fails.** Without the argument every load with a constant power part is solved with the opposite sign, whatever the
solver does. -/
theorem C39_default_fails (C : TSConfig σ R) (fuel : ℕ) (setup : Option String) (s : σ) (loads : List NamedLoad) :
    (∃ loads' : List NamedLoad, mainRun C fuel setup none s loads = mainRun C fuel setup (some 1) s loads' ∧
      ∀ (i : ℕ) (l : NamedLoad), loads[i]? = some l → ∃ l' : NamedLoad, loads'[i]? = some l' ∧ l'.S = -l.S) ∧
    ∃ (D : TSConfig Unit (List NamedLoad)) (ls : List NamedLoad), mainRun D 1 none none () ls ≠ mainRun D 1 none (some 1) () ls := by
  refine ⟨⟨_, C39_factor C fuel setup none s loads, ?_⟩, ?_⟩
  · intro i l hl
    obtain ⟨l', h1, h2, h3, -⟩ := (C40_scales loads (-1) (-1)).2 i l hl
    refine ⟨l', h1, ?_⟩
    apply Complex.ext
    · show l'.load.P = -l.load.P; rw [h2]; ring
    · show l'.load.Q = -l.load.Q; rw [h3]; ring
  · refine ⟨⟨fun _ ls => (.ok ls, ()), fun _ => [], .ok, none, 0, 0, none, none, none⟩, [⟨['1'], ['A'], none, ⟨1, 0, 0, 0, 0⟩⟩], ?_⟩
    intro h
    unfold mainRun tsExecute at h
    simp [modifyLoadFactor, NamedLoad.scale, writeFiles] at h
    norm_num at h

/-! ### C41 -/

/-- **C41, what holds.** Hours with positive values: after any sequence of hours a load in the load file has the apparent power
of the last hour and the angle it started with; everything else about it, and every load that is in no column, is unchanged.
Missing: hours of zero. -/
theorem C41_power_factor_partial (cols : List Column) (hn : (cols.map Column.name).Nodup) (loads : List NamedLoad) (hs : List ℤ) (i : ℕ) (l : NamedLoad)
    (hl : LastOfName loads i l) (c : Column) (hc : c ∈ cols) (hcn : c.name = l.name) (hpos : ∀ h ∈ hs, ∃ m, c.value h = some m ∧ 0 < m) :
    ∃ l', (hs.foldl (fun ls h => setLoadValues cols h ls) loads)[i]? = some l' ∧ l.SameBut l' ∧ l'.S.arg = l.S.arg ∧
      ∀ h, hs.getLast? = some h → ∀ m, c.value h = some m → ‖l'.S‖ = m := by
  have hidx : loadIndex loads c.name = some i := by
    rw [hcn]
    refine (lastIndex_some _ _ _).2 ⟨⟨l, hl.1, by simp⟩, ?_⟩
    intro j hj y hy
    simpa using hl.2 j y hj hy
  have key : ∀ hs : List ℤ, (∀ h ∈ hs, ∃ m, c.value h = some m ∧ 0 < m) →
      (hs.foldl (fun ls h => setLoadValues cols h ls) loads).map NamedLoad.ident = loads.map NamedLoad.ident ∧
      ∃ l', (hs.foldl (fun ls h => setLoadValues cols h ls) loads)[i]? = some l' ∧ l.SameBut l' ∧ l'.S.arg = l.S.arg ∧
        ∀ h, hs.getLast? = some h → ∀ m, c.value h = some m → ‖l'.S‖ = m := by
    intro hs
    induction hs using List.reverseRecOn with
    | nil => intro _; exact ⟨rfl, l, hl.1, ⟨rfl, rfl, rfl, rfl, rfl, rfl⟩, rfl, by simp⟩
    | append_singleton hs h ih =>
      intro hp
      obtain ⟨hid, l', h1, h2, h3, -⟩ := ih fun x hx => hp x (by simp [hx])
      obtain ⟨m, hm, hm0⟩ := hp h (by simp)
      rw [List.foldl_append, List.foldl_cons, List.foldl_nil]
      refine ⟨by rw [setLoadValues_ident, hid], l'.setMagnitude m, ?_, ?_, ?_, ?_⟩
      · rw [setLoadValues_get cols hn h _ c hc i (by rw [loadIndex_ident hid]; exact hidx), h1]
        simp [hm]
      · exact h2
      · rw [setMagnitude_arg m hm0, h3]
      · intro h' hh' m' hm'
        have : h = h' := by simpa using hh'
        subst this
        rw [hm] at hm'
        have : m = m' := by simpa using hm'
        subst this
        exact setMagnitude_norm m hm0.le l'
  exact (key hs hpos).2

/-- **C41, single hour.** Zero and positive values alike give the hour's apparent power. -/
theorem C41_magnitude (cols : List Column) (hn : (cols.map Column.name).Nodup) (loads : List NamedLoad) (h : ℤ) (i : ℕ) (l : NamedLoad)
    (hl : LastOfName loads i l) (c : Column) (hc : c ∈ cols) (hcn : c.name = l.name) (m : ℝ) (hm : c.value h = some m) (h0 : 0 ≤ m) :
    ∃ l', (setLoadValues cols h loads)[i]? = some l' ∧ l.SameBut l' ∧ ‖l'.S‖ = m := by
  have hidx : loadIndex loads c.name = some i := by
    rw [hcn]
    refine (lastIndex_some _ _ _).2 ⟨⟨l, hl.1, by simp⟩, ?_⟩
    intro j hj y hy
    simpa using hl.2 j y hj hy
  refine ⟨l.setMagnitude m, ?_, ⟨rfl, rfl, rfl, rfl, rfl, rfl⟩, setMagnitude_norm m h0 l⟩
  rw [setLoadValues_get cols hn h loads c hc i hidx, hl.1, Option.map_some, hm]

/-- A load of 1 var named `cl_1A`, and a column that is zero in hour 0 and one in all other hours. -/
def varLoad : NamedLoad := ⟨['1'], ['A'], none, ⟨0, 1, 0, 0, 0⟩⟩

/-- The column of `varLoad`. -/
def zeroFirst : Column := ⟨['c', 'l', '_', '1', 'A'], fun h => some (if h = 0 then 0 else 1)⟩

theorem varLoad_name : varLoad.name = zeroFirst.name := by decide

theorem varLoad_last : LastOfName [varLoad] 0 varLoad := ⟨rfl, fun j l' hj hl' => by
  match j, hj with
  | j + 1, _ => simp at hl'⟩

/-- **C41 fails.** After an hour of zero the angle is lost: the load of one var becomes a load of one watt. -/
theorem C41_zero_hour_fails :
    ∃ l', (setLoadValues [zeroFirst] 1 (setLoadValues [zeroFirst] 0 [varLoad]))[0]? = some l' ∧ varLoad.S = Complex.I ∧ l'.S = 1 := by
  have hi : loadIndex [varLoad] zeroFirst.name = some 0 := by decide
  have h0 := setLoadValues_get [zeroFirst] (by decide) 0 [varLoad] zeroFirst (by simp) 0 hi
  have h1 := setLoadValues_get [zeroFirst] (by decide) 1 (setLoadValues [zeroFirst] 0 [varLoad]) zeroFirst (by simp) 0
    (by rw [loadIndex_ident (setLoadValues_ident _ _ _)]; exact hi)
  rw [h0] at h1
  have z0 : zeroFirst.value 0 = some 0 := by simp [zeroFirst]
  have z1 : zeroFirst.value 1 = some 1 := by simp [zeroFirst]
  simp only [z0, z1, List.getElem?_cons_zero, Option.map_some] at h1
  refine ⟨_, h1, ?_, ?_⟩
  · apply Complex.ext <;> simp [varLoad, NamedLoad.S]
  · have : (varLoad.setMagnitude 0).S = 0 := by rw [setMagnitude_S]; simp
    rw [setMagnitude_S, this]; simp

/-- Two hours of one keep the angle of the same load. -/
example : ∃ l', ([1, 2].foldl (fun ls h => setLoadValues [zeroFirst] h ls) [varLoad])[0]? = some l' ∧ l'.S.arg = varLoad.S.arg := by
  obtain ⟨l', h1, -, h2, -⟩ := C41_power_factor_partial [zeroFirst] (by decide) [varLoad] [1, 2] 0 varLoad varLoad_last zeroFirst (by simp)
    varLoad_name.symm (by intro h hh; simp at hh; exact ⟨1, by rcases hh with rfl | rfl <;> simp [zeroFirst], one_pos⟩)
  exact ⟨l', h1, h2⟩

/-! ### C42 -/

theorem hoursLoop_spec (C : TSConfig σ R) (cols : List Column) (fuel : ℕ) (hs : List ℤ) (st st' : TSState σ R)
    (h : hoursLoop C cols fuel hs st = some (none, st')) :
    ∃ rs : List R, st'.results = st.results ++ hs.zip rs ∧ rs.length = hs.length ∧
      (∀ n, C.outputfile = some n → st'.files = st.files ++ (hs.zip rs).map fun x => (n ++ '_' :: hourText x.1, x.2)) ∧
      (C.outputfile = none → st'.files = st.files) ∧
      ∀ x ∈ hs.zip rs, ∃ s ls out, ls.map NamedLoad.ident = st.loads.map NamedLoad.ident ∧
        executePowerflow C fuel s (setLoadValues cols x.1 ls) = some (.ok x.2, out) := by
  induction hs generalizing st with
  | nil =>
    have : st = st' := by simpa [hoursLoop] using h
    subst this
    exact ⟨[], by simp, rfl, by simp, by simp, by simp⟩
  | cons a hs ih =>
    unfold hoursLoop at h
    simp only at h
    cases he : executePowerflow C fuel st.devices (setLoadValues cols a st.loads) with
    | none => rw [he] at h; cases h
    | some y =>
      obtain ⟨r, s', ls'⟩ := y
      rw [he] at h
      cases r with
      | error e => simp at h
      | ok r =>
        simp only at h
        obtain ⟨rs, h1, h2, h3, h4, h5⟩ := ih _ h
        have hid : ls'.map NamedLoad.ident = st.loads.map NamedLoad.ident := by
          have key : ∀ k r0 s0 ls0 out, balanceLoop C k r0 s0 ls0 = some out → out.2.2.map NamedLoad.ident = ls0.map NamedLoad.ident := by
            intro k
            induction k with
            | zero => intro r0 s0 ls0 out h; cases h
            | succ k ihk =>
              intro r0 s0 ls0 out h
              unfold balanceLoop at h
              have hadj : (adjustGenerators C.swing C.negative (C.gens r0) ls0).2.map NamedLoad.ident = ls0.map NamedLoad.ident := by
                unfold adjustGenerators
                split
                · split_ifs
                  · rfl
                  · have := addOutputs_ident
                    split
                    · rename_i h'; rw [← congrArg Prod.snd h']; exact addOutputs_ident _ _ _
                    · rename_i h'; rw [← congrArg Prod.snd h']; exact addOutputs_ident _ _ _
                · rfl
              split at h
              · rename_i h'; rw [h'] at hadj; cases h; exact hadj
              · rename_i h'; rw [h'] at hadj; cases h; exact hadj
              · rename_i h'
                rw [h'] at hadj
                split at h
                · cases h; exact hadj
                · rw [ihk _ _ _ _ h]; exact hadj
          unfold executePowerflow at he
          split at he
          · cases he
          · obtain ⟨out, ho, hx⟩ := Option.map_eq_some_iff.1 he
            have := key _ _ _ _ _ ho
            rw [← setLoadValues_ident cols a st.loads, ← this, congrArg Prod.snd hx]
        refine ⟨r :: rs, ?_, by simp [h2], ?_, ?_, ?_⟩
        · rw [h1]; simp
        · intro n hn
          rw [h3 n hn]
          simp [hn, writeFiles]
        · intro hn
          rw [h4 hn]
          simp [hn, writeFiles]
        · intro x hx
          rw [List.zip_cons_cons, List.mem_cons] at hx
          rcases hx with rfl | hx
          · exact ⟨_, _, _, rfl, he⟩
          · obtain ⟨s, ls, out, e1, e2⟩ := h5 x hx
            exact ⟨s, ls, out, by rw [e1]; exact hid, e2⟩

/-- **C42, what holds.** A series that ends without an exception has one result for each hour of `range(start, end)`, in order,
and one pair of files per hour if a file was asked for. Each result comes from a power flow started with loads of which every
load that is the last of its name and has a value for the hour has that apparent power. Missing: hours without a value keep
the value of an earlier hour, and of loads of one name only the last is set. -/
theorem C42_hours_partial (C : TSConfig σ R) (cols : List Column) (hf : C.loadfile = some cols) (hn : (cols.map Column.name).Nodup) (fuel : ℕ)
    (s : σ) (loads : List NamedLoad) (out : Returned R) (st' : TSState σ R)
    (h : tsExecute C fuel ⟨s, loads, [], []⟩ = some (.ok out, st')) :
    ∃ res : List (ℤ × R), out = .hours res ∧ res.length = (C.stop - C.start).toNat ∧ (∀ (k : ℕ) (x : ℤ × R), res[k]? = some x → x.1 = C.start + k) ∧
      (∀ n, C.outputfile = some n → st'.files = res.map fun x => (n ++ '_' :: hourText x.1, x.2)) ∧
      ∀ x ∈ res, ∃ s0 ls0 o, executePowerflow C fuel s0 ls0 = some (.ok x.2, o) ∧ ls0.length = loads.length ∧
        ∀ i l, LastOfName loads i l → ∀ c ∈ cols, c.name = l.name → ∀ m, c.value x.1 = some m → 0 ≤ m →
          ∃ l', ls0[i]? = some l' ∧ l'.ident = l.ident ∧ ‖l'.S‖ = m := by
  unfold tsExecute at h
  rw [hf] at h
  simp only at h
  obtain ⟨y, hy, hx⟩ := Option.map_eq_some_iff.1 h
  obtain ⟨e, st1⟩ := y
  cases e with
  | some e => cases hx
  | none =>
    simp only [Prod.mk.injEq, Except.ok.injEq] at hx
    obtain ⟨rfl, rfl⟩ := hx
    obtain ⟨rs, h1, h2, h3, -, h5⟩ := hoursLoop_spec C cols fuel _ _ _ hy
    rw [List.nil_append] at h1
    have hlen : (hourRange C.start C.stop).length = (C.stop - C.start).toNat := by simp [hourRange]
    refine ⟨st1.results, rfl, ?_, ?_, ?_, ?_⟩
    · rw [h1, List.length_zip, h2, hlen, min_self]
    · intro k x hk
      rw [h1, List.getElem?_zip_eq_some] at hk
      have := hk.1
      unfold hourRange at this
      rw [List.getElem?_map] at this
      obtain ⟨j, hj, hj'⟩ := Option.map_eq_some_iff.1 this
      have : j = k := by
        rw [List.getElem?_eq_some_iff] at hj
        obtain ⟨hlt, hj⟩ := hj
        simpa using hj.symm
      rw [← hj', this]
    · intro n hn'
      rw [h3 n hn', h1]; rfl
    · intro x hx
      rw [h1] at hx
      obtain ⟨s0, ls, o, e1, e2⟩ := h5 x hx
      have hlen : (setLoadValues cols x.1 ls).length = loads.length := by
        have := congrArg List.length ((setLoadValues_ident cols x.1 ls).trans e1)
        simpa using this
      refine ⟨s0, _, o, e2, hlen, ?_⟩
      intro i l hl c hc hcn m hm h0
      have hidx : loadIndex ls c.name = some i := by
        rw [loadIndex_ident e1, hcn]
        refine (lastIndex_some _ _ _).2 ⟨⟨l, hl.1, by simp⟩, ?_⟩
        intro j hj y hy
        simpa using hl.2 j y hj hy
      have hg := setLoadValues_get cols hn x.1 ls c hc i hidx
      obtain ⟨l0, hl0, -⟩ := loadIndex_name hidx
      rw [hl0, Option.map_some, hm] at hg
      refine ⟨_, hg, ?_, setMagnitude_norm m h0 l0⟩
      rw [setMagnitude_ident]
      have := congrArg (fun l => l[i]?) e1
      simp only [List.getElem?_map, hl0, hl.1, Option.map_some, Option.some.injEq] at this
      exact this

/-- A column with a value for hour 0 only. -/
def shortColumn : Column := ⟨['c', 'l', '_', '1', 'A'], fun h => if h = 0 then some 5 else none⟩

/-- A power flow that returns the loads it was given. -/
def echo (cols : List Column) (start stop : ℤ) (name : Option Txt) : TSConfig Unit (List NamedLoad) :=
  ⟨fun _ ls => (.ok ls, ()), fun _ => [], .ok, some cols, start, stop, none, none, name⟩

theorem echo_run (cols : List Column) (start stop : ℤ) (name : Option Txt) (fuel : ℕ) (ls : List NamedLoad) :
    executePowerflow (echo cols start stop name) (fuel + 1) () ls = some (.ok ls, (), ls) := rfl

/-- **C42 fails, missing hours.** An hour beyond the file is solved with the values of the hour before. -/
theorem C42_missing_hour_fails :
    ∃ l, tsExecute (echo [shortColumn] 0 2 none) 1 ⟨(), [varLoad], [], []⟩ =
      some (.ok (.hours [(0, [l]), (1, [l])]), ⟨(), [l], [(0, [l]), (1, [l])], []⟩) ∧ ‖l.S‖ = 5 ∧ shortColumn.value 1 = none := by
  have hi : ∀ m, loadIndex [varLoad.setMagnitude m] shortColumn.name = some 0 := fun m => by
    rw [loadIndex_ident (ls := [varLoad.setMagnitude m]) (ls' := [varLoad]) rfl]; decide
  have hi' : loadIndex [varLoad] shortColumn.name = some 0 := by decide
  have e0 : setLoadValues [shortColumn] 0 [varLoad] = [varLoad.setMagnitude 5] := by
    have : shortColumn.value 0 = some 5 := by simp [shortColumn]
    simp [setLoadValues, setColumn, hi', this]
  have e1 : setLoadValues [shortColumn] 1 [varLoad.setMagnitude 5] = [varLoad.setMagnitude 5] := by
    have : shortColumn.value 1 = none := by simp [shortColumn]
    simp [setLoadValues, setColumn, hi, this]
  refine ⟨varLoad.setMagnitude 5, ?_, setMagnitude_norm 5 (by norm_num) _, by simp [shortColumn]⟩
  have hr : hourRange (echo [shortColumn] 0 2 none).start (echo [shortColumn] 0 2 none).stop = [0, 1] := by decide
  have hl : (echo [shortColumn] 0 2 none).loadfile = some [shortColumn] := rfl
  have ho : (echo [shortColumn] 0 2 none).outputfile = none := rfl
  unfold tsExecute
  rw [hl]
  simp only
  rw [hr]
  simp only [hoursLoop, e0, e1, echo_run _ _ _ _ 0, ho, writeFiles]
  rfl

/-- The loads of phases `1` and `12` of one triplex load. -/
def triplexLoads : List NamedLoad := [⟨['7'], ['1'], none, ⟨1, 0, 0, 0, 0⟩⟩, ⟨['7'], ['1', '2'], none, ⟨2, 0, 0, 0, 0⟩⟩]

/-- **C42 fails, names.** The loads of phases `1` and `12` of a triplex load have one name, so the first of them never gets a
value from the file, under no column and no hour. -/
theorem C42_same_name_fails (cols : List Column) (h : ℤ) : (setLoadValues cols h triplexLoads)[0]? = triplexLoads[0]? ∧
    ∀ l ∈ triplexLoads, l.name = ['r', 'l', '_', '7', '_', '1'] := by
  refine ⟨setLoadValues_other cols h _ 0 ?_, by decide⟩
  intro c _ hc
  obtain ⟨⟨x, hx, hp⟩, hlast⟩ := (lastIndex_some _ _ _).1 hc
  have := hlast 1 (by omega) _ (show triplexLoads[1]? = some _ from rfl)
  have hx' : triplexLoads[0]? = some x := hx
  have hx0 : x = ⟨['7'], ['1'], none, ⟨1, 0, 0, 0, 0⟩⟩ := by simpa [triplexLoads] using hx'.symm
  subst hx0
  have n1 : (⟨['7'], ['1'], none, ⟨1, 0, 0, 0, 0⟩⟩ : NamedLoad).name = ['r', 'l', '_', '7', '_', '1'] := by decide
  have n2 : (⟨['7'], ['1', '2'], none, ⟨2, 0, 0, 0, 0⟩⟩ : NamedLoad).name = ['r', 'l', '_', '7', '_', '1'] := by decide
  rw [n1] at hp
  rw [n2] at this
  simp at hp this
  exact this hp

/-! ### C43 -/

/-- **C43, a round.** A round that goes on adds exactly the outputs of the swing bus: the total load grows by their sum, each last
negative load of a phase by the outputs of that phase, and no other load changes. -/
theorem C43_round (sw : Txt) (neg : List Txt) (gens : List GenOut) (loads loads' : List NamedLoad)
    (h : adjustGenerators (some sw) (some neg) gens loads = (.ok true, loads')) :
    (∀ i l, LastNegative neg loads i l → loads'[i]? = some (l.add
        (((gens.filter fun g => g.node = sw ∧ g.phase = l.onPhase).map GenOut.P).sum)
        (((gens.filter fun g => g.node = sw ∧ g.phase = l.onPhase).map GenOut.Q).sum))) ∧
    (∀ i l, loads[i]? = some l → ¬ LastNegative neg loads i l → loads'[i]? = some l) ∧
    (∀ g ∈ gens, g.node = sw → ∃ i l, LastNegative neg loads i l ∧ l.onPhase = g.phase) := by
  unfold adjustGenerators at h
  simp only at h
  split_ifs at h with h0
  · cases h
  · cases hr : addOutputs neg (swingOutputs sw gens) loads with
    | mk r ls =>
      rw [hr] at h
      cases r with
      | error e => cases h
      | ok u =>
        have hls : ls = loads' := by simpa using h
        subst hls
        have hok : (addOutputs neg (swingOutputs sw gens) loads).1 = .ok () := by rw [hr]
        have hget := fun i => addOutputs_get neg (swingOutputs sw gens) loads hok i
        simp only [hr] at hget
        have hneg : ∀ i l, loads[i]? = some l → ∀ ph, negativeIndex neg loads ph = some i ↔ LastNegative neg loads i l ∧ l.onPhase = ph := by
          intro i l hl ph
          unfold negativeIndex
          rw [lastIndex_some]
          constructor
          · rintro ⟨⟨x, hx, hp⟩, hlast⟩
            rw [hl] at hx
            have : l = x := by simpa using hx
            subst this
            obtain ⟨p1, p2⟩ := of_decide_eq_true hp
            rw [isNegative_iff] at p1
            rw [balancePhase_eq] at p2
            refine ⟨⟨hl, p1, ?_⟩, p2⟩
            intro j l' hj hl' hh
            have := of_decide_eq_false (hlast j hj l' hl')
            exact this ⟨(isNegative_iff _ _).2 hh.1, by rw [balancePhase_eq, hh.2, p2]⟩
          · rintro ⟨⟨-, p1, p2⟩, p3⟩
            refine ⟨⟨l, hl, decide_eq_true ⟨(isNegative_iff _ _).2 p1, (balancePhase_eq l).trans p3⟩⟩, ?_⟩
            intro j hj y hy
            exact decide_eq_false fun hh => p2 j y hj hy ⟨(isNegative_iff _ _).1 hh.1, by rw [← balancePhase_eq, hh.2, p3]⟩
        refine ⟨?_, ?_, ?_⟩
        · intro i l hl
          rw [hget i, hl.1, Option.map_some]
          congr 2
          · congr 2
            unfold swingOutputs
            rw [List.filter_filter]
            apply List.filter_congr
            intro g _
            have := hneg i l hl.1 g.phase
            by_cases e1 : g.node = sw <;> by_cases e2 : l.onPhase = g.phase <;> simp [this, hl, e1, e2, eq_comm]
            · simpa [eq_comm] using e2
          · congr 2
            unfold swingOutputs
            rw [List.filter_filter]
            apply List.filter_congr
            intro g _
            have := hneg i l hl.1 g.phase
            by_cases e1 : g.node = sw <;> by_cases e2 : l.onPhase = g.phase <;> simp [this, hl, e1, e2, eq_comm]
            · simpa [eq_comm] using e2
        · intro i l hl hno
          rw [hget i, hl, Option.map_some]
          have hnil : (swingOutputs sw gens).filter (fun g => negativeIndex neg loads g.phase = some i) = [] := by
            rw [List.filter_eq_nil_iff]
            intro g _
            have := hneg i l hl g.phase
            simp [this, hno]
          rw [hnil]
          simp [NamedLoad.add]
        · have key : ∀ gs ls0, (addOutputs neg gs ls0).1 = .ok () → ∀ g ∈ gs, negativeIndex neg ls0 g.phase ≠ none := by
            intro gs
            induction gs with
            | nil => simp
            | cons a gs ih =>
              intro ls0 hok g hg
              unfold addOutputs at hok
              cases hk : negativeIndex neg ls0 a.phase with
              | none => rw [hk] at hok; cases hok
              | some k =>
                rw [hk] at hok
                rcases List.mem_cons.1 hg with rfl | hg
                · rw [hk]; simp
                · have := ih _ hok g hg
                  rwa [negativeIndex_ident (modify_map NamedLoad.ident (NamedLoad.add a.P a.Q) (fun _ => rfl) ls0 k)] at this
          intro g hg hgs
          have := key _ _ hok g (by simp [swingOutputs, hg, hgs])
          obtain ⟨i, hi⟩ := Option.ne_none_iff_exists'.1 this
          obtain ⟨⟨l, hl, -⟩, -⟩ := (lastIndex_some _ _ _).1 hi
          exact ⟨i, l, (hneg i l hl g.phase).1 hi⟩

/-- **C43, a round, totals.** -/
theorem C43_round_total (sw : Txt) (neg : List Txt) (gens : List GenOut) (loads loads' : List NamedLoad)
    (h : adjustGenerators (some sw) (some neg) gens loads = (.ok true, loads')) :
    totalLoad loads' = totalLoad loads + ((gens.filter fun g => g.node = sw).map fun g => (⟨g.P, g.Q⟩ : ℂ)).sum := by
  have key : ∀ gs ls, (addOutputs neg gs ls).1 = .ok () →
      totalLoad (addOutputs neg gs ls).2 = totalLoad ls + (gs.map fun g => (⟨g.P, g.Q⟩ : ℂ)).sum := by
    intro gs
    induction gs with
    | nil => intro ls _; simp [addOutputs]
    | cons g gs ih =>
      intro ls hok
      unfold addOutputs at hok ⊢
      cases hk : negativeIndex neg ls g.phase with
      | none => rw [hk] at hok; cases hok
      | some k =>
        rw [hk] at hok
        simp only at hok ⊢
        rw [ih _ hok, List.map_cons, List.sum_cons, ← add_assoc]
        congr 1
        obtain ⟨⟨x, hx, -⟩, -⟩ := (lastIndex_some _ _ _).1 hk
        have hm : ∀ (ls : List NamedLoad) (k : ℕ) (x : NamedLoad), ls[k]? = some x →
            totalLoad (ls.modify k (NamedLoad.add g.P g.Q)) = totalLoad ls + ⟨g.P, g.Q⟩ := by
          intro ls
          induction ls with
          | nil => intro k x hx; simp at hx
          | cons l ls ihl =>
            intro k x hx
            match k with
            | 0 =>
              have : (l.add g.P g.Q).S = l.S + ⟨g.P, g.Q⟩ := rfl
              simp [totalLoad, this]; ring
            | k + 1 =>
              have := ihl k x (by simpa using hx)
              simp only [totalLoad, List.modify_succ_cons, List.map_cons, List.sum_cons] at this ⊢
              rw [this]; ring
        exact hm ls k x hx
  unfold adjustGenerators at h
  simp only at h
  split_ifs at h with h0
  · cases h
  · cases hr : addOutputs neg (swingOutputs sw gens) loads with
    | mk r ls =>
      rw [hr] at h
      cases r with
      | error e => cases h
      | ok u =>
        have hls : ls = loads' := by simpa using h
        subst hls
        have := key (swingOutputs sw gens) loads (by rw [hr])
        rw [hr] at this
        exact this

theorem balanceLoop_stop (C : TSConfig σ R) (k : ℕ) (r : R) (s : σ) (ls : List NamedLoad) (r' : R) (o : σ × List NamedLoad)
    (h : balanceLoop C k r s ls = some (.ok r', o)) : ∃ ls1, (adjustGenerators C.swing C.negative (C.gens r') ls1).1 = .ok false := by
  induction k generalizing r s ls with
  | zero => cases h
  | succ k ih =>
    unfold balanceLoop at h
    split at h
    · cases h
    · rename_i h'
      cases h
      exact ⟨ls, by rw [h']⟩
    · split at h
      · cases h
      · exact ih _ _ _ h

/-- **C43, what holds.** When balancing is configured and a run returns, the powers reported for the swing bus in the returned
results are together below the threshold. Missing: the reported powers are not the powers exchanged. -/
theorem C43_stops_balanced_partial (C : TSConfig σ R) (hm : ∀ r r', C.mark r = .ok r' → C.gens r' = C.gens r) (sw : Txt) (neg : List Txt)
    (hs : C.swing = some sw) (hn : C.negative = some neg) (fuel : ℕ) (s : σ) (loads : List NamedLoad) (r : R) (o : σ × List NamedLoad)
    (h : executePowerflow C fuel s loads = some (.ok r, o)) :
    (((C.gens r).filter fun g => g.node = sw).map fun g => ‖(⟨g.P, g.Q⟩ : ℂ)‖).sum < 1 / 10 := by
  unfold executePowerflow at h
  split at h
  · cases h
  · obtain ⟨x, hx, he⟩ := Option.map_eq_some_iff.1 h
    obtain ⟨r1, o1⟩ := x
    cases r1 with
    | error e => cases he
    | ok r1 =>
      have hmark : C.mark r1 = .ok r := congrArg Prod.fst he
      obtain ⟨ls1, hadj⟩ := balanceLoop_stop C _ _ _ _ _ _ hx
      rw [hm _ _ hmark]
      unfold adjustGenerators at hadj
      rw [hs, hn] at hadj
      simp only at hadj
      split_ifs at hadj with h0
      · exact h0
      · split at hadj <;> cases hadj

/-- **C43, not configured.** Without a swing bus or without negative loads the power flow is run once and the loads stay. -/
theorem C43_not_configured (C : TSConfig σ R) (h : C.swing = none ∨ C.negative = none) (fuel : ℕ) (s : σ) (loads : List NamedLoad) (r : R) (s' : σ)
    (hr : C.solve s loads = (.ok r, s')) : executePowerflow C (fuel + 1) s loads = some (C.mark r, s', loads) := by
  have ha : adjustGenerators C.swing C.negative (C.gens r) loads = (.ok false, loads) := by
    unfold adjustGenerators
    rcases h with h | h <;> rw [h]
    cases C.swing <;> rfl
  unfold executePowerflow
  rw [hr]
  simp only [balanceLoop, ha, Option.map_some]
  rfl

/-- **C43, no bound.** A power flow that keeps reporting power at the swing bus is repeated without end. -/
theorem C43_may_not_stop : ∃ (C : TSConfig Unit Unit) (loads : List NamedLoad), ∀ fuel, executePowerflow C fuel () loads = none := by
  refine ⟨⟨fun _ _ => (.ok (), ()), fun _ => [⟨['s'], ['A'], 1, 0⟩], .ok, none, 0, 0, some ['s'], some [['x', '_', '1']], none⟩,
    [⟨['1'], ['A'], none, ⟨0, 0, 0, 0, 0⟩⟩], ?_⟩
  intro fuel
  have key : ∀ fuel x, balanceLoop (σ := Unit) (R := Unit) ⟨fun _ _ => (.ok (), ()), fun _ => [⟨['s'], ['A'], 1, 0⟩], .ok, none, 0, 0, some ['s'], some [['x', '_', '1']], none⟩
      fuel () () [⟨['1'], ['A'], none, x⟩] = none := by
    intro fuel
    induction fuel with
    | zero => intro x; rfl
    | succ k ih =>
      intro x
      have hn : totalApparent (swingOutputs ['s'] [⟨['s'], ['A'], 1, 0⟩]) = 1 := by
        have : (⟨1, 0⟩ : ℂ) = 1 := rfl
        simp [swingOutputs, totalApparent, this]
      have hi : negativeIndex [['x', '_', '1']] [⟨['1'], ['A'], none, x⟩] ['A'] = some 0 := by
        rw [negativeIndex_ident (ls := [⟨['1'], ['A'], none, x⟩]) (ls' := [⟨['1'], ['A'], none, ⟨0, 0, 0, 0, 0⟩⟩]) rfl]
        decide
      have ha : adjustGenerators (some ['s']) (some [['x', '_', '1']]) [⟨['s'], ['A'], 1, 0⟩] [⟨['1'], ['A'], none, x⟩] =
          (.ok true, [⟨['1'], ['A'], none, { x with P := x.P + 1, Q := x.Q + 0 }⟩]) := by
        unfold adjustGenerators
        simp only [hn]
        rw [if_neg (by norm_num)]
        have : swingOutputs ['s'] [⟨['s'], ['A'], 1, 0⟩] = [⟨['s'], ['A'], 1, 0⟩] := by simp [swingOutputs]
        rw [this]
        unfold addOutputs
        simp only [hi]
        rfl
      unfold balanceLoop
      simp only [ha]
      exact ih _
  unfold executePowerflow
  simp only [key]
  rfl

/-- A slack of one volt at a bus with a capacitor bank. -/
noncomputable def varNet : Network := ⟨1, [.slack 0 1 0, .shunt 0 0 1], none⟩

/-- Its solution: one volt, one ampere a quarter turn away. -/
noncomputable def varNetSol : ℕ → ℝ
  | 0 => 1 | 3 => -1 | _ => 0

theorem varNet_owned (hL : L.Loaded) : (varNet.assign L).owned L varNet varNetSol = [(.slack 0 1 0, [0, -1]), (.shunt 0 0 1, [])] := by
  obtain ⟨m, s1, s2, s3⟩ := slack_shape hL
  have ha := twoTerminalDetails_spec (plainNode 0) Node.ground 2 false s1 s2 (by simp) (by simp [terminalDict])
  have a2 : (twoTerminalDetails L.slack (plainNode 0) Node.ground 2 false).1.varMap .ISr = some 2 := by
    rw [ha.2.2.2.2.1 .ISr (by simp)]; simp
  have a3 : (twoTerminalDetails L.slack (plainNode 0) Node.ground 2 false).1.varMap .ISi = some 3 := by
    rw [ha.2.2.2.2.1 .ISi (by simp)]; simp
  have e : (varNet.assign L).owned L varNet varNetSol =
      [(.slack 0 1 0, [readIdx varNetSol ((twoTerminalDetails L.slack (plainNode 0) Node.ground 2 false).1.varMap .ISr),
         readIdx varNetSol ((twoTerminalDetails L.slack (plainNode 0) Node.ground 2 false).1.varMap .ISi)]), (.shunt 0 0 1, [])] := rfl
  rw [e, a2, a3]
  simp [readIdx, varNetSol]

theorem varNet_solved (hL : L.Loaded) (i : ℕ) : networkEq (varNet.assign L).all 0 varNetSol i = 0 := by
  refine (C67_equations_are_kirchhoff hL varNet rfl 0 varNetSol).2 ?_ i
  have hV : (varNet.assign L).voltages varNetSol (some 0) = 1 := rfl
  rw [varNet_owned hL]
  constructor
  · intro k hk
    have : k = 0 := by simp [varNet] at hk; omega
    subst this
    simp [Element.draws, hV, pairAt, faded]
    apply Complex.ext <;> simp
  · intro x hx z hz
    simp at hx
    rcases hx with rfl | rfl
    · simp [Element.laws, both, hV] at hz; exact hz
    · simp [Element.laws] at hz

/-- **C43 fails.** A solved network whose swing bus exchanges one var counts as balanced: the reported powers of the swing bus
leave it out. -/
theorem C43_exchange_fails (hL : L.Loaded) :
    (∀ i, networkEq (varNet.assign L).all 0 varNetSol i = 0) ∧
    (∃ w, (.slack 0 1 0, w) ∈ (varNet.assign L).owned L varNet varNetSol ∧
      ‖power ((varNet.assign L).voltages varNetSol (some 0)) (pairAt w 0)‖ = 1) ∧
    ∀ neg loads, adjustGenerators (some ['s']) (some neg) (genOuts (fun _ => (['s'], ['A'])) (Results.make varNet [] (varNet.assign L) true varNetSol)) loads =
      (.ok false, loads) := by
  have hV : (varNet.assign L).voltages varNetSol (some 0) = 1 := rfl
  refine ⟨varNet_solved hL, ⟨[0, -1], by rw [varNet_owned hL]; simp, ?_⟩, ?_⟩
  · rw [hV]
    have : power 1 (pairAt [0, -1] 0) = Complex.I := by
      apply Complex.ext <;> simp [power, pairAt]
    rw [this, Complex.norm_I]
  · intro neg loads
    have hg : (Results.make varNet [] (varNet.assign L) true varNetSol).generators = [⟨0, 0, 0, .Slack⟩] := by
      have e1 : pvResults varNet (varNet.assign L) varNetSol = [] := rfl
      show pvResults varNet (varNet.assign L) varNetSol ++ slackResults varNet (varNet.assign L) varNetSol ++ [] = _
      rw [e1, slackResults_eq L, varNet_owned hL]
      simp [hV, pairAt]
    unfold adjustGenerators genOuts
    rw [hg]
    simp only
    rw [if_pos]
    have hz : (⟨0, 0⟩ : ℂ) = 0 := rfl
    simp [swingOutputs, totalApparent, hz]

/-- A round of balancing: two watts at the swing bus are added to the negative load. -/
example : adjustGenerators (some ['s']) (some [['g', '_', '1']]) [⟨['s'], ['A'], 2, 0⟩] [⟨['1'], ['A'], none, ⟨0, 0, 0, 0, 0⟩⟩] =
    (.ok true, [⟨['1'], ['A'], none, ⟨2, 0, 0, 0, 0⟩⟩]) := by
  have hi : negativeIndex [['g', '_', '1']] [⟨['1'], ['A'], none, ⟨0, 0, 0, 0, 0⟩⟩] ['A'] = some 0 := by decide
  have hs : swingOutputs ['s'] [⟨['s'], ['A'], 2, 0⟩] = [⟨['s'], ['A'], 2, 0⟩] := by simp [swingOutputs]
  have hn : totalApparent [⟨['s'], ['A'], 2, 0⟩] = 2 := by
    have : (⟨2, 0⟩ : ℂ) = ((2 : ℝ) : ℂ) := rfl
    simp [totalApparent, this]
  unfold adjustGenerators
  simp only [hs, hn]
  rw [if_neg (by norm_num)]
  unfold addOutputs
  simp only [hi]
  simp [addOutputs, NamedLoad.add]

/-! ### C71, C72 -/

/-- **C71, what holds.** Without a swing bus a run that shows no error writes exactly what it shows: the one result under the name
asked for, or one result per hour. Missing: runs with a swing bus and no load file. -/
theorem C71_files_partial (C : TSConfig σ R) (n : Txt) (hn : n ≠ []) (ho : C.outputfile = some n) (fuel : ℕ) (factor : Option ℝ) (s : σ)
    (loads : List NamedLoad) (seen : Seen R) (h : mainRun C fuel none factor s loads = some (.ok seen)) (he : seen.errors = [])
    (hs : C.loadfile = none → C.swing = none) :
    seen.files.map Prod.snd = seen.shown := by
  unfold mainRun at h
  simp only at h
  obtain ⟨x, hx, hy⟩ := Option.map_eq_some_iff.1 h
  obtain ⟨r, st⟩ := x
  unfold tsExecute at hx
  cases hf : C.loadfile with
  | none =>
    rw [hf, hs hf] at hx
    simp only [Option.some.injEq, Prod.mk.injEq] at hx
    obtain ⟨rfl, rfl⟩ := hx
    simp only at hy
    split at hy
    · cases hy
    · cases hy
      simp [writeFiles, ho, hn]
  | some cols =>
    rw [hf] at hx
    simp only at hx
    obtain ⟨y, hl, hy'⟩ := Option.map_eq_some_iff.1 hx
    obtain ⟨e, st1⟩ := y
    cases e with
    | some e =>
      simp only [Prod.mk.injEq] at hy'
      obtain ⟨rfl, rfl⟩ := hy'
      simp only at hy
      split at hy
      · cases hy
      · cases hy; simp at he
    | none =>
      simp only [Prod.mk.injEq] at hy'
      obtain ⟨rfl, rfl⟩ := hy'
      simp only at hy
      cases hy
      obtain ⟨rs, h1, h2, h3, -, -⟩ := hoursLoop_spec C cols fuel _ _ _ hl
      simp only [List.nil_append] at h1 h3
      rw [h3 n ho, h1, List.map_map]
      rfl

/-- **C71 fails.** With a swing bus and no load file nothing is ever written. -/
theorem C71_swing_bus_fails (C : TSConfig σ R) (hf : C.loadfile = none) (sw : Txt) (hs : C.swing = some sw) (fuel : ℕ) (factor : Option ℝ) (s : σ)
    (loads : List NamedLoad) (seen : Seen R) (h : mainRun C fuel none factor s loads = some (.ok seen)) (he : seen.errors = []) :
    seen.files = [] ∧ seen.shown.length = 1 := by
  unfold mainRun tsExecute at h
  rw [hf, hs] at h
  simp only [Option.map_map] at h
  obtain ⟨x, hx, hy⟩ := Option.map_eq_some_iff.1 h
  obtain ⟨r, o⟩ := x
  cases r with
  | error e =>
    simp only [Function.comp] at hy
    split at hy
    · cases hy
    · cases hy; simp at he
  | ok r =>
    simp only [Function.comp] at hy
    cases hy
    exact ⟨rfl, rfl⟩

/-- Such a run: a power flow that is balanced at once. -/
example : mainRun (σ := Unit) (R := Unit) ⟨fun _ _ => (.ok (), ()), fun _ => [], .ok, none, 0, 0, some ['s'], some [], some ['o']⟩ 1 none (some 1) () [] =
    some (.ok ⟨[], [()], []⟩) := by
  have ha : adjustGenerators (some ['s']) (some []) [] [] = (.ok false, []) := by
    unfold adjustGenerators
    simp [swingOutputs, totalApparent]
  unfold mainRun tsExecute executePowerflow
  simp only [balanceLoop, modifyLoadFactor, List.map_nil, ha]
  rfl

/-- **C72 fails.** A time series or balancing run that raises is followed by a plain power flow on the loads left behind; its result
is shown and written under the name asked for. -/
theorem C72_failure_masked_fails (C : TSConfig σ R) (fuel : ℕ) (factor : Option ℝ) (s : σ) (loads : List NamedLoad) (n : Txt) (hn : n ≠ [])
    (ho : C.outputfile = some n) (e : String) (st : TSState σ R)
    (h : tsExecute C fuel ⟨s, modifyLoadFactor loads (factor.getD (-1)) (factor.getD (-1)), [], []⟩ = some (.error e, st)) (r : R)
    (hr : (C.solve st.devices st.loads).1 = .ok r) :
    mainRun C fuel none factor s loads = some (.ok ⟨[e], [r], st.files ++ [(n, r)]⟩) := by
  unfold mainRun
  simp [h, hr, writeFiles, ho, hn]

/-- **C72, what holds.** The exception's text is among the errors shown. -/
theorem C72_error_shown_partial (C : TSConfig σ R) (fuel : ℕ) (factor : Option ℝ) (s : σ) (loads : List NamedLoad) (e : String) (st : TSState σ R)
    (h : tsExecute C fuel ⟨s, modifyLoadFactor loads (factor.getD (-1)) (factor.getD (-1)), [], []⟩ = some (.error e, st)) (seen : Seen R)
    (hs : mainRun C fuel none factor s loads = some (.ok seen)) : e ∈ seen.errors := by
  unfold mainRun at hs
  simp only [h, Option.map_some, Option.some.injEq] at hs
  split at hs
  · cases hs
  · cases hs; simp

/-- A run meeting the hypotheses of `C72_failure_masked_fails`: the swing bus has a phase without negative load. -/
example : tsExecute (σ := Unit) (R := Unit) ⟨fun _ _ => (.ok (), ()), fun _ => [⟨['s'], ['A'], 1, 0⟩], .ok, none, 0, 0, some ['s'], some [], some ['o']⟩ 1
    ⟨(), [], [], []⟩ = some (.error "KeyError", ⟨(), [], [], []⟩) := by
  have hs : swingOutputs ['s'] [⟨['s'], ['A'], 1, 0⟩] = [⟨['s'], ['A'], 1, 0⟩] := by simp [swingOutputs]
  have hn : totalApparent [⟨['s'], ['A'], 1, 0⟩] = 1 := by
    have : (⟨1, 0⟩ : ℂ) = 1 := rfl
    simp [totalApparent, this]
  have ha : adjustGenerators (some ['s']) (some []) [⟨['s'], ['A'], 1, 0⟩] [] = (.error "KeyError", []) := by
    unfold adjustGenerators
    simp only [hs, hn]
    rw [if_neg (by norm_num)]
    rfl
  unfold tsExecute executePowerflow
  simp only [balanceLoop, ha]
  rfl

/-! ### Examples -/

/-- A load of 3 + 4j at half its power. -/
example : ∃ l' : NamedLoad, (modifyLoadFactor [⟨['1'], ['A'], none, ⟨3, 4, 0, 1, 0⟩⟩] (1 / 2) (1 / 2))[0]? = some l' ∧ l'.load.P = 1 / 2 * 3 := by
  obtain ⟨l', h1, h2, -⟩ := (C40_scales [⟨['1'], ['A'], none, ⟨3, 4, 0, 1, 0⟩⟩] (1 / 2) (1 / 2)).2 0 _ rfl
  exact ⟨l', h1, h2⟩

/-- Factors 2 and 3 one after the other on that load are factor 6, and factor one is nothing. -/
example : modifyLoadFactor (modifyLoadFactor [⟨['1'], ['A'], none, ⟨3, 4, 0, 1, 0⟩⟩] 2 2) 3 3 =
    modifyLoadFactor (modifyLoadFactor [⟨['1'], ['A'], none, ⟨3, 4, 0, 1, 0⟩⟩] (2 * 3) (2 * 3)) 1 1 := by
  rw [C40_compose, C40_one]

/-- The settings of the examples: the power flow returns the loads it was given; no balancing; files named `o`. -/
def echoConfig (file : Option (List Column)) (stop : ℤ) : TSConfig Unit (List NamedLoad) :=
  ⟨fun _ ls => (.ok ls, ()), fun _ => [], .ok, file, 0, stop, none, none, some ['o']⟩

/-- A run without a load factor on a load of one var is a run on minus one var; with factor one the load is that of the file. -/
example : mainRun (echoConfig none 0) 1 none none () [varLoad] =
      mainRun (echoConfig none 0) 1 none (some 1) () (modifyLoadFactor [varLoad] (-1) (-1)) ∧
    mainRun (echoConfig none 0) 1 none (some 1) () [varLoad] = some (.ok ⟨[], [[varLoad]], [(['o'], [varLoad])]⟩) :=
  ⟨C39_factor _ _ _ _ _ _, C39_explicit_partial (echoConfig none 0) 1 () [varLoad] rfl rfl [varLoad] rfl⟩

/-- Without balancing the power flow is run once. -/
example : executePowerflow (echoConfig none 0) 1 () [varLoad] = some (.ok [varLoad], (), [varLoad]) :=
  C43_not_configured (echoConfig none 0) (Or.inl rfl) 0 () [varLoad] [varLoad] () rfl

/-- The load of one var in hour 1. -/
example : ∃ l', (setLoadValues [zeroFirst] 1 [varLoad])[0]? = some l' ∧ ‖l'.S‖ = 1 := by
  obtain ⟨l', h1, -, h2⟩ := C41_magnitude [zeroFirst] (by decide) [varLoad] 1 0 varLoad varLoad_last zeroFirst (by simp) varLoad_name.symm 1
    (by simp [zeroFirst]) zero_le_one
  exact ⟨l', h1, h2⟩

theorem echo_hours (cols : List Column) : ∃ st, tsExecute (echoConfig (some cols) 2) 1 ⟨(), [varLoad], [], []⟩ =
    some (.ok (.hours [(0, setLoadValues cols 0 [varLoad]), (1, setLoadValues cols 1 (setLoadValues cols 0 [varLoad]))]), st) := by
  have h : ∀ s ls, executePowerflow (echoConfig (some cols) 2) 1 s ls = some (.ok ls, s, ls) := fun s ls =>
    C43_not_configured (echoConfig (some cols) 2) (Or.inl rfl) 0 s ls ls s rfl
  refine ⟨⟨(), setLoadValues cols 1 (setLoadValues cols 0 [varLoad]),
    [(0, setLoadValues cols 0 [varLoad]), (1, setLoadValues cols 1 (setLoadValues cols 0 [varLoad]))], [(['o', '_', '0'], setLoadValues cols 0 [varLoad]),
    (['o', '_', '1'], setLoadValues cols 1 (setLoadValues cols 0 [varLoad]))]⟩, ?_⟩
  rw [tsExecute, show (echoConfig (some cols) 2).loadfile = some cols from rfl]
  simp only [show hourRange (echoConfig (some cols) 2).start (echoConfig (some cols) 2).stop = [0, 1] from by rfl, hoursLoop, h]
  rfl

/-- Two hours: two results, two files, and in each the loads of that hour. -/
example : ∃ out st, tsExecute (echoConfig (some [zeroFirst]) 2) 1 ⟨(), [varLoad], [], []⟩ = some (.ok out, st) ∧
    ∃ res : List (ℤ × List NamedLoad), out = .hours res ∧ res.length = 2 ∧ st.files.map Prod.fst = [['o', '_', '0'], ['o', '_', '1']] := by
  obtain ⟨st, h⟩ := echo_hours [zeroFirst]
  obtain ⟨res, h1, h2, -, h4, -⟩ := C42_hours_partial (echoConfig (some [zeroFirst]) 2) [zeroFirst] rfl (by decide) 1 () [varLoad] _ st h
  refine ⟨_, st, h, res, h1, h2, ?_⟩
  rw [h4 ['o'] rfl]
  cases h1
  rfl

/-- The files written in that run are what is shown. -/
example : ∃ seen, mainRun (echoConfig (some [zeroFirst]) 2) 1 none (some 1) () [varLoad] = some (.ok seen) ∧ seen.files.map Prod.snd = seen.shown := by
  obtain ⟨st, h⟩ := echo_hours [zeroFirst]
  have hm : ∃ seen, mainRun (echoConfig (some [zeroFirst]) 2) 1 none (some 1) () [varLoad] = some (.ok seen) ∧ seen.errors = [] := by
    unfold mainRun
    simp only [Option.getD_some, C40_one, h, Option.map_some]
    exact ⟨_, rfl, rfl⟩
  obtain ⟨seen, h1, h2⟩ := hm
  exact ⟨seen, h1, C71_files_partial _ ['o'] (by simp) rfl 1 _ _ _ seen h1 h2 (by simp [echoConfig])⟩

theorem roundLoads : adjustGenerators (some ['s']) (some [['g', '_', '1']]) [⟨['s'], ['A'], 2, 0⟩] [⟨['1'], ['A'], none, ⟨0, 0, 0, 0, 0⟩⟩] =
    (.ok true, [⟨['1'], ['A'], none, ⟨2, 0, 0, 0, 0⟩⟩]) := by
  have hi : negativeIndex [['g', '_', '1']] [⟨['1'], ['A'], none, ⟨0, 0, 0, 0, 0⟩⟩] ['A'] = some 0 := by decide
  have hs : swingOutputs ['s'] [⟨['s'], ['A'], 2, 0⟩] = [⟨['s'], ['A'], 2, 0⟩] := by simp [swingOutputs]
  have hn : totalApparent [⟨['s'], ['A'], 2, 0⟩] = 2 := by
    have : (⟨2, 0⟩ : ℂ) = ((2 : ℝ) : ℂ) := rfl
    simp [totalApparent, this]
  unfold adjustGenerators
  simp only [hs, hn]
  rw [if_neg (by norm_num)]
  unfold addOutputs
  simp [hi, addOutputs, NamedLoad.add]

/-- The two statements on a round, at that round. -/
example : (∃ i l, LastNegative [['g', '_', '1']] [⟨['1'], ['A'], none, ⟨0, 0, 0, 0, 0⟩⟩] i l ∧ l.onPhase = ['A']) ∧
    totalLoad [⟨['1'], ['A'], none, ⟨2, 0, 0, 0, 0⟩⟩] = totalLoad [⟨['1'], ['A'], none, ⟨0, 0, 0, 0, 0⟩⟩] +
      (([⟨['s'], ['A'], 2, 0⟩].filter fun g : GenOut => g.node = ['s']).map fun g => (⟨g.P, g.Q⟩ : ℂ)).sum :=
  ⟨(C43_round _ _ _ _ _ roundLoads).2.2 ⟨['s'], ['A'], 2, 0⟩ (by simp) rfl, C43_round_total _ _ _ _ _ roundLoads⟩

/-- A power flow that reports nothing at the swing bus ends balanced. -/
example : ((([] : List GenOut).filter fun g => g.node = ['s']).map fun g => ‖(⟨g.P, g.Q⟩ : ℂ)‖).sum < 1 / 10 := by
  have ha : adjustGenerators (some ['s']) (some []) [] [] = (.ok false, []) := by
    unfold adjustGenerators
    simp [swingOutputs, totalApparent]
  refine C43_stops_balanced_partial (σ := Unit) (R := Unit) ⟨fun _ _ => (.ok (), ()), fun _ => [], .ok, none, 0, 0, some ['s'], some [], none⟩
    (fun _ _ _ => rfl) ['s'] [] rfl rfl 1 () [] () ((), []) ?_
  unfold executePowerflow
  simp only [balanceLoop, ha]
  rfl

end Verif
