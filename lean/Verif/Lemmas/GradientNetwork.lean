import Verif.Lemmas.Gradient

/-! The parts of every network have Lagrangians linear in the multipliers, and reciprocal elements are balanced. -/

namespace Verif

open Ex Devices

variable {L : Library}

theorem has_syms {s : Sym} {e : Ex} (h : e.has s = true) : s ∈ e.syms := by
  induction e with
  | num q => simp [has] at h
  | sym x => simp [has] at h; simp [syms, h]
  | add a b iha ihb => simp only [has, Bool.or_eq_true] at h; simp only [syms, List.mem_append]; exact h.imp iha ihb
  | mul a b iha ihb => simp only [has, Bool.or_eq_true] at h; simp only [syms, List.mem_append]; exact h.imp iha ihb
  | pow a n iha => exact iha h
  | sin a iha => exact iha h
  | cos a iha => exact iha h

theorem free_of_checked {decl ds : List Sym} {e : Ex} (h : checkMissing decl e = none) (hd : ∀ d ∈ ds, d ∉ decl) : FreeOf ds e := by
  intro d hdm
  by_contra hc
  have h1 := List.find?_eq_none.1 h d (has_syms (by simpa using hc))
  simp at h1
  exact hd d hdm h1

theorem linear_addEqualities {ds : List Sym} {n : ℕ} {acc : Ex} {es : List Ex} (ha : LinearIn ds acc)
    (hd : ∀ d ∈ equalityDuals n es, d ∈ ds) (he : ∀ e ∈ es, FreeOf ds e) : LinearIn ds (addEqualities n acc es) := by
  induction es generalizing n acc with
  | nil => exact ha
  | cons e es ih =>
    refine ih ⟨ha, Or.inl ⟨hd _ ?_, he e (by simp)⟩⟩ ?_ fun e' h => he e' (by simp [h])
    · unfold equalityDuals; exact List.mem_map.2 ⟨0, by simp, by simp⟩
    · intro d hm
      refine hd d ?_
      unfold equalityDuals at hm ⊢
      obtain ⟨k, hk, rfl⟩ := List.mem_map.1 hm
      refine List.mem_map.2 ⟨k + 1, ?_, ?_⟩
      · simp at hk ⊢; omega
      · congr 1; omega

theorem linear_twoTerminal {n : ℕ} {a : TwoTerminalArgs} {s : Segment} {kr ki : Ex}
    (h : twoTerminal n a = .ok s) (hr : a.kclRFrom = some kr) (hi : a.kclIFrom = some ki) (hrt : a.kclRTo = none)
    (ho : a.objective = none) (hd : ∀ d ∈ a.constants ++ a.vars, d ∉ [Sym.LrFrom, .LiFrom, .LrTo, .LiTo] ∧ ∀ k, d ≠ .lam k) :
    LinearIn s.duals s.lagrange := by
  obtain ⟨kr', ki', hr', hi', hc, _, rfl⟩ := twoTerminal_ok h
  rw [hr] at hr'; rw [hi] at hi'; cases hr'; cases hi'
  have hts : a.toSide kr ki = (kr, ki) := by unfold TwoTerminalArgs.toSide; simp [hrt]
  simp only [hts, ho] at hc ⊢
  have hdd : ∀ d ∈ [Sym.LrFrom, .LiFrom, .LrTo, .LiTo] ++ equalityDuals n a.equalities, d ∉ a.constants ++ a.vars := by
    intro d hm hdecl
    rcases List.mem_append.1 hm with hm | hm
    · exact (hd d hdecl).1 hm
    · obtain ⟨k, _, rfl⟩ := List.mem_map.1 hm
      exact (hd _ hdecl).2 _ rfl
  have h1 := free_of_checked (hc kr (by simp)) hdd
  have h2 := free_of_checked (hc ki (by simp)) hdd
  have hneg : ∀ {ds : List Sym} {e : Ex}, FreeOf ds e → FreeOf ds (-e) := by
    intro ds e he d hm
    show (Ex.mul (Ex.num (-1)) e).has d = false
    simp [has, he d hm]
  refine linear_addEqualities ?_ (fun d hm => List.mem_append_right _ hm) fun e he => free_of_checked (hc e (by simp [he])) hdd
  refine ⟨⟨⟨⟨rfl, Or.inl ⟨?_, h1⟩⟩, Or.inl ⟨?_, h2⟩⟩, Or.inl ⟨?_, hneg h1⟩⟩, Or.inl ⟨?_, hneg h2⟩⟩ <;> simp [LinearIn]

/-- The checks of constants and variables of a two-terminal device. -/
theorem decl_ok {l : List Sym} (h : (l.all fun d => match d with
    | .LrFrom => false | .LiFrom => false | .LrTo => false | .LiTo => false | .lam _ => false | _ => true) = true) :
    ∀ d ∈ l, d ∉ [Sym.LrFrom, .LiFrom, .LrTo, .LiTo] ∧ ∀ k, d ≠ .lam k := by
  intro d hd
  have := List.all_eq_true.1 h d hd
  refine ⟨?_, ?_⟩
  · intro hm; simp at hm; rcases hm with rfl | rfl | rfl | rfl <;> simp at this
  · rintro k rfl; simp at this

theorem line_multLinear (hL : L.Loaded) : LinearIn L.line.duals L.line.lagrange := by
  obtain ⟨n, h⟩ := hL.line; exact linear_twoTerminal h rfl rfl rfl rfl (decl_ok rfl)
theorem shunt_multLinear (hL : L.Loaded) : LinearIn L.shunt.duals L.shunt.lagrange := by
  obtain ⟨n, h⟩ := hL.shunt; exact linear_twoTerminal h rfl rfl rfl rfl (decl_ok rfl)
theorem pq_multLinear (hL : L.Loaded) : LinearIn L.pq.duals L.pq.lagrange := by
  obtain ⟨n, h⟩ := hL.pq; exact linear_twoTerminal h rfl rfl rfl rfl (decl_ok rfl)
theorem ic_multLinear (hL : L.Loaded) : LinearIn L.ic.duals L.ic.lagrange := by
  obtain ⟨n, h⟩ := hL.ic; exact linear_twoTerminal h rfl rfl rfl rfl (decl_ok rfl)
theorem gen_multLinear (hL : L.Loaded) : LinearIn L.gen.duals L.gen.lagrange := by
  obtain ⟨n, h⟩ := hL.gen; exact linear_twoTerminal h rfl rfl rfl rfl (decl_ok rfl)
theorem slack_multLinear (hL : L.Loaded) : LinearIn L.slack.duals L.slack.lagrange := by
  obtain ⟨n, h⟩ := hL.slack; exact linear_twoTerminal h rfl rfl rfl rfl (decl_ok rfl)
theorem vs_multLinear (hL : L.Loaded) : LinearIn L.vs.duals L.vs.lagrange := by
  obtain ⟨n, h⟩ := hL.vs; exact linear_twoTerminal h rfl rfl rfl rfl (decl_ok rfl)

theorem linear_dot {all : List Sym} : ∀ (ds : List Sym) (es : List Ex), (∀ d ∈ ds, d ∈ all) → (∀ e ∈ es, FreeOf all e) → LinearIn all (dot ds es)
  | [], _, _, _ => rfl
  | _ :: _, [], _, _ => rfl
  | d :: ds, e :: es, hd, he =>
    ⟨Or.inl ⟨hd d (by simp), he e (by simp)⟩, linear_dot ds es (fun d h => hd d (by simp [h])) fun e h => he e (by simp [h])⟩

instance (ds : List Sym) (e : Ex) : Decidable (FreeOf ds e) := inferInstanceAs (Decidable (∀ d ∈ ds, e.has d = false))

theorem xfmr_multLinear : LinearIn xfmr.duals xfmr.lagrange := linear_dot _ _ (fun _ h => h) (by decide +kernel)

theorem ct_multLinear : LinearIn centerTap.duals centerTap.lagrange := linear_dot _ _ (fun _ h => h) (by decide +kernel)

/-! ### Elements -/

theorem placeTwoTerminal_linear {seg : Segment} (h : LinearIn seg.duals seg.lagrange) {opt : Bool} {f t : Node} {consts : List ℝ} {n : ℕ} :
    ∀ p ∈ (placeTwoTerminal seg opt f t consts n).1, LinearIn p.details.seg.duals p.details.seg.lagrange := by
  intro p hp
  simp only [placeTwoTerminal, List.mem_cons, List.not_mem_nil, or_false] at hp
  subst hp; exact h

theorem placeTransformer_linear (hL : L.Loaded) {opt : Bool} {a b c d : Node} {tr ang g x : ℝ} {n : ℕ} :
    ∀ p ∈ (placeTransformer L opt a b c d tr ang g x n).1, LinearIn p.details.seg.duals p.details.seg.lagrange := by
  intro p hp
  simp only [placeTransformer, List.mem_cons, List.not_mem_nil, or_false] at hp
  rcases hp with rfl | rfl
  · exact xfmr_multLinear
  · exact line_multLinear hL

theorem place_multLinear (hL : L.Loaded) {opt : Bool} {nodes : List Node} (e : Element) (n : ℕ) :
    ∀ p ∈ (e.place L opt nodes n).1, LinearIn p.details.seg.duals p.details.seg.lagrange := by
  intro p hp
  cases e with
  | line f t g b bl =>
    simp only [Element.place, List.mem_cons, List.not_mem_nil, or_false] at hp
    rcases hp with rfl | rfl | rfl
    · exact line_multLinear hL
    · exact shunt_multLinear hL
    · exact shunt_multLinear hL
  | unbalanced ph y sh =>
    simp only [Element.place, placeUnbalanced, List.mem_flatMap, List.mem_range] at hp
    obtain ⟨i, _, j, _, hp⟩ := hp
    simp only [placePair, List.mem_cons, List.not_mem_nil, or_false] at hp
    rcases hp with rfl | rfl | rfl
    · by_cases hij : i = j
      · simp only [hij, if_true]; exact line_multLinear hL
      · simp only [hij, if_false]; exact shunt_multLinear hL
    · exact shunt_multLinear hL
    · exact shunt_multLinear hL
  | transformer fp fn tp tn tr ang g b => exact placeTransformer_linear hL p hp
  | centerTap f p0 s1 t1 s2 t2 ratio g0 b0 g1 b1 g2 b2 =>
    simp only [Element.place, List.mem_cons, List.not_mem_nil, or_false] at hp
    rcases hp with rfl | rfl | rfl | rfl
    · exact ct_multLinear
    all_goals exact line_multLinear hL
  | slack b vr vi => exact placeTwoTerminal_linear (slack_multLinear hL) p hp
  | switch f t s => cases s with
    | opened => simp [Element.place] at hp
    | closed => exact placeTwoTerminal_linear (vs_multLinear hL) p hp
  | generator b P Vset => exact placeTwoTerminal_linear (gen_multLinear hL) p hp
  | load f t l =>
    simp only [Element.place, placeLoad, List.mem_append] at hp
    rcases hp with (hp | hp) | hp
    · split_ifs at hp
      · simp at hp
      · exact placeTwoTerminal_linear (pq_multLinear hL) p hp
    · generalize (if l.P = 0 ∧ l.Q = 0 then (([], n) : List Placed × ℕ) else _).2 = m at hp
      split_ifs at hp
      · simp at hp
      · exact placeTwoTerminal_linear (ic_multLinear hL) p hp
    · split_ifs at hp
      · simp at hp
      · simp at hp; subst hp; exact shunt_multLinear hL
  | voltageSource f t vr vi => exact placeTwoTerminal_linear (vs_multLinear hL) p hp
  | shunt b g s =>
    simp only [Element.place, List.mem_cons, List.not_mem_nil, or_false] at hp
    subst hp; exact shunt_multLinear hL
  | regulator f c t tr g b =>
    simp only [Element.place, List.mem_append] at hp
    rcases hp with hp | hp
    · exact placeTransformer_linear hL p hp
    · exact placeTwoTerminal_linear (vs_multLinear hL) p hp
  | fuse f i t =>
    simp only [Element.place, List.mem_cons] at hp
    rcases hp with rfl | hp
    · exact line_multLinear hL
    · exact placeTwoTerminal_linear (vs_multLinear hL) p hp
  | capacitor f t sw b => cases sw with
    | opened => simp [Element.place] at hp
    | closed =>
      simp only [Element.place, List.mem_cons, List.not_mem_nil, or_false] at hp
      subst hp; exact shunt_multLinear hL

/-- Elements other than coupled lines have equal rows and columns. -/
theorem place_self {opt : Bool} {nodes : List Node} (e : Element) (he : ∀ ph y sh, e ≠ .unbalanced ph y sh) (n : ℕ) :
    ∀ p ∈ (e.place L opt nodes n).1, p.details.eqnMap = p.details.varMap := by
  have htt : ∀ (seg : Segment) (f t : Node) (c : List ℝ) (m : ℕ), ∀ p ∈ (placeTwoTerminal seg opt f t c m).1, p.details.eqnMap = p.details.varMap := by
    intro seg f t c m p hp
    simp only [placeTwoTerminal, List.mem_cons, List.not_mem_nil, or_false] at hp
    subst hp; rfl
  have htr : ∀ (a b c d : Node) (tr ang g x : ℝ) (m : ℕ), ∀ p ∈ (placeTransformer L opt a b c d tr ang g x m).1, p.details.eqnMap = p.details.varMap := by
    intro a b c d tr ang g x m p hp
    simp only [placeTransformer, List.mem_cons, List.not_mem_nil, or_false] at hp
    rcases hp with rfl | rfl <;> rfl
  intro p hp
  cases e with
  | line f t g b bl =>
    simp only [Element.place, List.mem_cons, List.not_mem_nil, or_false] at hp
    rcases hp with rfl | rfl | rfl <;> rfl
  | unbalanced ph y sh => exact absurd rfl (he ph y sh)
  | transformer fp fn tp tn tr ang g b => exact htr _ _ _ _ _ _ _ _ _ p hp
  | centerTap f p0 s1 t1 s2 t2 ratio g0 b0 g1 b1 g2 b2 =>
    simp only [Element.place, List.mem_cons, List.not_mem_nil, or_false] at hp
    rcases hp with rfl | rfl | rfl | rfl <;> rfl
  | slack b vr vi => exact htt _ _ _ _ _ p hp
  | switch f t s => cases s with
    | opened => simp [Element.place] at hp
    | closed => exact htt _ _ _ _ _ p hp
  | generator b P Vset => exact htt _ _ _ _ _ p hp
  | load f t l =>
    simp only [Element.place, placeLoad, List.mem_append] at hp
    rcases hp with (hp | hp) | hp
    · split_ifs at hp
      · simp at hp
      · exact htt _ _ _ _ _ p hp
    · generalize (if l.P = 0 ∧ l.Q = 0 then (([], n) : List Placed × ℕ) else _).2 = m at hp
      split_ifs at hp
      · simp at hp
      · exact htt _ _ _ _ _ p hp
    · split_ifs at hp
      · simp at hp
      · simp at hp; subst hp; rfl
  | voltageSource f t vr vi => exact htt _ _ _ _ _ p hp
  | shunt b g s =>
    simp only [Element.place, List.mem_cons, List.not_mem_nil, or_false] at hp
    subst hp; rfl
  | regulator f c t tr g b =>
    simp only [Element.place, List.mem_append] at hp
    rcases hp with hp | hp
    · exact htr _ _ _ _ _ _ _ _ _ p hp
    · exact htt _ _ _ _ _ p hp
  | fuse f i t =>
    simp only [Element.place, List.mem_cons] at hp
    rcases hp with rfl | hp
    · rfl
    · exact htt _ _ _ _ _ p hp
  | capacitor f t sw b => cases sw with
    | opened => simp [Element.place] at hp
    | closed =>
      simp only [Element.place, List.mem_cons, List.not_mem_nil, or_false] at hp
      subst hp; rfl

theorem balanced_of_self {ps : List Placed} (h : ∀ p ∈ ps, p.details.eqnMap = p.details.varMap) (t : ℝ) (v : ℕ → ℝ) : Balanced ps t v := by
  induction ps with
  | nil => exact Balanced.nil t v
  | cons p ps ih => exact (Balanced.self (h p (by simp)) t v).cons (ih fun q hq => h q (by simp [hq]))

/-! ### Coupled lines -/

/-- Second derivatives of an admittance do not depend on the operating point. -/
def ConstHess (seg : Segment) : Prop := ∀ x ∈ seg.vars, ∀ y ∈ seg.vars, FreeOf seg.vars (diff y (diff x seg.lagrange))

theorem line_constHess (hL : L.Loaded) : ConstHess L.line := by
  obtain ⟨n, h⟩ := hL.line
  obtain ⟨kr, ki, hr, hi, _, _, hs⟩ := twoTerminal_ok h
  cases hr; cases hi
  rw [hs]
  unfold ConstHess Segment.vars
  simp only [lineArgs, TwoTerminalArgs.toSide, equalityDuals, twoTerminalLagrange, addEqualities, List.length_nil, List.range_zero, List.map_nil, List.append_nil]
  decide +kernel

theorem shunt_constHess (hL : L.Loaded) : ConstHess L.shunt := by
  obtain ⟨n, h⟩ := hL.shunt
  obtain ⟨kr, ki, hr, hi, _, _, hs⟩ := twoTerminal_ok h
  cases hr; cases hi
  rw [hs]
  unfold ConstHess Segment.vars
  simp only [shuntArgs, TwoTerminalArgs.toSide, equalityDuals, twoTerminalLagrange, addEqualities, List.length_nil, List.range_zero, List.map_nil, List.append_nil]
  decide +kernel

theorem hess_const {p q : Placed} (hs : p.details.seg = q.details.seg) (hc : p.consts = q.consts) (h : ConstHess p.details.seg)
    (t : ℝ) (v : ℕ → ℝ) {x y : Sym} (hx : x ∈ p.details.seg.vars) (hy : y ∈ p.details.seg.vars) : p.hess t v x y = q.hess t v x y := by
  unfold Placed.hess Segment.derivative
  rw [← hs]
  apply eval_congr
  intro s hh
  have hv : s ∉ p.details.seg.vars := by
    intro hm; have := h x hx y hy s hm; rw [this] at hh; exact absurd hh (by simp)
  unfold Placed.env Part.env Placed.part Placed.point
  simp only [hc, ← hs, hv, if_false]

theorem form_swap {p q : Placed} (hs : p.details.seg = q.details.seg) (hc : p.consts = q.consts) (h : ConstHess p.details.seg)
    (h1 : p.details.eqnMap = q.details.varMap) (h2 : p.details.varMap = q.details.eqnMap) (t : ℝ) (v : ℕ → ℝ)
    (f g : Segment → Sym → Idx → ℝ) : p.form t v f g = q.form t v g f := by
  unfold Placed.form
  rw [sum_comm_lists, ← hs, ← h1, ← h2]
  congr 1; apply List.map_congr_left; intro x hx
  congr 1; apply List.map_congr_left; intro y hy
  rw [← hess_const hs hc h t v hx hy, p.hess_comm t v y x]; ring

theorem sum_map_flatMap {α β : Type*} (l : List α) (f : α → List β) (g : β → ℝ) :
    ((l.flatMap f).map g).sum = (l.map fun a => ((f a).map g).sum).sum := by
  induction l with
  | nil => rfl
  | cons a l ih => simp [ih]

/-- A coupled line with symmetric matrices is balanced. -/
theorem unbalanced_balanced (hL : L.Loaded) (opt : Bool) (nodes : ℕ → Node) (ph : List (ℕ × ℕ)) (y : ℕ → ℕ → ℂ) (sh : ℕ → ℕ → ℝ)
    (hy : ∀ i j, i < ph.length → j < ph.length → y i j = y j i) (hsh : ∀ i j, i < ph.length → j < ph.length → sh i j = sh j i)
    (t : ℝ) (v : ℕ → ℝ) : Balanced (placeUnbalanced L opt nodes ph y sh) t v := by
  intro f g
  have hsum : ∀ f g, ((placeUnbalanced L opt nodes ph y sh).map fun p => p.form t v f g).sum =
      ((List.range ph.length).map fun i => ((List.range ph.length).map fun j =>
        ((placePair L opt nodes ph y sh i j).map fun p => p.form t v f g).sum).sum).sum := by
    intro f g
    unfold placeUnbalanced
    rw [sum_map_flatMap]
    congr 1; apply List.map_congr_left; intro i _
    rw [sum_map_flatMap]
  rw [hsum, hsum, sum_comm_lists]
  congr 1; apply List.map_congr_left; intro j hj
  congr 1; apply List.map_congr_left; intro i hi
  rw [List.mem_range] at hi hj
  unfold placePair
  simp only [List.map_cons, List.map_nil, List.sum_cons, List.sum_nil]
  congr 1
  · refine form_swap ?_ ?_ ?_ rfl rfl t v f g
    · by_cases h : i = j
      · simp [h]
      · simp [h, Ne.symm h]
    · simp [hy i j hi hj]
    · by_cases h : i = j
      · simp only [h, if_true]; exact line_constHess hL
      · simp only [h, if_false]; exact shunt_constHess hL
  · congr 1
    · refine form_swap ?_ ?_ ?_ rfl rfl t v f g
      · rfl
      · simp [hsh i j hi hj]
      · exact shunt_constHess hL
    · congr 1
      refine form_swap ?_ ?_ ?_ rfl rfl t v f g
      · rfl
      · simp [hsh i j hi hj]
      · exact shunt_constHess hL

end Verif
