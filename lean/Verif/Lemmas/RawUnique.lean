import Verif.Lemmas.RawCheck

/-!
# Records state one thing only
-/

namespace Verif.Raw

open Glm (Number)

theorem Int'.unique {default : Option ℤ} {t : Txt} {n m : ℤ} (h : Int' default t n) (h' : Int' default t m) : n = m := by
  have key : ∀ {k}, Integer [] k → False := fun hk => by
    obtain ⟨c, t', e, -⟩ := integer_head hk
    cases e
  rcases h with ⟨rfl, h⟩ | h <;> rcases h' with ⟨h1, h'⟩ | h'
  · exact Option.some.inj (h.symm.trans h')
  · exact (key h').elim
  · subst h1; exact (key h).elim
  · exact Except.ok.inj ((toInt_integer h).symm.trans (toInt_integer h'))

theorem Num.unique {default : Option ℚ} {t : Txt} {x y : ℝ} (h : Num default t x) (h' : Num default t y) : x = y := by
  obtain ⟨q, rfl, h⟩ := h
  obtain ⟨p, rfl, h'⟩ := h'
  congr 1
  rcases h with ⟨rfl, h⟩ | h <;> rcases h' with ⟨h1, h'⟩ | h'
  · exact Option.some.inj (h.symm.trans h')
  · exact (Number.ne_nil h' rfl).elim
  · subst h1; exact (Number.ne_nil h rfl).elim
  · exact Except.ok.inj ((toFloat_number h).symm.trans (toFloat_number h'))

theorem StatesBus.unique {v : ℤ} {r : Row} {b b' : BusRec} (h : StatesBus v r b) (h' : StatesBus v r b') : b = b' := by
  cases b; cases b'
  simp only [BusRec.mk.injEq]
  exact ⟨h.i.unique h'.i, h.ide.unique h'.ide, h.vm.unique h'.vm, h.va.unique h'.va, h.baskv.unique h'.baskv⟩

theorem StatesLoad.unique {r : Row} {b b' : LoadRec} (h : StatesLoad r b) (h' : StatesLoad r b') : b = b' := by
  cases b; cases b'
  simp only [LoadRec.mk.injEq]
  exact ⟨h.i.unique h'.i, h.status.unique h'.status, h.pl.unique h'.pl, h.ql.unique h'.ql, h.ip.unique h'.ip, h.iq.unique h'.iq, h.yp.unique h'.yp,
    h.yq.unique h'.yq⟩

theorem StatesFixed.unique {r : Row} {b b' : FixedRec} (h : StatesFixed r b) (h' : StatesFixed r b') : b = b' := by
  cases b; cases b'
  simp only [FixedRec.mk.injEq]
  exact ⟨h.i.unique h'.i, h.status.unique h'.status, h.gl.unique h'.gl, h.bl.unique h'.bl⟩

theorem StatesGen.unique {r : Row} {b b' : GenRec} (h : StatesGen r b) (h' : StatesGen r b') : b = b' := by
  cases b; cases b'
  simp only [GenRec.mk.injEq]
  exact ⟨h.i.unique h'.i, h.pg.unique h'.pg, h.qg.unique h'.qg, h.qt.unique h'.qt, h.qb.unique h'.qb, h.vs.unique h'.vs, h.stat.unique h'.stat,
    h.wmod.unique h'.wmod, h.wpf.unique h'.wpf⟩

theorem StatesBranch.unique {v : ℤ} {r : Row} {b b' : BranchRec} (h : StatesBranch v r b) (h' : StatesBranch v r b') : b = b' := by
  cases b; cases b'
  simp only [BranchRec.mk.injEq]
  exact ⟨h.i.unique h'.i, h.j.unique h'.j, h.r.unique h'.r, h.x.unique h'.x, h.b.unique h'.b, h.gi.unique h'.gi, h.bi.unique h'.bi,
    h.gj.unique h'.gj, h.bj.unique h'.bj, h.st.unique h'.st⟩

theorem StatesTwo.unique {v : ℤ} {r1 r2 r3 r4 : Row} {b b' : TwoRec} (h : StatesTwo v r1 r2 r3 r4 b) (h' : StatesTwo v r1 r2 r3 r4 b')
    (k : StatesControl v r3 b.w1) (k' : StatesControl v r3 b'.w1) : b = b' := by
  obtain ⟨i, j, stat, cw, cz, cm, mag1, mag2, ⟨r, x, s⟩, ⟨w1, w2, w3, w4, w5, w6, w7⟩, windv2, nomv2⟩ := b
  obtain ⟨i', j', stat', cw', cz', cm', mag1', mag2', ⟨r', x', s'⟩, ⟨w1', w2', w3', w4', w5', w6', w7'⟩, windv2', nomv2'⟩ := b'
  simp only [TwoRec.mk.injEq, Impedance.mk.injEq, Winding.mk.injEq]
  exact ⟨h.i.unique h'.i, h.j.unique h'.j, h.stat.unique h'.stat, h.cw.unique h'.cw, h.cz.unique h'.cz, h.cm.unique h'.cm, h.mag1.unique h'.mag1,
    h.mag2.unique h'.mag2, ⟨h.r.unique h'.r, h.x.unique h'.x, h.sbase.unique h'.sbase⟩,
    ⟨h.w1.windv.unique h'.w1.windv, h.w1.nomv.unique h'.w1.nomv, h.w1.ang.unique h'.w1.ang, k.cod.unique k'.cod, k.rma.unique k'.rma,
      k.rmi.unique k'.rmi, k.ntp.unique k'.ntp⟩, h.windv2.unique h'.windv2, h.nomv2.unique h'.nomv2⟩

theorem forall₂_unique {α β : Type} {P : α → β → Prop} (hu : ∀ a b b', P a b → P a b' → b = b') {l : List α} {m m' : List β}
    (h : List.Forall₂ P l m) (h' : List.Forall₂ P l m') : m = m' := by
  induction h generalizing m' with
  | nil => cases h'; rfl
  | cons a _ ih => cases h' with
    | cons b hs => rw [hu _ _ _ a b, ih hs]

theorem StatesSwitched.unique {r : Row} {b b' : SwitchedRec} (h : StatesSwitched r b) (h' : StatesSwitched r b') : b = b' := by
  cases b; cases b'
  simp only [SwitchedRec.mk.injEq]
  exact ⟨h.i.unique h'.i, h.modsw.unique h'.modsw, h.stat.unique h'.stat, h.vswhi.unique h'.vswhi, h.vswlo.unique h'.vswlo, h.binit.unique h'.binit,
    forall₂_unique (fun _ _ _ x y => Prod.ext (x.1.unique y.1) (x.2.unique y.2)) h.blocks h'.blocks⟩

theorem Listed.unique {α β : Type} {P : α → β → Prop} (hu : ∀ a b b', P a b → P a b' → b = b') {l : List α} {m m' : List β}
    (h : Listed P l m) (h' : Listed P l m') : m.Perm m' := by
  obtain ⟨k, hk, h⟩ := h
  obtain ⟨k', hk', h'⟩ := h'
  obtain rfl := forall₂_unique hu h h'
  exact hk.symm.trans hk'

/-! ### Concrete fields -/

theorem int_of {default : Option ℤ} {t : Txt} {n : ℤ} (h : Content.integer.check t = true) (hn : toInt t = .ok n) : Int' default t n := by
  obtain ⟨m, hm⟩ := Content.check_holds h
  rw [toInt_integer hm] at hn
  cases hn
  exact .inr hm

theorem num_of {default : Option ℚ} {t : Txt} {x : ℝ} (q : ℚ) (hx : x = q) (h : Content.number.check t = true) (hn : toFloat t = .ok q) : Num default t x := by
  obtain ⟨m, hm⟩ := Content.check_holds h
  rw [toFloat_number hm] at hn
  cases hn
  exact ⟨_, hx, .inr hm⟩

theorem num_blank {t : Txt} {x : ℝ} (q : ℚ) (hx : x = q) (ht : t = []) : Num (some q) t x := ⟨q, hx, .inl ⟨ht, rfl⟩⟩

end Verif.Raw
