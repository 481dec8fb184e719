import Verif.Model.EquationModel
import Verif.Props.Declared

/-!
# C160: models given by equations alone
-/

namespace Verif

open Ex

/-- Specification: the value of a Lagrangian, the objective and every equation times a multiplier of its own. -/
def LagrangianOf (a : EquationArgs) (seg : Segment) : Prop :=
  seg.constants = a.constants ∧ seg.primals = a.vars ∧ seg.duals.length = a.equalities.length ∧
    ∀ env : Env, eval env seg.lagrange = (a.objective.elim 0 (eval env)) + ((seg.duals.zip a.equalities).map fun p => env p.1 * eval env p.2).sum

/-- Specification: every symbol of the objective and the equations is declared. -/
def EquationArgs.Declared (a : EquationArgs) : Prop := ∀ e, a.objective = some e ∨ e ∈ a.equalities → ∀ s, Mentions s e → s ∈ a.vars ∨ s ∈ a.constants

/-- **C160, partial: no equations.** Without objective and equations the segment is the zero Lagrangian of the declared symbols. Missing: all other models (`C160_equations_fails`). -/
theorem C160_nothing_partial (n : ℕ) (a : EquationArgs) (ho : a.objective = none) (he : a.equalities = []) : ∃ seg, equationModel n a = .ok seg ∧ LagrangianOf a seg := by
  refine ⟨⟨.num 0, a.constants, a.vars, []⟩, ?_, rfl, rfl, by rw [he]; rfl, fun env => ?_⟩
  · rw [equationModel, ho, he]
    rfl
  · rw [ho, he]
    simp [eval]

/-- **C160 fails whenever there is something to model.** With an objective or an equation the constructor raises, declared or not: it looks for the check of the symbols in the wrong place. -/
theorem C160_equations_fails : (∀ (n : ℕ) (a : EquationArgs), a.objective ≠ none ∨ a.equalities ≠ [] → ∃ m, equationModel n a = .error m) ∧
    ∃ a : EquationArgs, a.Declared ∧ a.equalities = [.sym .VrFrom] := by
  constructor
  · intro n a h
    obtain ⟨vs, cs, es, o⟩ := a
    cases o with
    | some o => exact ⟨_, rfl⟩
    | none =>
      cases es with
      | nil => exact absurd h (by simp)
      | cons e es => exact ⟨_, rfl⟩
  · refine ⟨{ vars := [.VrFrom], constants := [], equalities := [.sym .VrFrom] }, fun e he s hs => .inl ?_, rfl⟩
    rcases he with he | he
    · cases he
    · rw [List.mem_singleton] at he
      subst he
      rw [mentions_iff] at hs
      revert hs
      simp [Ex.has]

/-- A model without equations, and one with the equation that the voltage vanishes. -/
example : (∃ seg, equationModel 3 { vars := [.VrFrom], constants := [.IP] } = .ok seg ∧ LagrangianOf { vars := [.VrFrom], constants := [.IP] } seg) ∧
    ∃ m, equationModel 3 { vars := [.VrFrom], constants := [.IP], equalities := [.sym .VrFrom] } = .error m :=
  ⟨C160_nothing_partial 3 _ rfl rfl, C160_equations_fails.1 3 _ (.inr (by simp))⟩

end Verif
