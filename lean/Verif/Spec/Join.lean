import Verif.Spec.Balanced

/-!
# Two buses joined by a closed switch, and a bus in the middle of a line
-/

namespace Verif

/-- Bus `n` taken to be bus `k`. -/
def joinBus (n k j : ℕ) : ℕ := if j = n then k else j

/-- The second network has one bus more, its last, connected to bus `k` by a closed switch; in the first network, equipment at that bus is at bus `k`. -/
structure Joined (k : ℕ) (N M : Network) : Prop where
  plain : N.optimization = none
  plain' : M.optimization = none
  inside : k < N.buses
  buses : M.buses = N.buses + 1
  elements : ∃ es, M.elements = .switch (some k) (some N.buses) .closed :: es ∧ N.elements = es.map (Element.put (joinBus N.buses k))

/-- The second network has one bus more, its last, in the middle of a line: what was one line is two, of admittances `y` and `z`, without charging. -/
structure Tapped (f u : Ref) (y z : ℂ) (N M : Network) : Prop where
  plain : N.optimization = none
  plain' : M.optimization = none
  buses : M.buses = N.buses + 1
  series : y + z ≠ 0
  elements : ∃ es, M.elements = .line f (some N.buses) y.re y.im 0 :: .line (some N.buses) u z.re z.im 0 :: es ∧
    N.elements = .line f u (y * z / (y + z)).re (y * z / (y + z)).im 0 :: es ∧ ∀ e ∈ es, e.Valid N.buses
  from' : Ref.Valid N.buses f
  to' : Ref.Valid N.buses u

/-- The second network has one bus more, its last, at the far end of a line from `f` without charging, with nothing else there. -/
structure Stub (f : Ref) (y : ℂ) (N M : Network) : Prop where
  plain : N.optimization = none
  plain' : M.optimization = none
  buses : M.buses = N.buses + 1
  live : y ≠ 0
  elements : M.elements = .line f (some N.buses) y.re y.im 0 :: N.elements
  valid : N.Valid
  from' : Ref.Valid N.buses f

end Verif
