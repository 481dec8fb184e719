import Verif.Spec.Kirchhoff

/-!
# Equipment that may stand in for other equipment

Circuit rules an engineer uses without thinking: equipment in parallel adds up, most equipment has no direction, open switches can be left out,
a fuse is a short line and a sensor. Nothing here refers to equations, unknowns or indices.
-/

namespace Verif

/-- The first list of equipment does in any circuit what the second does. -/
inductive Exchange : List Element → List Element → Prop
  /-- Lines side by side. -/
  | lines (f u : Ref) (g b bl g' b' bl' : ℝ) : Exchange [.line f u g b bl, .line f u g' b' bl'] [.line f u (g + g') (b + b') (bl + bl')]
  /-- A line from its other end. -/
  | turnedLine (f u : Ref) (g b bl : ℝ) : Exchange [.line f u g b bl] [.line u f g b bl]
  /-- The charging of a line as two shunts. -/
  | charging (f u : ℕ) (g b bl : ℝ) : Exchange [.line (some f) (some u) g b bl] [.line (some f) (some u) g b 0, .shunt f 0 bl, .shunt u 0 bl]
  /-- A line of one conductor. -/
  | conductor (f u : ℕ) (y : ℕ → ℕ → ℂ) (sh : ℕ → ℕ → ℝ) :
      Exchange [.unbalanced [(f, u)] y sh] [.line (some f) (some u) (y 0 0).re (y 0 0).im (sh 0 0 / 2)]
  /-- Loads side by side. -/
  | loads (f u : Ref) (l l' l'' : Load) (P : l''.P = l.P + l'.P) (Q : l''.Q = l.Q + l'.Q) (IP : l''.IP = l.IP + l'.IP) (IQ : l''.IQ = l.IQ + l'.IQ)
      (Z : l''.Z⁻¹ = l.Z⁻¹ + l'.Z⁻¹) : Exchange [.load f u l, .load f u l'] [.load f u l'']
  /-- A load from its other end. -/
  | turnedLoad (f u : Ref) (l : Load) : Exchange [.load f u l] [.load u f ⟨l.P, l.Q, l.Z, -l.IP, -l.IQ⟩]
  /-- A load of nothing. -/
  | noLoad (f u : Ref) : Exchange [.load f u ⟨0, 0, 0, 0, 0⟩] []
  /-- Shunts side by side. -/
  | shunts (k : ℕ) (g b g' b' : ℝ) : Exchange [.shunt k g b, .shunt k g' b'] [.shunt k (g + g') (b + b')]
  /-- A shunt as a constant impedance. -/
  | shuntLoad (k : ℕ) (g b : ℝ) : Exchange [.shunt k g b] [.load (some k) none ⟨0, 0, (⟨g, b⟩ : ℂ)⁻¹, 0, 0⟩]
  /-- Closed capacitors side by side. -/
  | capacitors (f u : Ref) (b b' : ℝ) : Exchange [.capacitor f u .closed b, .capacitor f u .closed b'] [.capacitor f u .closed (b + b')]
  /-- A closed capacitor to ground as a shunt. -/
  | capacitorShunt (k : ℕ) (b : ℝ) : Exchange [.capacitor (some k) none .closed b] [.shunt k 0 b]
  /-- An open capacitor. -/
  | openCapacitor (f u : Ref) (b : ℝ) : Exchange [.capacitor f u .opened b] []
  /-- An open switch. -/
  | openSwitch (f u : Ref) : Exchange [.switch f u .opened] []
  /-- A closed switch as a source of no voltage. -/
  | closedSwitch (f u : Ref) : Exchange [.switch f u .closed] [.voltageSource f u 0 0]
  /-- A voltage source from its other end. -/
  | turnedSource (f u : Ref) (vr vi : ℝ) : Exchange [.voltageSource f u vr vi] [.voltageSource u f (-vr) (-vi)]
  /-- A slack as a voltage source to ground. -/
  | slack (k : ℕ) (vr vi : ℝ) : Exchange [.slack k vr vi] [.voltageSource (some k) none vr vi]
  /-- A fuse as a short line and a closed switch. -/
  | fuse (f i u : Ref) : Exchange [.fuse f i u] [.line f i 10000 10000 0, .switch i u .closed]
  /-- A regulator as a transformer and a closed switch. -/
  | regulator (f c u : Ref) (tr g b : ℝ) : Exchange [.regulator f c u tr g b] [.transformer f none c none tr 0 g b, .switch c u .closed]

/-- The second network comes from the first by exchanging equipment, in either direction, at any number of places. -/
structure Exchanged (N M : Network) : Prop where
  plain : N.optimization = none
  plain' : M.optimization = none
  buses : M.buses = N.buses
  elements : ∃ as bs, List.Forall₂ (fun a b => a = b ∨ Exchange a b ∨ Exchange b a) as bs ∧ N.elements.Perm as.flatten ∧ M.elements.Perm bs.flatten

end Verif
