import Verif.Spec.GlmCircuit

/-!
# The circuit a GridLAB-D file describes

Laws of the devices of a file and of its places, in complex arithmetic, by the names and phases of the file. But for `IsWires`, nothing here refers to bus
numbers, to the network or to its equations.
-/

namespace Verif.Glm

/-- A terminal: a phase of what the file calls by that name, or ground. -/
abbrev Term := Option (Txt × Char)

/-- The voltage of a terminal. -/
def voltAt (V : Txt → Char → ℂ) : Term → ℂ
  | none => 0
  | some x => V x.1 x.2

/-- A current out of one terminal and into another. -/
def through (a b : Term) (I : ℂ) : List (Term × ℂ) := [(a, I), (b, -I)]

/-- The phase `p` of `name`, or ground. -/
def termOf (name : Txt) (p : Option Char) : Term := p.map fun q => (name, q)

/-! ### Sources -/

/-- The unit voltage of a phase: `B` lags `A` by a third of a turn, `C` leads by a third, the hot wire `2` is opposite to `1`. -/
noncomputable def unitAt (p : Char) : ℂ :=
  if p = 'B' then Complex.exp (-(2 * Real.pi / 3) * Complex.I)
  else if p = 'C' then Complex.exp (2 * Real.pi / 3 * Complex.I)
  else if p = '2' then -1
  else 1

/-- A voltage of a file as a complex number. -/
noncomputable def Phasor.complex : Phasor → ℂ
  | .nominal m p => m * unitAt p
  | .given z => toComplex z
  | .polar m a => m * Complex.exp (a * Complex.I)

/-- A source holds its phase at its voltage and takes any current. -/
def SourceFlow (V : Txt → Char → ℂ) (x : (Txt × Obj) × Char) (l : List (Term × ℂ)) : Prop :=
  ∃ u I, swingVoltage x.1.2 x.2 = some u ∧ V x.1.1 x.2 = u.complex ∧ l = [(some (x.1.1, x.2), I)]

/-! ### Devices -/

/-- A load takes its current between its phases, or between its phase and ground. -/
def LoadFlow (V : Txt → Char → ℂ) (d : DeclaredLoad) (l : List (Term × ℂ)) : Prop :=
  ∃ a rest, d.phases = a :: rest ∧
    l = through (some (d.node, a)) (termOf d.node rest.head?) (d.current (V d.node a - voltAt V (termOf d.node rest.head?)))

/-- An open switch carries no current; a closed one any current, without loss of voltage. -/
def SwitchFlow (V : Txt → Char → ℂ) (d : DeclaredDevice) (l : List (Term × ℂ)) : Prop :=
  ∃ a b, d.frm = some a ∧ d.to_ = some b ∧ (d.isOpen = true → l = []) ∧
    (d.isOpen = false → V a d.phase = V b d.phase ∧ ∃ I, l = through (some (a, d.phase)) (some (b, d.phase)) I)

/-- A fuse is an admittance of `10000 + 10000j`. -/
def FuseFlow (V : Txt → Char → ℂ) (d : DeclaredDevice × Option Txt) (l : List (Term × ℂ)) : Prop :=
  ∃ a b, d.1.frm = some a ∧ d.1.to_ = some b ∧
    l = through (some (a, d.1.phase)) (some (b, d.1.phase)) ((10000 + 10000 * Complex.I) * (V a d.1.phase - V b d.1.phase))

/-- A capacitor is connected: controlled by voltage, or switched on by hand. -/
def DeclaredCap.On (d : DeclaredCap) : Prop :=
  d.obj.attr "control".toList = some "VOLT".toList ∨ d.obj.attr ("switch".toList ++ [d.phase]) = some "CLOSED".toList

/-- A capacitor that is connected takes the reactive power of the file at its nominal voltage. -/
def CapFlow (V : Txt → Char → ℂ) (d : DeclaredCap) (l : List (Term × ℂ)) : Prop :=
  ∃ n t v, d.obj.attr "parent".toList = some n ∧ d.obj.attr "cap_nominal_voltage".toList = some t ∧ pyFloat t = some v ∧ v ≠ 0 ∧
    (¬ d.On → l = []) ∧
    (d.On → l = through (some (n, d.phase)) none (Complex.I * ((d.var / v ^ 2 : ℚ) : ℂ) * V n d.phase))

/-- The ratio of a regulator, by its type, its tap and the voltage of one step. -/
def IsRatio (c : Obj) (p : Char) (a : ℝ) : Prop :=
  ∃ t tap t1 up t2 down t3 reg, c.attr ("tap_pos_".toList ++ [p]) = some t ∧ intOf t = .ok tap ∧
    c.attr "raise_taps".toList = some t1 ∧ intOf t1 = .ok up ∧ c.attr "lower_taps".toList = some t2 ∧ intOf t2 = .ok down ∧ up + down ≠ 0 ∧
    c.attr "regulation".toList = some t3 ∧ pyFloat t3 = some reg ∧
    (c.attr "Type".toList = some "A".toList → a * (1 + (2 * reg / ((up + down : ℤ) : ℚ) * (tap : ℤ) : ℚ)) = 1) ∧
    (c.attr "Type".toList ≠ some "A".toList → a = 1 - (2 * reg / ((up + down : ℤ) : ℚ) * (tap : ℤ) : ℚ))

/-- A regulator is an ideal transformer of its ratio in series with a conductance of 10000; `S` is the voltage between the two. -/
def RegFlow (V : Txt → Char → ℂ) (d : Obj × Option Obj × Char) (l : List (Term × ℂ)) : Prop :=
  ∃ c a b ratio I S, d.2.1 = some c ∧ d.1.attr "from".toList = some a ∧ d.1.attr "to".toList = some b ∧ IsRatio c d.2.2 ratio ∧
    V a d.2.2 = (ratio : ℂ) * S ∧ (ratio : ℂ) * I = 10000 * (S - V b d.2.2) ∧
    l = [(some (a, d.2.2), I), (some (b, d.2.2), -((ratio : ℂ) * I))]

/-- A coil of a bank: the voltage across the primary is the ratio of the rated voltages times the voltage across the secondary and the impedance, and
the currents are in the inverse ratio. The impedance is that of the file in per unit of the rated voltage and power of one coil of three. -/
def CoilFlow (V : Txt → Char → ℂ) (o c : Obj) (p q : Char) (l : List (Term × ℂ)) : Prop :=
  ∃ a b v1 v2 r y s I, o.attr "from".toList = some a ∧ o.attr "to".toList = some b ∧
    (c.attr "primary_voltage".toList).bind volts = some v1 ∧ (c.attr "secondary_voltage".toList).bind volts = some v2 ∧
    IsImpedance c r y ∧ IsRating c s ∧
    let delta := deltaSides (c.attr "connect_type".toList)
    let an := termOf a (if delta.1 then some q else none)
    let bn := termOf b (if delta.2 then some q else none)
    let N : ℂ := ((ratedCoil delta.1 v1 / ratedCoil delta.2 v2 : ℝ) : ℂ)
    let Z : ℂ := toComplex (r, y) * ((ratedCoil delta.2 v2 ^ 2 / ((s : ℝ) / 3) : ℝ) : ℂ)
    V a p - voltAt V an = N * (V b p - voltAt V bn + Z * (N * I)) ∧
    l = through (some (a, p)) an I ++ through (some (b, p)) bn (-(N * I))

/-- A center tap: the two halves of the secondary have opposite voltages. The resistance of the file is on each half, half of it on the primary; 0.8 of
the reactance is on the primary, 0.4 on each half. `J1`, `J2` are the currents of the halves, `P` is the voltage behind the primary impedance. -/
def TapFlow (V : Txt → Char → ℂ) (o c : Obj) (l : List (Term × ℂ)) : Prop :=
  ∃ p a b v1 v2 r y s J1 J2 P, (objPhases o).head? = some p ∧ o.attr "from".toList = some a ∧ o.attr "to".toList = some b ∧
    (c.attr "primary_voltage".toList).bind volts = some v1 ∧ (c.attr "secondary_voltage".toList).bind volts = some v2 ∧
    IsImpedance c r y ∧ IsRating c s ∧
    let N : ℂ := ((v1 / v2 : ℚ) : ℂ)
    let Z0 : ℂ := toComplex (r / 2, 8 / 10 * y) * ((v1 ^ 2 / s : ℚ) : ℂ)
    let Z : ℂ := toComplex (r, 4 / 10 * y) * ((v2 ^ 2 / s : ℚ) : ℂ)
    let I0 : ℂ := (J1 - J2) / N
    V a p = P + Z0 * I0 ∧ P / N = V b '1' + Z * J1 ∧ -(P / N) = V b '2' + Z * J2 ∧
    l = [(some (a, p), I0), (some (b, '1'), -J1), (some (b, '2'), -J2)]

/-- A transformer. -/
def XfmrFlow (V : Txt → Char → ℂ) (d : DeclaredXfmr) (l : List (Term × ℂ)) : Prop := match d with
  | .coil o c p q => ∃ c', c = some c' ∧ CoilFlow V o c' p q l
  | .tap o c => TapFlow V o c l

/-! ### Lines -/

/-- An object that is a line with impedances. -/
def isLineObj (o : Obj) : Bool := o.cls ∈ ["overhead_line", "triplex_line", "underground_line"].map String.toList

/-- The lines of a file. -/
def declaredLines (objs : List (Txt × Obj)) : List Obj := (objs.map Prod.snd).filter isLineObj

variable {M : Type}

/-- `d` are the phases and the data of a line, as read from its object - up to what earlier lines have rewritten. -/
def LineRead (readLine : LineReader M) (objs : List (Txt × Obj)) (o : Obj) (d : List Char × M) : Prop :=
  ∃ objs1 objs2 o1 t ph, SameObjs objs objs1 ∧ SameObj o o1 ∧ o.attr "phases".toList = some t ∧ parsePhases t = .ok ph ∧
    readLine objs1 o1 ph = .ok (d, objs2)

/-- The current into one end of wire `i` of a line with the phases `ps` from `a` to `b`: through the series admittances `y`, and through half of the
susceptances `s` at this end. -/
noncomputable def wireCurrent (V : Txt → Char → ℂ) (a b : Txt) (ps : List Char) (y : ℕ → ℕ → ℂ) (s : ℕ → ℕ → ℝ) (i : ℕ) : ℂ :=
  ((List.range ps.length).map fun j => y i j * (V a (ps.getD j 'A') - V b (ps.getD j 'A')) +
    Complex.I * (s i j / 2 : ℝ) * V a (ps.getD j 'A')).sum

/-- A line with its phases and its data: `mats` gives the series admittances and the susceptances of the data. -/
def LineFlow (mats : M → (ℕ → ℕ → ℂ) × (ℕ → ℕ → ℝ)) (V : Txt → Char → ℂ) (x : Obj × List Char × M) (l : List (Term × ℂ)) : Prop :=
  ∃ a b, x.1.attr "from".toList = some a ∧ x.1.attr "to".toList = some b ∧
    l = (List.range x.2.1.length).flatMap fun i =>
      [(some (a, x.2.1.getD i 'A'), wireCurrent V a b x.2.1 (mats x.2.2).1 (mats x.2.2).2 i),
       (some (b, x.2.1.getD i 'A'), wireCurrent V b a x.2.1 (mats x.2.2).1 (mats x.2.2).2 i)]

/-- The constructor of lines makes the element of these admittances between the buses of the wires, and wants at least one wire. -/
def Makes (make : M → List (ℕ × ℕ) → Except String Element) (mats : M → (ℕ → ℕ → ℂ) × (ℕ → ℕ → ℝ)) : Prop :=
  ∀ d ps e, make d ps = .ok e → ps ≠ [] ∧ e = .unbalanced ps (mats d).1 (mats d).2

/-- The element `e` is the line of an object with its phases and data. -/
def IsWires (mats : M → (ℕ → ℕ → ℂ) × (ℕ → ℕ → ℝ)) (objs : List (Txt × Obj)) (g : Grid M) (x : Obj × List Char × M) (e : Element) : Prop :=
  ∃ a b bs, x.1.attr "from".toList = some a ∧ x.1.attr "to".toList = some b ∧
    List.Forall₂ (fun p y => FileAt objs g a p y.1 ∧ FileAt objs g b p y.2) x.2.1 bs ∧ e = .unbalanced bs (mats x.2.2).1 (mats x.2.2).2

/-! ### The circuit -/

open Classical in
/-- The sum of the currents out of phase `p` of the place `r`: those of all names that are at this place. -/
noncomputable def drawnAt (objs : List (Txt × Obj)) (r : Txt) (p : Char) (l : List (Term × ℂ)) : ℂ :=
  (l.map fun x => if ∃ n, x.1 = some (n, p) ∧ FileRoot objs n r then x.2 else 0).sum

/-- The sources of a file. -/
def declaredSources (objs : List (Txt × Obj)) : List ((Txt × Obj) × Char) := (declaredPlaces objs).filter fun x => isSwing x.1.2

/-- `V` are voltages of the circuit the file describes, if `lines` are the currents of its lines: what has a parent has the voltages of its parent, there
are currents of all other devices by their laws, and at every phase of every place without parent all currents add up to zero. -/
def CircuitFlow (objs : List (Txt × Obj)) (V : Txt → Char → ℂ) (lines : List (List (Term × ℂ))) : Prop :=
  (∀ x ∈ declaredPlaces objs, x.1.2.attr "parent".toList = none → ∀ n, FileRoot objs n x.1.1 → V n x.2 = V x.1.1 x.2) ∧
  ∃ xfmrs sources switches loads regs fuses caps,
    List.Forall₂ (XfmrFlow V) (declaredXfmrs objs) xfmrs ∧
    List.Forall₂ (SourceFlow V) (declaredSources objs) sources ∧
    List.Forall₂ (SwitchFlow V) (declaredSwitches objs) switches ∧
    List.Forall₂ (LoadFlow V) (declaredLoads objs) loads ∧
    List.Forall₂ (RegFlow V) (declaredRegs objs) regs ∧
    List.Forall₂ (FuseFlow V) (declaredFuses objs) fuses ∧
    List.Forall₂ (CapFlow V) (declaredCaps objs) caps ∧
    ∀ x ∈ declaredPlaces objs, x.1.2.attr "parent".toList = none →
      drawnAt objs x.1.1 x.2 (lines ++ xfmrs ++ sources ++ switches ++ loads ++ regs ++ fuses ++ caps).flatten = 0

/-- `V` are voltages of the circuit the file describes, whose lines have the phases and the data `ds`. -/
def FeederFlow (mats : M → (ℕ → ℕ → ℂ) × (ℕ → ℕ → ℝ)) (objs : List (Txt × Obj)) (ds : List (List Char × M)) (V : Txt → Char → ℂ) : Prop :=
  ∃ lines, List.Forall₂ (LineFlow mats V) ((declaredLines objs).zip ds) lines ∧ CircuitFlow objs V lines

/-- The secondary voltage is not given in `kV`. -/
def InVolts (c : Obj) : Prop := ∀ t, c.attr "secondary_voltage".toList = some t → find "kV".toList t = none

/-- A file without what is known to be read differently: see the theorems whose names end in `_fails`. -/
structure PlainFeeder (objs : List (Txt × Obj)) : Prop where
  keys : (objs.map Prod.fst).Nodup
  outer : OuterFile objs
  once : PhasesOnce objs
  noBase : NoBasePower objs
  states : ∀ name o, (name, o) ∈ objs → isSwitchObj o = true → StatesGiven "_state".toList o
  fuseStates : ∀ name o, (name, o) ∈ objs → isFuseObj o = true → StatesGiven "_status".toList o ∧ NoStrayStates "_status".toList o
  fusesGood : ∀ d ∈ declaredFuses objs, d.1.isOpen = false
  plain : PlainConfigurations objs
  noStray : NoStraySettings objs
  ownSources : ∀ x ∈ declaredSources objs, x.1.2.attr "parent".toList = none
  caps : ∀ d ∈ declaredCaps objs, d.obj.attr "control".toList = some "MANUAL".toList ∨
    d.obj.attr "control".toList = some "VOLT".toList ∧ (d.obj.attr "voltage_set_high".toList).isSome ∧ (d.obj.attr "voltage_set_low".toList).isSome
  capsWye : ∀ d ∈ declaredCaps objs, ∀ t, d.obj.attr "phases".toList = some t → 'D' ∉ t
  taps : ∀ d ∈ declaredRegs objs, ∀ c, d.2.1 = some c → ∀ t tap t1 up t2 down, c.attr ("tap_pos_".toList ++ [d.2.2]) = some t → intOf t = .ok tap →
    c.attr "raise_taps".toList = some t1 → intOf t1 = .ok up → c.attr "lower_taps".toList = some t2 → intOf t2 = .ok down → -down ≤ tap ∧ tap ≤ up
  noShunts : ∀ o c p q, .coil o (some c) p q ∈ declaredXfmrs objs → c.attr "shunt_impedance".toList = none
  centerTaps : ∀ o c, .tap o c ∈ declaredXfmrs objs → InVolts c ∧ c.attr "impedance1".toList = none ∧ c.attr "shunt_impedance".toList = none ∧
    (∀ r y, IsImpedance c r y → (r, y) ≠ 0) ∧ (c.attr "primary_voltage".toList).bind volts ≠ some 0

end Verif.Glm
