# Design of the formal model

Subject: `lucasgodshalk/combined-txds` (python, in `/repo`), a power-flow solver built on the
equivalent-circuit formulation. The code is read as text only; the model is written by hand,
function by function, in Lean 4 under `lean/Verif/`.

## Layout

* `Verif/Model/*.lean`  definitions that transcribe the code; each cites file and lines.
* `Verif/Lemmas/*.lean` helper lemmas about the model (no property statements).
* `Verif/Spec/*.lean`   small independent specifications (complex power, Kirchhoff's laws, paths, what a file asks for ...).
* `Verif/Props/*.lean`  the property theorems `Cnn_...`, with concrete examples that meet their hypotheses.
* `properties.jsonl`    the properties in English. `MANIFEST.json` maps them to theorems.
* `seeded/LOG.jsonl`    wrong programs tried against the theorems.
* `tools/`              scripts: `manifest.py` and `design.py` regenerate `MANIFEST.json` and this file, `genimports.sh` `Verif.lean`.

Where the code does not satisfy a property the disagreement is proved (`Cnn_..._fails` with a concrete
witness), a `Cnn_..._partial` theorem says what does hold, and the last section of this file records it.

## Trusted base

* Lean's kernel (4.33.0).
* Axioms: every theorem depends on no axiom other than `propext`, `Classical.choice` and `Quot.sound`
  (`#print axioms`, checked for all theorems named in the manifest by `tools/axioms.sh`). There are no axioms of our own, no
  `sorry`, no `native_decide` and no `bv_decide`. `decide +kernel` is used on closed examples and on the witnesses of `_fails`
  theorems; it is evaluated by the kernel.
* The definitions of Mathlib that occur in statements: real and complex numbers, matrices, derivatives, `Real.log`, `Real.sqrt`,
  `Complex.arg`, lists.
* The transcription from python to Lean, by hand. The line references stand beside every definition.

### Idealisations that hold for the whole model

* Floating point numbers are real numbers (or rationals where they come from a file). Rounding, overflow, `nan` and `inf` are not
  modelled. Where the code would go on with `nan` the model raises, and the comment says so.
* A python exception is a value of `Except`. Its kind is kept, its text is not.
* Printing, logging, matrix dumps and progress output are left out.
* The sparse linear solver (`scipy.sparse.linalg.spsolve`) is a parameter: any function from matrix and right-hand side to a vector or a
  failure. Theorems that need it to be right assume that what it returns solves the system.
* `sympy.expand`, `diff`, `free_symbols`, `lambdify` are modelled by functions on expression trees; that the python library agrees with
  them is assumed.
* Connected components come from networkx. The theorems hold for every correct list of components, in every order (`IsComponents`).
* Strings that serve as dictionary keys of the stamper (built from a segment, symbols and numbers) are replaced by the objects they are
  built from. That different objects give different strings is assumed.
* Text is ASCII: white space and digits outside ASCII are not modelled.
* Python's objects with shared references are modelled by values where nothing changes them after they are shared; where the code does
  change shared state (stamper across runs, conductors across lines, loads across hours) the state is threaded explicitly.

### Which parts of the code are modelled

| code (`/repo/src/`) | model | left out |
|---|---|---|
| `logic/stamping/lagrangesegment.py`, `lagrangepickler.py` | `Expr`, `Segment`, `EquationModel`, `Cache` | sympy's printer, the hash (parameters of `Cache`), python's pickle format |
| `logic/stamping/lagrangestampdetails.py`, `matrixstamper.py` | `Stamper`, `Placement` | numba compilation, timing |
| `logic/stamping/matrixbuilder.py` | `Builder`, `BuilderViews` | the conversion to scipy's format, sympy |
| `models/components/*.py`, `models/optimization/*.py` | `Devices`, `Components`, `UnbalancedLine`, `DeviceControl` | names and printing |
| `logic/network/networkmodel.py` | `Placement`, `Start`, `Islands`, `Labels`, `Summary`, `CaseSummary` | pickling |
| `logic/nrsolver.py` | `Newton`, `Dumps`, `Labels` | printing; `.5g` formatting of numbers in dumps |
| `logic/residualdetails.py`, `logic/v_limiting.py` | `Residuals` | printing |
| `logic/homotopycontroller.py` | `Homotopy` | |
| `logic/devicecontroller.py` | `DeviceControl` | |
| `logic/powerflow.py` | `Execute`, `DeviceControl`, `TimeSeries`, `Start` | timing |
| `logic/powerflowresults.py` | `Results`, `Report`, `Disk` | the words around displayed values, the sign of a negative zero |
| `logic/graphanalyzer.py` | `Islands` | labels, colours, plotting |
| `logic/network/loadfactor.py`, `timeseriesprocessor.py`, `timeseriessettings.py`, `run_solver.py` | `TimeSeries`, `LoadNames`, `HourlyRun`, `SeriesRun`, `LoadFactor`, `CommandLine`, `FromPath`, `Islands`, `Results`, `Ratings` | pandas, argparse |
| `logic/network/parsers/raw/parser.py`, `data_classes.py`, `parse_transformers.py`, `networkloader.py` | `Raw`, `RawNetwork`, `Loader`, `FromPath` | the network itself: what a request answers is a parameter |
| `logic/network/parsers/raw/Data.py`, the python module `csv` | `RawText` | the writing of RAW files; names, areas, zones, owners and ratings are checked as the code checks them and not kept; messages |
| `ditto/readers/gridlabd/read.py` 68-197 | `Text`, `Glm`, `GlmInclude` | relative locations of included files, schedules beyond their text (`croniter`) |
| `ditto/readers/gridlabd/read.py` 199-1589, `load_parser.py`, `helpers.py` | `GlmObjects`, `GlmReader` | ratings, delays, positions; in C84 - C101 the reading of lines is a parameter, in C104 - C108 it is that of `Model/LineReader` |
| `ditto/readers/gridlabd/line_impedance.py`, `read.py` 825-1252 | `LineImpedance`, `LineReader` | the positions `X`, `Y` of wires; shielded cables, whose attributes are never set |
| `logic/network/parsers/threephase/*.py` | `ThreePhase` | |

Not modelled at all: the other readers and the writers of `ditto` (CYME, OpenDSS, Synergi, DEW, WindMil, CSV, JSON), its metrics and
consistency checks, `schema.json` validation, plotting.

### Hypotheses that recur

* `Network.Valid`: the indices an element refers to are buses of the network, and its constructor accepted its numbers. C67, C79 and
  the RAW and GridLAB-D theorems provide it for loaded networks.
* `Keeps readLine`: reading a line rewrites nothing but lines and conductors. It is what `read.py` 825-1252 does.
* `OuterFile`: no name in a file ends like the names the parser gives to inner buses (`-Reg`, `-Fuse`, `_primary`, `_sending_1`,
  `_sending_2`). With such a name a bus could be taken for another.
* `(objs.map Prod.fst).Nodup`: the keys of a dictionary are different.

## How the properties are proved

| group | method |
|---|---|
| expressions and segments (C01, C61, C65) | structural induction on expressions; `HasDerivAt` |
| assembly (C02, C04 - C08, C58, C59, C67) | induction over stamp lists, histories of the builder, the element list with its counter |
| device equations (C09 - C18, C31, C66) | derivatives of the Lagrangian evaluated, identities of complex numbers |
| optimization (C19, C20, C35, C69, C70) | symmetry of couplings, gradients of the network Lagrangian |
| Newton and homotopy (C03, C21 - C25, C32, C33, C68) | induction on iterations, for every stamper and linear solver |
| device control (C26 - C30) | invariants of the state machines and the outer loop |
| results (C34 - C38, C62, C63) | complex identities on solutions |
| time series and command line (C39 - C43, C71, C72) | induction over loads, hours and rounds |
| islands (C44 - C46, C73, C74) | paths as reflexive transitive closure, for every correct list of components |
| RAW (C47 - C51, C75 - C81) | induction over records; refinement to Kirchhoff's laws of the case |
| GridLAB-D rows (C52, C56, C64, C82, C83, C88) | induction over rows and characters |
| GridLAB-D lines (C53 - C55, C89, C93 - C95) | matrix algebra, positive definiteness, Schur complements |
| GridLAB-D files (C60, C84 - C87, C90 - C92, C92, C96 - C108) | the loop over objects as a fold that only appends; every device of the network is related to the object that asks for it |
| start vector (C57) | list induction |

## The properties

| id | title | status | theorems in `Verif/Props/` |
|---|---|---|---|
| C01 | Stamps are the exact Newton linearisation of the device equations | proved | DeviceStamps, Newton, Stamps |
| C02 | A Newton fixed point solves the network equations | proved | Assembly, Kirchhoff, Newton |
| C03 | A reported success means the returned voltages satisfy the tolerance | partial | Newton |
| C04 | The matrix handed to the linear solver holds exactly the current iteration's stamps | partial | Matrix |
| C05 | Linear stamps survive every iteration unchanged | proved | Matrix |
| C06 | Debug mode never hands garbage to the solver | proved | Matrix |
| C07 | Unknowns get unique, gap-free matrix indices | partial | Placement |
| C08 | Every equation lands on its own row: system is square | proved | Assembly, Kirchhoff |
| C09 | Two-terminal devices conserve current | proved | Devices |
| C10 | A constant-power load draws exactly P + jQ | proved | Devices |
| C11 | A load's impedance and current parts draw the specified power | proved | Devices |
| C12 | A PV generator injects its scheduled P and holds |V| at the set point | proved | Devices |
| C13 | Slack, voltage source and closed switch pin voltages; open switch and open capacitor contribute nothing | proved | Devices |
| C14 | The ideal transformer is lossless and enforces ratio and phase shift | proved | Transformers |
| C15 | The center-tap transformer is lossless with opposite secondaries | proved | Transformers |
| C16 | Series/shunt branch model is the pi-equivalent with passive losses | proved | Devices |
| C17 | Homotopy deforms the network and ends at the original one | proved | Transformers |
| C18 | Unbalanced line currents equal the admittance matrix applied to the voltage drops | proved | Lines |
| C19 | In optimization mode the stamped system is the gradient of one Lagrangian | proved | Optimization |
| C20 | L2 infeasibility: stationarity and zero slack on feasible networks | proved | Optimization |
| C21 | Newton loop bookkeeping | proved | Newton |
| C22 | A converged iterate is never reported as failure | partial | Newton |
| C23 | Homotopy success means the undeformed network was solved | proved | Homotopy |
| C24 | Reported homotopy percentage is in [0,1] and 0 on success | partial | Homotopy |
| C25 | Each Newton run linearises at the vector it was given | partial | Newton |
| C26 | Device control returns only settled solutions, within ten solves | proved | DeviceControl |
| C27 | A fuse blows at most once and never resets | proved | DeviceControl |
| C28 | A blown fuse removes the branch from the solve | partial | DeviceControl |
| C29 | Regulator tap stays in range and ratio matches tap | proved | DeviceControl |
| C30 | Voltage-controlled capacitor switching regulates voltage | partial | DeviceControl |
| C31 | A closed capacitor supplies its rated vars at nominal voltage | proved | Devices |
| C32 | Voltage limiting clips bus voltages only | proved | Residuals |
| C33 | Residual report is the true max-norm of the summed contributions | proved | Residuals |
| C34 | Reported slack power is the physical complex power | partial | Results |
| C35 | Reported infeasibility totals equal the infeasibility power | partial | Infeasibility |
| C36 | Reported bus voltage is the polar form of the solution | partial | Results |
| C37 | Reported generator power has the sign of generation | partial | Results |
| C38 | Reported transformer power is the physical complex power | partial | Results |
| C39 | Command line default leaves loads unchanged | partial | TimeSeries |
| C40 | Load factor scales and composes | proved | TimeSeries |
| C41 | Hourly load values keep the power factor | partial | TimeSeries |
| C42 | Quasi time series covers exactly the requested hours | partial | TimeSeries |
| C43 | Swing-bus balancing stops only when balanced | partial | TimeSeries |
| C44 | Island selection keeps the selected island intact | partial | Islands |
| C45 | A solved network is one connected island | proved | Islands |
| C46 | Voltage-island validation bounds nominal voltage spread | proved | Islands |
| C47 | Merging generators on one bus adds their output | partial | Raw |
| C48 | Out-of-service equipment is not loaded from RAW files | proved | Raw, RawTransformers |
| C49 | RAW load quantities are converted to per unit consistently | partial | RawQuantities |
| C50 | Switched-shunt limits are the sum of its capacitive and reactive blocks | partial | RawQuantities |
| C51 | Three-winding delta-star conversion reproduces pairwise impedances | proved | RawQuantities |
| C52 | Phase string parsing | partial | GlmObjects |
| C53 | Kron reduction is exact neutral elimination | proved | LineImpedance |
| C54 | Line impedance uses the spacing of its own conductors | partial | LineImpedance |
| C55 | Line charging is applied once in total | partial | LineCharge, LineImpedance |
| C56 | Multi-phase switches and fuses connect every listed phase | partial | GlmObjects |
| C57 | Initial vector assigns every multiplier | partial | Start |
| C58 | Input sharing does not mix devices | proved | Assembly, Kirchhoff |
| C59 | Terminals on ground read as zero voltage | proved | Assembly |
| C60 | Phase pairing of three-phase transformer windings | proved | GlmTransformers |
| C61 | Stamped-once classification is sound | proved | Stamps |
| C62 | Output files distinguish failure | proved | Results |
| C63 | Rating violations are reported iff one exists | partial | Results |
| C64 | Line length units | partial | GlmObjects |
| C65 | Two-terminal constructor rejects undeclared symbols | partial | Declared |
| C66 | A low-impedance transformer winding conducts | partial | Transformers |
| C67 | The assembled system is Kirchhoff's laws | proved | Kirchhoff |
| C68 | The reported residuals are those of the returned voltages | partial | Homotopy |
| C69 | A network without nonlinear devices is solved exactly in at most two Newton iterations | proved | Linear |
| C70 | L1 infeasibility minimises the sum of absolute currents with nonnegative parts | partial | Infeasibility |
| C71 | A run with --outputfile that shows results writes them | partial | TimeSeries |
| C72 | A failed time-series run is reported as failed | partial | TimeSeries |
| C73 | Every bus of an accepted network is connected | partial | Islands |
| C74 | Acceptance of a network does not vary between runs | partial | Islands |
| C75 | Every per-unit quantity of a RAW case uses the file's system base | partial | RawLoading |
| C76 | Wind machines get reactive limits from their power factor | partial | RawLoading |
| C77 | A two-winding transformer of a RAW case is the circuit its record describes | proved | RawTransformers |
| C78 | Sound RAW cases load | partial | RawLoads |
| C79 | Solving a loaded RAW case solves the power flow of its records | partial | RawPowerFlow |
| C80 | Loaded generators carry the reactive limits of their records | proved | RawLimits |
| C81 | A GridLAB-D file reads back as the objects written in it | proved | Glm |
| C82 | Comments do not change what a file means | partial | Glm |
| C83 | A nested object does not disturb the object around it | partial | Glm |
| C84 | Every phase of every node of a feeder is one bus | partial | GlmFile |
| C85 | Every load of a feeder is in the network where the file puts it | proved | GlmFile |
| C86 | Every fuse of a feeder is in the network | partial | GlmFile |
| C87 | Every switch of a feeder is in the network | partial | GlmFile |
| C88 | Conductor data are read in the units written | partial | GlmObjects |
| C89 | Overhead line impedance is reciprocal and passive | proved | LineImpedance |
| C90 | Transformer banks have the ratio and impedance of their configuration | partial | GlmTransformers |
| C91 | Every capacitor of a feeder is in the network | partial | GlmFile |
| C92 | A sound GridLAB-D feeder is accepted | partial | GlmAcceptance, LineAcceptance |
| C93 | A complete overhead line is accepted | proved | LineImpedance |
| C94 | Potential coefficients use one length unit | partial | LineImpedance |
| C95 | Overhead line charging is reciprocal | partial | LineImpedance |
| C96 | Base power loads are divided as the file says | partial | GlmFile |
| C97 | Center tap transformers have the ratio and impedances of their configuration | partial | GlmTransformers |
| C98 | Every regulator of a feeder is in the network | partial | GlmFile |
| C99 | A bus has the voltage of its node | partial | GlmNominal |
| C100 | The lines of a file are the lines of the network | proved | GlmFlow |
| C101 | Solving a GridLAB-D file solves its circuit | partial | GlmFlow |
| C102 | Numbers in a file are read as the numbers they denote | partial | GlmNumbers |
| C103 | A quantity written with a unit is read in that unit | partial | GlmUnits |
| C104 | A line is read from its own objects | partial | LineReader |
| C105 | Lines of a file are reciprocal and passive | partial | LineLaws |
| C106 | Lines that are read are built | partial | LineBuilt |
| C107 | Lines obey Carson's equations | partial | LineCarson |
| C108 | Solving a GridLAB-D file solves its circuit, lines included | partial | GlmCarson |
| C109 | The lines of a RAW file are cut into their fields | proved | RawText |
| C110 | The case that is loaded is the case the file states | partial | RawText, RawTextFaults |
| C111 | The order of records does not matter | partial | RawText, RawTextFaults |
| C112 | From the text of a RAW file to the solution | partial | RawText |
| C113 | Files of unknown versions are refused | proved | RawText |
| C114 | The cache of derivatives never changes a result | partial | Cache |
| C115 | A run that solves ends with its results shown and written | partial | Report |
| C116 | Buses are told apart in the check for islands | partial | SharedNames |
| C117 | Reported load power is the power drawn | partial | Report |
| C118 | Reported powers are in the unit of the heading | partial | Report |
| C119 | A file is read by the reader for its format | partial | Loader |
| C120 | Output files read back as the results | partial | Report |
| C121 | Power delivered is power demanded plus losses | proved | Balance |
| C122 | Reported powers balance up to the losses | partial | Balance |
| C123 | The solver finds solutions it is started near | partial | Converge |
| C124 | Near a solution, the tolerance bounds the error of the voltages | proved | Accuracy |
| C125 | Connected networks of resistive equipment are solved from every start | partial | Light, Unique |
| C126 | The order of equipment and the numbers of buses do not matter | proved | Symmetry |
| C127 | The angle of the slack is only a reference | partial | Symmetry |
| C128 | The place printed for the largest residual is the right place | partial | Labels |
| C129 | Dumped matrices are the solved systems and dumping changes no result | partial | Dumps |
| C130 | Lightly loaded networks are solved | partial | Light, LightFar |
| C131 | Options of the command line have the effect they name | partial | CommandLine |
| C132 | Infeasibility analysis locates what a linear network lacks | partial | InfeasibilityLinear |
| C133 | Equipment is checked against the ratings of the file | partial | Ratings |
| C134 | The units a network is written in do not matter | partial | Units |
| C135 | Loads within a simple bound leave the network with a solution | partial | Margin |
| C136 | Infeasibility currents bring in exactly the power that is missing | partial | InfeasibilityBalance |
| C137 | A balanced three-phase network behaves as its single-phase equivalent | proved | Balanced |
| C138 | Equipment may be exchanged for equivalent equipment | proved | Exchange |
| C139 | A closed switch makes two buses one | proved | Join |
| C140 | A bus in the middle or at the open end of a line changes nothing elsewhere | proved | Join |
| C141 | Superposition | proved | Superposition |
| C142 | Reciprocity | proved | Superposition |
| C143 | Lightly loaded cases are solved | partial | RawRun |
| C144 | What execute returns | partial | Execute, RawExecute |
| C145 | Lightly loaded feeders are solved | partial | GlmRun |
| C146 | What execute refuses and returns for feeders | partial | GlmExecute |
| C147 | Where feeders start | partial | GlmStarts |
| C148 | Feeders with lines by their conductors are solved from file to results | partial | LineSupply |
| C149 | Feeders with charged lines are solved from file to results | partial | ChargeSupply |
| C150 | A feeder in several files reads as one | partial | GlmInclude |
| C151 | From a path to the results | partial | FromPath |
| C152 | A column of the load file reaches the load it names | partial | LoadNames |
| C153 | The printed summary counts what is in the file | partial | CaseSummary, Summary |
| C154 | The hours of a load file are solved, each at its own loads | partial | HourlyRun |
| C155 | Checking the ratings never breaks a run | partial | Checked |
| C156 | The files of a run hold its results, each under its own name | partial | Disk |
| C157 | From the options of a time series to its files | partial | SeriesRun |
| C158 | All views of a matrix show the same matrix | partial | BuilderViews |
| C159 | Solving a network again gives the same answer | partial | SolveAgain |
| C160 | Models can be given by equations alone | partial | EquationModel |

## Disagreements between code and properties

Each is a theorem with a concrete witness, or for all inputs of a kind.

* **C03** `C03_success_residual_fails`: For every tolerance up to one quarter, every iteration limit and limiting, and an exact linear solver: there is a valid network and a start vector for which the run reports success, although the returned voltages violate an equation by more than the tolerance, and although no voltages at all satisfy the network's equations.
* **C04** `C04_matrix_current_fails`: There are stamp values for which the matrix of an iteration still contains an entry of an earlier one: an entry that was 5 in the first iteration and is 0 in the second stays 5.
* **C07** `C07_L1_multipliers_fails`: They are separate variables of the L1 Lagrangian but are given the columns of the currents they belong to.
* **C22** `C22_converged_is_success_fails`: Residuals that rise from 2 to 49 over 49 iterations and drop to 0 in the fiftieth: the measured residual of the last iteration is below the tolerance, yet the run reports failure, because the trend check comes first.
* **C24** `C24_percentage_fails`: A Newton solver that fails once and then succeeds: the solve succeeds after 102 runs, the last one at factor 0, and reports a percentage of -0.01.
* **C25** `C25_second_run_fails`: Two runs on one stamper, the second started from the first one's result, as in a homotopy sequence: the first ends at iteration 0, so the second ignores its start vector. It reports success at iteration 0 although an equation at its start vector is violated by more than the tolerance, and it returns a vector that is not the Newton step from its start vector.
* **C28** `C28_blown_fuse_fails`: The network is solved exactly, the fuse carries twice its limit, device control blows it, and the run ends in an exception instead of a solution with the branch open. From the flat start with no currents.
* **C30** `C30_direction_fails`: A capacitor in voltage mode with band 0.9 to 1.1. At 0.8 an open capacitor stays open and a closed one is switched out; at 1.2 an open one is switched in.
* **C34** `C34_slack_power_fails`: A solved network, all of whose equations hold, with a slack whose reported reactive power is not that of its voltage and current.
* **C35** `C35_totals_fails`: A solved network whose infeasibility current is not zero reports totals of zero.
* **C36** `C36_tiny_fails`: A non-zero voltage below `1e-8` is reported with angle 0.
* **C37** `C37_generator_sign_fails`: For every scheduled power but zero, the reported power has the opposite sign.
* **C38** `C38_transformer_fails`: A solved network with a transformer whose reported reactive power is zero while its winding draws one var.
* **C39** `C39_default_fails`: Without the argument every load with a constant power part is solved with the opposite sign, whatever the solver does.
* **C41** `C41_zero_hour_fails`: After an hour of zero the angle is lost: the load of one var becomes a load of one watt.
* **C42** `C42_missing_hour_fails`: An hour beyond the file is solved with the values of the hour before.
* **C42** `C42_same_name_fails`: The loads of phases `1` and `12` of a triplex load have one name, so the first of them never gets a value from the file, under no column and no hour.
* **C43** `C43_exchange_fails`: A solved network whose swing bus exchanges one var counts as balanced: the reported powers of the swing bus leave it out.
* **C44** `C44_grounded_fails`: In every network every load and capacitor to ground is dropped, those of the selected island too; a one-node network with its load is such a case.
* **C47** `C47_merge_fails`: With one machine at the bus the case loads, with a second one `parse_raw` raises `AttributeError`.
* **C49** `C49_parts_fails`: a constant-current load of 10 MW is loaded as 1000 MW, a constant-admittance load of 10 MW as nothing.
* **C50** `C50_sums_fails`: a zero block in front hides a capacitor block of 5 Mvar.
* **C52** `C52_separator_fails`: `A|B|C|N`, the way GridLAB-D itself writes a set of phases: the separators become phases.
* **C54** `C54_spare_conductor_fails`: A line with the conductors `A` and `C`, in a configuration whose spacing object has distances for three conductors (2 feet from `A` to `B`, 4.5 from `A` to `C`): the mutual impedance is that of 2 feet.
* **C54** `C54_unit_fails`: Two metres are taken as two feet: whatever the unit behind it, only the number counts.
* **C55** `C55_charging_fails`: A line of one meter and one phase with potential coefficient 1 and one volt at both ends: its charging current is not what flows into its shunts.
* **C56** `C56_wires_fails`: A switch and a fuse on three phases that say nothing about their state: only the first phase gets a wire.
* **C57** `C57_distribution_multipliers_fails`: the start value of both multipliers is 0 at every bus of every network.
* **C57** `C57_second_multiplier_fails`: In optimization mode no start vector of any network sets it: it is 0 at every bus.
* **C63** `C63_ratings_fails`: On a line with coupled phases the check can answer no although both phases are overloaded: here each carries three amperes, rated two and a half.
* **C64** `C64_exponent_fails`: `5e-1km` is half a kilometre; it is read as 51 kilometres, because sign and exponent letter are removed together with the unit.
* **C64** `C64_space_fails`: `5km` is five kilometres. With a space before the unit it is five feet.
* **C65** `C65_imaginary_fails`: With both to-side equations given, a constructor call whose imaginary from-side equation is an undeclared symbol is accepted, and the Lagrangian it yields is not settled by its parameters: the second check of the from side looks at the real equation again.
* **C66** `C66_zero_impedance_winding_fails`: A center-tap winding specified with zero impedance becomes an open circuit, not a short: the admittance stamped is zero, so no current flows whatever the voltage across it.
* **C68** `C68_report_fails`: On the feeder of C03 the reported maximum residual is below the tolerance, while an equation at the returned voltages is off by more than the tolerance.
* **C70** `C70_L1_nonnegative_fails`: The parts of an `L1` current should be nonnegative; at no solution of any network with a bus are they.
* **C71** `C71_swing_bus_fails`: With a swing bus and no load file nothing is ever written.
* **C72** `C72_failure_masked_fails`: A time series or balancing run that raises is followed by a plain power flow on the loads left behind; its result is shown and written under the name asked for.
* **C73** `C73_floating_bus_fails`: A network with a bus (phase B of the second node) to which nothing is connected passes the checks.
* **C74** `C74_order_fails`: Two correct lists of the same islands, which differ only in the order in which the nodes of a set are visited: with one the network is accepted, with the other refused.
* **C75** `C75_base_fails`: with a system base of 50 MVA a load of 50 MW, one per unit, is loaded as one half.
* **C76** `C76_limits_fails`: for machines whose limits follow from the power factor (wind mode 2): the reactive power at 80 MW and power factor 0.8 is 60 Mvar, but the generator keeps the recorded limits of 10 Mvar.
* **C78** `C78_line_shunt_fails`: no case with a branch in service that has a shunt at an end can be loaded.
* **C78** `C78_three_winding_fails`: no case with one in service between energised buses can be loaded, unless some bus has the number `-1`.
* **C78** `C78_two_holders_fails`: a case with two machines holding the voltage of one bus cannot be loaded.
* **C82** `C82_closing_comment_fails`: A comment behind a closing brace: the object is not closed, the next object is taken for a nested one, and its attributes overwrite those of the first. Of two nodes one is left, with the name of the second.
* **C83** `C83_nested_fails`: A nested object: its attributes are written onto the enclosing object, and it is not read as an object of its own.
* **C84** `C84_child_source_fails`: The source is a meter of 2400 V at a node. Its slack generator gets the voltage of the node read last before it, here 480 V of another node.
* **C86** `C86_state_fails`: A fuse the file says is blown is good.
* **C87** `C87_silent_fails`: A switch on three phases without any word on its state joins one phase. One that only says that phase `B` is closed joins only phase `B`, though its status is closed.
* **C88** `C88_second_line_fails`: Reading the conductor for one line removes the units from it, so the next line that uses it reads centimetres as feet and ohms per kilometre as ohms per mile.
* **C90** `C90_shunt_fails`: A transformer with a shunt impedance is read as the same network as one without.
* **C91** `C91_delta_fails`: A bank whose phases say delta is connected from each phase to ground.
* **C92** `C92_child_fails`: A meter without nominal voltage takes that of its parent away, which then cannot be built: `TypeError`. Without the meter the file is read.
* **C92** `C92_delta_fails`: A load in delta whose power is given for two phases: `TypeError`. Given for the first of the two the file is read.
* **C92** `C92_order_fails`: A node before its parent: `KeyError`. In the other order the file is read.
* **C92** `C92_regulator_fails`: A regulator on one phase is refused, one on three phases is read.
* **C94** `C94_radius_fails`: The potential coefficient of a conductor with itself is `11.17689 ln (2 h / r)` with height `h` and radius `r` in the same unit. It is computed for a conductor of twelve times the diameter: inches are put into a formula with feet.
* **C95** `C95_symmetric_fails`: The charging matrix of two conductors of different height is not symmetric. The distance to the image of the other conductor is computed from the height of the first alone.
* **C96** `C96_fractions_fails`: A load of base power 1000 at a power factor of 0.9 has no reactive power; one of constant impedance at this power is a constant power load; one that leaves out one of the six fractions and power factors draws nothing.
* **C97** `C97_kilovolts_fails`: A secondary of 0.12 kV: one half has a rated voltage of 120 V, the other of 0.12 V, so that its impedance is a millionth of that of the first half.
* **C97** `C97_windings_fails`: The resistances of the two halves of the secondary, 0.03 each, are not used; both have that of `resistance`, 0.01.
* **C98** `C98_two_phases_fails`: A regulator on two phases is refused.
* **C99** `C99_child_voltage_fails`: A node of 2400 V with a meter of 2300 V has buses of 2300 V.
* **C102** `C102_polar_fails`: A voltage written as magnitude and angle in degrees, as GridLAB-D writes it, is never read.
* **C103** `C103_other_units_fails`: Every other unit, on every class of objects, is dropped: the number is read as if it were not there.
* **C104** `C104_spacing_fails`: A line whose configuration has no spacing is read with the distances of the line before it: in two files that differ only in a spacing that it does not name, it has different mutual impedances. As the only line it cannot be read.
* **C105** `C105_incomplete_fails`: A line whose conductors have a radius but no resistance is read, with zeros on the diagonal of its impedance matrix, and gives power: a current that flows out in one conductor and back in the other gains real power from the line.
* **C106** `C106_phases_fails`: An overhead line with phase A only, whose configuration names conductors for A and B, is read with a matrix of one row but two phases, and cannot be built between any buses.
* **C107** `C107_strands_fails`: Of two cables one foot apart, the strands half a foot around their conductors, one has six and one has twelve strands. The distance of the second conductor and the six strands of the first cable is computed as if they were twelve.
* **C107** `C107_touching_fails`: Two cables of one inch that touch are one inch apart; the program has them one foot apart.
* **C110** `C110_blank_line_fails`: A blank line between records raises `IndexError`.
* **C110** `C110_branch_status_fails`: A blank status, which stands for a branch in service, is refused.
* **C110** `C110_bus_shunt_fails`: The admittance `GL`, `BL` of a bus is read and lost.
* **C110** `C110_comment_fails`: They are taken off bus rows, not off load rows.
* **C110** `C110_control_fails`: A winding row of version 34 has twelve ratings; the control mode and the limits of the tap are read out of the columns of ratings. Here `COD = 1`, `RMA = 1.05`, `RMI = 0.95`, `NTP = 17` are stated, and the ratings 4, 6, 7 and 10 are read.
* **C110** `C110_generator_fails`: The only generator, written with 15 fields, is dropped without a message.
* **C110** `C110_last_comment_fails`: In version 33 the row after a comment in the last section is not looked at: the `Q` is missed.
* **C110** `C110_name_fails`: A FACTS device whose name starts with `Q` is taken for the end of the file: the switched shunts that follow are lost without a message.
* **C110** `C110_short_fails`: Fields at the end of a bus or load row cannot be left to their defaults.
* **C110** `C110_terminator_fails`: `0 / END OF BUS DATA` ends the section, `0/ END OF BUS DATA` is read as a bus and refused.
* **C110** `C110_transformer_fails`: A two-winding transformer has third bus 0; a blank third bus, which stands for 0, makes the reader look for a fifth row and refuse the file. A blank circuit, which stands for `1`, is refused.
* **C110** `C110_wind_fails`: With 28 fields the last two are mode and power factor. With the power factor left to its default, the share of the fourth owner is read as the mode and the mode as the power factor: a machine that is no wind machine becomes one of mode 1.
* **C111** `C111_names_fails`: Of two loads with the same bus and identifier the later one is kept, so their order matters.
* **C114** `C114_rounded_numbers_fails`: A printer that rounds numbers, as sympy's does after fifteen digits, makes one key of two segments: the second is given the derivatives of the first.
* **C114** `C114_ten_digits_fails`: Ten digits cannot tell all segments apart: for every printer, every hash and every version there are two segments such that a program asking for the second, after a program asked for the first, is given derivatives that are not those of its segment.
* **C114** `C114_version_not_raised_fails`: Changing what the code computes without changing `VERSION` leaves the old results in force: a program asking for a segment is given what the older code stored.
* **C115** `C115_verbose_fails`: with `--verbose`: displaying any result raises an exception, and every run without load file and swing bus ends with an exception before it writes its files, though the network was solved.
* **C116** `C116_same_name_fails`: for buses with the same name, such as the twelve blanks of buses without one: whatever their number and their elements, the network passes the checks, so also the one of two swing buses of one name without any branch, which are not joined.
* **C117** `C117_parts_fails`: for the other parts: at every voltage, a load whose current part takes in power is reported with another power, and so is one whose impedance takes in power.
* **C118** `C118_unit_fails`: in a loaded case no load record of non-zero active power has its megawatts in the file; the field `P(MW)` of a load of 50 MW holds a number within half a hundredth of 0.5, and that of a load of 0.4 MW one within half a hundredth of 0.004, so that zero may be shown.
* **C119** `C119_overwrites_fails`: for files in the temporary directory: loading from an address destroys a file there that has the name at the end of the address, even if the download then fails.
* **C119** `C119_reader_fails`: for some names: a RAW file in a directory whose name has `.glm` in it is given to the reader for GridLAB-D, and files that end in `.raw`, as PSS/E writes them, or `.GLM` are refused.
* **C120** `C120_bus_column_fails`: for the column `bus` of a load: it holds the name of the bus, not its number. A load at bus 7, called `3`, is listed as one at bus 3.
* **C120** `C120_comma_fails`: for names with a comma: the row of a bus called `A,B` has five fields, whatever its voltage.
* **C122** `C122_angle_fails`: The network below is solved and its shunt takes one unit of active power, yet the active powers of the report add up to zero.
* **C125** `C125_switches_fails`: In the network below all equipment is resistive and both buses are held at one volt, yet every solve, from any start vector and with any settings, raises an exception: how two closed switches share a current is not determined, and the matrix is singular.
* **C127** `C127_current_fails`: The current of such a load is a fixed phasor, so its power factor depends on the angle of the slack. With the slack at one volt and angle zero the load has half a volt; with the slack at 90 degrees, more than one volt.
* **C127** `C127_slack_fails`: A slack that feeds one siemens reports the active power -1 at angle zero and 0 at 90 degrees.
* **C128** `C128_other_fails`: The equation of the voltage set point of a generator is printed as `other`.
* **C128** `C128_shared_fails`: The currents of two transformers fed from one bus are different unknowns printed under the same text.
* **C129** `C129_given_up_fails`: A run that is given up for lack of progress returns voltages but does not write them: the voltage file is that of an earlier run, or missing.
* **C129** `C129_left_over_fails`: Files of later iterations of an earlier run stay: a run of one iteration into a directory with a `Y6` file leaves that file, so the files of the directory do not tell the iterations of the run.
* **C131** `C131_default_factor_fails`: A plain run without this option solves the network with every load negated: what is shown and written is the power flow of loads that feed in what they should take.
* **C131** `C131_no_end_fails`: A run with a load file and any first hour that is not negative, but without `--loadend`, ends without any result, file or message.
* **C131** `C131_refused_hour_fails`: With a text that is not read as an integer, such as `24.0`, the results of a plain power flow are shown and written in place of those of the hours, after a message.
* **C131** `C131_select_fails`: There are a network and options for which the run with `--select_island False` shows another result than the run without this option.
* **C131** `C131_select_ignored_fails`: Such an option has no effect.
* **C131** `C131_transmission_fails`: Every run on a transmission network prints that post-processing is not supported, though none was asked for.
* **C132** `C132_located_fails`: A current of one ampere is drawn at a bus without a source. The analysis is meant to find the current that is missing there, and its equations do have solutions, one of which is shown; yet every run raises an exception, because they have many.
* **C133** `C133_bank_fails`: A bank of three coils rated 75 kVA: each coil is checked against 75 kVA, so a bank that carries almost three times what it is rated for, the same in each coil, passes.
* **C134** `C134_fuse_fails`: A fuse has a fixed series admittance of 10000 in whatever unit the admittances of the network are, so the same circuit with admittances written twice as large has another solution: half the voltage of the slack behind the fuse in one case, a third in the other.
* **C136** `C136_reported_fails`: Powers reported for infeasibility currents should be the power brought in. One watt is brought in at a bus without a source, and the totals reported are zero: the product of the real parts is reported as real power, with the sign of a load, and negative products are cut off (`powerflowresults.py` 171-191).
* **C144** `C144_names_fails`: Two separate systems are refused if their buses have different names. If the names are the same - in a RAW file they may be, and often are left blank - the check sees one node and the run goes ahead.
* **C147** `C147_nominal_fails`: A triplex node of 240 V between its legs on phase A starts with its first leg at 120 V and 120 degrees, which is the angle of phase C, and a bus with a capacitor rated for 2300 V starts there although its load says 2400 V.
* **C150** `C150_nested_fails`: for files included by included files: they are left out without a message. `g.glm` includes `f.glm`, which includes a file with a node; the node is not read.
* **C150** `C150_order_fails`: for the order: included objects come after all objects of the file. With a node in a file included at the top and its child below, the child is read first, and the feeder is refused with a `KeyError`. Written in one file the same objects are accepted.
* **C152** `C152_impedance_fails`: A load given by its impedance gets the power of its column on top of the impedance: a column of 1000 VA makes it a load of 1000 W at unit power factor beside the impedance of the file.
* **C152** `C152_shared_fails`: The column `cl_1A` is the column of the loads `north_1` and `south_1`. The first has 100 W in every hour, whatever the load file says.
* **C153** `C153_case_nodes_fails`: The names of buses may be left blank in a RAW file. Of two buses without a name one node is printed.
* **C153** `C153_loads_fails`: Three load objects, of which two have names that end alike: two loads are printed.
* **C153** `C153_nodes_fails`: Two nodes and a fuse between them: three nodes are printed.
* **C154** `C154_default_fails`: Without `--load_factor` the program multiplies all loads by -1 before the hours, and the hours keep the angles of the loads: for all feeders and load files as above every hour succeeds with the voltages of a feeder whose loads produce the power of the load file.
* **C155** `C155_zero_fails`: A node whose nominal voltage is given as zero is read and built, but whatever the solver finds, the check of the ratings divides by this voltage and ends the time series in an exception.
* **C156** `C156_overwritten_fails`: A plain run with the output name `n_hour` overwrites what a time series with the output name `n` wrote for this hour.
* **C156** `C156_stale_fails`: Run hours `a` to `b`, then hours `a` to `c` with `c < b` under the same output name, perhaps for another network: the files of the hours from `c` on still hold the results of the first run, beside those of the second.
* **C157** `C157_default_fails`: The same run without this option shows and writes, as successful results of the hours, the voltages of a feeder whose loads produce the powers of the load file.
* **C158** `C158_empty_fails`: The symbolic matrix of a fresh builder is an exception.
* **C158** `C158_symbolic_fails`: After a stamp and a clear no entry counts and all rows are empty, but the symbolic matrix still shows the stamp.
* **C160** `C160_equations_fails`: With an objective or an equation the constructor raises, declared or not: it looks for the check of the symbols in the wrong place.
