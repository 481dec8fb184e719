# Design of the formal model

Subject: `lucasgodshalk/combined-txds` (python, in `/repo`), a power-flow solver built on the
equivalent-circuit formulation. The code is read as text only; the model is written by hand,
function by function, in Lean 4 under `lean/Verif/`.

## Layout

* `Verif/Model/*.lean`  definitions that transcribe the code; each cites file and lines.
* `Verif/Lemmas/*.lean` helper lemmas about the model (no property statements).
* `Verif/Spec/*.lean`   small independent specifications (complex power, Kirchhoff's laws, paths, what a file asks for ...).
* `Verif/Props/*.lean`  the property theorems `Cnn_...`, with concrete examples that meet their hypotheses.
* `properties.jsonl`    the properties in English. `MANIFEST.json` maps them to theorems.
* `seeded/LOG.jsonl`    wrong programs tried against the theorems.
* `tools/`              scripts: `manifest.py` and `design.py` regenerate `MANIFEST.json` and this file, `genimports.sh` `Verif.lean`.

Where the code does not satisfy a property the disagreement is proved (`Cnn_..._fails` with a concrete
witness), a `Cnn_..._partial` theorem says what does hold, and the last section of this file records it.

## Trusted base

* Lean's kernel (4.33.0).
* Axioms: every theorem depends on no axiom other than `propext`, `Classical.choice` and `Quot.sound`
  (`#print axioms`, checked for all theorems named in the manifest by `tools/axioms.sh`). There are no axioms of our own, no
  `sorry`, no `native_decide` and no `bv_decide`. `decide +kernel` is used on closed examples and on the witnesses of `_fails`
  theorems; it is evaluated by the kernel.
* The definitions of Mathlib that occur in statements: real and complex numbers, matrices, derivatives, `Real.log`, `Real.sqrt`,
  `Complex.arg`, lists.
* The transcription from python to Lean, by hand. The line references stand beside every definition.

### Idealisations that hold for the whole model

* Floating point numbers are real numbers (or rationals where they come from a file). Rounding, overflow, `nan` and `inf` are not
  modelled. Where the code would go on with `nan` the model raises, and the comment says so.
* A python exception is a value of `Except`. Its kind is kept, its text is not.
* Printing, logging, matrix dumps and progress output are left out.
* The sparse linear solver (`scipy.sparse.linalg.spsolve`) is a parameter: any function from matrix and right-hand side to a vector or a
  failure. Theorems that need it to be right assume that what it returns solves the system.
* `sympy.expand`, `diff`, `free_symbols`, `lambdify` are modelled by functions on expression trees; that the python library agrees with
  them is assumed.
* Connected components come from networkx. The theorems hold for every correct list of components, in every order (`IsComponents`).
* Strings that serve as dictionary keys of the stamper (built from a segment, symbols and numbers) are replaced by the objects they are
  built from. That different objects give different strings is assumed.
* Text is ASCII: white space and digits outside ASCII are not modelled.
* Python's objects with shared references are modelled by values where nothing changes them after they are shared; where the code does
  change shared state (stamper across runs, conductors across lines, loads across hours) the state is threaded explicitly.

### Which parts of the code are modelled

| code (`/repo/src/`) | model | left out |
|---|---|---|
| `logic/stamping/lagrangesegment.py`, `lagrangepickler.py` | `Expr`, `Segment`, `EquationModel`, `Cache` | sympy's printer, the hash (parameters of `Cache`), python's pickle format |
| `logic/stamping/lagrangestampdetails.py`, `matrixstamper.py` | `Stamper`, `Placement` | numba compilation, timing |
| `logic/stamping/matrixbuilder.py` | `Builder`, `BuilderViews` | the conversion to scipy's format, sympy |
| `models/components/*.py`, `models/optimization/*.py` | `Devices`, `Components`, `UnbalancedLine`, `DeviceControl` | names and printing |
| `logic/network/networkmodel.py` | `Placement`, `Start`, `Islands`, `Labels`, `Summary`, `CaseSummary` | pickling |
| `logic/nrsolver.py` | `Newton`, `Dumps`, `Labels` | printing; `.5g` formatting of numbers in dumps |
| `logic/residualdetails.py`, `logic/v_limiting.py` | `Residuals` | printing |
| `logic/homotopycontroller.py` | `Homotopy` | |
| `logic/devicecontroller.py` | `DeviceControl` | |
| `logic/powerflow.py` | `Execute`, `DeviceControl`, `TimeSeries`, `Start` | timing |
| `logic/powerflowresults.py` | `Results`, `Report`, `Disk` | the words around displayed values, the sign of a negative zero |
| `logic/graphanalyzer.py` | `Islands` | labels, colours, plotting |
| `logic/network/loadfactor.py`, `timeseriesprocessor.py`, `timeseriessettings.py`, `run_solver.py` | `TimeSeries`, `LoadNames`, `HourlyRun`, `SeriesRun`, `LoadFactor`, `CommandLine`, `FromPath`, `Islands`, `Results`, `Ratings` | pandas, argparse |
| `logic/network/parsers/raw/parser.py`, `data_classes.py`, `parse_transformers.py`, `networkloader.py` | `Raw`, `RawNetwork`, `Loader`, `FromPath` | the network itself: what a request answers is a parameter |
| `logic/network/parsers/raw/Data.py`, the python module `csv` | `RawText` | the writing of RAW files; names, areas, zones, owners and ratings are checked as the code checks them and not kept; messages |
| `ditto/readers/gridlabd/read.py` 68-197 | `Text`, `Glm`, `GlmInclude` | relative locations of included files, schedules beyond their text (`croniter`) |
| `ditto/readers/gridlabd/read.py` 199-1589, `load_parser.py`, `helpers.py` | `GlmObjects`, `GlmReader` | ratings, delays, positions; in C84 - C101 the reading of lines is a parameter, in C104 - C108 it is that of `Model/LineReader` |
| `ditto/readers/gridlabd/line_impedance.py`, `read.py` 825-1252 | `LineImpedance`, `LineReader` | the positions `X`, `Y` of wires; shielded cables, whose attributes are never set |
| `logic/network/parsers/threephase/*.py` | `ThreePhase` | |

Not modelled at all: the other readers and the writers of `ditto` (CYME, OpenDSS, Synergi, DEW, WindMil, CSV, JSON), its metrics and
consistency checks, `schema.json` validation, plotting.

### Hypotheses that recur

* `Network.Valid`: the indices an element refers to are buses of the network, and its constructor accepted its numbers. C67, C79 and
  the RAW and GridLAB-D theorems provide it for loaded networks.
* `Keeps readLine`: reading a line rewrites nothing but lines and conductors. It is what `read.py` 825-1252 does.
* `OuterFile`: no name in a file ends like the names the parser gives to inner buses (`-Reg`, `-Fuse`, `_primary`, `_sending_1`,
  `_sending_2`). With such a name a bus could be taken for another.
* `(objs.map Prod.fst).Nodup`: the keys of a dictionary are different.

