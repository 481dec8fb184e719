import Verif.Model.GlmExecute
import Verif.Model.LoadNames

/-!
# The time series of a feeder
-/

namespace Verif

/-- The load an item is, with its buses: `network.loads` holds the items that are loads (`networkmodel.py` 26-27). -/
def Item.asLoad : Item → Option (Ref × Ref × Load)
  | .fixed (.load f t l) => some (f, t, l)
  | _ => none

/-- The items once `P` and `Q` of the load objects are set (`timeseriesprocessor.py` 155-156, 173-174): the loads of the network are these objects, in order
(`networkmodel.py` 48-56). In python the objects are shared; here their values are put into the items before a run. -/
def putItems : List Item → List NamedLoad → List Item
  | [], _ => []
  | i :: is, ls => match i.asLoad, ls with
    | some (f, t, _), l :: ls' => .fixed (.load f t l.load) :: putItems is ls'
    | some _, [] => i :: putItems is []
    | none, ls => i :: putItems is ls

/-- The network with the load objects as they are (`timeseriesprocessor.py` 147-156). -/
def DxNet.putLoads (D : DxNet) (ls : List NamedLoad) : DxNet := { D with items := putItems D.items ls }

end Verif

namespace Verif.Glm

variable {M : Type}

/-- The time series of a feeder (`timeseriesprocessor.py` 209-244): `powerflow.execute()` (`powerflow.py` 18-54) on the network with the loads as they are, the devices
as the run before left them. A run that ends in an exception is taken to leave the devices as they were; the series ends there. `solver` is `spsolve`, `islands` and
`voltageIslands` are what networkx finds; `mark` is the check of the ratings (`timeseriesprocessor.py` 178-207, 231-232), see `markViolations`. -/
noncomputable def feederSeries (L : Library) (S : PFSettings) (solver : PFNet → (ℕ → ℕ → ℝ) → (ℕ → ℝ) → Option (ℕ → ℝ)) (islands voltageIslands : PFNet → List (List Txt))
    (mark : Results → Except String Results) (g : Grid M) (names : ℕ → Txt × Txt) (cols : List Column) (start stop : ℤ) (swing : Option Txt) (negative : Option (List Txt))
    (outputfile : Option Txt) : TSConfig DxNet Results where
  solve σ ls :=
    let G := g.pf (σ.putLoads ls)
    match execute L S (solver G) (islands G) (voltageIslands G) G with
    | .ok (R, D) => (.ok R, D)
    | .error e => (.error e, σ.putLoads ls)
  gens := genOuts names
  mark := mark
  loadfile := some cols
  start := start
  stop := stop
  swing := swing
  negative := negative
  outputfile := outputfile

end Verif.Glm
