import Verif.Model.Segment
import Verif.Model.TimeSeries

/-!
# The cache of derivatives on disk

`/repo/src/logic/stamping/lagrangepickler.py` and the members of `LagrangeSegment` that use it
(`/repo/src/logic/stamping/lagrangesegment.py` 134-142, 168-192). The printer of sympy and the hash are arguments. Files are either whole or torn;
what `dill` writes and reads back is taken to be the same object. The directory of the temporary files is given and can be listed.
-/

namespace Verif

open Ex

/-- The names of the symbols (`wellknownvariables.py` 3-6; `line.py` 13; `voltagesource.py` 8-11; `center_tap_transformer.py` 10-13;
`slack.py` 9-11; `generator.py` 9-10; `load.py` 17, 29; `transformer.py` 12-15; `L2infeasibility.py` 35-36; `L1infeasibility.py` 35-36;
`lagrangesegment.py` 269, 290). The name of a further symbol is made up. -/
def Sym.name : Sym → Txt
  | .txFactor => "tx_factor".toList
  | .VrFrom => "V_from,r".toList | .ViFrom => "V_from,i".toList | .VrTo => "V_to,r".toList | .ViTo => "V_to,i".toList
  | .LrFrom => "lambda_from,r".toList | .LiFrom => "lambda_from,i".toList
  | .LrTo => "lambda_to,r".toList | .LiTo => "lambda_to,i".toList
  | .lam n => "lambda_".toList ++ Nat.toDigits 10 n
  | .G => "G".toList | .B => "B".toList | .P => "P".toList | .Q => "Q".toList | .Vset => "V_set".toList
  | .IP => "IP".toList | .IQ => "IQ".toList
  | .Vrset => "Vrset".toList | .Viset => "Viset".toList | .ISr => "I_Sr".toList | .ISi => "I_Si".toList
  | .Ir => "Ir".toList | .Ii => "Ii".toList | .VrSet => "Vr_set".toList | .ViSet => "Vi_set".toList
  | .tr => "tr".toList | .ang => "ang".toList
  | .VrPriPos => "Vr_pri_pos".toList | .ViPriPos => "Vi_pri_pos".toList
  | .VrPriNeg => "Vr_pri_neg".toList | .ViPriNeg => "Vi_pri_neg".toList
  | .IrPrim => "Ir_prim".toList | .IiPrim => "Ii_prim".toList
  | .VrSecPos => "Vr_sec_pos".toList | .ViSecPos => "Vi_sec_pos".toList
  | .VrSecNeg => "Vr_sec_neg".toList | .ViSecNeg => "Vi_sec_neg".toList
  | .LrPriPos => "Lr_pri_pos".toList | .LiPriPos => "Li_pri_pos".toList
  | .LrPriNeg => "Lr_pri_neg".toList | .LiPriNeg => "Li_pri_neg".toList
  | .LirPrim => "Lir_prim".toList | .LiiPrim => "Lii_prim".toList
  | .LrSecPos => "Lr_sec_pos".toList | .LiSecPos => "Li_sec_pos".toList
  | .LrSecNeg => "Lr_sec_neg".toList | .LiSecNeg => "Li_sec_neg".toList
  | .VrPri => "Vr_pri".toList | .ViPri => "Vi_pri".toList
  | .IrL1 => "Ir_L1".toList | .IiL1 => "Ii_L1".toList | .VrL1 => "Vr_L1".toList | .ViL1 => "Vi_L1".toList
  | .IrL2 => "Ir_L2".toList | .IiL2 => "Ii_L2".toList | .VrL2 => "Vr_L2".toList | .ViL2 => "Vi_L2".toList
  | .LrPri => "Lr_pri".toList | .LiPri => "Li_pri".toList
  | .LirL1 => "Lir_L1".toList | .LiiL1 => "Lii_L1".toList | .LrL1 => "Lr_L1".toList | .LiL1 => "Li_L1".toList
  | .LirL2 => "Lir_L2".toList | .LiiL2 => "Lii_L2".toList | .LrL2 => "Lr_L2".toList | .LiL2 => "Li_L2".toList
  | .Iir => "Iir".toList | .Iii => "Iii".toList | .LVr => "lambda_Vr".toList | .LVi => "lambda_Vi".toList
  | .IirPlus => "Iir_plus".toList | .IiiPlus => "Iii_plus".toList
  | .IirMinus => "Iir_minus".toList | .IiiMinus => "Iii_minus".toList
  | .VrBus => "Vr".toList | .ViBus => "Vi".toList
  | .muVrPlus => "mu_Vr_plus".toList | .muViPlus => "mu_Vi_plus".toList
  | .muVrMinus => "mu_Vr_minus".toList | .muViMinus => "mu_Vi_minus".toList
  | .other n => "other_".toList ++ Nat.toDigits 10 n

/-- The entries of a printed tuple of at least one symbol (`lagrangesegment.py` 142). -/
def joinNames : List Sym → Txt
  | [] => []
  | [x] => x.name
  | x :: y :: r => x.name ++ ',' :: ' ' :: joinNames (y :: r)

/-- `str` of a tuple of symbols (`lagrangesegment.py` 142): a tuple of one entry is printed with a comma after it. -/
def tupleText : List Sym → Txt
  | [] => "()".toList
  | [x] => '(' :: (x.name ++ [',', ')'])
  | l => '(' :: (joinNames l ++ [')'])

/-- `self.lagrange_key` (`lagrangesegment.py` 142) for the value `version` of `VERSION` (line 134); `pr` is the printer of expressions. -/
def lagrangeKey (pr : Ex → Txt) (version : ℕ) (s : Segment) : Txt :=
  Nat.toDigits 10 version ++ ',' :: (pr s.lagrange ++ ',' :: (tupleText s.constants ++ ',' :: (tupleText s.primals ++ ',' :: tupleText s.duals)))

/-- A row of hexadecimal digits, as `hexdigest()` gives (`lagrangepickler.py` 17). -/
abbrev HexDigits := List (Fin 16)

/-- `_get_pickle_file` (`lagrangepickler.py` 14-19): the first ten hexadecimal digits of the hash. The directory and the ending `.p` are the
same for all files and left out. -/
def pickleFile (sha : Txt → HexDigits) (key : Txt) : HexDigits := (sha key).take 10

/-- The dictionary `_derivatives` (`lagrangesegment.py` 181-190): for every variable, the derivative and the entries of its `DerivativeEntry`. -/
abbrev Derivs := List (Sym × Ex × List Entry)

/-- `_generate_derivatives` (`lagrangesegment.py` 181-190), without the last line. -/
def generateDerivs (s : Segment) : Derivs := s.vars.map fun x => (x, s.derivative x, s.entries x)

/-- What a file of the cache holds: a complete pickle, or something `dill.load` raises on (`lagrangepickler.py` 31). -/
inductive Pickle
  | whole (d : Derivs)
  | torn

/-- The cache directory (`lagrangepickler.py` 10-12). -/
abbrev CacheDir := HexDigits → Option Pickle

/-- `has_pickle` (`lagrangepickler.py` 21-23). -/
def hasPickle (sha : Txt → HexDigits) (dir : CacheDir) (key : Txt) : Bool := (dir (pickleFile sha key)).isSome

/-- `try_unpickle` (`lagrangepickler.py` 25-33). -/
def tryUnpickle (sha : Txt → HexDigits) (dir : CacheDir) (key : Txt) : Except String Derivs :=
  if hasPickle sha dir key then
    match dir (pickleFile sha key) with
    | some (.whole d) => .ok d
    | _ => .error "UnpicklingError"
  else .error "No pickle file exists."

/-- How writing a file goes: it succeeds, the file cannot be opened, or writing stops in the middle (`lagrangepickler.py` 37). -/
inductive Writing
  | succeeds
  | refused
  | breaksOff

/-- `try_pickle` (`lagrangepickler.py` 35-37): the exception, if any, and the directory afterwards. -/
def tryPickle (sha : Txt → HexDigits) (dir : CacheDir) (key : Txt) (d : Derivs) : Writing → Option String × CacheDir
  | .succeeds => (none, Function.update dir (pickleFile sha key) (some (.whole d)))
  | .refused => (some "OSError", dir)
  | .breaksOff => (some "OSError", Function.update dir (pickleFile sha key) (some .torn))

/-- One `LagrangeSegment` object: what it was made of, and `_derivatives` (`lagrangesegment.py` 136-142, 155). -/
structure SegmentObject where
  seg : Segment
  memo : Option Derivs

/-- `_generate_derivatives` with its last line (`lagrangesegment.py` 180-192): the answer or exception, the object and the directory
afterwards. `gen` is the computation, `generateDerivs` in this version of the code. -/
def generateAndPickle (pr : Ex → Txt) (sha : Txt → HexDigits) (version : ℕ) (gen : Segment → Derivs) (w : Writing) (o : SegmentObject)
    (dir : CacheDir) : Except String Derivs × SegmentObject × CacheDir :=
  let d := gen o.seg
  match tryPickle sha dir (lagrangeKey pr version o.seg) d w with
  | (none, dir') => (.ok d, { o with memo := some d }, dir')
  | (some e, dir') => (.error e, { o with memo := some d }, dir')

/-- `get_derivatives` (`lagrangesegment.py` 168-178). -/
def getDerivatives (pr : Ex → Txt) (sha : Txt → HexDigits) (version : ℕ) (gen : Segment → Derivs) (w : Writing) (o : SegmentObject)
    (dir : CacheDir) : Except String Derivs × SegmentObject × CacheDir :=
  match o.memo with
  | some d => (.ok d, o, dir)
  | none =>
    if hasPickle sha dir (lagrangeKey pr version o.seg) then
      match tryUnpickle sha dir (lagrangeKey pr version o.seg) with
      | .ok d => (.ok d, { o with memo := some d }, dir)
      | .error _ => generateAndPickle pr sha version gen w o dir
    else generateAndPickle pr sha version gen w o dir

/-- What happens on one machine: a segment object is made (`lagrangesegment.py` 136), its derivatives are asked for (line 168), the program is
started anew and its objects are gone, a file of the directory is damaged, or removed. -/
inductive CacheEvent
  | create (s : Segment)
  | ask (i : ℕ) (w : Writing)
  | restart
  | damage (file : HexDigits)
  | remove (file : HexDigits)

/-- The objects of the running program and the directory (`lagrangesegment.py` 137-178, `lagrangepickler.py` 10-12). -/
structure CacheState where
  objects : List SegmentObject
  dir : CacheDir

/-- One event (`lagrangesegment.py` 136-178): the segment asked and the answer, if any, and the state afterwards. -/
def cacheStep (pr : Ex → Txt) (sha : Txt → HexDigits) (version : ℕ) (gen : Segment → Derivs) (st : CacheState) :
    CacheEvent → Option (Segment × Except String Derivs) × CacheState
  | .create s => (none, { st with objects := st.objects ++ [⟨s, none⟩] })
  | .ask i w =>
    match st.objects[i]? with
    | none => (none, st)
    | some o =>
      let r := getDerivatives pr sha version gen w o st.dir
      (some (o.seg, r.1), ⟨st.objects.set i r.2.1, r.2.2⟩)
  | .restart => (none, { st with objects := [] })
  | .damage f => (none, { st with dir := fun n => if n = f then (st.dir n).map fun _ => .torn else st.dir n })
  | .remove f => (none, { st with dir := Function.update st.dir f none })

/-- A history of events: the answers given, in order, and the state at the end (`lagrangesegment.py` 136-178). -/
def cacheRun (pr : Ex → Txt) (sha : Txt → HexDigits) (version : ℕ) (gen : Segment → Derivs) :
    List CacheEvent → CacheState → List (Segment × Except String Derivs) × CacheState
  | [], st => ([], st)
  | e :: es, st =>
    let r := cacheStep pr sha version gen st e
    let r' := cacheRun pr sha version gen es r.2
    (r.1.toList ++ r'.1, r'.2)

end Verif
