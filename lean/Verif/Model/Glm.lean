import Verif.Model.Text

/-!
# Reading the rows of a GridLAB-D file: `read_gld_objects_and_schedules`

`/repo/src/ditto/readers/gridlabd/read.py` 68-197 and `/repo/src/ditto/formats/gridlabd/base.py` 5-35. Opening files is in
`Model/GlmInclude.lean`: the input here is the list of rows of the file followed by the rows of the included files (`all_rows`, lines 81-90).
A python exception is a value of `Err`.
-/

namespace Verif.Glm

/-- The exceptions python raises on the way (`base.py` 26, 32, `read.py` 80-197). -/
inductive Err
  | attribute
  | index
  | key
  | value
  | type
  | zeroDivision
  | raised
  deriving DecidableEq, Repr

/-- A python computation that may raise (`read.py` 67-197). -/
abbrev Py := Except Err

/-- `d[k]` of a dictionary, as the list of its entries in insertion order (as `all_gld_objects[name]`, `read.py` 848). -/
def lookup {β : Type} (k : Txt) : List (Txt × β) → Option β
  | [] => none
  | (k', v) :: d => if k' = k then some v else lookup k d

/-- `d[k] = v` of a dictionary: an existing entry keeps its place (as `all_gld_objects[name] = obj`, `read.py` 154, 169). -/
def store {β : Type} (k : Txt) (v : β) : List (Txt × β) → List (Txt × β)
  | [] => [(k, v)]
  | (k', v') :: d => if k' = k then (k, v) :: d else (k', v') :: store k v d

/-- An object of a class of the module `gridlabd` (`base.py` 5-35): its class and the attributes set so far. -/
structure Obj where
  cls : Txt
  attrs : List (Txt × Txt)
  deriving DecidableEq, Repr

/-- `obj[k]` (`base.py` 22-28): `AttributeError` without a value. -/
def Obj.get (o : Obj) (k : Txt) : Py Txt := match lookup k o.attrs with
  | some v => .ok v
  | none => .error .attribute

/-- What the reader takes from its surroundings (`read.py` 19-20, 82-92). -/
structure World where
  /-- The attributes of a class, own and inherited, from `schema.json`; `none` for a name that is no class of the module
  (`formats/gridlabd/gridlabd.py` 12-49, `base.py` 11-20). -/
  schema : Txt → Option (List Txt)
  /-- `croniter(cron, sub_datetime).get_next(datetime) == origin_datetime`; `none` if `croniter` raises (`read.py` 181-182). -/
  cron : Txt → Option Bool
  /-- `str` of a float (`read.py` 137, 139). -/
  str : ℚ → Txt

/-- `obj[k] = v` (`base.py` 30-35): `AttributeError` for an attribute the class does not have. -/
def Obj.set (W : World) (o : Obj) (k v : Txt) : Py Obj :=
  if k ∈ (W.schema o.cls).getD [] then .ok { o with attrs := store k v o.attrs } else .error .attribute

/-- `skipped_objects` (`read.py` 35-55). -/
def skippedObjects : List Txt :=
  ["house", "solar", "inverter", "waterheater", "climate", "ZIPload", "tape.recorder", "player", "tape.collector",
   "tape.group_recorder", "recorder", "voltdump", "currdump", "collector", "metrics", "eventgen", "fault_check", "power_metrics",
   "impedance_dump"].map String.toList

/-- The local variables of the loop (`read.py` 69-79): the dictionary of objects, `curr_object`, `obj_class`,
`ignore_elements`, `curr_schedule`, `schedule_bracket_cnt`, `found_schedule`, the dictionary of schedules. -/
structure RState where
  objs : List (Txt × Obj)
  cur : Option Obj
  cls : Txt
  ignore : Bool
  sched : Option Txt
  count : ℤ
  found : Bool
  schedules : List (Txt × Txt)

/-- The variables before the loop (`read.py` 69-79). -/
def RState.init : RState := ⟨[], none, [], false, none, 0, false, []⟩

/-- A row that opens an object (`read.py` 102-112). -/
def openObject (W : World) (s : RState) (entries : List Txt) : Py RState := match s.cur with
  | some _ => .ok { s with ignore := true }
  | none => match entries with
    | _ :: e1 :: _ =>
      let obj := splitOn ':' e1
      let cls := obj.headD []
      if cls ∈ skippedObjects then .ok { s with cls := cls }
      else match W.schema cls with
        | none => .error .attribute
        | some _ => match obj with
          | _ :: n :: _ => do
            let o ← Obj.set W ⟨cls, []⟩ "name".toList (cls ++ ":".toList ++ n)
            .ok { s with cls := cls, cur := some o }
          | _ => .ok { s with cls := cls, cur := some ⟨cls, []⟩ }
    | _ => .error .index

/-- The value of an attribute row (`read.py` 131-139). The unit, the third word, only counts in two places. -/
def attributeValue (W : World) (cls : Txt) (entries : List Txt) : Py Txt :=
  let value := dropChar '"' (entries.getD 1 [])
  match entries[2]? with
  | none => .ok value
  | some units => do
    let value ← if cls = "line_spacing".toList ∧ units = "in".toList then
        match pyFloat value with
        | some x => .ok (W.str (x / 12))
        | none => .error .value
      else .ok value
    if cls = "capacitor".toList ∧ units = "MVAr".toList then
      match pyFloat value with
      | some x => .ok (W.str (x * 1000000))
      | none => .error .value
    else .ok value

/-- The end of an object (`read.py` 148-175): filed under its name, or under `from-to` without a name. -/
def closeObject (W : World) (s : RState) (o : Obj) : Py RState :=
  if s.ignore then .ok { s with ignore := false, cur := some o }
  else match o.get "name".toList with
    | .ok n => .ok { s with objs := store n o s.objs, cur := none }
    | .error _ => do
      let f ← o.get "from".toList
      let t ← o.get "to".toList
      let o' ← o.set W "name".toList (f ++ "-".toList ++ t)
      .ok { s with objs := store (f ++ "-".toList ++ t) o' s.objs, cur := none }

/-- A row inside an object (`read.py` 125-175). -/
def objectRow (W : World) (s : RState) (o : Obj) (row : Txt) : Py RState := do
  let row := cutAt ";".toList row
  let entries := split row
  let o ← match entries with
    | k :: _ :: _ => do
      let v ← attributeValue W s.cls entries
      o.set W k v
    | _ => .ok o
  if row.getLast? = some '}' then closeObject W s o else .ok { s with cur := some o }

/-- A row inside a schedule (`read.py` 177-197). -/
def scheduleRow (W : World) (s : RState) (name : Txt) (row : Txt) : Py RState := do
  let row := stripBy (· = ';') row
  let entries := split row
  let s ← if 5 < entries.length ∧ s.found = false then
      match W.cron (" ".toList.intercalate entries.dropLast) with
      | none => .error .value
      | some true => .ok { s with found := true, schedules := store name (entries.getLastD []) s.schedules }
      | some false => .ok s
    else .ok s
  if row.isEmpty then .ok s
  else
    let c := s.count - (if row.getLast? = some '}' then 1 else 0) + (if row.head? = some '{' then 1 else 0)
    if c = 0 then .ok { s with count := c, sched := none, found := false } else .ok { s with count := c }

/-- The row left after `strip` and the removal of a comment (`read.py` 92-99). -/
def uncommented (row : Txt) : Txt := if "//".toList.isPrefixOf (strip row) then [] else cutAt "//".toList (strip row)

/-- The body of the loop (`read.py` 91-197). A comment row does nothing; in the code it is skipped, here it is an empty row,
which does nothing either. The row cut at `;` inside an object is what the schedule part sees afterwards. -/
def readRow (W : World) (s : RState) (row : Txt) : Py RState :=
  let row := uncommented row
  match split row with
  | [] => .ok s
  | e :: es =>
    if e = "object".toList then openObject W s (e :: es)
    else if e = "schedule".toList then
      match s.sched with
      | some _ => .ok s
      | none => match es with
        | n :: _ => .ok { s with sched := some n, count := 1 }
        | [] => .error .index
    else do
      let s' ← match s.cur with
        | some o => objectRow W s o row
        | none => .ok s
      match s'.sched with
      | some n => scheduleRow W s' n (if s.cur.isSome then cutAt ";".toList row else row)
      | none => .ok s'

/-- `read_gld_objects_and_schedules` after the files are read (`read.py` 91-199): all objects and all schedules. -/
def readRows (W : World) (rows : List Txt) : Py (List (Txt × Obj) × List (Txt × Txt)) := do
  let s ← rows.foldlM (readRow W) RState.init
  .ok (s.objs, s.schedules)

end Verif.Glm
