import Verif.Model.Mapping
import Verif.Model.Settings
import Mathlib.Data.Rat.Cast.Defs

/-!
# Model of brush loading (`mypaint-brush.c`, lines 1550-1698)

The JSON parser belongs to json-c and is not modelled: loading starts from its result. What the
functions of json-c do with values of an unexpected type is modelled after json-c 0.13 and later.
Objects keep the order of the file and have no repeated keys.
-/

namespace Verif.Load

open Verif.Map Verif.Settings

variable {K : Type} [Field K] [LinearOrder K]

/-- A JSON value as json-c stores it (`null` is the NULL pointer). -/
inductive JVal (K : Type) where
  | null
  | bool (b : Bool)
  | int (z : Int)
  | dbl (x : K)
  | str (s : String)
  | arr (l : List (JVal K))
  | obj (l : List (String × JVal K))

/-- Conversions made inside json-c and the C library. -/
structure Conv (K : Type) where
  strToDouble : String → K
  strToInt : String → Int
  doubleToInt : K → Int

/-- `json_object_get_double`: 0 for NULL, arrays and objects. -/
def getDouble (c : Conv K) : JVal K → K
  | .null => 0
  | .bool b => if b then 1 else 0
  | .int z => z
  | .dbl x => x
  | .str s => c.strToDouble s
  | .arr _ => 0
  | .obj _ => 0

/-- `json_object_get_int`: integers are clamped to `int`. -/
def getInt (c : Conv K) : JVal K → Int
  | .null => 0
  | .bool b => if b then 1 else 0
  | .int z => max intMin (min intMax z)
  | .dbl x => c.doubleToInt x
  | .str s => c.strToInt s
  | .arr _ => 0
  | .obj _ => 0

/-- First entry with a given key. -/
def find (key : String) : List (String × JVal K) → Option (JVal K)
  | [] => none
  | (k, v) :: l => if k = key then some v else find key l

/-- `obj_get`, mypaint-brush.c:1550-1562: found and not null. -/
def objGet (v : JVal K) (key : String) : Option (JVal K) :=
  match v with
  | .obj l => match find key l with
    | some .null => none
    | r => r
  | _ => none

/-- `json_object_array_get_idx`: asserts that the value is an array; NULL beyond its end. -/
def arrayGet (v : JVal K) (i : Nat) : Except Fault (JVal K) :=
  match v with
  | .arr l => .ok (l.getD i .null)
  | _ => .error .assertFail

/-- `json_object_object_foreach` begins with `json_object_get_object(obj)->head`, where
`json_object_get_object` is NULL for anything but an object. -/
def objEntries (v : JVal K) : Except Fault (List (String × JVal K)) :=
  match v with
  | .obj l => .ok l
  | _ => .error .nullDeref

/-- The settings of a brush (`MyPaintMapping * settings[]`, mypaint-brush.c:113). -/
abbrev Brush (K : Type) := Nat → Mapping K

def setMapping (b : Brush K) (id : Nat) (m : Mapping K) : Brush K := fun i => if i = id then m else b i

/-- mypaint-brush.c:213-215 with `mem` the contents of fresh memory. -/
def newBrush (mem : Nat → Nat → Points K) : Brush K := fun i => Map.new (mem i) inputsCount

/-- `mypaint_brush_set_base_value`, mypaint-brush.c:326-333 (the cached speed curve is left out). -/
def setBaseValue (b : Brush K) (id : Nat) (v : K) : Except Fault (Brush K) :=
  if ¬ id < settingsCount then .error .assertFail else .ok (setMapping b id (Map.setBase (b id) v))

/-- `mypaint_brush_set_mapping_n`, mypaint-brush.c:352-357. -/
def setMappingN (b : Brush K) (id input : Nat) (n : Int) : Except Fault (Brush K) := do
  if ¬ id < settingsCount then throw .assertFail
  let m ← Map.setN (b id) input n
  pure (setMapping b id m)

/-- `mypaint_brush_set_mapping_point`, mypaint-brush.c:401-406. -/
def setMappingPoint (b : Brush K) (id input : Nat) (index : Int) (x y : K) :
    Except Fault (Brush K) := do
  if ¬ id < settingsCount then throw .assertFail
  let m ← Map.setPoint (b id) input index x y
  pure (setMapping b id m)

/-- The loop over the points of one curve, mypaint-brush.c:1615-1624, from point `i` on. -/
def loadPoints (c : Conv K) (id input : Nat) : Nat → List (JVal K) → Brush K → Except Fault (Brush K)
  | _, [], b => .ok b
  | i, p :: ps, b => do
    let x ← arrayGet p 0
    let y ← arrayGet p 1
    let b ← setMappingPoint b id input i (getDouble c x) (getDouble c y)
    loadPoints c id input (i + 1) ps b

/-- The loop over the inputs, mypaint-brush.c:1597-1624.  The flag is FALSE if it returned early. -/
def loadInputs (c : Conv K) (id : Nat) :
    List (String × JVal K) → Brush K → Except Fault (Bool × Brush K)
  | [], b => .ok (true, b)
  | (name, v) :: rest, b => do
    let input := asUnsigned (inputFromCname name)
    match v with
    | .arr pts =>
      if input ≥ inputsCount then return (false, b)
      let b ← setMappingN b id input pts.length
      let b ← loadPoints c id input 0 pts b
      loadInputs c id rest b
    | _ => return (false, b)

/-- `update_brush_setting_from_json_object`, mypaint-brush.c:1564-1627. -/
def loadSetting (c : Conv K) (name : String) (v : JVal K) (b : Brush K) :
    Except Fault (Bool × Brush K) := do
  let id := asUnsigned (settingFromCname name)
  if id ≥ settingsCount then return (false, b)
  match v with
  | .obj _ =>
    match objGet v "base_value" with
    | none => return (false, b)
    | some base =>
      let b ← setBaseValue b id (getDouble c base)
      match objGet v "inputs" with
      | none => return (false, b)
      | some inputs =>
        let entries ← objEntries inputs
        loadInputs c id entries b
  | _ => return (false, b)

/-- The loop over the settings, mypaint-brush.c:1653-1656; `any` is `updated_any`. -/
def loadSettings (c : Conv K) : List (String × JVal K) → Bool → Brush K → Except Fault (Bool × Brush K)
  | [], any, b => .ok (any, b)
  | (name, v) :: rest, any, b => do
    let (ok, b) ← loadSetting c name v b
    loadSettings c rest (any || ok) b

/-- `update_brush_from_json_object`, mypaint-brush.c:1630-1657. -/
def loadObject (c : Conv K) (doc : JVal K) (b : Brush K) : Except Fault (Bool × Brush K) := do
  match objGet doc "version" with
  | none => return (false, b)
  | some version =>
    if getInt c version ≠ 3 then return (false, b)
    match objGet doc "settings" with
    | none => return (false, b)
    | some settings =>
      let entries ← objEntries settings
      loadSettings c entries false b

/-- `mypaint_brush_from_string`, mypaint-brush.c:1659-1681; `doc` is what the parser returned, `none` for
a missing or malformed string. -/
def fromString (c : Conv K) (doc : Option (JVal K)) (b : Brush K) : Except Fault (Bool × Brush K) :=
  match doc with
  | none | some .null => .ok (false, b)
  | some d => loadObject c d b

/-- The inner loop of `mypaint_brush_from_defaults`, mypaint-brush.c:1687-1689. -/
def clearInputs (id : Nat) (b : Brush K) : Except Fault (Brush K) :=
  (List.range inputsCount).foldlM (fun b i => setMappingN b id i 0) b

/-- Positions of the two names used by `mypaint_brush_from_defaults`. -/
def opaqueMultiply : Nat := 1
def pressureInput : Nat := 0

/-- `mypaint_brush_from_defaults`, mypaint-brush.c:1684-1698. -/
def fromDefaults (b : Brush K) : Except Fault (Brush K) := do
  let b ← (List.range settingsCount).foldlM (fun b s => do
    let b ← clearInputs s b
    setBaseValue b s (((settings.map SettingInfo.default).getD s 0 : ℚ) : K)) b
  let b ← setMappingN b opaqueMultiply pressureInput 2
  let b ← setMappingPoint b opaqueMultiply pressureInput 0 0 0
  setMappingPoint b opaqueMultiply pressureInput 1 1 1

end Verif.Load
