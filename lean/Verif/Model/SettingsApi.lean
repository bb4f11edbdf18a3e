import Verif.Model.Load

/-!
# Reading and changing the settings of a brush (`mypaint-brush.c`, lines 326-420)
-/

namespace Verif.Load
open Verif.Map Verif.Settings

variable {K : Type} [Field K] [LinearOrder K]

/-- `mypaint_brush_get_base_value`, mypaint-brush.c:340-345. -/
def getBaseValue (b : Brush K) (id : Nat) : Except Fault K :=
  if ¬ id < settingsCount then .error .assertFail else .ok (b id).base

/-- `mypaint_brush_get_mapping_n`, mypaint-brush.c:364-368. The setting is not checked. -/
def getMappingN (b : Brush K) (id input : Nat) : Except Fault Nat :=
  if ¬ id < settingsCount then .error .outOfBounds else Map.getN (b id) input

/-- `mypaint_brush_is_constant`, mypaint-brush.c:375-380. -/
def isConstant (b : Brush K) (id : Nat) : Except Fault Bool :=
  if ¬ id < settingsCount then .error .assertFail else .ok (Map.isConstant (b id))

/-- `mypaint_brush_get_inputs_used_n`, mypaint-brush.c:387-392, mypaint-mapping.c:140-144. -/
def getInputsUsedN (b : Brush K) (id : Nat) : Except Fault Int :=
  if ¬ id < settingsCount then .error .assertFail else .ok (b id).used

/-- `mypaint_brush_get_mapping_point`, mypaint-brush.c:414-419. -/
def getMappingPoint (b : Brush K) (id input : Nat) (index : Int) : Except Fault (K × K) :=
  if ¬ id < settingsCount then .error .assertFail else Map.getPoint (b id) input index

/-- A call that changes a setting. -/
inductive Call (K : Type) where
  | base (id : Nat) (v : K)
  | count (id input : Nat) (n : Int)
  | point (id input : Nat) (index : Int) (x y : K)

def Call.run (b : Brush K) : Call K → Except Fault (Brush K)
  | .base id v => setBaseValue b id v
  | .count id input n => setMappingN b id input n
  | .point id input index x y => setMappingPoint b id input index x y

/-- Call after call; a failing assertion ends the program. -/
def runCalls (b : Brush K) (cs : List (Call K)) : Except Fault (Brush K) := cs.foldlM Call.run b

end Verif.Load
