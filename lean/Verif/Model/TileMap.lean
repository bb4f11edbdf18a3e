import Verif.Model.Basic

/-!
# Model of `tilemap.c`

Simplifications: `malloc` succeeds; the items are values (`none` = NULL pointer).
-/

namespace Verif

/-- `struct TileMap`, tilemap.h:38-43.  `map` is the flat array of pointers. -/
structure TileMap (α : Type) where
  size : Int
  map : List (Option α)
  deriving DecidableEq

namespace TileMap

variable {α : Type}

/-- `2*self->size*2*self->size`, tilemap.c:32,44,62 (and operationqueue.c:70): an `int`. -/
def mapSize (size : Int) : Except Fault Int := do
  let a ← chk (2 * size)
  let b ← chk (a * 2)
  chk (b * size)

/-- `tile_map_new`, tilemap.c:24-39. -/
def new (size : Int) : Except Fault (TileMap α) := do
  let n ← mapSize size
  pure { size := size, map := List.replicate n.toNat none }

/-- The offset computed by `tile_map_get`, tilemap.c:57-65, with its two assertions. -/
def offset (size : Int) (idx : TileIndex) : Except Fault Int := do
  let rowstride ← chk (size * 2)
  let row ← chk (size + idx.y)
  let base ← chk (row * rowstride)
  let b2 ← chk (base + size)
  let off ← chk (b2 + idx.x)
  let n ← mapSize size
  if ¬ off < n then throw .assertFail
  if ¬ off ≥ 0 then throw .assertFail
  pure off

/-- `*tile_map_get(self, index)` as a value. -/
def get (self : TileMap α) (idx : TileIndex) : Except Fault (Option α) := do
  let off ← offset self.size idx
  match self.map[off.toNat]? with
  | none => throw .outOfBounds
  | some v => pure v

/-- `*tile_map_get(self, index) = v`. -/
def put (self : TileMap α) (idx : TileIndex) (v : Option α) : Except Fault (TileMap α) := do
  let off ← offset self.size idx
  if off.toNat < self.map.length then pure { self with map := self.map.set off.toNat v }
  else throw .outOfBounds

/-- `tile_map_contains`, tilemap.c:83-88. -/
def contains (self : TileMap α) (idx : TileIndex) : Bool :=
  idx.x ≥ -self.size && idx.x < self.size && idx.y ≥ -self.size && idx.y < self.size

/-- The positions visited by the nested loops of `tile_map_copy_to`, tilemap.c:74-79, in order. -/
def allIndices (size : Int) : List TileIndex :=
  (cRange (-size) size).flatMap fun y => (cRange (-size) size).map fun x => ⟨x, y⟩

/-- One iteration of `tile_map_copy_to`, tilemap.c:77. -/
def copyStep (self : TileMap α) (other : TileMap α) (idx : TileIndex) :
    Except Fault (TileMap α) := do
  let v ← self.get idx
  other.put idx v

/-- `tile_map_copy_to`, tilemap.c:69-80: the new value of `other`. -/
def copyTo (self other : TileMap α) : Except Fault (TileMap α) := do
  if ¬ other.size ≥ self.size then throw .assertFail
  (allIndices self.size).foldlM (copyStep self) other

end TileMap

end Verif
