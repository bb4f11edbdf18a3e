import Verif.Model.TileMap

/-!
# Model of `operationqueue.c`

The per-tile `Fifo` is the list of its payloads (justified by `Verif.Fifo.fifo_refines_list`);
`none` in a map slot is the NULL pointer, `some []` an allocated but empty queue.
Payload pointers are never NULL.  `malloc` succeeds.
`dirty` is the first `dirty_tiles_n` elements of the array `dirty_tiles`, `dirtyCap` its capacity.
-/

namespace Verif

/-- The two build configurations: `HEAVY_DEBUG` undefined / defined. -/
inductive Build where
  | normal
  | heavyDebug
  deriving DecidableEq

/-- Initial map size, operationqueue.c:100-104. -/
def Build.initSize : Build → Int
  | .normal => 10
  | .heavyDebug => 1

/-- Next map size, operationqueue.c:179-183. -/
def Build.growSize : Build → Int → Int
  | .normal, s => s * 2
  | .heavyDebug, s => s + 1

/-- `struct OperationQueue`, operationqueue.c:31-36. -/
structure OpQueue (β : Type) where
  tileMap : TileMap (List β)
  dirty : List TileIndex
  dirtyCap : Int
  deriving DecidableEq

namespace OpQueue

variable {β : Type}

/-- `operation_queue_resize` for a non-zero size on a queue that has a map,
operationqueue.c:69-87. -/
def resize (self : OpQueue β) (newSize : Int) : Except Fault (OpQueue β) := do
  let newMap ← TileMap.new newSize
  let newCap ← TileMap.mapSize newSize
  let m ← self.tileMap.copyTo newMap
  if ¬ (self.dirty.length : Int) ≤ newCap then throw .outOfBounds   -- loop at lines 75-77
  pure { tileMap := m, dirty := self.dirty, dirtyCap := newCap }

/-- `operation_queue_new`, operationqueue.c:91-107 (the map is NULL, so nothing is copied). -/
def new (b : Build) : Except Fault (OpQueue β) := do
  let m ← TileMap.new b.initSize
  let cap ← TileMap.mapSize b.initSize
  pure { tileMap := m, dirty := [], dirtyCap := cap }

/-- The inner loop of `remove_duplicate_tiles`, operationqueue.c:134-138: the final value of `j`. -/
def dupScan (arr : List TileIndex) (t : TileIndex) (newLen : Nat) : Nat → Nat → Nat
  | 0, j => j
  | fuel + 1, j =>
    if j < newLen then
      if arr[j]? = some t then j else dupScan arr t newLen fuel (j + 1)
    else j

/-- The outer loop, operationqueue.c:133-142: `i` runs up to `length`. -/
def dedupLoop : Nat → List TileIndex → Nat → Nat → Except Fault (List TileIndex × Nat)
  | 0, arr, _, newLen => .ok (arr, newLen)
  | todo + 1, arr, i, newLen =>
    match arr[i]? with
    | none => .error .outOfBounds
    | some t =>
      let j := dupScan arr t newLen newLen 0
      if j = newLen then
        if newLen < arr.length then dedupLoop todo (arr.set newLen t) (i + 1) (newLen + 1)
        else .error .outOfBounds
      else dedupLoop todo arr (i + 1) newLen

/-- `remove_duplicate_tiles`, operationqueue.c:122-145, in place; the result is the array cut at the
returned length. -/
def removeDuplicateTiles (arr : List TileIndex) : Except Fault (List TileIndex) :=
  if arr.length < 2 then .ok arr
  else do
    let (arr', n) ← dedupLoop (arr.length - 1) arr 1 1
    pure (arr'.take n)

/-- `operation_queue_get_dirty_tiles`, operationqueue.c:152-159. -/
def getDirtyTiles (self : OpQueue β) : Except Fault (List TileIndex × OpQueue β) := do
  let d ← removeDuplicateTiles self.dirty
  pure (d, { self with dirty := d })

/-- `operation_queue_clear_dirty_tiles`, operationqueue.c:165-170. -/
def clearDirtyTiles (self : OpQueue β) : OpQueue β := { self with dirty := [] }

/-- The growth loop of `operation_queue_add`, operationqueue.c:178-184. -/
def growLoop (b : Build) (idx : TileIndex) : Nat → OpQueue β → Except Fault (OpQueue β)
  | 0, self => if self.tileMap.contains idx then .ok self else .error .outOfFuel
  | fuel + 1, self =>
    if self.tileMap.contains idx then .ok self
    else do
      let ns ← chk (b.growSize self.tileMap.size)
      let q ← self.resize ns
      growLoop b idx fuel q

/-- More iterations than any run can have: every size is at least 1, grows by at least 1 per
iteration, and sizes above 23170 overflow. -/
def growFuel : Nat := 23171

/-- `operation_queue_add`, operationqueue.c:176-206. -/
def add (b : Build) (self : OpQueue β) (idx : TileIndex) (op : β) : Except Fault (OpQueue β) := do
  let q ← growLoop b idx growFuel self
  let slot ← q.tileMap.get idx
  let fifo := slot.getD []                       -- lazy initialisation, lines 189-193
  let q ←
    (if fifo = [] then do                        -- fifo_peek_first(op_queue) == NULL
      let n ← TileMap.mapSize q.tileMap.size
      let d ←
        (if ¬ (q.dirty.length : Int) < n then removeDuplicateTiles q.dirty
        else pure q.dirty)
      if ¬ (d.length : Int) < n then throw .assertFail
      if ¬ (d.length : Int) < q.dirtyCap then throw .outOfBounds
      pure { q with dirty := d ++ [idx] }
    else pure q)
  let m ← q.tileMap.put idx (some (fifo ++ [op]))
  pure { q with tileMap := m }

/-- `operation_queue_pop`, operationqueue.c:212-235. -/
def pop (self : OpQueue β) (idx : TileIndex) : Except Fault (Option β × OpQueue β) :=
  if ¬ self.tileMap.contains idx then .ok (none, self)
  else do
    let slot ← self.tileMap.get idx
    match slot with
    | none => pure (none, self)
    | some [] =>
      let m ← self.tileMap.put idx none
      pure (none, { self with tileMap := m })
    | some (op :: rest) =>
      let m ← self.tileMap.put idx (some rest)
      pure (some op, { self with tileMap := m })

/-- `operation_queue_peek_first`, operationqueue.c:237-245. -/
def peekFirst (self : OpQueue β) (idx : TileIndex) : Except Fault (Option β) :=
  if ¬ self.tileMap.contains idx then .ok none
  else do
    let slot ← self.tileMap.get idx
    pure (slot.getD []).head?

/-- `operation_queue_peek_last`, operationqueue.c:247-255. -/
def peekLast (self : OpQueue β) (idx : TileIndex) : Except Fault (Option β) :=
  if ¬ self.tileMap.contains idx then .ok none
  else do
    let slot ← self.tileMap.get idx
    pure (slot.getD []).getLast?

/-- Client calls. -/
inductive Op (β : Type) where
  | add (idx : TileIndex) (op : β)
  | pop (idx : TileIndex)
  | peekFirst (idx : TileIndex)
  | peekLast (idx : TileIndex)
  | getDirty
  | clearDirty

/-- Results of client calls. -/
inductive Out (β : Type) where
  | unit
  | op (o : Option β)
  | tiles (l : List TileIndex)

/-- One client call. -/
def step (b : Build) (q : OpQueue β) : Op β → Except Fault (Out β × OpQueue β)
  | .add idx op => do let q' ← q.add b idx op; pure (.unit, q')
  | .pop idx => do let (o, q') ← q.pop idx; pure (.op o, q')
  | .peekFirst idx => do let o ← q.peekFirst idx; pure (.op o, q)
  | .peekLast idx => do let o ← q.peekLast idx; pure (.op o, q)
  | .getDirty => do let (l, q') ← q.getDirtyTiles; pure (.tiles l, q')
  | .clearDirty => pure (.unit, q.clearDirtyTiles)

/-- A history of client calls. -/
def run (b : Build) (q : OpQueue β) : List (Op β) → Except Fault (List (Out β) × OpQueue β)
  | [] => .ok ([], q)
  | op :: ops => do
    let (o, q') ← q.step b op
    let (os, q'') ← run b q' ops
    pure (o :: os, q'')

end OpQueue

end Verif
