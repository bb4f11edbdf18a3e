import Verif.Model.Fifo
import Verif.Model.OperationQueue
import Verif.Model.TiledSurface

/-!
# Model of `operationqueue.c` with its memory

`Verif.Model.OperationQueue` treats the queue of a tile as a list.  Here it is what the code has: a
pointer to a `struct fifo` whose items point to operations, all of them on the heap.

The three kinds of blocks have address spaces of their own (no pointer of the code is ever used as
one of another kind).  The array of the tile map and the array of dirty tiles are values, as in
`Verif.Model.OperationQueue`.  `malloc` succeeds; which unused address it returns is up to an
allocator that may look at the whole memory and at the number of operations queued so far.
-/

namespace Verif.QueueMemory

variable {β : Type}

/-- The heap: `struct fifo` (fifo.c:29-34), `struct fifo_item` (fifo.c:23-27) and
`OperationDataDrawDab` (operationqueue.h); `none` means not allocated. -/
structure Mem (β : Type) where
  fifos : Nat → Option Fifo.Hdr
  items : Fifo.Heap Nat
  ops : Nat → Option β

/-- A heap without any block. -/
def Mem.empty : Mem β := ⟨fun _ => none, fun _ => none, fun _ => none⟩

/-- Overwrite one cell. -/
def upd {γ : Type} (f : Nat → Option γ) (a : Nat) (v : Option γ) : Nat → Option γ :=
  fun b => if b = a then v else f b

/-- `struct OperationQueue`, operationqueue.c:31-36; the slots of the map are addresses of
`struct fifo`. -/
structure Queue where
  tileMap : TileMap Nat
  dirty : List TileIndex
  dirtyCap : Int

/-- Heap, queue, and the number of operations queued so far. -/
structure State (β : Type) where
  mem : Mem β
  q : Queue
  clock : Nat

/-- The addresses `malloc` returns: for an operation, a `struct fifo` and an item. -/
structure Addrs where
  op : Nat
  fifo : Nat
  item : Nat

/-- An allocator. -/
abbrev Alloc (β : Type) := Nat → Mem β → Addrs

/-- Reading `*p`. -/
def deref {γ : Type} (f : Nat → Option γ) (a : Nat) : Except Fault γ :=
  match f a with
  | none => .error .useAfterFree
  | some v => .ok v

/-- The operations of `fifo.c` with their fault. -/
def must {γ : Type} : Option γ → Except Fault γ
  | none => .error .useAfterFree
  | some v => .ok v

/-- `operation_queue_resize` for a non-zero size, operationqueue.c:69-87.  The slots (pointers) are
copied, and the old map is freed without its items. -/
def Queue.resize (self : Queue) (newSize : Int) : Except Fault Queue := do
  let newMap ← TileMap.new newSize
  let newCap ← TileMap.mapSize newSize
  let m ← self.tileMap.copyTo newMap
  if ¬ (self.dirty.length : Int) ≤ newCap then throw .outOfBounds
  pure { tileMap := m, dirty := self.dirty, dirtyCap := newCap }

/-- `operation_queue_new`, operationqueue.c:91-107. -/
def Queue.new (b : Build) : Except Fault Queue := do
  let m ← TileMap.new b.initSize
  let cap ← TileMap.mapSize b.initSize
  pure { tileMap := m, dirty := [], dirtyCap := cap }

/-- The growth loop of `operation_queue_add`, operationqueue.c:178-184. -/
def Queue.growLoop (b : Build) (idx : TileIndex) : Nat → Queue → Except Fault Queue
  | 0, self => if self.tileMap.contains idx then .ok self else .error .outOfFuel
  | fuel + 1, self =>
    if self.tileMap.contains idx then .ok self
    else do
      let ns ← chk (b.growSize self.tileMap.size)
      let q ← self.resize ns
      growLoop b idx fuel q

/-- Marking the tile, operationqueue.c:195-203. -/
def Queue.mark (q : Queue) (idx : TileIndex) : Except Fault Queue := do
  let n ← TileMap.mapSize q.tileMap.size
  let d ←
    (if ¬ (q.dirty.length : Int) < n then OpQueue.removeDuplicateTiles q.dirty
    else pure q.dirty)
  if ¬ (d.length : Int) < n then throw .assertFail
  if ¬ (d.length : Int) < q.dirtyCap then throw .outOfBounds
  pure { q with dirty := d ++ [idx] }

/-- The queue of a tile, made if it does not exist, operationqueue.c:186-193: the new heap and map
and the address of the `struct fifo`. -/
def fifoOf (m : Mem β) (q : Queue) (idx : TileIndex) (a : Nat) :
    Except Fault (Mem β × Queue × Nat) := do
  let slot ← q.tileMap.get idx
  match slot with
  | some h => pure (m, q, h)
  | none => do
    let tm ← q.tileMap.put idx (some a)
    pure ({ m with fifos := upd m.fifos a (some Fifo.new) }, { q with tileMap := tm }, a)

/-- `operation_queue_add`, operationqueue.c:176-206, with the addresses for a `struct fifo` and an
item. -/
def add (b : Build) (m : Mem β) (q : Queue) (idx : TileIndex) (op : Nat) (aFifo aItem : Nat) :
    Except Fault (Mem β × Queue) := do
  let q ← q.growLoop b idx OpQueue.growFuel
  let (m, q, h) ← fifoOf m q idx aFifo
  let hdr ← deref m.fifos h
  let first ← must (Fifo.peekFirst ⟨m.items, hdr⟩)
  let q ← (if first = none then q.mark idx else pure q)
  let s ← must (Fifo.push ⟨m.items, hdr⟩ (some aItem) op)
  pure ({ m with items := s.heap, fifos := upd m.fifos h (some s.q) }, q)

/-- `fifo_free`, fifo.c:55-65: the *items* are released, and the `struct fifo`.  `fuel` bounds the
number of iterations of the loop. -/
def fifoFree (fuel : Nat) (m : Mem β) (h : Nat) : Except Fault (Mem β) := do
  let hdr ← deref m.fifos h
  let items ← must (Fifo.freeLoop fuel m.items hdr.first)
  pure { m with items := items, fifos := upd m.fifos h none }

/-- `operation_queue_pop`, operationqueue.c:212-235: the address of the operation. -/
def pop (m : Mem β) (q : Queue) (idx : TileIndex) : Except Fault (Option Nat × Mem β × Queue) :=
  if ¬ q.tileMap.contains idx then .ok (none, m, q)
  else do
    let slot ← q.tileMap.get idx
    match slot with
    | none => pure (none, m, q)
    | some h => do
      let hdr ← deref m.fifos h
      let (op, s) ← must (Fifo.pop ⟨m.items, hdr⟩)
      let m := { m with items := s.heap, fifos := upd m.fifos h (some s.q) }
      match op with
      | some o => pure (some o, m, q)
      | none => do
        let m ← fifoFree 0 m h
        let tm ← q.tileMap.put idx none
        pure (none, m, { q with tileMap := tm })

/-- `free(op)`. -/
def freeOp (m : Mem β) (o : Nat) : Except Fault (Mem β) := do
  let _ ← deref m.ops o
  pure { m with ops := upd m.ops o none }

/-- `free_fifo`, operationqueue.c:47-53. -/
def freeSlot (fuel : Nat) (m : Mem β) : Option Nat → Except Fault (Mem β)
  | none => pure m
  | some h => fifoFree fuel m h

/-- `operation_queue_free`, operationqueue.c:109-115 with 57-67 and tilemap.c:42-53: `free_fifo` is
called for every slot. -/
def destroy (fuel : Nat) (m : Mem β) (q : Queue) : Except Fault (Mem β) :=
  q.tileMap.map.foldlM (freeSlot fuel) m

/-! ### The surface on top of it -/

/-- Queueing a dab for one tile, mypaint-tiled-surface.c:677-679. -/
def queueDab (al : Alloc β) (b : Build) (s : State β) (idx : TileIndex) (d : β) :
    Except Fault (State β) := do
  let a := al s.clock s.mem
  let m := { s.mem with ops := upd s.mem.ops a.op (some d) }
  let (m, q) ← add b m s.q idx a.op a.fifo a.item
  pure { mem := m, q := q, clock := s.clock + 1 }

/-- The loop of `process_tile`, mypaint-tiled-surface.c:587-591; the result lists the operations
processed.  `fuel` bounds the number of iterations. -/
def drain (idx : TileIndex) : Nat → Mem β → Queue → Option Nat → Except Fault (List β × Mem β × Queue)
  | _, m, q, none => .ok ([], m, q)
  | 0, _, _, some _ => .error .outOfFuel
  | fuel + 1, m, q, some o => do
    let d ← deref m.ops o
    let m ← freeOp m o
    let (o', m, q) ← pop m q idx
    let (ds, m, q) ← drain idx fuel m q o'
    pure (d :: ds, m, q)

/-- `process_tile`, mypaint-tiled-surface.c:565-594; `avail` says whether the backend delivers the
tile.  If not the function returns without releasing the operation it popped. -/
def processTile (fuel : Nat) (avail : Bool) (s : State β) (idx : TileIndex) :
    Except Fault (List β × State β) := do
  let (o, m, q) ← pop s.mem s.q idx
  match o with
  | none => pure ([], { s with mem := m, q := q })
  | some o =>
    if ¬ avail then pure ([], { s with mem := m, q := q })
    else do
      let (ds, m, q) ← drain idx fuel m q (some o)
      pure (ds, { s with mem := m, q := q })

/-- Processing a list of tiles, one after the other. -/
def processAll (fuel : Nat) (avail : TileIndex → Bool) :
    State β → List TileIndex → Except Fault (List (TileIndex × List β) × State β)
  | s, [] => .ok ([], s)
  | s, t :: ts => do
    let (ds, s) ← processTile fuel (avail t) s t
    let (r, s) ← processAll fuel avail s ts
    pure ((t, ds) :: r, s)

/-- `mypaint_tiled_surface_end_atomic`, mypaint-tiled-surface.c:109-122, on one thread. -/
def endAtomic (fuel : Nat) (avail : TileIndex → Bool) (order : List TileIndex → List TileIndex)
    (s : State β) : Except Fault (List (TileIndex × List β) × State β) := do
  let d ← OpQueue.removeDuplicateTiles s.q.dirty
  let (r, s) ← processAll fuel avail { s with q := { s.q with dirty := d } } (order d)
  pure (r, { s with q := { s.q with dirty := [] } })

/-- What happens to the surface: a dab is queued for its tiles, some tiles are brought up to date
because their colour is sampled, or the block ends. -/
def step (al : Alloc β) (b : Build) (tilesOf : β → List TileIndex) (fuel : Nat) (s : State β) :
    Surf.Event β → Except Fault (List (TileIndex × List β) × State β)
  | .dab d => do
    let s ← (tilesOf d).foldlM (fun s t => queueDab al b s t d) s
    pure ([], s)
  | .sample ts => processAll fuel (fun _ => true) s ts
  | .endAtomic order => endAtomic fuel (fun _ => true) order s

/-- A session: which operations were applied to which tiles, in order. -/
def run (al : Alloc β) (b : Build) (tilesOf : β → List TileIndex) (fuel : Nat) (s : State β) :
    List (Surf.Event β) → Except Fault (List (TileIndex × List β) × State β)
  | [] => .ok ([], s)
  | e :: es => do
    let (o, s) ← step al b tilesOf fuel s e
    let (os, s) ← run al b tilesOf fuel s es
    pure (o ++ os, s)

/-- A new queue on an empty heap, mypaint-tiled-surface.c:957. -/
def init (b : Build) : Except Fault (State β) := do
  let q ← Queue.new b
  pure { mem := Mem.empty, q := q, clock := 0 }

end Verif.QueueMemory
