import Mathlib.Logic.Function.Basic
import Verif.Model.QueueMemory

/-!
# Model of several threads processing tiles

`mypaint_tiled_surface_end_atomic` hands the dirty tiles to a team of OpenMP threads, each of which
runs `process_tile` for its share of the tiles without any lock; so does `get_color` for its rows of
tiles.  Here a thread is a program that takes one small step at a time, and a schedule is any sequence
of thread numbers.

The shared memory consists of cells: the slots of the tile map, the blocks on the heap (as in
`Verif.Model.QueueMemory`) and the pixel buffers of the tiles.  One statement of the code is one step.
Simplified: the slots of the array of the tile map are named by their tile index (distinct tiles of
the map have distinct slots, see `TileMap`), its size, which no thread writes, is a parameter, and the
backend delivers every tile.  The mask of `process_tile` lives on the stack of the thread.
-/

namespace Verif.Threads

/-- A piece of shared memory. -/
inductive Cell where
  | slot (t : TileIndex)   -- the pointer of the tile map for tile `t`
  | fifo (a : Nat)         -- the `struct fifo` at address `a`
  | item (a : Nat)         -- the `struct fifo_item` at address `a`
  | op (a : Nat)           -- the operation at address `a`
  | tile (t : TileIndex)   -- the pixels of tile `t`
  deriving DecidableEq

/-- What a cell holds; `none` is NULL for a slot, and not allocated for a block. -/
abbrev Val (β T : Type) : Cell → Type
  | .slot _ => Option Nat
  | .fifo _ => Option Fifo.Hdr
  | .item _ => Option (Fifo.Item Nat)
  | .op _ => Option β
  | .tile _ => T

/-- The shared memory. -/
abbrev Shared (β T : Type) := (c : Cell) → Val β T c

/-- Where a thread stands. -/
inductive Pc where
  | idle                                             -- before the next tile
  | pop (t : TileIndex)                              -- before operation_queue_pop
  | head (t : TileIndex) (h : Nat)                   -- fifo.c:94
  | advance (t : TileIndex) (h a : Nat)              -- fifo.c:98
  | last (t : TileIndex) (h a : Nat)                 -- fifo.c:99-100
  | data (t : TileIndex) (h a : Nat)                 -- fifo.c:102
  | freeItem (t : TileIndex) (h a o : Nat)           -- fifo.c:103
  | count (t : TileIndex) (h o : Nat)                -- fifo.c:104
  | apply (t : TileIndex) (o : Nat)                  -- mypaint-tiled-surface.c:588
  | freeOp (t : TileIndex) (o : Nat)                 -- mypaint-tiled-surface.c:589
  | release (t : TileIndex) (h : Nat)                -- operationqueue.c:231
  | clear (t : TileIndex)                            -- operationqueue.c:232
  deriving DecidableEq

/-- A thread: where it stands, and the tiles it still has to process. -/
structure Thread where
  pc : Pc
  todo : List TileIndex
  deriving DecidableEq

/-- A thread at the begin of its loop over `ts`, mypaint-tiled-surface.c:116-119 and 858-863. -/
def Thread.start (ts : List TileIndex) : Thread := ⟨.idle, ts⟩

/-- Nothing left to do. -/
def Thread.finished (th : Thread) : Prop := th.pc = .idle ∧ th.todo = []

/-- Does the tile map contain the tile?  `tile_map_contains`, tilemap.c:83-88. -/
def inside (size : Int) (t : TileIndex) : Bool :=
  decide (t.x ≥ -size ∧ t.x < size ∧ t.y ≥ -size ∧ t.y < size)

/-- The cells the next step of a thread reads or writes; the flag says that it writes. -/
def accesses (size : Int) : Pc → List (Cell × Bool)
  | .idle => []
  | .pop t => if inside size t then [(.slot t, false)] else []
  | .head _ h => [(.fifo h, false)]
  | .advance _ h a => [(.item a, false), (.fifo h, true)]
  | .last _ h _ => [(.fifo h, true)]
  | .data _ _ a => [(.item a, false)]
  | .freeItem _ _ a _ => [(.item a, true)]
  | .count _ h _ => [(.fifo h, true)]
  | .apply t o => [(.op o, false), (.tile t, true)]
  | .freeOp _ o => [(.op o, true)]
  | .release _ h => [(.fifo h, true)]
  | .clear t => [(.slot t, true)]

variable {β T : Type}

/-- Write a cell. -/
def set (m : Shared β T) (c : Cell) (v : Val β T c) : Shared β T := Function.update m c v

/-- One step of a thread.  Reading, writing or releasing a block that is not allocated is a fault. -/
def step (size : Int) (k : DabKind β T) (th : Thread) (m : Shared β T) :
    Except Fault (Thread × Shared β T) :=
  match th.pc with
  | .idle =>
    match th.todo with
    | [] => .ok (th, m)
    | t :: ts => .ok (⟨.pop t, ts⟩, m)
  | .pop t =>                                        -- operationqueue.c:216-225
    if inside size t then
      match (m (.slot t) : Option Nat) with
      | none => .ok (⟨.idle, th.todo⟩, m)
      | some h => .ok (⟨.head t h, th.todo⟩, m)
    else .ok (⟨.idle, th.todo⟩, m)
  | .head t h =>                                     -- fifo.c:94-96
    match (m (.fifo h) : Option Fifo.Hdr) with
    | none => .error .useAfterFree
    | some hdr =>
      match hdr.first with
      | none => .ok (⟨.release t h, th.todo⟩, m)
      | some a => .ok (⟨.advance t h a, th.todo⟩, m)
  | .advance t h a =>                                -- fifo.c:98
    match (m (.item a) : Option (Fifo.Item Nat)), (m (.fifo h) : Option Fifo.Hdr) with
    | some it, some hdr =>
      .ok (⟨.last t h a, th.todo⟩, set m (.fifo h) (some { hdr with first := it.next }))
    | _, _ => .error .useAfterFree
  | .last t h a =>                                   -- fifo.c:99-100
    match (m (.fifo h) : Option Fifo.Hdr) with
    | none => .error .useAfterFree
    | some hdr =>
      .ok (⟨.data t h a, th.todo⟩,
        set m (.fifo h) (some { hdr with last := if hdr.first = none then none else hdr.last }))
  | .data t h a =>                                   -- fifo.c:102
    match (m (.item a) : Option (Fifo.Item Nat)) with
    | none => .error .useAfterFree
    | some it => .ok (⟨.freeItem t h a it.payload, th.todo⟩, m)
  | .freeItem t h a o =>                             -- fifo.c:103
    match (m (.item a) : Option (Fifo.Item Nat)) with
    | none => .error .useAfterFree
    | some _ => .ok (⟨.count t h o, th.todo⟩, set m (.item a) none)
  | .count t h o =>                                  -- fifo.c:104-105
    match (m (.fifo h) : Option Fifo.Hdr) with
    | none => .error .useAfterFree
    | some hdr =>
      .ok (⟨.apply t o, th.todo⟩, set m (.fifo h) (some { hdr with itemCount := hdr.itemCount - 1 }))
  | .apply t o =>                                    -- mypaint-tiled-surface.c:588
    match (m (.op o) : Option β) with
    | none => .error .useAfterFree
    | some d => .ok (⟨.freeOp t o, th.todo⟩, set m (.tile t) (k.processOp t d (m (.tile t))))
  | .freeOp t o =>                                   -- mypaint-tiled-surface.c:589-590
    match (m (.op o) : Option β) with
    | none => .error .useAfterFree
    | some _ => .ok (⟨.pop t, th.todo⟩, set m (.op o) none)
  | .release t h =>                                  -- operationqueue.c:231, fifo.c:55-65
    match (m (.fifo h) : Option Fifo.Hdr) with
    | none => .error .useAfterFree
    | some hdr =>
      -- the loop over the items is not entered: the thread has just found the queue empty
      if hdr.first = none then .ok (⟨.clear t, th.todo⟩, set m (.fifo h) none)
      else .error .useAfterFree
  | .clear t => .ok (⟨.idle, th.todo⟩, set m (.slot t) none)      -- operationqueue.c:232

/-- The threads of the team. -/
abbrev Team := Nat → Thread

/-- A schedule: which thread takes the next step.  The result also lists all accesses with the number
of the thread. -/
def exec (size : Int) (k : DabKind β T) :
    List Nat → Team → Shared β T → Except Fault (List (Nat × Cell × Bool) × Team × Shared β T)
  | [], ths, m => .ok ([], ths, m)
  | i :: is, ths, m => do
    let (th, m') ← step size k (ths i) m
    let (tr, r) ← exec size k is (fun j => if j = i then th else ths j) m'
    pure ((accesses size (ths i).pc).map (fun a => (i, a)) ++ tr, r)

/-- The memory of a surface with the queue of `Verif.Model.QueueMemory` and a canvas. -/
def shared (s : QueueMemory.State β) (c : TileIndex → T) : Shared β T
  | .slot t => if s.q.tileMap.contains t then (s.q.tileMap.get t).toOption.join else (none : Option Nat)
  | .fifo a => s.mem.fifos a
  | .item a => s.mem.items a
  | .op a => s.mem.ops a
  | .tile t => c t

end Verif.Threads
