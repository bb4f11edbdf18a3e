import Verif.Model.OperationQueue

/-!
# Model of `mypaint-tiled-surface.c`: deferred drawing

This file models the control flow of deferred drawing for an arbitrary kind of dab and an arbitrary
kind of tile: what a dab does to a tile (`process_op`) and which tiles it touches are parameters
here; they are instantiated with the concrete code in `Verif.Model.Dab`.
-/

namespace Verif

/-- The parts of the surface that deferred drawing does not look into. -/
structure DabKind (D T : Type) where
  /-- the tiles for which `draw_dab_internal` queues the dab, in order
  (mypaint-tiled-surface.c:667-681) -/
  tilesOf : D → List TileIndex
  /-- `process_op`, mypaint-tiled-surface.c:496-562 -/
  processOp : TileIndex → D → T → T

/-- The surface: queue and tile store. -/
structure Surf (D T : Type) where
  queue : OpQueue D
  canvas : TileIndex → T

namespace Surf

variable {D T : Type}

/-- Replace one tile of the store. -/
def setTile (c : TileIndex → T) (t : TileIndex) (v : T) : TileIndex → T :=
  fun u => if u = t then v else c u

/-- The `while (op)` loop of `process_tile`, mypaint-tiled-surface.c:587-591.  `fuel` bounds the
number of iterations. -/
def drainLoop (k : DabKind D T) (t : TileIndex) :
    Nat → OpQueue D → T → Option D → Except Fault (OpQueue D × T)
  | _, q, buf, none => .ok (q, buf)
  | 0, _, _, some _ => .error .outOfFuel
  | fuel + 1, q, buf, some op => do
    let buf' := k.processOp t op buf
    let (op', q') ← q.pop t
    drainLoop k t fuel q' buf' op'

/-- The number of operations waiting for a tile (not in the code: the fuel of `drainLoop`). -/
def waiting (q : OpQueue D) (t : TileIndex) : Nat :=
  if q.tileMap.contains t then
    match q.tileMap.get t with
    | .ok (some l) => l.length
    | _ => 0
  else 0

/-- `process_tile`, mypaint-tiled-surface.c:565-594.  `avail` says whether the backend delivers a
buffer.  If it does not, the popped operation is lost. -/
def processTile (k : DabKind D T) (avail : Bool) (s : Surf D T) (t : TileIndex) :
    Except Fault (Surf D T) := do
  let n := waiting s.queue t
  let (op, q) ← s.queue.pop t
  match op with
  | none => pure { s with queue := q }
  | some op =>
    if ¬ avail then pure { s with queue := q }
    else do
      let (q', buf) ← drainLoop k t n q (s.canvas t) (some op)
      pure { queue := q', canvas := setTile s.canvas t buf }

/-- The queueing part of `draw_dab_internal`, mypaint-tiled-surface.c:674-681. -/
def drawDab (b : Build) (k : DabKind D T) (s : Surf D T) (d : D) : Except Fault (Surf D T) := do
  let q ← (k.tilesOf d).foldlM (fun q t => OpQueue.add b q t d) s.queue
  pure { s with queue := q }

/-- The tile loop of `get_color`, mypaint-tiled-surface.c:855-893, with a backend that delivers:
each tile is brought up to date and then read. -/
def sample (k : DabKind D T) : Surf D T → List TileIndex → Except Fault (List T × Surf D T)
  | s, [] => .ok ([], s)
  | s, t :: ts => do
    let s' ← processTile k true s t
    let (vs, s'') ← sample k s' ts
    pure (s'.canvas t :: vs, s'')

/-- `mypaint_tiled_surface_end_atomic`, mypaint-tiled-surface.c:109-122: the tiles are processed in
the order of `order`, a rearrangement of the dirty list (identity without OpenMP). -/
def endAtomic (k : DabKind D T) (avail : TileIndex → Bool)
    (order : List TileIndex → List TileIndex) (s : Surf D T) : Except Fault (Surf D T) := do
  let (tiles, q) ← s.queue.getDirtyTiles
  let s' ← (order tiles).foldlM (fun s t => processTile k (avail t) s t) { s with queue := q }
  pure { s' with queue := s'.queue.clearDirtyTiles }

/-- What an application does to a surface. -/
inductive Event (D : Type) where
  | dab (d : D)
  | sample (tiles : List TileIndex)
  | endAtomic (order : List TileIndex → List TileIndex)

/-- One event; the result is what sampling read. -/
def step (b : Build) (k : DabKind D T) (s : Surf D T) : Event D → Except Fault (List T × Surf D T)
  | .dab d => do let s' ← drawDab b k s d; pure ([], s')
  | .sample ts => sample k s ts
  | .endAtomic order => do let s' ← endAtomic k (fun _ => true) order s; pure ([], s')

/-- A session. -/
def run (b : Build) (k : DabKind D T) (s : Surf D T) :
    List (Event D) → Except Fault (List (List T) × Surf D T)
  | [] => .ok ([], s)
  | e :: es => do
    let (o, s') ← step b k s e
    let (os, s'') ← run b k s' es
    pure (o :: os, s'')

/-- A new surface over a given canvas (`mypaint_tiled_surface_init`,
mypaint-tiled-surface.c:934-957). -/
def init (b : Build) (canvas : TileIndex → T) : Except Fault (Surf D T) := do
  let q ← OpQueue.new b
  pure { queue := q, canvas := canvas }

/-! ### The parallel loop of `end_atomic`

`#pragma omp parallel for`, mypaint-tiled-surface.c:116-119: `process_tile` runs for every dirty
tile, on several threads.  Each call is cut into the steps below; a schedule interleaves the steps of
different tiles in any way.  A step is atomic: queue operations for different tiles touch different
map slots (`TileMap.slots_in_bounds_and_distinct`) and the backend hands out one buffer per tile. -/

/-- Program counter and locals of one `process_tile` call. -/
inductive Worker (D T : Type) where
  | idle                                   -- before line 569
  | popped (op : D)                        -- before line 577
  | holding (op : D) (buf : T)             -- line 588, op to be processed
  | processed (buf : T)                    -- line 590, next pop
  | ending (buf : T)                       -- before line 593
  | finished

/-- Shared state and all workers. -/
structure PState (D T : Type) where
  queue : OpQueue D
  canvas : TileIndex → T
  worker : TileIndex → Worker D T

/-- Update one worker. -/
def setWorker (w : TileIndex → Worker D T) (t : TileIndex) (v : Worker D T) :
    TileIndex → Worker D T :=
  fun u => if u = t then v else w u

/-- One step of the worker of tile `t` (`process_tile`, mypaint-tiled-surface.c:565-594). -/
def micro (k : DabKind D T) (p : PState D T) (t : TileIndex) : Except Fault (PState D T) :=
  match p.worker t with
  | .idle => do
    let (op, q) ← p.queue.pop t
    match op with
    | none => pure { p with queue := q, worker := setWorker p.worker t .finished }
    | some op => pure { p with queue := q, worker := setWorker p.worker t (.popped op) }
  | .popped op => pure { p with worker := setWorker p.worker t (.holding op (p.canvas t)) }
  | .holding op buf =>
    pure { p with worker := setWorker p.worker t (.processed (k.processOp t op buf)) }
  | .processed buf => do
    let (op, q) ← p.queue.pop t
    match op with
    | none => pure { p with queue := q, worker := setWorker p.worker t (.ending buf) }
    | some op => pure { p with queue := q, worker := setWorker p.worker t (.holding op buf) }
  | .ending buf =>
    pure { p with canvas := setTile p.canvas t buf, worker := setWorker p.worker t .finished }
  | .finished => pure p

/-- All workers at their start. -/
def parallelStart (s : Surf D T) : PState D T :=
  { queue := s.queue, canvas := s.canvas, worker := fun _ => .idle }

end Surf

end Verif
