import Verif.Model.Basic

/-!
# Model of `mypaint-fixed-tiled-surface.c` and of reference counting

The fixed surface keeps all its tiles in one linear block of 16-bit cells and hands out pointers into
it.  A pointer is modelled as a place: an offset into the block, or the scratch ("null") tile.
-/

namespace Verif.Fixed

/-- `MYPAINT_TILE_SIZE`, mypaint-config.h / mypaint-tiled-surface.h:42 -/
def tilePixels : Int := 64

/-- Number of 16-bit cells of one tile: 64 * 64 pixels of 4 channels. -/
def tileCells : Nat := 16384

/-- `tile_size` in bytes, mypaint-fixed-tiled-surface.c:113
(`tile_size_pixels * tile_size_pixels * 4 * sizeof(uint16_t)`). -/
def tileBytes : Nat := 32768

/-- A `size_t` operation whose exact value is `n` (64-bit build: unsigned, wraps). -/
def sz (n : Nat) : Nat := n % 2 ^ 64

/-- The conversion `(float)n` of a non-negative `int`: round to nearest, ties to even, 24 bits of
precision (IEEE-754 binary32). -/
def f32OfNat (n : Nat) : Nat :=
  if n < 2 ^ 24 then n
  else
    let u := 2 ^ (Nat.log2 n - 23)
    let q := n / u
    let r := n % u
    if 2 * r < u ∨ (2 * r = u ∧ q % 2 = 0) then q * u else (q + 1) * u

/-- `const int tiles = ceil((float)len / tile_size_pixels)`,
mypaint-fixed-tiled-surface.c:111-112.  Dividing a binary32 by 64 is exact, and so is `ceil`. -/
def tilesFor (len : Int) : Int :=
  ((f32OfNat len.toNat + 63) / 64 : Nat)

/-- `MyPaintFixedTiledSurface`, mypaint-fixed-tiled-surface.c:17-28 (without the parent). The block
`tile_buffer` has `bufferCells` cells. -/
structure Surface where
  tilesWidth : Int
  tilesHeight : Int
  width : Int
  height : Int
  bufferCells : Nat
  buffer : Nat → Nat
  nullTile : Nat → Nat

/-- Which `malloc` calls succeed. -/
structure Memory where
  self : Bool
  buffer : Bool
  nullTile : Bool

/-- `reset_null_tile`, mypaint-fixed-tiled-surface.c:31-34. -/
def resetNullTile (s : Surface) : Surface := { s with nullTile := fun _ => 0 }

/-- `mypaint_fixed_tiled_surface_new`, mypaint-fixed-tiled-surface.c:96-139.  `memset(buffer, 255)`
makes every 16-bit cell 65535.  The result of the first `malloc` is not checked before
`mypaint_tiled_surface_init` writes through it, nor is that of the last before `reset_null_tile`.
The third assertion multiplies `width*height*4` as `int`. -/
def new (m : Memory) (width height : Int) : Except Fault (Option Surface) := do
  if ¬ 0 < width then throw .assertFail
  if ¬ 0 < height then throw .assertFail
  if ¬ m.self then throw .nullDeref
  let tilesWidth := tilesFor width
  let tilesHeight := tilesFor height
  let tiles ← chk (tilesWidth * tilesHeight)
  let bufferSize := sz (tiles.toNat * tileBytes)
  let w ← chk (tilePixels * tilesWidth)
  if ¬ w ≥ width then throw .assertFail
  let h ← chk (tilePixels * tilesHeight)
  if ¬ h ≥ height then throw .assertFail
  let px ← chk (width * height)
  let px4 ← chk (px * 4)
  if ¬ bufferSize ≥ sz (px4.toNat * 2) then throw .assertFail
  if ¬ m.buffer then return none
  if ¬ m.nullTile then throw .nullDeref
  return some (resetNullTile
    { tilesWidth := tilesWidth, tilesHeight := tilesHeight, width := width, height := height,
      bufferCells := bufferSize / 2, buffer := fun _ => 65535, nullTile := fun _ => 0 })

/-- Where a tile pointer points. -/
inductive Place where
  | block (offset : Nat)   -- into `tile_buffer`, offset in 16-bit cells
  | scratch                -- `null_tile`
  deriving DecidableEq, Repr

/-- The condition at mypaint-fixed-tiled-surface.c:46 and :70. -/
def outside (s : Surface) (t : TileIndex) : Bool :=
  t.x ≥ s.tilesWidth || t.y ≥ s.tilesHeight || t.x < 0 || t.y < 0

/-- `tile_request_start`, mypaint-fixed-tiled-surface.c:36-60. -/
def start (s : Surface) (t : TileIndex) : Place :=
  if outside s t then .scratch
  else
    let rowstride := sz (s.tilesWidth.toNat * tileBytes)
    let xOffset := sz (t.x.toNat * tileBytes)
    let tileOffset := sz (sz (rowstride * t.y.toNat) + xOffset)
    .block (tileOffset / 2)

/-- `tile_request_end`, mypaint-fixed-tiled-surface.c:62-76. -/
def finish (s : Surface) (t : TileIndex) : Surface :=
  if outside s t then resetNullTile s else s

/-- Reading cell `i` of the tile a pointer was handed out for. -/
def readCell (s : Surface) (p : Place) (i : Nat) : Except Fault Nat :=
  match p with
  | .block off => if off + i < s.bufferCells then .ok (s.buffer (off + i)) else .error .outOfBounds
  | .scratch => if i < tileCells then .ok (s.nullTile i) else .error .outOfBounds

/-- Writing cell `i` of the tile a pointer was handed out for. -/
def writeCell (s : Surface) (p : Place) (i : Nat) (v : Nat) : Except Fault Surface :=
  match p with
  | .block off =>
    if off + i < s.bufferCells then
      .ok { s with buffer := fun k => if k = off + i then v else s.buffer k }
    else .error .outOfBounds
  | .scratch =>
    if i < tileCells then
      .ok { s with nullTile := fun k => if k = i then v else s.nullTile k }
    else .error .outOfBounds

/-- What a client does between the start and the end of a request: reads and writes of cells, in any
order, each depending on everything read so far. -/
inductive Client where
  | done
  | read (i : Nat) (k : Nat → Client)
  | write (i : Nat) (v : Nat) (k : Client)

/-- A client touches only cells of its tile. -/
def Client.InTile : Client → Prop
  | .done => True
  | .read i k => i < tileCells ∧ ∀ v, (k v).InTile
  | .write i _ k => i < tileCells ∧ k.InTile

/-- Running a client on a pointer. The values it read are collected in order. -/
def Client.run (p : Place) : Client → Surface → Except Fault (List Nat × Surface)
  | .done, s => .ok ([], s)
  | .read i k, s => do
    let v ← readCell s p i
    let (l, s) ← (k v).run p s
    pure (v :: l, s)
  | .write i v k, s => do
    let s ← writeCell s p i v
    k.run p s

/-- One complete request: start, client, end. -/
def request (s : Surface) (t : TileIndex) (c : Client) : Except Fault (List Nat × Surface) := do
  let (l, s) ← c.run (start s t) s
  pure (l, finish s t)

/-- A sequence of requests. `threadsafe_tile_requests` is FALSE for this surface
(mypaint-tiled-surface.c:947), so that requests never overlap. -/
def requests : Surface → List (TileIndex × Client) → Except Fault (List (List Nat) × Surface)
  | s, [] => .ok ([], s)
  | s, (t, c) :: rest => do
    let (l, s) ← request s t c
    let (ls, s) ← requests s rest
    pure (l :: ls, s)

end Verif.Fixed

namespace Verif.Ref

/-- A reference counted object: `MyPaintSurface` (mypaint-surface.c) or `MyPaintBrush`
(mypaint-brush.c).  `destroyed` counts the calls of the destructor; the memory is gone after the
first. -/
structure Obj where
  refcount : Int
  destroyed : Nat
  deriving DecidableEq, Repr

/-- `mypaint_surface_init`, mypaint-surface.c:67-71, and mypaint-brush.c:212. -/
def init : Obj := { refcount := 1, destroyed := 0 }

/-- `mypaint_surface_ref`, mypaint-surface.c:78-82; `mypaint_brush_ref`, mypaint-brush.c:268-272. -/
def ref (o : Obj) : Except Fault Obj := do
  if o.destroyed ≠ 0 then throw .useAfterFree
  let n ← chk (o.refcount + 1)
  pure { o with refcount := n }

/-- `mypaint_surface_unref`, mypaint-surface.c:89-97; `mypaint_brush_unref`,
mypaint-brush.c:255-262. -/
def unref (o : Obj) : Except Fault Obj := do
  if o.destroyed ≠ 0 then throw .useAfterFree
  let n ← chk (o.refcount - 1)
  if n = 0 then pure { refcount := n, destroyed := o.destroyed + 1 }
  else pure { o with refcount := n }

/-- Calls made on the object. -/
inductive Call where
  | ref
  | unref
  deriving DecidableEq, Repr

def call (o : Obj) : Call → Except Fault Obj
  | .ref => ref o
  | .unref => unref o

def run (o : Obj) (cs : List Call) : Except Fault Obj := cs.foldlM call o

end Verif.Ref
