import Verif.Model.Rectangle
import Verif.Model.Basic

/-!
# Model of `gegl/mypaint-gegl-surface.c`

A surface over a buffer of the library GEGL. GEGL itself is modelled from its documentation: a buffer has an extent, a
rectangle; what is stored outside of the extent is not part of the picture; changing the extent does not touch what is
stored. Buffers are reference counted objects.

Not modelled: what is stored in the tiles (the surface hands out one piece of memory per tile, as the models of the
tiled surface assume), conversions of buffers of another format, `save_png`.
-/

namespace Verif.Gegl

/-- A `GeglBuffer`: reference count, extent, and the colour stored at each place. -/
structure Obj where
  refs : Nat
  extent : Rect
  stored : Int → Int → Nat

/-- Objects by address; `none` is memory that is not allocated. -/
abbrev Heap := Nat → Option Obj

/-- `MyPaintGeglTiledSurface` (lines 31-37): the rectangle and the address of the buffer. -/
structure Surface where
  extentRect : Rect
  buffer : Nat

def put (h : Heap) (i : Nat) (o : Option Obj) : Heap := fun j => if j = i then o else h j

/-- `g_object_ref` of GLib. -/
def ref (h : Heap) (i : Nat) : Except Fault Heap :=
  match h i with
  | none => .error .useAfterFree
  | some o => .ok (put h i (some { o with refs := o.refs + 1 }))

/-- `g_object_unref` of GLib: the last reference frees the object. -/
def unref (h : Heap) (i : Nat) : Except Fault Heap :=
  match h i with
  | none => .error .useAfterFree
  | some o => .ok (put h i (if o.refs ≤ 1 then none else some { o with refs := o.refs - 1 }))

/-- `gegl_rectangle_bounding_box` of GEGL: a rectangle without area does not count. -/
def boundingBox (a b : Rect) : Rect :=
  if (a.width = 0 ∨ a.height = 0) ∧ (b.width = 0 ∨ b.height = 0) then Rect.zero
  else if a.width = 0 ∨ a.height = 0 then b
  else if b.width = 0 ∨ b.height = 0 then a
  else
    let x := min a.x b.x
    let y := min a.y b.y
    ⟨x, y, max (a.x + a.width) (b.x + b.width) - x, max (a.y + a.height) (b.y + b.height) - y⟩

/-- `tile_bbox` (lines 68-70). -/
def tileBox (t : TileIndex) : Except Fault Rect := do
  let x ← chk (t.x * 64)
  let y ← chk (t.y * 64)
  return ⟨x, y, 64, 64⟩

/-- `gegl_buffer_set_extent` of GEGL. -/
def setExtent (h : Heap) (i : Nat) (r : Rect) : Except Fault Heap :=
  match h i with
  | none => .error .useAfterFree
  | some o => .ok (put h i (some { o with extent := r }))

/-- `tile_request_start` (lines 63-121): a request for writing extends the buffer. -/
def requestStart (s : Surface) (h : Heap) (t : TileIndex) (readonly : Bool) : Except Fault (Surface × Heap) := do
  let box ← tileBox t
  if readonly then
    match h s.buffer with
    | none => .error .useAfterFree
    | some _ => return (s, h)
  else
    let r := boundingBox s.extentRect box
    let h ← setExtent h s.buffer r
    return ({ s with extentRect := r }, h)

/-- The argument of `set_buffer`: NULL, a buffer, or another object. -/
inductive Arg where
  | null
  | buffer (i : Nat)
  | other
  deriving DecidableEq

/-- `mypaint_gegl_tiled_surface_set_buffer` (lines 182-210). `fresh` is the address the allocator returns for a new
buffer; its content is transparent. -/
def setBuffer (s : Surface) (h : Heap) (a : Arg) (fresh : Nat) : Except Fault (Surface × Heap) :=
  if a = .buffer s.buffer then .ok (s, h)
  else do
    let h ← unref h s.buffer
    match a with
    | .buffer i =>
      let h ← ref h i
      return ({ s with buffer := i }, h)
    | .other => return (s, h)
    | .null => return ({ s with buffer := fresh }, put h fresh (some ⟨1, s.extentRect, fun _ _ => 0⟩))

/-- `mypaint_gegl_tiled_surface_new` (lines 212-237). -/
def new (h : Heap) (fresh : Nat) : Surface × Heap :=
  (⟨Rect.zero, fresh⟩, put h fresh (some ⟨1, Rect.zero, fun _ _ => 0⟩))

/-- `free_gegl_tiledsurf` (lines 239-247). -/
def destroy (s : Surface) (h : Heap) : Except Fault Heap := unref h s.buffer

/-- What an application or the tiled surface does with the surface. Writing stores new colours in a tile. -/
inductive Event where
  | read (t : TileIndex)
  | write (t : TileIndex) (colour : Int → Int → Nat)
  | setBuffer (a : Arg) (fresh : Nat)

/-- New colours in a tile. -/
def paint (old : Int → Int → Nat) (t : TileIndex) (colour : Int → Int → Nat) : Int → Int → Nat :=
  fun x y => if x / 64 = t.x ∧ y / 64 = t.y then colour x y else old x y

/-- A tile request for writing, with what is written between its start and its end. -/
def write (s : Surface) (h : Heap) (t : TileIndex) (colour : Int → Int → Nat) : Except Fault (Surface × Heap) := do
  let (s, h) ← requestStart s h t false
  match h s.buffer with
  | none => .error .useAfterFree
  | some o => return (s, put h s.buffer (some { o with stored := paint o.stored t colour }))

def step (s : Surface) (h : Heap) : Event → Except Fault (Surface × Heap)
  | .read t => requestStart s h t true
  | .write t colour => write s h t colour
  | .setBuffer a fresh => setBuffer s h a fresh

def run : Surface → Heap → List Event → Except Fault (Surface × Heap)
  | s, h, [] => .ok (s, h)
  | s, h, e :: es => do
    let (s, h) ← step s h e
    run s h es

/-! ### Several threads

`end_atomic` and `get_color` of the tiled surface work on several tiles at once if `threadsafe_tile_requests` is set, which
line 209 does. Line 80 reads and writes `extent_rect` without a lock. The steps of one thread: -/

inductive Worker where
  | start                      -- before line 80
  | computed (r : Rect)        -- line 80, `extent_rect` has been read, not yet written
  | stored                     -- before line 81
  | finished
  deriving DecidableEq

/-- `extent_rect`, the extent of the buffer, and the threads, by the tile they request. -/
structure Shared where
  extentRect : Rect
  extent : Rect
  worker : TileIndex → Worker

/-- One step of the thread for tile `t`. The four fields of the rectangle are read, and written, in one step. -/
def micro (p : Shared) (t : TileIndex) : Except Fault Shared := do
  let set (w : Worker) : TileIndex → Worker := fun u => if u = t then w else p.worker u
  match p.worker t with
  | .start =>
    let box ← tileBox t
    return { p with worker := set (.computed (boundingBox p.extentRect box)) }
  | .computed r => return { p with extentRect := r, worker := set .stored }
  | .stored => return { p with extent := p.extentRect, worker := set .finished }
  | .finished => return p

def interleave : Shared → List TileIndex → Except Fault Shared
  | p, [] => .ok p
  | p, t :: ts => do
    let p ← micro p t
    interleave p ts

end Verif.Gegl
