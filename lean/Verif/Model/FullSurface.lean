import Mathlib.Data.Rat.Floor
import Verif.Model.Dab
import Verif.Model.Symmetry
import Verif.Model.Rectangle
import Verif.Model.TiledSurface

/-!
# The whole tiled surface (`/repo/mypaint-tiled-surface.c`): dabs, symmetry, bounding boxes

This file puts together the queue and tiles (`Verif.Model.TiledSurface`, `Verif.Model.Dab`), the
symmetry data (`Verif.Model.Symmetry`) and the bounding boxes that `end_atomic` reports.
-/

namespace Verif.Full
open Verif.Dab Verif.Symm

/-- `MyPaintTiledSurface` (mypaint-tiled-surface.h 66-88). `boxCap` is the number of rectangles that
really fit the block `bboxes` points to. -/
structure FSurf (K : Type) where
  surf : Surf (Op K) (Except Fault Tile)
  symm : Data K
  boxes : Int → Rect
  numB : Int
  boxCap : Int
  dirty : Int

section
variable {K : Type} [Field K] [LinearOrder K] [FloorRing K]

/-- The conversions to `int` of `draw_dab_internal` (lines 671-674) and `update_dirty_bbox`
(lines 600-604) stay in range. -/
def convertible (op : Op K) : Bool :=
  let f := op.radius + 1
  let inInt (n : Int) : Bool := decide (intMin ≤ n ∧ n ≤ intMax)
  inInt (tileLo op.x op.radius) && inInt (tileHi op.x op.radius) &&
  inInt (tileLo op.y op.radius) && inInt (tileHi op.y op.radius) &&
  inInt ⌊op.x - f⌋ && inInt ⌊op.y - f⌋ &&
  inInt (⌊op.x + f⌋ - ⌊op.x - f⌋ + 1) && inInt (⌊op.y + f⌋ - ⌊op.y - f⌋ + 1) &&
  inInt ⌊op.x + f⌋ && inInt ⌊op.y + f⌋

/-- `update_dirty_bbox` (lines 596-608); `bb_x + bb_w - 1` is `floor (op->x + r_fringe)`. -/
def updateBox (r : Rect) (op : Op K) : Rect :=
  let f := op.radius + 1
  (r.expandPoint ⌊op.x - f⌋ ⌊op.y - f⌋).expandPoint ⌊op.x + f⌋ ⌊op.y + f⌋

/-- Write `bboxes[i]`. -/
def setBox (boxes : Int → Rect) (i : Int) (r : Rect) : Int → Rect := fun j => if j = i then r else boxes j

/-- `draw_dab_internal` (lines 611-686). Simplified: all conversions to `int` are checked before
anything is queued. -/
def drawInternal (b : Build) (env : Env K) (s : FSurf K) (a : Args K) (bbox : Int) :
    Except Fault (Bool × FSurf K) := do
  match ← prepare a with
  | none => return (false, s)
  | some op =>
    if convertible op then
      let surf ← Surf.drawDab b (kind env) s.surf op
      if 0 ≤ bbox ∧ bbox < s.boxCap then
        return (true, { s with surf := surf, boxes := setBox s.boxes bbox (updateBox (s.boxes bbox) op) })
      else .error .outOfBounds
    else .error .floatConv

/-- One symmetry pass. -/
def drawPass (b : Build) (env : Env K) (a : Args K) (s : FSurf K) (p : Pass K) : Except Fault (FSurf K) := do
  let r ← drawInternal b env s { a with x := p.x, y := p.y, angle := p.angle } p.bbox
  return r.2

/-- `draw_dab` (lines 690-800). The transformed centres of all passes are computed before the first
pass is drawn, which changes nothing: drawing does not touch the symmetry data. -/
def drawDab (b : Build) (env : Env K) (s : FSurf K) (a : Args K) : Except Fault (Bool × FSurf K) := do
  let (modified, s1) ← drawInternal b env s a 0
  if modified then
    let (ps, used) ← passes s1.symm s1.numB a.x a.y a.angle
    let s2 ← ps.foldlM (drawPass b env a) s1
    return (true, { s2 with dirty := min s2.numB used })
  else
    return (false, { s1 with dirty := min s1.numB 0 })

/-- `prepare_bounding_boxes` (lines 50-84). `sizeof(MyPaintRectangle)` is 16; the byte count is an
`int`; `balloc` is the behaviour of `malloc`. -/
def prepareBoxes (balloc : Int → Bool) (s : FSurf K) : Except Fault (FSurf K) :=
  let st := s.symm.current
  let desired := st.lines * (if st.type = .snowflake then 2 else 1)
  let bytes := toI32 ((desired + 10) * 16)
  let s :=
    if desired > s.numB then
      if 0 ≤ bytes ∧ balloc bytes = true then
        { s with boxes := fun _ => Rect.zero, numB := desired + 10, boxCap := bytes / 16, dirty := 0 }
      else s
    else s
  let n := min s.numB s.dirty
  if n ≤ s.boxCap then
    .ok { s with boxes := (fun i => if 0 ≤ i ∧ i < n then Rect.zero else s.boxes i), dirty := 0 }
  else .error .outOfBounds

/-- `mypaint_tiled_surface_begin_atomic` (lines 94-99). -/
def beginAtomic (trig : Trig K) (alloc balloc : Int → Bool) (s : FSurf K) : Except Fault (FSurf K) := do
  let symm ← update trig alloc s.symm
  prepareBoxes balloc { s with symm := symm }

/-- The output rectangle for bounding box `i` (lines 136-144). For `n = 0` the C code divides by zero
in floating point, with the same result -1. -/
def outIndex (n m i : Int) : Int :=
  if m > n then min (n - 1) (roundf ((i : Rat) / max 1 ((m : Rat) / (n : Rat)))) else i

/-- The rectangles written to `roi` (lines 123-148), for a list of `n` rectangles with any previous
contents `old`. -/
def outRects (boxes : Int → Rect) (boxCap n m : Int) (old : Int → Rect) : Except Fault (List Rect) := do
  let out0 : Int → Rect := fun i => if 0 ≤ i ∧ i < min n m then Rect.zero else old i
  let out ← (cRange 0 m).foldlM (fun (out : Int → Rect) i =>
    let k := outIndex n m i
    if 0 ≤ k ∧ k < n ∧ i < boxCap then
      .ok (setBox out k ((out k).expandRect (boxes i)))
    else .error .outOfBounds) out0
  return (cRange 0 (min n m)).map out

/-- `mypaint_tiled_surface_end_atomic` (lines 109-149); `roi` is `NULL` or a list of rectangles. -/
def endAtomic (env : Env K) (order : List TileIndex → List TileIndex) (roi : Option (Int × (Int → Rect)))
    (s : FSurf K) : Except Fault (List Rect × FSurf K) := do
  let surf ← Surf.endAtomic (kind env) (fun _ => true) order s.surf
  match roi with
  | none => return ([], { s with surf := surf })
  | some (n, old) =>
    let rs ← outRects s.boxes s.boxCap n s.dirty old
    return (rs, { s with surf := surf })

/-- `mypaint_tiled_surface_init` (lines 934-957). `num_bboxes_dirtied` is not initialised: `dirty`. -/
def init (b : Build) (trig : Trig K) (alloc : Int → Bool) (garbage : Int → Transform K) (dirty : Int)
    (canvas : TileIndex → Except Fault Tile) : Except Fault (FSurf K) := do
  let symm ← Symm.default trig alloc garbage
  let surf ← Surf.init b canvas
  return { surf := surf, symm := symm, boxes := fun _ => Rect.zero, numB := 32, boxCap := 32, dirty := dirty }

/-- What an application does to a surface. -/
inductive Event (K : Type) where
  | setSymmetry (active : Bool) (cx cy angle : K) (type : SymType) (lines : Int)
  | beginAtomic (alloc balloc : Int → Bool)
  | dab (a : Args K)
  | sample (tiles : List TileIndex)
  | endAtomic (order : List TileIndex → List TileIndex) (roi : Option (Int × (Int → Rect)))

/-- One event; only `end_atomic` returns rectangles. -/
def step (b : Build) (env : Env K) (trig : Trig K) (s : FSurf K) : Event K → Except Fault (List Rect × FSurf K)
  | .setSymmetry active cx cy angle type lines =>
    .ok ([], { s with symm := setPending s.symm active cx cy angle type lines })
  | .beginAtomic alloc balloc => do return ([], ← beginAtomic trig alloc balloc s)
  | .dab a => do return ([], (← drawDab b env s a).2)
  | .sample ts => do
    let (_, surf) ← Surf.sample (kind env) s.surf ts
    return ([], { s with surf := surf })
  | .endAtomic order roi => endAtomic env order roi s

/-- A session; the results are the rectangles of the last event. -/
def run (b : Build) (env : Env K) (trig : Trig K) (s : FSurf K) (es : List (Event K)) :
    Except Fault (FSurf K) :=
  es.foldlM (fun s e => do return (← step b env trig s e).2) s

end
end Verif.Full
