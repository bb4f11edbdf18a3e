/-!
# Model of `mypaint-rectangle.c`

Coordinates are unbounded integers: a dab whose coordinates come near the range of `int` has already
failed in the operation queue (`OpQueue.add_outcome`) before its bounding box is computed.
-/

namespace Verif

/-- `MyPaintRectangle`, mypaint-rectangle.h:26-31. -/
structure Rect where
  x : Int
  y : Int
  width : Int
  height : Int
  deriving DecidableEq, Repr

namespace Rect

/-- `mypaint_rectangle_expand_to_include_point`, mypaint-rectangle.c:38-51. -/
def expandPoint (r : Rect) (x y : Int) : Rect :=
  if r.width = 0 then { x := x, y := y, width := 1, height := 1 }
  else
    let r :=
      if x < r.x then { r with width := r.width + (r.x - x), x := x }
      else if x ≥ r.x + r.width then { r with width := x - r.x + 1 }
      else r
    if y < r.y then { r with height := r.height + (r.y - y), y := y }
    else if y ≥ r.y + r.height then { r with height := y - r.y + 1 }
    else r

/-- `mypaint_rectangle_expand_to_include_rect`, mypaint-rectangle.c:53-58. -/
def expandRect (r other : Rect) : Rect :=
  (r.expandPoint other.x other.y).expandPoint
    (other.x + other.width - 1) (other.y + other.height - 1)

/-- The all-zero rectangle (`memset 0`). -/
def zero : Rect := ⟨0, 0, 0, 0⟩

end Rect

end Verif
