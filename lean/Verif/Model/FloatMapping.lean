import Verif.Model.FloatMask
import Verif.Model.Mapping

/-!
# Brush dynamics curves in single precision (`/repo/mypaint-mapping.c`)

`mypaint_mapping_calculate` with a rounding after every operation, and with overflow to infinity. The control points, the base
value and the inputs are finite floats here.
-/

namespace Verif.FloatMap
open Float32 FloatMask Map

/-- One segment of a curve, mypaint-mapping.c:176-181. -/
def segment (x0 y0 x1 y1 x : ℚ) : Val :=
  if x0 = x1 ∨ y0 = y1 then .fin y0
  else
    ((Val.fin y1).mul ((Val.fin x).sub (.fin x0)) |>.add ((Val.fin y0).mul ((Val.fin x1).sub (.fin x)))).div
      ((Val.fin x1).sub (.fin x0))

/-- The value of one curve, mypaint-mapping.c:156-181. Comparisons of floats are exact. -/
def evaluate (p : Points ℚ) (x : ℚ) : Val :=
  let i := findSegment p x p.n 2
  segment (p.xs (i - 1)) (p.ys (i - 1)) (p.xs i) (p.ys i) x

/-- `mypaint_mapping_calculate`, mypaint-mapping.c:146-188. -/
def calculate (m : Mapping ℚ) (data : Nat → ℚ) : Val :=
  if m.used = 0 then .fin m.base
  else (List.range m.inputs).foldl
    (fun result j => if (m.pts j).n ≠ 0 then result.add (evaluate (m.pts j) (data j)) else result) (.fin m.base)

end Verif.FloatMap
