import Verif.Model.Float32

/-!
# Angle arithmetic in single precision (`/repo/helpers.c`)

Finite floats; results below 2^128.
-/

namespace Verif.FloatAngle
open Float32

/-- `mod_arith`, helpers.c:75-79. The quotient is a `float`; `floor` is the function for `double`, so the product and the
difference are computed in double precision and the difference is converted back. -/
def modArith (a n : ℚ) : ℚ :=
  let q := rnd (a / n)
  rnd (rnd64 (a - rnd64 (n * ⌊q⌋)))

/-- `smallest_angular_difference`, helpers.c:82-89. -/
def smallestDifference (angleA angleB : ℚ) : ℚ :=
  let a := rnd (angleB - angleA)
  let a := rnd (modArith (rnd (a + 180)) 360 - 180)
  rnd (a + if a > 180 then -360 else if a < -180 then 360 else 0)

end Verif.FloatAngle
