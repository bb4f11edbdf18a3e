import Mathlib.Algebra.Order.Group.Abs
import Verif.Model.FloatMask

/-! # Specification for C79: opacities in single precision -/

namespace Verif.FloatMask

/-- What is assumed of a dab: a radius for which dabs are drawn at all, an angle whose sine and cosine are accurate to a millionth, an aspect
ratio of at least 1, and `sqrtf(1 / pi)`. -/
structure Shape.Ok (s : Shape) : Prop where
  radius : 1 / 10 ≤ s.radius
  aspect : 1 ≤ s.aspect
  cs : |s.cs| ≤ 1
  sn : |s.sn| ≤ 1
  circle : |s.cs * s.cs + s.sn * s.sn - 1| ≤ 1 / 10 ^ 6
  rad1 : 56 / 100 ≤ s.rad1 ∧ s.rad1 ≤ 57 / 100

end Verif.FloatMask

namespace Verif.Spec.FloatMask

/-- The falloff of a dab as documented, for the squared distance `rr` from the centre: from 1 at the
centre along a line to `hardness` at `hardness`, from there along a line to 0 at the rim, all scaled down
by the softness. -/
def opacity (hardness softness rr : ℚ) : ℚ :=
  if rr > 1 then 0
  else if rr ≤ hardness then (1 - softness) * (1 - rr / hardness * (1 - hardness))
  else (1 - softness) * (hardness * ((1 - rr) / (1 - hardness)))

end Verif.Spec.FloatMask
