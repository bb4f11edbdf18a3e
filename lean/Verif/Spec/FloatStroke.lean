import Mathlib.Algebra.Order.Group.Abs
import Verif.Model.FloatStroke
import Verif.Spec.Float32

/-! # Specification for C78: when a motion event in single precision ends -/

namespace Verif.Spec.FloatStroke

open Verif.FloatStroke

/-- The library functions do not overestimate by more than one part in a million. -/
structure LibmOk (L : Libm) : Prop where
  hypotf : ∀ dx dy, L.hypotf dx dy ≤ (|dx| + |dy|) * (1 + 1 / 2 ^ 20)
  sqrt : ∀ v s, 0 ≤ s → v ≤ s ^ 2 → L.sqrt v ≤ s * (1 + 1 / 2 ^ 20)

/-- By how much the aspect ratio of the dab can stretch a distance (at most). -/
def stretch (ratio : ℚ) : ℚ := if ratio > 1 then 2 * ratio else 1

/-- The brush asks for at most `A` dabs per pixel and `B` dabs per second, with a reserve of one per
mille.  The limits for the radii are those of the code. -/
structure Bounded (A B : ℚ) (s : Spacing) : Prop where
  radius : 1 / 5 ≤ s.radius ∧ s.radius ≤ 1000
  base : 1 / 5 ≤ s.base ∧ s.base ≤ 1000
  actual : 0 ≤ s.perActual
  basic : 0 ≤ s.perBasic
  second : 0 ≤ s.perSecond
  ratio : s.ratio ≤ 1000000
  cs : |s.cs| ≤ 1
  sn : |s.sn| ≤ 1
  perPixel : stretch s.ratio * (s.perActual / s.radius + s.perBasic / s.base) * (1 + 1 / 1000) ≤ A
  perTime : s.perSecond * (1 + 1 / 1000) ≤ B

/-- The number of dabs on the way to `(x, y)`, at most. -/
def ahead (A B : ℚ) (p : Pen) (x y : ℚ) : ℚ := A * (|x - p.x| + |y - p.y|) + B * |p.left|

/-- The brush between two events: within `M` pixels of the origin (up to rounding), with less than one dab pending. -/
structure Settled (M : ℚ) (b : Pen) : Prop where
  fx : F32 b.x
  fy : F32 b.y
  x : |b.x| ≤ M * (1 + 1 / 2 ^ 17)
  y : |b.y| ≤ M * (1 + 1 / 2 ^ 17)
  moved : F32 b.moved
  nonneg : 0 ≤ b.moved
  below : b.moved < 1

end Verif.Spec.FloatStroke
