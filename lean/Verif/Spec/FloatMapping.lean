import Mathlib.Algebra.Order.Group.Abs
import Mathlib.Algebra.Order.Ring.Rat
import Verif.Spec.Float32
import Verif.Model.Mapping

/-! # Specification for C89: dynamics curves in single precision -/

namespace Verif.FloatMap
open Map FloatStroke

/-- Numbers of the type `float` that are not astronomically large. -/
structure Modest (q : ℚ) : Prop where
  float : F32 q
  size : |q| ≤ 2 ^ 40

/-- A curve whose control points are such numbers, at different places not closer than 2^-40. -/
structure Points.Modest (p : Points ℚ) : Prop where
  xs : ∀ i < p.n, FloatMap.Modest (p.xs i)
  ys : ∀ i < p.n, FloatMap.Modest (p.ys i)
  gap : ∀ i, i + 1 < p.n → p.xs i = p.xs (i + 1) ∨ 1 / 2 ^ 40 ≤ |p.xs (i + 1) - p.xs i|

/-- How strongly the ends of a segment count at `x`; between the ends it is at most the larger of the two. -/
def weight (x0 y0 x1 y1 x : ℚ) : ℚ :=
  if x0 = x1 ∨ y0 = y1 then |y0| else (|y1| * |x - x0| + |y0| * |x1 - x|) / |x1 - x0|

/-- The same for the segment of the curve that is used at `x`. -/
def weightAt (p : Points ℚ) (x : ℚ) : ℚ :=
  weight (p.xs (findSegment p x p.n 2 - 1)) (p.ys (findSegment p x p.n 2 - 1)) (p.xs (findSegment p x p.n 2))
    (p.ys (findSegment p x p.n 2)) x

end Verif.FloatMap
