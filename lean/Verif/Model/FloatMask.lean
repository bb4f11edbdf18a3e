import Verif.Model.Float32

/-!
# Model of the opacities of a dab mask, in single precision

The functions behind `render_dab_mask` that compute the opacity of one pixel, with a rounding after
every operation.  The squared distances are finite numbers here (overflow needs an aspect ratio beyond
10^15 or so); the falloff is computed with infinities and not-a-number, because dividing by a tiny
hardness does overflow.

Expressions are evaluated in single precision (`FLT_EVAL_METHOD` 0) and not contracted.
-/

namespace Verif.FloatMask

open Float32

/-! ### Distances -/

/-- What `render_dab_mask` hands to the functions for one pixel: centre, radius, aspect ratio (at least
1), sine and cosine of the angle, and `sqrtf(1.0f / M_PI)`, mypaint-tiled-surface.c:318. -/
structure Shape where
  x : ℚ
  y : ℚ
  radius : ℚ
  aspect : ℚ
  sn : ℚ
  cs : ℚ
  rad1 : ℚ

/-- `one_over_radius2`, mypaint-tiled-surface.c:427. -/
def Shape.scale (s : Shape) : ℚ := rnd (1 / rnd (s.radius * s.radius))

/-- `calculate_r_sample`, mypaint-tiled-surface.c:227-235. -/
def rSample (x y aspect sn cs : ℚ) : ℚ :=
  let yyr := rnd (rnd (rnd (y * cs) - rnd (x * sn)) * aspect)
  let xxr := rnd (rnd (y * sn) + rnd (x * cs))
  rnd (rnd (yyr * yyr) + rnd (xxr * xxr))

/-- `calculate_rr`, mypaint-tiled-surface.c:237-249. -/
def rrPlain (s : Shape) (xp yp : Int) : ℚ :=
  let yy := rnd (rnd (yp + 1 / 2) - s.y)
  let xx := rnd (rnd (xp + 1 / 2) - s.x)
  let yyr := rnd (rnd (rnd (yy * s.cs) - rnd (xx * s.sn)) * s.aspect)
  let xxr := rnd (rnd (yy * s.sn) + rnd (xx * s.cs))
  rnd (rnd (rnd (yyr * yyr) + rnd (xxr * xxr)) * s.scale)

/-- `sign_point_in_line`, mypaint-tiled-surface.c:251-255. -/
def signPointInLine (px py vx vy : ℚ) : ℚ :=
  rnd (rnd (rnd (px - vx) * -vy) - rnd (vx * rnd (py - vy)))

/-- `closest_point_to_line`, mypaint-tiled-surface.c:257-265. -/
def closestPoint (lx ly px py : ℚ) : ℚ × ℚ :=
  let l2 := rnd (rnd (lx * lx) + rnd (ly * ly))
  let t := rnd (rnd (rnd (px * lx) + rnd (py * ly)) / l2)
  (rnd (lx * t), rnd (ly * t))

/-- `CLAMP`, helpers.h:14. -/
def clamp (v lo hi : ℚ) : ℚ := if v > hi then hi else if v < lo then lo else v

/-- The nearest point of the pixel, mypaint-tiled-surface.c:282-311. -/
def nearest (s : Shape) (xp yp : Int) : ℚ × ℚ :=
  let right := rnd (s.x - xp)
  let bottom := rnd (s.y - yp)
  let centerX := rnd (right - 1 / 2)
  let centerY := rnd (bottom - 1 / 2)
  let left := rnd (right - 1)
  let top := rnd (bottom - 1)
  if left < 0 ∧ right > 0 ∧ top < 0 ∧ bottom > 0 then (0, 0)
  else
    let c := closestPoint s.cs s.sn centerX centerY
    (clamp c.1 left right, clamp c.2 top bottom)

/-- The farthest point, mypaint-tiled-surface.c:317-333. -/
def farthest (s : Shape) (xp yp : Int) : ℚ × ℚ :=
  let n := nearest s xp yp
  let centerX := rnd (rnd (s.x - xp) - 1 / 2)
  let centerY := rnd (rnd (s.y - yp) - 1 / 2)
  if signPointInLine centerX centerY s.cs (-s.sn) < 0 then
    (rnd (n.1 - rnd (s.sn * s.rad1)), rnd (n.2 + rnd (s.cs * s.rad1)))
  else
    (rnd (n.1 + rnd (s.sn * s.rad1)), rnd (n.2 - rnd (s.cs * s.rad1)))

/-- `r_aa_start`, mypaint-tiled-surface.c:433-435. -/
def aaStart (s : Shape) : ℚ :=
  let r := if s.radius > 1 then rnd (s.radius - 1) else 0
  rnd (r * rnd (r / s.aspect))

/-- `rr_near`; at the centre of the dab the code sets it to 0. -/
def rrNear (s : Shape) (xp yp : Int) : ℚ :=
  let n := nearest s xp yp
  rnd (rSample n.1 n.2 s.aspect s.sn s.cs * s.scale)

/-- `r_far`. -/
def rFar (s : Shape) (xp yp : Int) : ℚ :=
  let f := farthest s xp yp
  rSample f.1 f.2 s.aspect s.sn s.cs

/-- `calculate_rr_antialiased`, mypaint-tiled-surface.c:277-354; `none` where it divides zero by zero. -/
def rrAntialiased (s : Shape) (xp yp : Int) : Option ℚ :=
  let near := rrNear s xp yp
  if near > 1 then some near
  else
    let far := rnd (rFar s xp yp * s.scale)
    if rFar s xp yp < aaStart s then some (rnd (rnd (far + near) * (1 / 2)))
    else
      let visibility := rnd (1 - near)
      let delta2 := rnd (1 + rnd (far - near))
      if delta2 = 0 then none else some (rnd (1 - rnd (visibility / delta2)))

/-- The entry of `rr_mask`, mypaint-tiled-surface.c:431-460. -/
def rrAt (s : Shape) (xp yp : Int) : Option ℚ :=
  if s.radius < 3 then rrAntialiased s xp yp else some (rrPlain s xp yp)

/-- The pixels of the tile for which it is computed, in one direction, mypaint-tiled-surface.c:418-426. -/
def window (c radius : ℚ) : Int × Int :=
  let fringe := rnd (radius + 1)
  (max ⌊rnd (c - fringe)⌋ 0, min ⌊rnd (c + fringe)⌋ 63)

/-! ### The falloff -/

/-- The values of a `float` (zero has no sign here). -/
inductive Val where
  | fin (q : ℚ)
  | inf
  | negInf
  | nan
deriving DecidableEq

namespace Val

/-- The result of an operation whose exact value is `q`: rounded, infinite from 2^128 on. -/
def ofExact (q : ℚ) : Val :=
  if 2 ^ 128 ≤ rnd q then inf else if rnd q ≤ -2 ^ 128 then negInf else fin (rnd q)

/-- `-a`. -/
def neg : Val → Val
  | fin q => fin (-q)
  | inf => negInf
  | negInf => inf
  | nan => nan

/-- `a + b`. -/
def add : Val → Val → Val
  | nan, _ => nan
  | _, nan => nan
  | fin a, fin b => ofExact (a + b)
  | inf, negInf => nan
  | negInf, inf => nan
  | inf, _ => inf
  | _, inf => inf
  | negInf, _ => negInf
  | _, negInf => negInf

/-- `a - b`. -/
def sub (a b : Val) : Val := add a (neg b)

/-- An infinity of the sign of `q`; not a number for 0. -/
def signed (q : ℚ) : Val := if q > 0 then inf else if q < 0 then negInf else nan

/-- `a * b`. -/
def mul : Val → Val → Val
  | nan, _ => nan
  | _, nan => nan
  | fin a, fin b => ofExact (a * b)
  | fin a, inf => signed a
  | inf, fin b => signed b
  | fin a, negInf => neg (signed a)
  | negInf, fin b => neg (signed b)
  | inf, inf => inf
  | negInf, negInf => inf
  | inf, negInf => negInf
  | negInf, inf => negInf

/-- `a / b`, where a `b` of zero is positive. -/
def div : Val → Val → Val
  | nan, _ => nan
  | _, nan => nan
  | fin a, fin b => if b = 0 then signed a else ofExact (a / b)
  | fin _, _ => fin 0
  | inf, fin b => if b = 0 then inf else signed b
  | negInf, fin b => if b = 0 then negInf else neg (signed b)
  | _, _ => nan

/-- `a <= b`; false if one of them is not a number. -/
def le : Val → Val → Bool
  | nan, _ => false
  | _, nan => false
  | fin a, fin b => a ≤ b
  | negInf, _ => true
  | _, inf => true
  | _, _ => false

/-- `a > b`. -/
def gt (a b : Val) : Bool :=
  match a, b with
  | nan, _ => false
  | _, nan => false
  | a, b => !(le a b)

end Val

open Val

/-- `calculate_opa` with the segments of `render_dab_mask`, mypaint-tiled-surface.c:356-373 and 405-408. -/
def opaOf (hardness softness rr : Val) : Val :=
  let one := fin 1
  let rest := sub one softness
  let offset1 := mul one rest
  let slope1 := mul (neg (sub (div one hardness) one)) rest
  let offset2 := mul (div hardness (sub one hardness)) rest
  let slope2 := mul (div (neg hardness) (sub one hardness)) rest
  let fac := if le rr hardness then slope1 else slope2
  let opa := if le rr hardness then offset1 else offset2
  let opa := add opa (mul rr fac)
  if gt rr one then fin 0 else opa

/-- Conversion of a `float` to `uint16_t`; `none` where C leaves it undefined (C11 6.3.1.4): the integral
part must fit. -/
def toU16 : Val → Option Nat
  | fin q => if -1 < q ∧ q < 65536 then some ⌊q⌋.toNat else none
  | _ => none

/-- `const uint16_t opa_ = opa * (1<<15)`, mypaint-tiled-surface.c:477. -/
def opaU16 (hardness softness rr : Val) : Option Nat := toU16 (mul (opaOf hardness softness rr) (fin 32768))

end Verif.FloatMask
