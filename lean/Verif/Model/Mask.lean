import Verif.Model.Basic
import Mathlib.Algebra.Order.Field.Basic
import Mathlib.Algebra.Order.Floor.Ring

/-!
# Dab mask: geometry, opacity falloff, run-length encoding
(`/repo/mypaint-tiled-surface.c`, lines 226-493; decoder loop `/repo/brushmodes.c`, lines 50-71)

Numbers that are `float`/`double` in C are elements of an arbitrary ordered field `K` with a floor
function here (the real numbers, or the rationals for computed examples): rounding is not modelled.
Everything that is an integer in C (pixel positions, `skip`, the 16 bit mask entries) is exact.

`sn`/`cs` (the sine and cosine of the dab angle) and `rad1` (`sqrtf(1/M_PI)`, line 318) are
parameters, because they need not exist in `K`.
-/

namespace Verif.Mask

/-- `MYPAINT_TILE_SIZE` (`/repo/mypaint-config.h`: 64). -/
def tileSize : Int := 64

section geometry
variable {K : Type} [Field K] [LinearOrder K]

/-- Geometry parameters of `render_dab_mask` (lines 376-382), after lines 385-386
(`hardness` clamped, `aspect_ratio >= 1`); `sn`, `cs` from lines 413-414. -/
structure Shape (K : Type) where
  /-- centre, in the coordinates of the tile being drawn -/
  x : K
  y : K
  radius : K
  hardness : K
  softness : K
  aspect : K
  sn : K
  cs : K
  /-- `sqrtf(1.0f / M_PI)`, line 318 -/
  rad1 : K

/-- `CLAMP(x, low, high)` (`/repo/helpers.h` line 14). -/
def clampK (v lo hi : K) : K := if v > hi then hi else if v < lo then lo else v

/-- `calculate_r_sample` (lines 227-235). -/
def rSample (px py aspect sn cs : K) : K :=
  let yyr := (py * cs - px * sn) * aspect
  let xxr := py * sn + px * cs
  yyr * yyr + xxr * xxr

/-- `calculate_rr` (lines 237-249); `one_over_radius2 = 1/(radius*radius)` (line 425). -/
def rrPlain (s : Shape K) (xp yp : Int) : K :=
  let yy := (yp : K) + 1 / 2 - s.y
  let xx := (xp : K) + 1 / 2 - s.x
  let yyr := (yy * s.cs - xx * s.sn) * s.aspect
  let xxr := yy * s.sn + xx * s.cs
  (yyr * yyr + xxr * xxr) * (1 / (s.radius * s.radius))

/-- `sign_point_in_line` (lines 251-255). -/
def signPointInLine (px py vx vy : K) : K := (px - vx) * (-vy) - vx * (py - vy)

/-- `closest_point_to_line` (lines 257-265). -/
def closestPoint (lx ly px py : K) : K × K :=
  let l2 := lx * lx + ly * ly
  let t := (px * lx + py * ly) / l2
  (lx * t, ly * t)

/-- The nearest point of the pixel and its `r_near` (lines 283-311): the origin when the centre of
the dab is strictly inside the pixel. -/
def aaNearest (s : Shape K) (xp yp : Int) : K × K :=
  let right := s.x - (xp : K)
  let bottom := s.y - (yp : K)
  let centerX := right - 1 / 2
  let centerY := bottom - 1 / 2
  let left := right - 1
  let top := bottom - 1
  if left < 0 ∧ right > 0 ∧ top < 0 ∧ bottom > 0 then (0, 0)
  else
    let c := closestPoint s.cs s.sn centerX centerY
    (clampK c.1 left right, clampK c.2 top bottom)

/-- The farthest point (lines 320-333). -/
def aaFarthest (s : Shape K) (xp yp : Int) : K × K :=
  let n := aaNearest s xp yp
  let centerX := s.x - (xp : K) - 1 / 2
  let centerY := s.y - (yp : K) - 1 / 2
  if signPointInLine centerX centerY s.cs (-s.sn) < 0 then
    (n.1 - s.sn * s.rad1, n.2 + s.cs * s.rad1)
  else
    (n.1 + s.sn * s.rad1, n.2 - s.cs * s.rad1)

/-- `r_aa_start` (lines 433-435). -/
def rAAStart (s : Shape K) : K :=
  let r := if s.radius > 1 then s.radius - 1 else 0
  r * (r / s.aspect)

/-- `calculate_rr_antialiased` (lines 277-354). `none` stands for the not-a-number that line 351
would produce by dividing zero by zero. -/
def rrAntialiased (s : Shape K) (xp yp : Int) : Option K :=
  let k := 1 / (s.radius * s.radius)
  let n := aaNearest s xp yp
  let rrNear := rSample n.1 n.2 s.aspect s.sn s.cs * k
  if rrNear > 1 then some rrNear
  else
    let f := aaFarthest s xp yp
    let rFar := rSample f.1 f.2 s.aspect s.sn s.cs
    let rrFar := rFar * k
    if rFar < rAAStart s then some ((rrFar + rrNear) * (1 / 2))
    else
      let visibilityNear := 1 - rrNear
      let delta2 := 1 + (rrFar - rrNear)
      if delta2 = 0 then none else some (1 - visibilityNear / delta2)

/-- The value put into `rr_mask` for one pixel (lines 431-457). -/
def rrAt (s : Shape K) (xp yp : Int) : Option K :=
  if s.radius < 3 then rrAntialiased s xp yp else some (rrPlain s xp yp)

/-- `calculate_opa` (lines 356-373) with the segments of lines 405-408. For `hardness = 1` the
second segment divides by zero in C; that value is never used (line 409), as `rr > 1` then. -/
def opaOf (hardness softness rr : K) : K :=
  let segment1Offset := 1 - softness
  let segment1Slope := -(1 / hardness - 1) * (1 - softness)
  let segment2Offset := hardness / (1 - hardness) * (1 - softness)
  let segment2Slope := -hardness / (1 - hardness) * (1 - softness)
  let fac := if rr ≤ hardness then segment1Slope else segment2Slope
  let opa := (if rr ≤ hardness then segment1Offset else segment2Offset) + rr * fac
  if rr > 1 then 0 else opa

variable [FloorRing K]

/-- `const uint16_t opa_ = opa * (1<<15)` (line 471). Truncation equals floor because `opa` is not
negative, and the value fits in 16 bits (both proved: `Verif.Mask.opa_in_unit_interval`). -/
def opaU16 (s : Shape K) (rr : K) : Nat := ⌊opaOf s.hardness s.softness rr * 32768⌋.toNat

/-- The window `x0..x1`, `y0..y1` (lines 416-424). -/
structure Window where
  x0 : Int
  x1 : Int
  y0 : Int
  y1 : Int
deriving DecidableEq, Repr

/-- Lines 416-424. -/
def window (s : Shape K) : Window :=
  let f := s.radius + 1
  { x0 := max ⌊s.x - f⌋ 0
    x1 := min ⌊s.x + f⌋ (tileSize - 1)
    y0 := max ⌊s.y - f⌋ 0
    y1 := min ⌊s.y + f⌋ (tileSize - 1) }

end geometry

/-! ### Run-length encoding (lines 459-492) -/

/-- `mask` written so far, and `skip`. -/
structure Enc where
  out : List Nat
  skip : Int
deriving DecidableEq, Repr

/-- Body of the inner loop (lines 470-482); `skip*4` is stored in a `uint16_t`. -/
def encPixel (e : Enc) (opa : Nat) : Enc :=
  if opa = 0 then { e with skip := e.skip + 1 }
  else if e.skip ≠ 0 then { out := e.out ++ [0, (e.skip * 4 % 65536).toNat, opa], skip := 0 }
  else { e with out := e.out ++ [opa] }

/-- One row (lines 465-485). After the loop `xp` is `x1+1`, or `x0` if the loop did not run. -/
def encRow (opa : Int → Int → Nat) (w : Window) (e : Enc) (yp : Int) : Enc :=
  let e := { e with skip := e.skip + w.x0 }
  let e := (cRange w.x0 (w.x1 + 1)).foldl (fun e xp => encPixel e (opa xp yp)) e
  { e with skip := e.skip + (tileSize - max (w.x1 + 1) w.x0) }

/-- Lines 459-492 for the opacities `opa xp yp`. -/
def encode (opa : Int → Int → Nat) (w : Window) : List Nat :=
  let e : Enc := { out := [], skip := w.y0 * tileSize }
  ((cRange w.y0 (w.y1 + 1)).foldl (encRow opa w) e).out ++ [0, 0]

/-- `render_dab_mask` (lines 376-493): the sequence of `uint16_t` written to `mask`.
`render_dab_mask` first fills `rr_mask` for the window and then encodes; a not-a-number there makes
the conversion of line 471 undefined. -/
def render {K : Type} [Field K] [LinearOrder K] [FloorRing K] (s : Shape K) :
    Except Fault (List Nat) :=
  let w := window s
  if (cRange w.y0 (w.y1 + 1)).all (fun yp => (cRange w.x0 (w.x1 + 1)).all (fun xp => (rrAt s xp yp).isSome))
  then .ok (encode (fun xp yp => match rrAt s xp yp with | some rr => opaU16 s rr | none => 0) w)
  else .error .floatConv

/-- The shape as seen from tile (tx, ty): `op->x - tx*MYPAINT_TILE_SIZE` etc.
(`process_op`, lines 501-509). -/
def Shape.inTile {K : Type} [Field K] (s : Shape K) (tx ty : Int) : Shape K :=
  { s with x := s.x - ((tx * tileSize : Int) : K), y := s.y - ((ty * tileSize : Int) : K) }

/-! ### Decoding, as in every blend mode (`/repo/brushmodes.c` lines 57-70 and similar) -/

/-- The double loop of the blend functions: `for (; mask[0]; mask++, rgba+=4) {…}`,
`if (!mask[1]) break; rgba += mask[1]; mask += 2;`. The result lists the offset of `rgba` from the
start of the tile and the mask value for each execution of the body. Running past the end of what
was written to the mask is `outOfBounds`. -/
def visits : List Nat → Nat → Except Fault (List (Nat × Nat))
  | [], _ => .error .outOfBounds
  | (m + 1) :: rest, pos => do
    let l ← visits rest (pos + 4)
    return (pos, m + 1) :: l
  | [0], _ => .error .outOfBounds
  | 0 :: 0 :: _, _ => .ok []
  | 0 :: (n + 1) :: rest, pos => visits rest (pos + (n + 1))

end Verif.Mask
