import Verif.Model.Mask

/-!
# Blend modes on 15 bit fixed point pixels (`/repo/brushmodes.c`)

One pixel is four `uint16_t` (premultiplied r, g, b and alpha). All integer arithmetic is exact,
with the conversions C performs (`u16`, `u32`, `i16`: wrap-around of unsigned and narrowed values).
Each blend function of the C code is the loop `Verif.Mask.visits` around one of the bodies below;
the loop is in `Verif.Model.Dab`.
-/

namespace Verif.Blend

/-- Store into a `uint16_t`. -/
def u16 (n : Nat) : Nat := n % 65536
/-- Unsigned 32 bit arithmetic. -/
def u32 (n : Nat) : Nat := n % 4294967296

/-- One pixel: `rgba[0..3]`. -/
@[ext] structure Px where
  r : Nat
  g : Nat
  b : Nat
  a : Nat
deriving DecidableEq, Repr

/-- `opa_a = mask[0]*(uint32_t)opacity/(1<<15)`. -/
def topAlpha (m opacity : Nat) : Nat := u32 (m * opacity) / 32768

/-- `opa_b = (1<<15)-opa_a` in `uint32_t`. -/
def bottomAlpha (opaA : Nat) : Nat := u32 (32768 + 4294967296 - opaA)

/-- `(opa_a*color + opa_b*rgba[i])/(1<<15)`, stored in a `uint16_t`. -/
def lerpChan (opaA opaB color v : Nat) : Nat :=
  u16 (u32 (u32 (opaA * color) + u32 (opaB * v)) / 32768)

/-- `opa_a + opa_b * rgba[3] / (1<<15)` as a `uint32_t`. -/
def overAlpha (opaA opaB a : Nat) : Nat := u32 (opaA + u32 (opaB * a) / 32768)

/-- Brush colour as handed to the blend modes. -/
structure Color where
  r : Nat
  g : Nat
  b : Nat
deriving DecidableEq, Repr

/-- Body of `draw_dab_pixels_BlendMode_Normal` (lines 59-64). -/
def normal (c : Color) (opacity m : Nat) (p : Px) : Px :=
  let opaA := topAlpha m opacity
  let opaB := bottomAlpha opaA
  { a := u16 (overAlpha opaA opaB p.a)
    r := lerpChan opaA opaB c.r p.r
    g := lerpChan opaA opaB c.g p.g
    b := lerpChan opaA opaB c.b p.b }

/-- Body of `draw_dab_pixels_BlendMode_Normal_and_Eraser` (lines 307-313). -/
def normalAndEraser (c : Color) (colorA opacity m : Nat) (p : Px) : Px :=
  let opaA := topAlpha m opacity
  let opaB := bottomAlpha opaA
  let opaA := u32 (opaA * colorA) / 32768
  { a := u16 (overAlpha opaA opaB p.a)
    r := lerpChan opaA opaB c.r p.r
    g := lerpChan opaA opaB c.g p.g
    b := lerpChan opaA opaB c.b p.b }

/-- Body of `draw_dab_pixels_BlendMode_LockAlpha` (lines 427-435). -/
def lockAlpha (c : Color) (opacity m : Nat) (p : Px) : Px :=
  let opaA := topAlpha m opacity
  let opaB := bottomAlpha opaA
  let opaA := u32 (opaA * p.a) / 32768
  { a := p.a
    r := lerpChan opaA opaB c.r p.r
    g := lerpChan opaA opaB c.g p.g
    b := lerpChan opaA opaB c.b p.b }

/-- `(1<<15) * ROUND(r * posterize_num) / posterize_num` with `r = (float)v / (1<<15)` (lines
145-151), converted to `uint32_t`. `v * num` has at most 24 significant bits, so the
single-precision product is exact, and the sum with 0.5 is done in double precision: the `int`
value of `ROUND` is the integer part of `v*num/2^15 + 1/2`. The product with 2^15 and the quotient
are `int`s (at most 2^23 for 16 bit `v` and `num ≤ 128`). -/
def posterizeLevel (num v : Nat) : Nat := 32768 * ((2 * v * num + 32768) / 65536) / num

/-- Body of `draw_dab_pixels_BlendMode_Posterize` (lines 145-158). -/
def posterize (num opacity m : Nat) (p : Px) : Px :=
  let opaA := topAlpha m opacity
  let opaB := bottomAlpha opaA
  { a := p.a
    r := lerpChan opaA opaB (posterizeLevel num p.r) p.r
    g := lerpChan opaA opaB (posterizeLevel num p.g) p.g
    b := lerpChan opaA opaB (posterizeLevel num p.b) p.b }

/-! ### Colorize -/

/-- Rounding of a natural number to 24 significant bits, ties to even. -/
def rne24Nat (n : Nat) : Nat :=
  if n < 16777216 then n
  else
    let e := n.log2 - 23
    let q := n / 2 ^ e
    let rem := n % 2 ^ e
    let half := 2 ^ e / 2
    (if rem > half ∨ (rem = half ∧ q % 2 = 1) then q + 1 else q) * 2 ^ e

/-- IEEE binary32 round-to-nearest-even of the number `z · 2^-12` (in units of 2^-12; all numbers
occurring below are far from the underflow and overflow thresholds). -/
def rne24 (z : Int) : Int := if z < 0 then -(rne24Nat z.natAbs : Int) else rne24Nat z.natAbs

/-- `LUMA_RED_COEFF` etc. (lines 180-182) as `float`, in units of 2^-12:
6966.4765625, 23435.673828125 and 2365.849609375. -/
def lumaRed : Int := 28534688
def lumaGreen : Int := 95992520
def lumaBlue : Int := 9690520

/-- `LUMA(r,g,b)` (lines 189-190) in single precision, in units of 2^-12. -/
def luma (r g b : Int) : Int :=
  rne24 (rne24 (rne24 (r * lumaRed) + rne24 (g * lumaGreen)) + rne24 (b * lumaBlue))

/-- `LUMA(r,g,b) / (1<<15)` converted to an integer type (truncation). -/
def lumaInt (r g b : Int) : Int := (luma r g b).tdiv (4096 * 32768)

/-- Conversion to `int16_t`. -/
def i16 (z : Int) : Int := (z + 32768) % 65536 - 32768

/-- `lum + (((c - lum) * k) / d)` in `int32_t`. -/
def clipChan (c lum k d : Int) : Except Fault Int := do
  let p ← chk ((c - lum) * k)
  if d = 0 then .error .divByZero
  else chk (lum + p.tdiv d)

/-- `set_rgb16_lum_from_rgb16` (lines 199-241): the new `r`, `g`, `b` before the final narrowing
to `uint16_t`. -/
def setLum (c : Color) (br bg bb : Nat) : Except Fault (Int × Int × Int) := do
  let botlum := lumaInt br bg bb
  let toplum := lumaInt c.r c.g c.b
  let diff := i16 (botlum - toplum)
  let r : Int := c.r + diff
  let g : Int := c.g + diff
  let b : Int := c.b + diff
  let lum := lumaInt r g b
  let cmin := min (min r g) b
  let cmax := max (max r g) b
  let (r, g, b) ←
    if cmin < 0 then do
      let r ← clipChan r lum lum (lum - cmin)
      let g ← clipChan g lum lum (lum - cmin)
      let b ← clipChan b lum lum (lum - cmin)
      pure (r, g, b)
    else pure (r, g, b)
  if cmax > 32768 then do
    let r ← clipChan r lum (32768 - lum) (cmax - lum)
    let g ← clipChan g lum (32768 - lum) (cmax - lum)
    let b ← clipChan b lum (32768 - lum) (cmax - lum)
    pure (r, g, b)
  else pure (r, g, b)

/-- De-premultiplication (lines 259-266). -/
def dep (a v : Nat) : Nat := if a ≠ 0 then u16 (u32 (32768 * v) / a) else 0

/-- Re-premultiplication `((uint32_t) r) * a / (1<<15)` of the narrowed value (lines 272-275). -/
def rep (a : Nat) (v : Int) : Nat := u16 (u32 ((v % 65536).toNat * a) / 32768)

/-- The final mix of the colorize mode (lines 277-282). -/
def colorizeMix (opaA : Nat) (rgb : Int × Int × Int) (p : Px) : Px :=
  let opaB := bottomAlpha opaA
  { a := p.a
    r := lerpChan opaA opaB (rep p.a rgb.1) p.r
    g := lerpChan opaA opaB (rep p.a rgb.2.1) p.g
    b := lerpChan opaA opaB (rep p.a rgb.2.2) p.b }

/-- Body of `draw_dab_pixels_BlendMode_Color` (lines 258-282). Unlike the other modes it multiplies
`mask[0] * opacity` as signed `int`. -/
def colorize (c : Color) (opacity m : Nat) (p : Px) : Except Fault Px := do
  let rgb ← setLum c (dep p.a p.r) (dep p.a p.g) (dep p.a p.b)
  let prod ← chk ((m * opacity : Nat) : Int)
  return colorizeMix (prod.toNat / 32768) rgb p

end Verif.Blend
