import Verif.Model.Spectral
import Mathlib.Algebra.Order.Floor.Ring

/-!
# Angles and colour spaces (`/repo/helpers.c` lines 72-606)

`float` and `double` values are elements of an ordered field. A colour in any of the spaces is a triple; the C
functions overwrite their three arguments, the model returns the new values.
-/

namespace Verif.Color
open Verif.Mask Verif.Spectral

section
variable {K : Type} [Field K] [LinearOrder K]

/-- `MAX` (helpers.h line 7). -/
def maxC (a b : K) : K := if a > b then a else b
/-- `MIN` (helpers.h line 8). -/
def minC (a b : K) : K := if a < b then a else b
/-- `MAX3` (helpers.h line 13). -/
def max3 (a b c : K) : K := if a > b then maxC a c else maxC b c
/-- `MIN3` (helpers.h line 14). -/
def min3 (a b c : K) : K := if a < b then minC a c else minC b c

/-- A colour in HSV or HSL: hue, saturation, value or lightness. In HCY: hue, chroma, luma. -/
@[ext] structure Hue (K : Type) where
  h : K
  s : K
  v : K
deriving DecidableEq, Repr

/-- `rgb_to_hsv_float` (lines 93-146). -/
def rgbToHsv (c : Rgb K) : Hue K :=
  let r := clampK c.r 0 1
  let g := clampK c.g 0 1
  let b := clampK c.b 0 1
  let max := max3 r g b
  let min := min3 r g b
  let delta := max - min
  if delta > 1 / 10000 then
    let h :=
      if r = max then
        let h := (g - b) / delta
        if h < 0 then h + 6 else h
      else if g = max then 2 + (b - r) / delta
      else if b = max then 4 + (r - g) / delta
      else 0
    { h := h / 6, s := delta / max, v := max }
  else { h := 0, s := 0, v := max }

/-- `rgb_to_hsl_float` (lines 229-293). `delta == 0.0` (line 268) cannot happen there. -/
def rgbToHsl (c : Rgb K) : Hue K :=
  let r := clampK c.r 0 1
  let g := clampK c.g 0 1
  let b := clampK c.b 0 1
  let max := max3 r g b
  let min := min3 r g b
  let l := (max + min) / 2
  if max = min then { h := 0, s := 0, v := l }
  else
    let s := if l ≤ 1 / 2 then (max - min) / (max + min) else (max - min) / (2 - max - min)
    let delta := max - min
    let delta := if delta = 0 then 1 else delta
    let h :=
      if r = max then (g - b) / delta
      else if g = max then 2 + (b - r) / delta
      else if b = max then 4 + (r - g) / delta
      else 0
    let h := h / 6
    { h := if h < 0 then h + 1 else h, s := s, v := l }

/-- `hsl_value` (lines 295-317). -/
def hslValue (n1 n2 hue : K) : K :=
  let hue := if hue > 6 then hue - 6 else if hue < 0 then hue + 6 else hue
  if hue < 1 then n1 + (n2 - n1) * hue
  else if hue < 3 then n2
  else if hue < 4 then n1 + (n2 - n1) * (4 - hue)
  else n1

variable [FloorRing K]

/-- `mod_arith` (lines 75-79). -/
def modArith (a N : K) : K := a - N * ⌊a / N⌋

/-- `smallest_angular_difference` (lines 82-89). -/
def smallestDiff (angleA angleB : K) : K :=
  let a := angleB - angleA
  let a := modArith (a + 180) 360 - 180
  a + (if a > 180 then -360 else if a < -180 then 360 else 0)

/-- `hsv_to_rgb_float` (lines 149-227). -/
def hsvToRgb (c : Hue K) : Rgb K :=
  let h := c.h - ⌊c.h⌋
  let s := clampK c.s 0 1
  let v := clampK c.v 0 1
  if s = 0 then ⟨v, v, v⟩
  else
    let hue := if h = 1 then 0 else h
    let hue := hue * 6
    let i := ⌊hue⌋
    let f := hue - i
    let w := v * (1 - s)
    let q := v * (1 - s * f)
    let t := v * (1 - s * (1 - f))
    if i = 0 then ⟨v, t, w⟩
    else if i = 1 then ⟨q, v, w⟩
    else if i = 2 then ⟨w, v, t⟩
    else if i = 3 then ⟨w, q, v⟩
    else if i = 4 then ⟨t, w, v⟩
    else if i = 5 then ⟨v, w, q⟩
    else ⟨0, 0, 0⟩

/-- `hsl_to_rgb_float` (lines 326-367). -/
def hslToRgb (c : Hue K) : Rgb K :=
  let h := c.h - ⌊c.h⌋
  let s := clampK c.s 0 1
  let l := clampK c.v 0 1
  if s = 0 then ⟨l, l, l⟩
  else
    let m2 := if l ≤ 1 / 2 then l * (1 + s) else l + s - l * s
    let m1 := 2 * l - m2
    ⟨hslValue m1 m2 (h * 6 + 2), hslValue m1 m2 (h * 6), hslValue m1 m2 (h * 6 - 2)⟩

/-- `fmod(x, 1.0)`. -/
def fmod1 (x : K) : K := if 0 ≤ x then x - ⌊x⌋ else x - ⌈x⌉

/-- The three luma weights (lines 372-374 and 424-426). -/
structure Weights (K : Type) where
  r : K
  g : K
  b : K

/-- The weights in the code. -/
def codeWeights : Weights K := ⟨2162 / 10000, 7152 / 10000, 722 / 10000⟩

/-- `rgb_to_hcy_float` (lines 369-419). Dividing by zero gives an infinity or a not-a-number; the model reports
the fault. -/
def rgbToHcy (w : Weights K) (c : Rgb K) : Except Fault (Hue K) :=
  let y := w.r * c.r + w.g * c.g + w.b * c.b
  let p := max3 c.r c.g c.b
  let n := min3 c.r c.g c.b
  let d := p - n
  let h :=
    if n = p then 0
    else if p = c.r then
      let h := (c.g - c.b) / d
      if h < 0 then h + 6 else h
    else if p = c.g then (c.b - c.r) / d + 2
    else (c.r - c.g) / d + 4
  let h := h / 6
  let h := fmod1 h
  if c.r = c.g ∧ c.g = c.b then .ok { h := h, s := 0, v := y }
  else if y = 0 ∨ 1 - y = 0 then .error .divByZero
  else .ok { h := h, s := maxC ((y - n) / y) ((p - y) / (1 - y)), v := y }

/-- `hcy_to_rgb_float` (lines 421-517). The achromatic case of lines 441-446 is overwritten later.
Only the branch taken divides; `tm` is positive where it is the divisor. -/
def hcyToRgb (w : Weights K) (x : Hue K) : Rgb K :=
  let h := x.h - ⌊x.h⌋
  let c := clampK x.s 0 1
  let y := clampK x.v 0 1
  let h := fmod1 h * 6
  let th :=
    if h < 1 then h else if h < 2 then 2 - h else if h < 3 then h - 2
    else if h < 4 then 4 - h else if h < 5 then h - 4 else 6 - h
  let tm :=
    if h < 1 then w.r + w.g * th else if h < 2 then w.g + w.r * th else if h < 3 then w.g + w.b * th
    else if h < 4 then w.b + w.g * th else if h < 5 then w.b + w.r * th else w.r + w.b * th
  let p := if tm ≥ y then y + y * c * (1 - tm) / tm else y + (1 - y) * c
  let o := if tm ≥ y then y + y * c * (th - tm) / tm else y + (1 - y) * c * (th - tm) / (1 - tm)
  let n := if tm ≥ y then y - y * c else y - (1 - y) * c * tm / (1 - tm)
  if h < 1 then ⟨p, o, n⟩ else if h < 2 then ⟨o, p, n⟩ else if h < 3 then ⟨n, p, o⟩
  else if h < 4 then ⟨n, o, p⟩ else if h < 5 then ⟨o, n, p⟩ else ⟨p, n, o⟩

end

section
variable {K : Type} [Field K] [LinearOrder K]

/-- A colour with alpha, not premultiplied. -/
@[ext] structure Rgba (K : Type) where
  r : K
  g : K
  b : K
  a : K
deriving DecidableEq, Repr

def Rgba.rgb (c : Rgba K) : Rgb K := ⟨c.r, c.g, c.b⟩

/-- `mix_colors` (lines 564-606). `old` is what the static buffer `result` holds from the last call: with
`paint_mode` 0 it is read before it is written, and multiplied by 0. `pow` stands for `powf`. The division
of line 574 by `a[3] + b[3] * opa_b`: not zero for alphas in [0,1] and `fac ≤ 1`. -/
def mixColors (pow : K → K → K) (old : Rgba K) (a b : Rgba K) (fac paint : K) : Rgba K :=
  let opaA := fac
  let opaB := 1 - opaA
  let alpha := clampK (opaA * a.a + opaB * b.a) 0 1
  let sfacA := if a.a = 0 then 0 else opaA * a.a / (a.a + b.a * opaB)
  let sfacB := 1 - sfacA
  let rgb : Rgb K :=
    if paint > 0 then spectralToRgb (wgm pow (rgbToSpectral a.rgb) (rgbToSpectral b.rgb) sfacA sfacB)
    else old.rgb
  let rgb : Rgb K :=
    if paint < 1 then
      ⟨rgb.r * paint + (1 - paint) * (a.r * opaA + b.r * opaB),
       rgb.g * paint + (1 - paint) * (a.g * opaA + b.g * opaB),
       rgb.b * paint + (1 - paint) * (a.b * opaA + b.b * opaB)⟩
    else rgb
  ⟨rgb.r, rgb.g, rgb.b, alpha⟩

end

end Verif.Color
