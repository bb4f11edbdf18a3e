import Verif.Model.Float32
import Verif.Model.Colors
import Mathlib.Algebra.Order.Ring.Rat

/-!
# RGB and HSV in single precision (`/repo/helpers.c`)

As `Color.rgbToHsv` and `Color.hsvToRgb`, with a rounding after every operation. Constants with a decimal point are of type
`double` in the code, so the operations with them are computed in double precision and converted back.
-/

namespace Verif.FloatColor
open Float32 Color Mask Spectral

/-- `rgb_to_hsv_float` (helpers.c:93-146). -/
def rgbToHsv (c : Rgb ℚ) : Hue ℚ :=
  let r := clampK c.r 0 1
  let g := clampK c.g 0 1
  let b := clampK c.b 0 1
  let max := max3 r g b
  let min := min3 r g b
  let delta := rnd (max - min)
  if delta > rnd64 (1 / 10000) then
    let h :=
      if r = max then
        let h := rnd (rnd (g - b) / delta)
        if h < 0 then rnd (rnd64 (h + 6)) else h
      else if g = max then rnd (rnd64 (2 + rnd (rnd (b - r) / delta)))
      else if b = max then rnd (rnd64 (4 + rnd (rnd (r - g) / delta)))
      else 0
    { h := rnd (rnd64 (h / 6)), s := rnd (delta / max), v := max }
  else { h := 0, s := 0, v := max }

/-- `hsv_to_rgb_float` (helpers.c:149-227); `floor` is the function for `double`. -/
def hsvToRgb (c : Hue ℚ) : Rgb ℚ :=
  let h := rnd (rnd64 (c.h - ⌊c.h⌋))
  let s := clampK c.s 0 1
  let v := clampK c.v 0 1
  if s = 0 then ⟨v, v, v⟩
  else
    let hue := if h = 1 then 0 else h
    let hue := rnd64 (hue * 6)
    let i := ⌊hue⌋
    let f := rnd64 (hue - i)
    let w := rnd64 (v * rnd64 (1 - s))
    let q := rnd64 (v * rnd64 (1 - rnd64 (s * f)))
    let t := rnd64 (v * rnd64 (1 - rnd64 (s * rnd64 (1 - f))))
    if i = 0 then ⟨v, rnd t, rnd w⟩
    else if i = 1 then ⟨rnd q, v, rnd w⟩
    else if i = 2 then ⟨rnd w, v, rnd t⟩
    else if i = 3 then ⟨rnd w, rnd q, v⟩
    else if i = 4 then ⟨rnd t, rnd w, v⟩
    else if i = 5 then ⟨v, rnd w, rnd q⟩
    else ⟨0, 0, 0⟩

end Verif.FloatColor
