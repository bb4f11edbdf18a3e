import Verif.Model.FastPow
import Verif.Model.Spectral

/-!
# Painting with pigments in single precision (`/repo/helpers.c` 519-559, `/repo/brushmodes.c` 73-130, 323-412 and 443-489)

The same code as in `Verif.Model.Spectral`, with every rounding of `float` and `double` arithmetic and with the approximate power
function as it is. Simplified: products are rounded before they are added (no fused multiply-add), arithmetic on `float` is done in
`float` (`FLT_EVAL_METHOD` 0), and adding to zero, which is exact, is left out.
-/

namespace Verif.FloatPaint
open Float32 FastPow Blend Spectral

/-- A decimal constant of the tables: read as `double`, stored as `float`. -/
def con (n : Int) : ℚ := rnd (rnd64 ((n : ℚ) / 1000000000000000))

/-- `WGM_EPSILON` (helpers.h line 15), a `double`. -/
def eps64 : ℚ := rnd64 (1 / 1000)

/-- `offset` (helpers.c 522, 548). -/
def offset : ℚ := rnd (rnd64 (1 - eps64))

/-- `r = r * offset + WGM_EPSILON` (helpers.c 523-525). -/
def lift (x : ℚ) : ℚ := rnd (rnd64 (rnd (x * offset) + eps64))

/-- One band of `rgb_to_spectral` (helpers.c 526-542). -/
def band (s : Int × Int × Int) (c : Rgb ℚ) : ℚ :=
  rnd (rnd (rnd (con s.1 * lift c.r) + rnd (con s.2.1 * lift c.g)) + rnd (con s.2.2 * lift c.b))

/-- `rgb_to_spectral` (helpers.c 519-544). -/
def toSpectrum (c : Rgb ℚ) : List ℚ := primaries.map fun s => band s c

/-- One sum of `spectral_to_rgb` (helpers.c 551-555). -/
def dot (ts sp : List ℚ) : ℚ := (ts.zip sp).foldl (fun t x => rnd (t + rnd (x.1 * x.2))) 0

/-- One component of the result (helpers.c 557); `CLAMP` works on `double`s here. -/
def unlift (t : ℚ) : ℚ := rnd (Mask.clampK (rnd64 (rnd64 (t - eps64) / offset)) 0 1)

/-- `spectral_to_rgb` (helpers.c 546-559). -/
def toRgb (sp : List ℚ) : Rgb ℚ :=
  ⟨unlift (dot (tMatrix.map fun t => con t.1) sp), unlift (dot (tMatrix.map fun t => con t.2.1) sp),
   unlift (dot (tMatrix.map fun t => con t.2.2) sp)⟩

/-- The spectrum of a mixture (brushmodes.c 113-115, 474-476). -/
def mixSpectra : List ℚ → List ℚ → ℚ → ℚ → Except Fault (List ℚ)
  | a :: as, b :: bs, fa, fb => do
    let r ← mixBand a b fa fb
    let rs ← mixSpectra as bs fa fb
    return r :: rs
  | _, _, _, _ => .ok []

/-- `(rgb_result[i] * rgba[3]) + 0.5`, converted to `uint16_t` (brushmodes.c 123, 484). -/
def toChannel (x : ℚ) (a : Nat) : Except Fault Nat :=
  let v := rnd64 (rnd (x * a) + 1 / 2)
  if -1 < v ∧ v < 65536 then .ok ⌊v⌋.toNat else .error .floatConv

/-- The part both modes share (brushmodes.c 101-124, 464-485): mix the brush colour with weight `opaA / den` and the pixel's. -/
def mixPixel (c : Color) (p : Px) (opaA den a : Nat) : Except Fault Px := do
  let facA := rnd ((opaA : ℚ) / den)
  let facB := rnd (rnd64 (1 - facA))
  let sa := toSpectrum ⟨rnd ((c.r : ℚ) / 32768), rnd ((c.g : ℚ) / 32768), rnd ((c.b : ℚ) / 32768)⟩
  let sb := toSpectrum ⟨rnd ((p.r : ℚ) / p.a), rnd ((p.g : ℚ) / p.a), rnd ((p.b : ℚ) / p.a)⟩
  let sp ← mixSpectra sa sb facA facB
  let rgb := toRgb sp
  let r ← toChannel rgb.r a
  let g ← toChannel rgb.g a
  let b ← toChannel rgb.b a
  return { r := r, g := g, b := b, a := a }

/-- Body of `draw_dab_pixels_BlendMode_Normal_Paint` (lines 91-125). -/
def normalPaint (c : Color) (opacity m : Nat) (p : Px) : Except Fault Px :=
  let opacity := minOpacity opacity
  let opaA := topAlpha m opacity
  let opaB := bottomAlpha opaA
  if p.a = 0 then .ok (normal c opacity m p)
  else
    let den := u32 (opaA + u32 (opaB * p.a) / 32768)
    if den = 0 then .error .floatConv
    else mixPixel c p opaA den (u16 (overAlpha opaA opaB p.a))

/-- Body of `draw_dab_pixels_BlendMode_LockAlpha_Paint` (lines 456-486). -/
def lockAlphaPaint (c : Color) (opacity m : Nat) (p : Px) : Except Fault Px :=
  let opacity := minOpacity opacity
  if p.a = 0 then .ok (lockAlpha c opacity m p)
  else
    let opaA := topAlpha m opacity
    let opaB := bottomAlpha opaA
    let opaA := u32 (opaA * p.a) / 32768
    let den := u32 (opaA + u32 (opaB * p.a) / 32768)
    if den = 0 then .error .floatConv
    else mixPixel c p opaA den p.a

/-- `spectral_blend_factor` (lines 325-331); `1.65` is read as `double` and stored as `float`, `0.5` is a `double`. -/
def blendFactor (x : ℚ) : ℚ :=
  let b := rnd (rnd (x * 8) - 3)
  rnd (rnd64 (1 / 2 + rnd (b / rnd (1 + rnd (|b| * rnd (rnd64 (165 / 100)))))))

/-- `(additive_factor * rgb[i]) + (spectral_factor * rgb_result[i] * opa_out)`, converted to `uint32_t` (line 403) and then to
`uint16_t` (line 409). -/
def toSum (af sf x : ℚ) (add opaOut : Nat) : Except Fault Nat :=
  let v := rnd (rnd (af * add) + rnd (rnd (sf * x) * opaOut))
  if -1 < v ∧ v < 4294967296 then .ok (u16 ⌊v⌋.toNat) else .error .floatConv

/-- Body of `draw_dab_pixels_BlendMode_Normal_and_Eraser_Paint` (lines 351-410). -/
def normalAndEraserPaint (c : Color) (colorA opacity m : Nat) (p : Px) : Except Fault Px :=
  let opaA := topAlpha m opacity
  let opaB := bottomAlpha opaA
  let opaA2 := u32 (opaA * colorA) / 32768
  let opaOut := overAlpha opaA2 opaB p.a
  let sf := Mask.clampK (blendFactor (rnd ((p.a : ℚ) / 32768))) 0 1
  let af := rnd (rnd64 (1 - sf))
  let add (col v : Nat) : Nat := if af ≠ 0 then u32 (u32 (opaA2 * col) + u32 (opaB * v)) / 32768 else 0
  if sf ≠ 0 ∧ p.a ≠ 0 then
    let den := u32 (opaA + u32 (opaB * p.a) / 32768)
    if den = 0 then .error .floatConv
    else do
      let facA := rnd (rnd ((opaA : ℚ) / den) * rnd ((colorA : ℚ) / 32768))
      let facB := rnd (rnd64 (1 - facA))
      let sa := toSpectrum ⟨rnd ((c.r : ℚ) / 32768), rnd ((c.g : ℚ) / 32768), rnd ((c.b : ℚ) / 32768)⟩
      let sb := toSpectrum ⟨rnd ((p.r : ℚ) / p.a), rnd ((p.g : ℚ) / p.a), rnd ((p.b : ℚ) / p.a)⟩
      let sp ← mixSpectra sa sb facA facB
      let rgb := toRgb sp
      let r ← toSum af sf rgb.r (add c.r p.r) opaOut
      let g ← toSum af sf rgb.g (add c.g p.g) opaOut
      let b ← toSum af sf rgb.b (add c.b p.b) opaOut
      return { r := r, g := g, b := b, a := u16 opaOut }
  else .ok { r := u16 (add c.r p.r), g := u16 (add c.g p.g), b := u16 (add c.b p.b), a := u16 opaOut }

end Verif.FloatPaint
