import Verif.Model.Blend
import Mathlib.Algebra.Order.Group.Unbundled.Abs

/-!
# Pigment ("spectral") mixing (`/repo/helpers.c` lines 36-58 and 519-559,
`/repo/brushmodes.c` lines 73-130, 325-414, 443-489)

As in `Verif.Model.Mask`, `float`s are elements of an ordered field. The power function (`fastpow`
in `brushmodes.c`, `powf` in `helpers.c`) is the parameter `pow`; nothing is assumed about it.
A not-a-number produced by dividing zero by zero is the fault `floatConv`, because the result is
converted to an integer type afterwards.
-/

namespace Verif.Spectral
open Verif.Blend Verif.Mask

section
variable {K : Type} [Field K] [LinearOrder K]

/-- A decimal constant with 15 places. -/
def dec (n : Int) : K := (n : K) / 1000000000000000

/-- `T_MATRIX_SMALL` (helpers.c 36-44). -/
def tMatrix : List (Int × Int × Int) :=
  [(26595621243689, -32601672674412, 339475473216284),
   (49779426257903, -61021043498478, 635401374177222),
   (22449850859496, -52490001018404, 771520797089589),
   (-218453689278271, 206659098273522, 113222640692379),
   (-256894883201278, 572496335158169, -55251113343776),
   (445881722194840, 317837248815438, -48222578468680),
   (772365886289756, -21216624031211, -12966666339586),
   (194498761382537, -19387668756117, -1523814504223),
   (14038157587820, -1521339050858, -94718948810),
   (7687264480513, -835181622534, -51604594741)]

/-- `spectral_r_small`, `spectral_g_small`, `spectral_b_small` (helpers.c 46-58). -/
def primaries : List (Int × Int × Int) :=
  [(9281362787953, 2854127435775, 537052150373386),
   (9732627042016, 3917589679914, 546646402401469),
   (11254252737167, 12132151699187, 575501819073983),
   (15105578649573, 748259205918013, 258778829633924),
   (24797924177217, 1000000000000000, 41709923751716),
   (83622585502406, 865695937531795, 12662638828324),
   (977865045723212, 37477469241101, 7485593127390),
   (1000000000000000, 22816789725717, 6766900622462),
   (999961046144372, 21747419446456, 6699764779016),
   (999999992756822, 21384940572308, 6676219883241)]

/-- `WGM_EPSILON` (helpers.h line 15). -/
def eps : K := 1 / 1000

/-- An RGB triple of floats. -/
@[ext] structure Rgb (K : Type) where
  r : K
  g : K
  b : K
deriving DecidableEq, Repr

/-- `rgb_to_spectral` (helpers.c 519-544), writing into a zeroed array. -/
def rgbToSpectral (c : Rgb K) : List K :=
  let offset := 1 - eps
  let r := c.r * offset + eps
  let g := c.g * offset + eps
  let b := c.b * offset + eps
  primaries.map fun s => dec s.1 * r + dec s.2.1 * g + dec s.2.2 * b

/-- `spectral_to_rgb` (helpers.c 546-559). -/
def spectralToRgb (sp : List K) : Rgb K :=
  let offset := 1 - eps
  let sums := (tMatrix.zip sp).foldl (fun (t : Rgb K) ms =>
    { r := t.r + dec ms.1.1 * ms.2, g := t.g + dec ms.1.2.1 * ms.2, b := t.b + dec ms.1.2.2 * ms.2 })
    ⟨0, 0, 0⟩
  { r := clampK ((sums.r - eps) / offset) 0 1
    g := clampK ((sums.g - eps) / offset) 0 1
    b := clampK ((sums.b - eps) / offset) 0 1 }

/-- Weighted geometric mean of two spectra (brushmodes.c 109-112, 386-390, 470-473; helpers.c
582-586). -/
def wgm (pow : K → K → K) (sa sb : List K) (facA facB : K) : List K :=
  List.zipWith (fun x y => pow x facA * pow y facB) sa sb

/-- A 15 bit value as a fraction: `(float)v / (1<<15)`. -/
def frac (v : Nat) : K := (v : K) / 32768

/-- The brush colour as spectrum (brushmodes.c 81-82, 342-348, 451-452). -/
def brushSpectrum (c : Color) : List K := rgbToSpectral ⟨frac c.r, frac c.g, frac c.b⟩

/-- The pixel's straight colour as spectrum: `(float)rgba[i] / rgba[3]` (lines 106, 372-378, 466);
only used when `rgba[3] != 0`. -/
def pixelSpectrum (p : Px) : List K :=
  rgbToSpectral ⟨(p.r : K) / (p.a : K), (p.g : K) / (p.a : K), (p.b : K) / (p.a : K)⟩

variable [FloorRing K]

/-- Conversion of a non-negative float to an unsigned type. -/
def toUInt (v : K) : Nat := ⌊v⌋.toNat

/-- `MAX(opacity, 150)` (lines 87, 453). -/
def minOpacity (o : Nat) : Nat := max o 150

/-- Body of `draw_dab_pixels_BlendMode_Normal_Paint` (lines 91-125). -/
def normalPaint (pow : K → K → K) (c : Color) (opacity m : Nat) (p : Px) : Except Fault Px :=
  let opacity := minOpacity opacity
  let opaA := topAlpha m opacity
  let opaB := bottomAlpha opaA
  if p.a = 0 then .ok (normal c opacity m p)
  else
    let den := u32 (opaA + u32 (opaB * p.a) / 32768)
    if den = 0 then .error .floatConv
    else
      let facA : K := (opaA : K) / (den : K)
      let facB := 1 - facA
      let rgb := spectralToRgb (wgm pow (brushSpectrum c) (pixelSpectrum p) facA facB)
      let a := u16 (overAlpha opaA opaB p.a)
      .ok { a := a
            r := toUInt (rgb.r * (a : K) + 1 / 2)
            g := toUInt (rgb.g * (a : K) + 1 / 2)
            b := toUInt (rgb.b * (a : K) + 1 / 2) }

/-- Body of `draw_dab_pixels_BlendMode_LockAlpha_Paint` (lines 456-481). -/
def lockAlphaPaint (pow : K → K → K) (c : Color) (opacity m : Nat) (p : Px) : Except Fault Px :=
  let opacity := minOpacity opacity
  if p.a = 0 then .ok (lockAlpha c opacity m p)
  else
    let opaA := topAlpha m opacity
    let opaB := bottomAlpha opaA
    let opaA := u32 (opaA * p.a) / 32768
    let den := u32 (opaA + u32 (opaB * p.a) / 32768)
    if den = 0 then .error .floatConv
    else
      let facA : K := (opaA : K) / (den : K)
      let facB := 1 - facA
      let rgb := spectralToRgb (wgm pow (brushSpectrum c) (pixelSpectrum p) facA facB)
      .ok { a := p.a
            r := toUInt (rgb.r * (p.a : K) + 1 / 2)
            g := toUInt (rgb.g * (p.a : K) + 1 / 2)
            b := toUInt (rgb.b * (p.a : K) + 1 / 2) }

/-- `spectral_blend_factor` (lines 325-331). -/
def spectralBlendFactor (x : K) : K :=
  let b := x * 8 - 3
  1 / 2 + b / (1 + |b| * (165 / 100))

/-- Body of `draw_dab_pixels_BlendMode_Normal_and_Eraser_Paint` (lines 351-407). -/
def normalAndEraserPaint (pow : K → K → K) (c : Color) (colorA opacity m : Nat) (p : Px) :
    Except Fault Px :=
  let opaA := topAlpha m opacity
  let opaB := bottomAlpha opaA
  let opaA2 := u32 (opaA * colorA) / 32768
  let opaOut := overAlpha opaA2 opaB p.a
  let spectralFactor : K := clampK (spectralBlendFactor (frac p.a)) 0 1
  let additiveFactor : K := 1 - spectralFactor
  let add (col v : Nat) : Nat :=
    if additiveFactor ≠ 0 then u32 (u32 (opaA2 * col) + u32 (opaB * v)) / 32768 else 0
  if spectralFactor ≠ 0 ∧ p.a ≠ 0 then
    let den := u32 (opaA + u32 (opaB * p.a) / 32768)
    if den = 0 then .error .floatConv
    else
      let facA : K := (opaA : K) / (den : K) * frac colorA
      let facB := 1 - facA
      let rgb := spectralToRgb (wgm pow (brushSpectrum c) (pixelSpectrum p) facA facB)
      let out (addv : Nat) (sv : K) : Nat :=
        u16 (toUInt (additiveFactor * (addv : K) + spectralFactor * sv * (opaOut : K)))
      .ok { a := u16 opaOut
            r := out (add c.r p.r) rgb.r
            g := out (add c.g p.g) rgb.g
            b := out (add c.b p.b) rgb.b }
  else
    .ok { a := u16 opaOut
          r := u16 (add c.r p.r)
          g := u16 (add c.g p.g)
          b := u16 (add c.b p.b) }

end

end Verif.Spectral
