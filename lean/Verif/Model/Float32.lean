import Mathlib.Data.Int.Log
import Mathlib.Data.Rat.Floor

/-!
# Model of the arithmetic of `float` and `double`

A finite float is the rational number it stands for; every operation of the code is the exact operation
followed by rounding to the nearest number of the format, ties to even (IEEE 754, the default).
Subnormal numbers are included.  Simplified: there is no largest number, so results are those of the
machine as long as they stay below 2^128 (2^1024 for `double`), and zero has no sign.
-/

namespace Verif.Float32

/-- The nearest integer, ties to even. -/
def roundEven (q : ℚ) : ℤ :=
  if Int.fract q < 1 / 2 then ⌊q⌋
  else if 1 / 2 < Int.fract q then ⌊q⌋ + 1
  else if ⌊q⌋ % 2 = 0 then ⌊q⌋ else ⌊q⌋ + 1

/-- The exponent of the last place of `x` in a format with `p` bits of precision whose smallest
positive number is `2 ^ emin`. -/
def place (p : Nat) (emin : ℤ) (x : ℚ) : ℤ := max (Int.log 2 |x| - (p - 1)) emin

/-- Rounding to that format. -/
def round (p : Nat) (emin : ℤ) (x : ℚ) : ℚ :=
  roundEven (x / 2 ^ place p emin x) * 2 ^ place p emin x

/-- The value of `x` as a `float`. -/
def rnd (x : ℚ) : ℚ := round 24 (-149) x

/-- The value of `x` as a `double`. -/
def rnd64 (x : ℚ) : ℚ := round 53 (-1074) x

end Verif.Float32
