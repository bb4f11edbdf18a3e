import Verif.Model.Basic
import Verif.Model.Float32

/-!
# The approximate power function (`/repo/fastapprox`), in single precision

`fastpow` is what mixes pigments: `brushmodes.c:114, 393, 475, 602` raise reflectances to powers with it. It works on the bits of
a `float`. A `float` is the rational number it stands for (see `Verif.Model.Float32`); zero has no sign; results of arithmetic
stay below 2^128. The vector versions (`vfastpow` and so on) and the `faster…` ones are not used by the library and not modelled.
-/

namespace Verif.FastPow
open Float32

/-- The bits of a `float`, read as a `uint32_t` through a union (fastlog.h:50): sign, biased exponent, mantissa (IEEE 754). -/
def bits (x : ℚ) : ℤ :=
  if x = 0 then 0 else
  let e := place 24 (-149) x
  (if x < 0 then 2 ^ 31 else 0) + (e + 149) * 2 ^ 23 + ⌊|x| / 2 ^ e⌋

/-- The `float` with given bits (fastexp.h:58-60): the other direction. Exponent 255 stands for infinity or not-a-number. -/
def ofBits (i : ℤ) : Except Fault ℚ :=
  let e := i / 2 ^ 23 % 256
  let m : ℤ := i % 2 ^ 23
  let v : ℚ := if e = 0 then m * 2 ^ (-149 : ℤ) else (2 ^ 23 + m : ℤ) * 2 ^ (e - 150)
  if e = 255 then .error .nonFinite else .ok (if i / 2 ^ 31 % 2 = 1 then -v else v)

/-- `mx` of `fastlog2`, fastlog.h:51: the mantissa with the exponent of 1/2. -/
def mantissa (i : ℤ) : ℚ := (2 ^ 23 + i % 2 ^ 23 : ℤ) / 2 ^ 24

/-- `fastlog2`, fastlog.h:47-58. The literals are rounded to `float`, and so is every intermediate result. -/
def fastlog2 (x : ℚ) : ℚ :=
  let i := bits x
  let mx := mantissa i
  let y := rnd (i : ℚ)
  let y := rnd (y * rnd (11920928955078125 / 10 ^ 23))
  rnd (rnd (rnd (y - rnd (12422551499 / 10 ^ 8)) - rnd (rnd (1498030302 / 10 ^ 9) * mx))
    - rnd (rnd (172587999 / 10 ^ 8) / rnd (rnd (3520887068 / 10 ^ 10) + mx)))

/-- The conversion of a `float` to an integer type: towards zero. -/
def truncate (x : ℚ) : ℤ := if x < 0 then ⌈x⌉ else ⌊x⌋

/-- `fastpow2`, fastexp.h:51-61. The conversions to `int` and `uint32_t` are undefined if the value does not fit. -/
def fastpow2 (p : ℚ) : Except Fault ℚ :=
  let offset : ℚ := if p < 0 then 1 else 0
  let clipp : ℚ := if p < -126 then -126 else p
  let w := truncate clipp
  if ¬ (intMin ≤ w ∧ w ≤ intMax) then .error .floatConv else
  let z := rnd (rnd (clipp - rnd w) + offset)
  let v := rnd (2 ^ 23 * rnd (rnd (rnd (clipp + rnd (1212740575 / 10 ^ 7))
    + rnd (rnd (277280233 / 10 ^ 7) / rnd (rnd (484252568 / 10 ^ 8) - z))) - rnd (rnd (149012907 / 10 ^ 8) * z)))
  if ¬ (-1 < v ∧ v < 2 ^ 32) then .error .floatConv else ofBits (truncate v)

/-- `fastpow`, fastpow.h:50-55. -/
def fastpow (x p : ℚ) : Except Fault ℚ := fastpow2 (rnd (p * fastlog2 x))

/-- One band of the spectrum of a mixture, brushmodes.c:114, 393, 475: the product of two powers. -/
def mixBand (a b fa fb : ℚ) : Except Fault ℚ := do
  let u ← fastpow a fa
  let v ← fastpow b fb
  return rnd (u * v)

end Verif.FastPow
