import Mathlib.Data.Rat.Floor

/-! # Specification: the numbers of a floating-point format -/

namespace Verif.Float32

/-- The numbers with a significand of at most `p` bits and an exponent of at least `emin`. -/
def IsFloat (p : Nat) (emin : ℤ) (x : ℚ) : Prop := ∃ (n e : ℤ), emin ≤ e ∧ |n| ≤ 2 ^ p ∧ x = n * 2 ^ e

end Verif.Float32

namespace Verif.FloatStroke

/-- Numbers of the type `float`. -/
abbrev F32 (x : ℚ) : Prop := Float32.IsFloat 24 (-149) x

end Verif.FloatStroke
