import Mathlib.Algebra.Order.Field.Rat
import Mathlib.Algebra.Order.AbsoluteValue.Basic

/-!
# What blending should compute, on exact numbers
-/

namespace Verif.Blend.Spec

/-- Full scale of a 15 bit channel. -/
def one : Nat := 32768

/-- A valid premultiplied pixel: no colour channel exceeds alpha, alpha at most 1. -/
def Valid (r g b a : Nat) : Prop := r ≤ a ∧ g ≤ a ∧ b ≤ a ∧ a ≤ one

/-- The effective opacity of a brush at one pixel, as a fraction. -/
def alpha (m opacity : Nat) : ℚ := (m : ℚ) / one * ((opacity : ℚ) / one)

/-- Porter-Duff "over" for one premultiplied channel: `top` is the straight brush colour
(`one` for the alpha channel). -/
def over (α : ℚ) (top bottom : Nat) : ℚ := α * top + (1 - α) * bottom

/-- Level `k` of `num + 1` equally spaced levels 0 … one, rounded down to an integer. -/
def level (num k : Nat) : Nat := one * k / num

end Verif.Blend.Spec
