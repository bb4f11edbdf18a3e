import Verif.Model.Spectral
import Verif.Lemmas.Blend
import Verif.Lemmas.Mask
import Mathlib.Tactic.Linarith
import Mathlib.Tactic.NormNum
import Mathlib.Tactic.Positivity
import Mathlib.Algebra.Order.Floor.Ring

/-! Bounds for the pigment modes; nothing is used about the power function. -/

namespace Verif.Spectral
open Verif.Blend Verif.Mask

section
variable {K : Type} [Field K] [LinearOrder K] [IsStrictOrderedRing K]

theorem clampK_unit (v : K) : 0 ≤ clampK v 0 1 ∧ clampK v 0 1 ≤ 1 := by
  unfold clampK
  split_ifs with h1 h2
  · exact ⟨zero_le_one, le_rfl⟩
  · exact ⟨le_rfl, zero_le_one⟩
  · exact ⟨not_lt.mp h2, not_lt.mp h1⟩

theorem spectralToRgb_unit (sp : List K) :
    (0 ≤ (spectralToRgb sp).r ∧ (spectralToRgb sp).r ≤ 1) ∧
    (0 ≤ (spectralToRgb sp).g ∧ (spectralToRgb sp).g ≤ 1) ∧
    (0 ≤ (spectralToRgb sp).b ∧ (spectralToRgb sp).b ≤ 1) :=
  ⟨clampK_unit _, clampK_unit _, clampK_unit _⟩

variable [FloorRing K]

theorem toUInt_round_le {v : K} (a : Nat) (h1 : v ≤ 1) :
    toUInt (v * (a : K) + 1 / 2) ≤ a := by
  have ha : (0 : K) ≤ (a : K) := Nat.cast_nonneg a
  have h2 : v * (a : K) + 1 / 2 < (a : K) + 1 := by
    have := mul_le_mul_of_nonneg_right h1 ha
    linarith
  unfold toUInt
  have h3 : ⌊v * (a : K) + 1 / 2⌋ < (a : Int) + 1 := by
    rw [Int.floor_lt]
    push_cast
    exact h2
  omega

theorem toUInt_le {v : K} {a : Nat} (h : v ≤ a) : toUInt v ≤ a := by
  unfold toUInt
  have h3 : ⌊v⌋ < (a : Int) + 1 := by
    rw [Int.floor_lt]
    push_cast
    linarith
  omega

end
end Verif.Spectral
