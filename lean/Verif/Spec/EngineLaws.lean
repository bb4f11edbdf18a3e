import Verif.Model.Engine
import Mathlib.Analysis.SpecialFunctions.Trigonometric.Basic
import Mathlib.Analysis.SpecialFunctions.Complex.Arg
import Mathlib.Analysis.SpecialFunctions.Pow.Real

/-!
# What the proofs assume of the C library

The functions of the C library are parameters of the engine. Some theorems need that they are what their names
say; these are the laws used, and the real functions satisfy them.
-/

namespace Verif.Engine

variable {K R σ : Type} [Field K] [LinearOrder K]

structure Laws (e : Env K R σ) : Prop where
  exp_pos : ∀ t, 0 < e.exp t
  sqrt_nonneg : ∀ t, 0 ≤ t → 0 ≤ e.sqrt t
  sqrt_sq : ∀ t, 0 ≤ t → e.sqrt t * e.sqrt t = t
  trig : ∀ a, e.cos a * e.cos a + e.sin a * e.sin a = 1
  atan2_range : ∀ y x, -180 ≤ e.atan2 y x ∧ e.atan2 y x ≤ 180
  next_range : ∀ r, 0 ≤ (e.next r).1 ∧ (e.next r).1 < 1
  pow_range : ∀ a b, 0 ≤ a → a ≤ 1 → 0 ≤ b → 0 ≤ e.pow a b ∧ e.pow a b ≤ 1

open Real in
/-- The real functions; generator and surface are left open. -/
noncomputable def realEnv {R σ : Type} (next gauss : R → ℝ × R) (draw : σ → Dab.Args ℝ → Bool × σ)
    (getColor : σ → Int → Int → ℝ → ℝ → Color.Rgba ℝ × σ) : Env ℝ R σ where
  exp := Real.exp
  log := Real.log
  sqrt := Real.sqrt
  pow := fun a b => a ^ b
  atan2 y x := Complex.arg ⟨x, y⟩ * (180 / π)
  cos a := Real.cos (a * (π / 180))
  sin a := Real.sin (a * (π / 180))
  degrees a := a * (180 / π)
  next := next
  gauss := gauss
  draw := draw
  getColor := getColor

open Real in
theorem realEnv_laws {R σ : Type} (next gauss : R → ℝ × R) (draw : σ → Dab.Args ℝ → Bool × σ)
    (getColor : σ → Int → Int → ℝ → ℝ → Color.Rgba ℝ × σ) (h : ∀ r, 0 ≤ (next r).1 ∧ (next r).1 < 1) :
    Laws (realEnv next gauss draw getColor) where
  exp_pos := Real.exp_pos
  sqrt_nonneg t _ := Real.sqrt_nonneg t
  sqrt_sq t ht := Real.mul_self_sqrt ht
  trig a := by
    have := Real.cos_sq_add_sin_sq (a * (π / 180))
    simp only [realEnv]
    linarith [sq (Real.cos (a * (π / 180))), sq (Real.sin (a * (π / 180)))]
  atan2_range y x := by
    have h1 := Complex.neg_pi_lt_arg (⟨x, y⟩ : ℂ)
    have h2 := Complex.arg_le_pi (⟨x, y⟩ : ℂ)
    have hp := Real.pi_pos
    simp only [realEnv]
    have e : (⟨x, y⟩ : ℂ).arg * (180 / π) = (⟨x, y⟩ : ℂ).arg / π * 180 := by field_simp
    rw [e]
    have h3 : -1 ≤ (⟨x, y⟩ : ℂ).arg / π := by rw [le_div_iff₀ hp]; linarith
    have h4 : (⟨x, y⟩ : ℂ).arg / π ≤ 1 := by rw [div_le_one hp]; exact h2
    constructor <;> linarith
  next_range := h
  pow_range a b h0 h1 hb := ⟨Real.rpow_nonneg h0 b, Real.rpow_le_one h0 h1 hb⟩

end Verif.Engine
