import Verif.Lemmas.FastPow

/-!
# C96: the power function that mixes pigments

Pigment painting raises reflectances to powers with a fast approximate function that works on the bits of single precision numbers.
It never leaves the defined part of C, never returns zero or a negative number, an infinity or a not-a-number, and is accurate to
one part in 4000; a weight of zero takes a pigment out completely. The reflectances of the library lie between 1/2000 and 1.07
(`Verif.Props.C97_Pigment`), the weights between 0 and 1.
-/

namespace Verif.FastPow
open Float32

/-- A `float`. -/
abbrev Float (x : ℚ) : Prop := IsFloat 24 (-149) x

/-- For every float from 0 to 2 and every exponent from 0 to 1 there is a result: no conversion overflows, and the bits put
together are those of a positive finite number. -/
theorem fastpow_never_fails {x p : ℚ} (hx : Float x) (h0 : 0 ≤ x) (h1 : x ≤ 2) (p0 : 0 ≤ p) (p1 : p ≤ 1) :
    ∃ r : ℚ, fastpow x p = .ok r ∧ 0 < r ∧ r < 3 := fastpow_defined hx h0 h1 p0 p1

/-- For floats from 2^-15 to 2 the result is the power, to one part in 4000. -/
theorem fastpow_accurate {x p : ℚ} (hx : Float x) (h0 : 2 ^ (-15 : ℤ) ≤ x) (h1 : x ≤ 2) (p0 : 0 ≤ p) (p1 : p ≤ 1) :
    ∃ r : ℚ, fastpow x p = .ok r ∧ |(r : ℝ) - (x : ℝ) ^ (p : ℝ)| ≤ (x : ℝ) ^ (p : ℝ) / 4000 := fastpow_near hx h0 h1 p0 p1

/-- The exponent zero gives one, exactly, whatever the base. -/
theorem fastpow_zero (x : ℚ) : fastpow x 0 = .ok 1 := by
  unfold fastpow
  rw [zero_mul, show rnd 0 = 0 from round_zero 24 (-149)]
  decide +kernel

/-- It is the weighted geometric mean of the two reflectances, to one part in 1990. -/
theorem mixBand_accurate {a b fa fb : ℚ} (ha : Float a) (a0 : 2 ^ (-15 : ℤ) ≤ a) (a1 : a ≤ 2) (hb : Float b)
    (b0 : 2 ^ (-15 : ℤ) ≤ b) (b1 : b ≤ 2) (fa0 : 0 ≤ fa) (fa1 : fa ≤ 1) (fb0 : 0 ≤ fb) (fb1 : fb ≤ 1) :
    ∃ r : ℚ, mixBand a b fa fb = .ok r ∧
      |(r : ℝ) - (a : ℝ) ^ (fa : ℝ) * (b : ℝ) ^ (fb : ℝ)| ≤ (a : ℝ) ^ (fa : ℝ) * (b : ℝ) ^ (fb : ℝ) / 1990 := by
  obtain ⟨u, hu, nu⟩ := fastpow_near ha a0 a1 fa0 fa1
  obtain ⟨v, hv, nv⟩ := fastpow_near hb b0 b1 fb0 fb1
  have ap : (0 : ℝ) < a := by exact_mod_cast lt_of_lt_of_le (by norm_num) a0
  have bp : (0 : ℝ) < b := by exact_mod_cast lt_of_lt_of_le (by norm_num) b0
  have lo : ∀ {x f : ℚ}, (2 : ℚ) ^ (-15 : ℤ) ≤ x → 0 ≤ f → f ≤ 1 → (1 / 2 ^ 15 : ℝ) ≤ (x : ℝ) ^ (f : ℝ) := by
    intro x f hx f0 f1
    have hx' : ((2 ^ (-15 : ℤ) : ℚ) : ℝ) ≤ x := by exact_mod_cast hx
    push_cast at hx'
    have f0' : (0 : ℝ) ≤ f := by exact_mod_cast f0
    have f1' : (f : ℝ) ≤ 1 := by exact_mod_cast f1
    calc (1 / 2 ^ 15 : ℝ) = ((2 : ℝ) ^ (-15 : ℤ)) ^ (1 : ℝ) := by rw [Real.rpow_one]; norm_num
      _ ≤ ((2 : ℝ) ^ (-15 : ℤ)) ^ (f : ℝ) := Real.rpow_le_rpow_of_exponent_ge (by positivity) (by norm_num) f1'
      _ ≤ (x : ℝ) ^ (f : ℝ) := Real.rpow_le_rpow (by positivity) hx' f0'
  have la := lo a0 fa0 fa1
  have lb := lo b0 fb0 fb1
  refine ⟨rnd (u * v), by simp only [mixBand, hu, hv, bind, Except.bind, pure, Except.pure], ?_⟩
  generalize (a : ℝ) ^ (fa : ℝ) = A at *
  generalize (b : ℝ) ^ (fb : ℝ) = B at *
  have A0 : 0 < A := lt_of_lt_of_le (by norm_num) la
  have B0 : 0 < B := lt_of_lt_of_le (by norm_num) lb
  rw [abs_le] at nu nv
  have u0 : (A * (1 - 1 / 4000) : ℝ) ≤ u := by linarith [nu.1]
  have u1 : (u : ℝ) ≤ A * (1 + 1 / 4000) := by linarith [nu.2]
  have v0 : (B * (1 - 1 / 4000) : ℝ) ≤ v := by linarith [nv.1]
  have v1 : (v : ℝ) ≤ B * (1 + 1 / 4000) := by linarith [nv.2]
  have up : (0 : ℝ) < u := lt_of_lt_of_le (by positivity) u0
  have vp : (0 : ℝ) < v := lt_of_lt_of_le (by positivity) v0
  have w0 : A * (1 - 1 / 4000) * (B * (1 - 1 / 4000)) ≤ (u : ℝ) * v := mul_le_mul u0 v0 (by positivity) up.le
  have w1 : (u : ℝ) * v ≤ A * (1 + 1 / 4000) * (B * (1 + 1 / 4000)) := mul_le_mul u1 v1 vp.le (by positivity)
  have AB : (1 / 2 ^ 30 : ℝ) ≤ A * B := by
    calc (1 / 2 ^ 30 : ℝ) = 1 / 2 ^ 15 * (1 / 2 ^ 15) := by norm_num
      _ ≤ A * B := mul_le_mul la lb (by norm_num) A0.le
  have uvq : (0 : ℚ) < u * v := by
    have : (0 : ℝ) < ((u * v : ℚ) : ℝ) := by push_cast; positivity
    exact_mod_cast this
  have big : (1 / 10 ^ 30 : ℚ) ≤ u * v := by
    have : ((1 / 10 ^ 30 : ℚ) : ℝ) ≤ ((u * v : ℚ) : ℝ) := by
      push_cast
      refine le_trans ?_ w0
      have : (1 / 10 ^ 30 : ℝ) ≤ 1 / 2 ^ 30 * ((1 - 1 / 4000) * (1 - 1 / 4000)) := by norm_num
      nlinarith
    exact_mod_cast this
  have r := rnd_near (x := u * v) (B := u * v) (by rw [abs_of_pos uvq]) big
  have r' := (Rat.cast_le (K := ℝ)).2 r
  push_cast at r'
  generalize ((rnd (u * v) : ℚ) : ℝ) = q at *
  generalize (u : ℝ) * v = w at *
  have e1 : A * (1 - 1 / 4000) * (B * (1 - 1 / 4000)) = A * B * (1 - 1 / 4000) ^ 2 := by ring
  have e2 : A * (1 + 1 / 4000) * (B * (1 + 1 / 4000)) = A * B * (1 + 1 / 4000) ^ 2 := by ring
  rw [e1] at w0
  rw [e2] at w1
  generalize A * B = C at *
  rw [abs_le] at r' ⊢
  constructor <;> linarith [r'.1, r'.2]

/-- A pigment mixed with weight zero has no influence. -/
theorem mixBand_zero (a a' b fb : ℚ) : mixBand a b 0 fb = mixBand a' b 0 fb := by
  simp only [mixBand, fastpow_zero]

/-! ## The bounds are met, and the function is not exact -/

/-- Reflectance one half. -/
example : Float (1 / 2) ∧ (2 : ℚ) ^ (-15 : ℤ) ≤ 1 / 2 ∧ fastpow (1 / 2) (1 / 2) = .ok (185365 / 262144) := by
  refine ⟨⟨1, -1, by norm_num, by norm_num, by norm_num⟩, by norm_num, by decide +kernel⟩

/-- The smallest reflectance that occurs, and zero, which does not. -/
example : (fastpow (rnd (1 / 1000)) 1).toOption.isSome = true ∧ (fastpow 0 1).toOption.isSome = true := by
  constructor <;> decide +kernel

/-- The first power is not the number itself, and the power of a number at most one can exceed one. -/
theorem fastpow_not_exact : fastpow (1 / 2) 1 ≠ .ok (1 / 2) ∧ ∃ r, fastpow 1 1 = .ok r ∧ 1 < r := by
  refine ⟨by decide +kernel, 65537 / 65536, by decide +kernel, by norm_num⟩

/-- Without the bounds it can leave the defined part of C. -/
theorem fastpow2_overflow : fastpow2 400 = .error .floatConv ∧ fastpow2 129 = .error .nonFinite := by
  constructor <;> decide +kernel

end Verif.FastPow
