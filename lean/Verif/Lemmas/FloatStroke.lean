import Mathlib.Tactic.NormNum
import Mathlib.Tactic.Linarith
import Verif.Lemmas.Float32
import Verif.Model.FloatStroke

/-! # The loop over the dabs in single precision -/

namespace Verif.FloatStroke

open Float32

/-- What is lost by underflow of a `float`, and a bound for it. -/
theorem eta_bound : (2 : ℚ) ^ ((-149 : ℤ) - 1) ≤ 1 / 10 ^ 40 := by
  rw [show ((-149 : ℤ) - 1) = -(150 : ℕ) by norm_num, zpow_neg, zpow_natCast, ← one_div]
  norm_num

theorem eta64_bound : (2 : ℚ) ^ ((-1074 : ℤ) - 1) ≤ 1 / 10 ^ 40 := by
  refine le_trans (two_zpow_le ?_) eta_bound
  norm_num

theorem rnd_err (x : ℚ) : |rnd x - x| ≤ |x| / 16777216 + 1 / 10 ^ 40 := by
  have h := round_err 24 (-149) x
  have h2 := eta_bound
  have h3 : (2 : ℚ) ^ (-((24 : ℕ) : ℤ)) = 1 / 16777216 := by norm_num
  rw [h3] at h
  unfold rnd
  linarith

theorem rnd_sub_err {x y : ℚ} (hx : F32 x) (hy : F32 y) :
    |rnd (x - y) - (x - y)| ≤ |x - y| / 16777216 := by
  have h := round_sub_err 24 (-149) (by norm_num) hx hy
  have h3 : (2 : ℚ) ^ (-((24 : ℕ) : ℤ)) = 1 / 16777216 := by norm_num
  rw [h3] at h
  unfold rnd
  linarith

theorem rnd64_err (x : ℚ) : |rnd64 x - x| ≤ |x| / 2 ^ 53 + 1 / 10 ^ 40 := by
  have h := round_err 53 (-1074) x
  have h2 := eta64_bound
  have h3 : (2 : ℚ) ^ (-((53 : ℕ) : ℤ)) = 1 / 2 ^ 53 := by norm_num
  rw [h3] at h
  unfold rnd64
  linarith

theorem rnd_float (x : ℚ) : F32 (rnd x) := isFloat_round 24 (-149) x

theorem rnd_of_float {x : ℚ} (h : F32 x) : rnd x = x := round_of_isFloat 24 (-149) (by norm_num) h

theorem rnd_le {x g : ℚ} (hg : F32 g) (h : x ≤ g) : rnd x ≤ g := round_le 24 (-149) (by norm_num) hg h

theorem le_rnd {x g : ℚ} (hg : F32 g) (h : g ≤ x) : g ≤ rnd x := le_round 24 (-149) (by norm_num) hg h

theorem rnd_neg (x : ℚ) : rnd (-x) = -rnd x := round_neg 24 (-149) x

theorem rnd_zero : rnd 0 = 0 := round_zero 24 (-149)

theorem float_int (n : ℤ) (h : |n| ≤ 2 ^ 24) : F32 n := ⟨n, 0, by norm_num, h, by simp⟩

theorem float_pow {e : ℤ} (h : -149 ≤ e) : F32 (2 ^ e) := ⟨1, e, h, by norm_num, by simp⟩

theorem float_zero : F32 0 := by simpa using float_int 0 (by norm_num)

theorem float_one : F32 1 := by simpa using float_int 1 (by norm_num)

theorem rnd_nonneg {x : ℚ} (h : 0 ≤ x) : 0 ≤ rnd x := le_rnd float_zero h

/-! ### One coordinate -/

/-- The new coordinate. -/
def go (x X frac : ℚ) : ℚ := rnd (X + rnd (frac * rnd (x - X)))

theorem go_neg (x X frac : ℚ) : go (-x) (-X) frac = -go x X frac := by
  unfold go
  rw [show -x - -X = -(x - X) by ring, rnd_neg, show frac * -rnd (x - X) = -(frac * rnd (x - X)) by ring,
    rnd_neg, show -X + -rnd (frac * rnd (x - X)) = -(X + rnd (frac * rnd (x - X))) by ring, rnd_neg]

/-- The step, without the last rounding. -/
theorem step_err {x X frac : ℚ} (hx : F32 x) (hX : F32 X) (hf : 0 ≤ frac) :
    |rnd (frac * rnd (x - X)) - frac * (x - X)| ≤ frac * |x - X| * (3 / 16777216) + 1 / 10 ^ 40 := by
  have h1 := rnd_sub_err hx hX
  have h2 := rnd_err (frac * rnd (x - X))
  obtain ⟨D, hD⟩ : ∃ D, D = x - X := ⟨_, rfl⟩
  obtain ⟨d, hd⟩ : ∃ d, d = rnd (x - X) := ⟨_, rfl⟩
  rw [← hd] at h1 h2 ⊢
  rw [← hD] at h1 ⊢
  have h3 : |frac * d| ≤ frac * (|D| * (1 + 1 / 16777216)) := by
    rw [abs_mul, abs_of_nonneg hf]
    refine mul_le_mul_of_nonneg_left ?_ hf
    have : |d| ≤ |d - D| + |D| := by
      have := abs_add_le (d - D) D; rwa [sub_add_cancel] at this
    linarith
  have h4 : |frac * d - frac * D| ≤ frac * (|D| / 16777216) := by
    rw [← mul_sub, abs_mul, abs_of_nonneg hf]
    exact mul_le_mul_of_nonneg_left h1 hf
  have h5 : |rnd (frac * d) - frac * D| ≤ |rnd (frac * d) - frac * d| + |frac * d - frac * D| :=
    abs_sub_le _ _ _
  have h6 : 0 ≤ frac * |D| := mul_nonneg hf (abs_nonneg _)
  linarith

/-- What is left of the way, for fractions up to 1. -/
theorem go_left {x X frac : ℚ} (hx : F32 x) (hX : F32 X) (hf : 0 ≤ frac) (hf1 : frac ≤ 1) :
    |x - go x X frac| ≤ |x - X| - frac * |x - X| * (1 - 1 / 2 ^ 20) + (|x| + |x - X|) / 16777216
      + 1 / 10 ^ 30 := by
  have h1 := step_err hx hX hf
  have h2 := rnd_err (X + rnd (frac * rnd (x - X)))
  unfold go
  obtain ⟨s, hs⟩ : ∃ s, s = rnd (frac * rnd (x - X)) := ⟨_, rfl⟩
  obtain ⟨D, hD⟩ : ∃ D, D = x - X := ⟨_, rfl⟩
  rw [← hs] at h1 h2 ⊢
  rw [← hD] at h1 ⊢
  have h3 : |D - s| ≤ |D| * (1 - frac) + (frac * |D| * (3 / 16777216) + 1 / 10 ^ 40) := by
    have e1 : |D - s| ≤ |D - frac * D| + |frac * D - s| := abs_sub_le _ _ _
    have e2 : |D - frac * D| = |D| * (1 - frac) := by
      rw [show D - frac * D = D * (1 - frac) by ring, abs_mul, abs_of_nonneg (by linarith : 0 ≤ 1 - frac)]
    rw [abs_sub_comm (frac * D) s] at e1
    linarith
  have h4 : |X + s| ≤ |x| + |D - s| := by
    have : X + s = x - (D - s) := by rw [hD]; ring
    rw [this]; exact abs_sub _ _
  have h5 : |x - rnd (X + s)| ≤ |D - s| + |rnd (X + s) - (X + s)| := by
    have : x - rnd (X + s) = (D - s) - (rnd (X + s) - (X + s)) := by rw [hD]; ring
    rw [this]; exact abs_sub _ _
  have h6 : 0 ≤ frac * |D| := mul_nonneg hf (abs_nonneg _)
  have h7 : frac * |D| ≤ |D| := mul_le_of_le_one_left (abs_nonneg _) hf1
  linarith

/-- The way to go never gets longer. -/
theorem go_closer {x X frac : ℚ} (hx : F32 x) (hX : F32 X) (hf : 0 ≤ frac) (hf1 : frac ≤ 1) :
    |x - go x X frac| ≤ |x - X| := by
  -- it is enough to look at moves to the right
  have key : ∀ {x X : ℚ}, F32 x → F32 X → X ≤ x → |x - go x X frac| ≤ |x - X| := by
    intro x X hx hX hle
    have hd := rnd_sub_err hx hX
    have hd0 : 0 ≤ rnd (x - X) := rnd_nonneg (by linarith)
    have hs0 : 0 ≤ rnd (frac * rnd (x - X)) := rnd_nonneg (mul_nonneg hf hd0)
    have hs1 : rnd (frac * rnd (x - X)) ≤ rnd (x - X) :=
      rnd_le (rnd_float _) (mul_le_of_le_one_left hd0 hf1)
    unfold go
    obtain ⟨s, hs⟩ : ∃ s, s = rnd (frac * rnd (x - X)) := ⟨_, rfl⟩
    rw [← hs] at hs0 hs1 ⊢
    rw [abs_of_nonneg (by linarith : 0 ≤ x - X)] at hd ⊢
    rcases le_total (X + s) x with h | h
    · have a1 := rnd_le hx h
      have a2 := le_rnd hX (by linarith : X ≤ X + s)
      rw [abs_of_nonneg (by linarith)]; linarith
    · have a1 := round_nearest 24 (-149) (by norm_num) (X + s) hx
      have a2 : |x - (X + s)| = X + s - x := by rw [abs_of_nonpos (by linarith)]; ring
      rw [a2] at a1
      have a3 : |x - rnd (X + s)| ≤ |x - (X + s)| + |(X + s) - rnd (X + s)| := abs_sub_le _ _ _
      rw [a2, abs_sub_comm (X + s)] at a3
      have a4 := (abs_le.mp hd).2
      unfold rnd at *
      linarith
  rcases le_total X x with h | h
  · exact key hx hX h
  · have := key (hx.neg 24 (-149)) (hX.neg 24 (-149)) (neg_le_neg h)
    rw [go_neg, show -x - -go x X frac = -(x - go x X frac) by ring, abs_neg,
      show -x - -X = -(x - X) by ring, abs_neg] at this
    exact this

/-- What is left of the way after the first step, whose fraction may be more than 1. -/
theorem go_first {x X frac : ℚ} (hx : F32 x) (hX : F32 X) (hf : 0 ≤ frac) (hf1 : frac ≤ 2 + 1 / 2 ^ 10) :
    |x - go x X frac| ≤ |x - X| * (1 + 1 / 2 ^ 9) + (|x| + 2 * |x - X|) / 16777216 + 1 / 10 ^ 30 := by
  have h1 := step_err hx hX hf
  have h2 := rnd_err (X + rnd (frac * rnd (x - X)))
  unfold go
  obtain ⟨s, hs⟩ : ∃ s, s = rnd (frac * rnd (x - X)) := ⟨_, rfl⟩
  obtain ⟨D, hD⟩ : ∃ D, D = x - X := ⟨_, rfl⟩
  rw [← hs] at h1 h2 ⊢
  rw [← hD] at h1 ⊢
  have h7 : frac * |D| ≤ (2 + 1 / 2 ^ 10) * |D| := mul_le_mul_of_nonneg_right hf1 (abs_nonneg _)
  have h8 := abs_nonneg D
  have h3 : |D - s| ≤ |D| * (1 + 1 / 2 ^ 10) + (frac * |D| * (3 / 16777216) + 1 / 10 ^ 40) := by
    have e1 : |D - s| ≤ |D - frac * D| + |frac * D - s| := abs_sub_le _ _ _
    have e2 : |D - frac * D| ≤ |D| * (1 + 1 / 2 ^ 10) := by
      rw [show D - frac * D = D * (1 - frac) by ring, abs_mul]
      refine mul_le_mul_of_nonneg_left ?_ h8
      rw [abs_le]; constructor <;> linarith
    rw [abs_sub_comm (frac * D) s] at e1
    linarith
  have h4 : |X + s| ≤ |x| + |D - s| := by
    have : X + s = x - (D - s) := by rw [hD]; ring
    rw [this]; exact abs_sub _ _
  have h5 : |x - rnd (X + s)| ≤ |D - s| + |rnd (X + s) - (X + s)| := by
    have : x - rnd (X + s) = (D - s) - (rnd (X + s) - (X + s)) := by rw [hD]; ring
    rw [this]; exact abs_sub _ _
  linarith

/-! ### The time left -/

/-- The time left after a step. -/
def rest (left frac : ℚ) : ℚ := rnd64 (left - rnd (rnd64 (frac * left)))

theorem rest_err {left frac : ℚ} (hf : 0 ≤ frac) (hf1 : frac ≤ 3) :
    |rest left frac| ≤ |left - frac * left| + frac * |left| * (3 / 16777216) + |left| / 2 ^ 50 + 1 / 10 ^ 30 := by
  unfold rest
  have h1 := rnd64_err (frac * left)
  have h2 := rnd_err (rnd64 (frac * left))
  have h3 := rnd64_err (left - rnd (rnd64 (frac * left)))
  obtain ⟨a, ha⟩ : ∃ a, a = rnd64 (frac * left) := ⟨_, rfl⟩
  rw [← ha] at h1 h2 h3 ⊢
  obtain ⟨b, hb⟩ : ∃ b, b = rnd a := ⟨_, rfl⟩
  rw [← hb] at h2 h3 ⊢
  rw [abs_mul, abs_of_nonneg hf] at h1
  have hl := abs_nonneg left
  have h0 : 0 ≤ frac * |left| := mul_nonneg hf hl
  have h00 : frac * |left| ≤ 3 * |left| := mul_le_mul_of_nonneg_right hf1 hl
  have h4 : |a| ≤ |a - frac * left| + frac * |left| := by
    have := abs_add_le (a - frac * left) (frac * left)
    rwa [sub_add_cancel, abs_mul frac, abs_of_nonneg hf] at this
  have h5 : |left - b| ≤ |left - frac * left| + (|a - frac * left| + |b - a|) := by
    have e1 : left - b = (left - frac * left) - ((a - frac * left) + (b - a)) := by ring
    rw [e1]
    exact le_trans (abs_sub _ _) (by linarith [abs_add_le (a - frac * left) (b - a)])
  have h6 : |left - frac * left| ≤ 4 * |left| := by
    rw [show left - frac * left = left * (1 - frac) by ring, abs_mul]
    have : |1 - frac| ≤ 4 := by rw [abs_le]; constructor <;> linarith
    nlinarith
  have h7 : |rnd64 (left - b)| ≤ |left - b| + |rnd64 (left - b) - (left - b)| := by
    have := abs_add_le (rnd64 (left - b) - (left - b)) (left - b)
    rw [sub_add_cancel] at this; linarith
  linarith

end Verif.FloatStroke
