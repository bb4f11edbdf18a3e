import Verif.Model.FloatSample
import Verif.Lemmas.Float32
import Mathlib.Algebra.Order.Ring.Pow
import Mathlib.Tactic.Linarith
import Mathlib.Tactic.Positivity
import Mathlib.Tactic.FieldSimp
import Mathlib.Tactic.GCongr

/-!
# Rounding errors of sampling
-/

namespace Verif.FloatSample
open Float32 Blend Sample

/-- One minus the relative error of one rounding. -/
def loss : ℚ := 1 - 1 / 2 ^ 24

theorem loss_pos : 0 < loss := by unfold loss; norm_num
theorem loss_le : loss ≤ 1 := by unfold loss; norm_num
theorem loss_pow_pos (k : ℕ) : 0 < loss ^ k := pow_pos loss_pos k
theorem loss_pow_le (k : ℕ) : loss ^ k ≤ 1 := pow_le_one₀ loss_pos.le loss_le

theorem loss_bernoulli (k : ℕ) : 1 - (k : ℚ) / 2 ^ 24 ≤ loss ^ k := by
  have h := one_add_mul_le_pow (a := -(1 / 2 ^ 24 : ℚ)) (by norm_num) k
  have e : (1 + -(1 / 2 ^ 24) : ℚ) = loss := by unfold loss; ring
  rw [e] at h
  linarith

/-- The number `x` stands for `X`, after `k` roundings. -/
structure Window (k : ℕ) (x X : ℚ) : Prop where
  nonneg : 0 ≤ X
  low : X * loss ^ k ≤ x
  high : x * loss ^ k ≤ X

namespace Window
variable {k j : ℕ} {x y X Y : ℚ}

theorem nonneg' (h : Window k x X) : 0 ≤ x := (mul_nonneg h.nonneg (loss_pow_pos k).le).trans h.low

theorem pos_iff (h : Window k x X) : 0 < x ↔ 0 < X :=
  ⟨fun q => (mul_pos q (loss_pow_pos k)).trans_le h.high, fun q => (mul_pos q (loss_pow_pos k)).trans_le h.low⟩

theorem refl (h : 0 ≤ X) : Window 0 X X := ⟨h, by simp, by simp⟩

theorem mono (h : Window k x X) (hk : k ≤ j) : Window j x X := by
  have e : loss ^ j ≤ loss ^ k := pow_le_pow_of_le_one loss_pos.le loss_le hk
  exact ⟨h.nonneg, (mul_le_mul_of_nonneg_left e h.nonneg).trans h.low, (mul_le_mul_of_nonneg_left e h.nonneg').trans h.high⟩

theorem add (h : Window k x X) (h' : Window k y Y) : Window k (x + y) (X + Y) :=
  ⟨add_nonneg h.nonneg h'.nonneg, by rw [add_mul]; exact add_le_add h.low h'.low, by rw [add_mul]; exact add_le_add h.high h'.high⟩

theorem rnd (h : Window k x X) (hx : x = 0 ∨ 2 ^ (-126 : ℤ) ≤ x) : Window (k + 1) (Float32.rnd x) X := by
  rcases hx with hx | hx
  · subst hx
    have e : Float32.rnd 0 = 0 := round_zero 24 (-149)
    rw [e]
    exact h.mono (Nat.le_succ k)
  · have hp : 0 < x := (zpow_pos (by norm_num) _).trans_le hx
    have e := round_err_rel 24 (-149) (x := x) (by rw [abs_of_pos hp]; exact hx)
    rw [abs_of_pos hp, abs_le] at e
    have hu : (2 : ℚ) ^ (-((24 : ℕ) : ℤ)) = 1 / 2 ^ 24 := by norm_num
    rw [hu] at e
    obtain ⟨e1, e2⟩ := e
    change -(x * (1 / 2 ^ 24)) ≤ Float32.rnd x - x at e1
    change Float32.rnd x - x ≤ x * (1 / 2 ^ 24) at e2
    have l1 : x * loss ≤ Float32.rnd x := by unfold loss; linarith
    have l2 : Float32.rnd x * loss ≤ x := by
      have : Float32.rnd x ≤ x * (1 + 1 / 2 ^ 24) := by linarith
      calc Float32.rnd x * loss ≤ x * (1 + 1 / 2 ^ 24) * loss := mul_le_mul_of_nonneg_right this loss_pos.le
        _ = x * (1 - 1 / 2 ^ 48) := by unfold loss; ring
        _ ≤ x := by nlinarith
    refine ⟨h.nonneg, ?_, ?_⟩
    · calc X * loss ^ (k + 1) = X * loss ^ k * loss := by ring
        _ ≤ x * loss := mul_le_mul_of_nonneg_right h.low loss_pos.le
        _ ≤ _ := l1
    · calc Float32.rnd x * loss ^ (k + 1) = Float32.rnd x * loss * loss ^ k := by ring
        _ ≤ x * loss ^ k := mul_le_mul_of_nonneg_right l2 (loss_pow_pos k).le
        _ ≤ _ := h.high

theorem div (h : Window k x X) (h' : Window j y Y) (hY : 0 < Y) : Window (k + j) (x / y) (X / Y) := by
  have hy : 0 < y := h'.pos_iff.2 hY
  refine ⟨div_nonneg h.nonneg hY.le, ?_, ?_⟩
  · rw [div_mul_eq_mul_div, div_le_div_iff₀ hY hy]
    calc X * loss ^ (k + j) * y = X * loss ^ k * (y * loss ^ j) := by rw [pow_add]; ring
      _ ≤ x * Y := mul_le_mul h.low h'.high (mul_nonneg hy.le (loss_pow_pos j).le) h.nonneg'
  · rw [div_mul_eq_mul_div, div_le_div_iff₀ hy hY]
    calc x * loss ^ (k + j) * Y = x * loss ^ k * (Y * loss ^ j) := by rw [pow_add]; ring
      _ ≤ X * y := mul_le_mul h.high h'.low (mul_nonneg hY.le (loss_pow_pos j).le) h.nonneg

/-- The error between 0 and 1. -/
theorem clamp (h : Window k x X) (hk : k < 2 ^ 24) :
    |Mask.clampK x 0 1 - Mask.clampK X 0 1| ≤ (k : ℚ) / (2 ^ 24 - k) := by
  have b := loss_bernoulli k
  have hk' : (k : ℚ) < 2 ^ 24 := by exact_mod_cast hk
  have hq := loss_pow_pos k
  have hq1 := loss_pow_le k
  have l := h.low
  have g := h.high
  have hx := h.nonneg'
  have hX := h.nonneg
  generalize loss ^ k = q at *
  have hd : (0 : ℚ) < 2 ^ 24 - k := by linarith
  have key : 1 - q ≤ q * ((k : ℚ) / (2 ^ 24 - k)) := by
    have : (1 - (k : ℚ) / 2 ^ 24) * ((k : ℚ) / (2 ^ 24 - k)) = (k : ℚ) / 2 ^ 24 := by
      field_simp
    have hn : (0 : ℚ) ≤ (k : ℚ) / (2 ^ 24 - k) := div_nonneg (Nat.cast_nonneg k) hd.le
    nlinarith
  have hn : (0 : ℚ) ≤ (k : ℚ) / (2 ^ 24 - k) := div_nonneg (Nat.cast_nonneg k) hd.le
  generalize (k : ℚ) / (2 ^ 24 - k) = d at *
  clear b hk' hk hd
  have c : ∀ z : ℚ, 0 ≤ z → Mask.clampK z 0 1 = min z 1 := by
    intro z hz
    unfold Mask.clampK
    split_ifs with h1 h2
    · rw [min_eq_right h1.le]
    · linarith
    · rw [min_eq_left (not_lt.mp h1)]
  rw [c x hx, c X hX, abs_le]
  constructor
  · rcases le_total 1 x with h1 | h1
    · rw [min_eq_right h1]
      have := min_le_right X 1
      linarith
    · rw [min_eq_left h1]
      rcases le_total 1 X with h2 | h2
      · rw [min_eq_right h2]; nlinarith
      · rw [min_eq_left h2]; nlinarith
  · rcases le_total 1 X with h1 | h1
    · rw [min_eq_right h1]
      have := min_le_right x 1
      linarith
    · rw [min_eq_left h1]
      have h2 : min x 1 ≤ x := min_le_left _ _
      have h3 : min x 1 ≤ 1 := min_le_right _ _
      have h4 : 0 ≤ min x 1 := le_min hx zero_le_one
      generalize min x 1 = y at *
      nlinarith

end Window
end Verif.FloatSample
