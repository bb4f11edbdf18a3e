import Verif.Lemmas.FloatStroke
import Verif.Model.FloatAngle
import Verif.Model.Colors
import Mathlib.Data.Nat.Prime.Basic
import Mathlib.Data.Nat.Log
import Mathlib.Tactic.NormNum.Prime
import Mathlib.Tactic.Linarith
import Mathlib.Tactic.Positivity
import Mathlib.Tactic.FieldSimp
import Mathlib.Tactic.IntervalCases

/-!
# C90: angle arithmetic in single precision
-/

namespace Verif.FloatAngle
open Float32 FloatStroke

/-! ### How close floats come to each other -/

/-- The scale of an integer below 2^24. -/
theorem scale_exists {X : ℕ} (h0 : 0 < X) (h1 : X < 2 ^ 24) : ∃ s : ℕ, s ≤ 23 ∧ 2 ^ 23 ≤ X * 2 ^ s ∧ X * 2 ^ s < 2 ^ 24 := by
  have hl : Nat.log 2 X < 24 := Nat.log_lt_of_lt_pow h0.ne' h1
  have a := Nat.pow_log_le_self 2 h0.ne'
  have b := Nat.lt_pow_succ_log_self (by norm_num : 1 < 2) X
  refine ⟨23 - Nat.log 2 X, by omega, ?_, ?_⟩
  · calc 2 ^ 23 = 2 ^ (Nat.log 2 X + (23 - Nat.log 2 X)) := by congr 1; omega
      _ = 2 ^ Nat.log 2 X * 2 ^ (23 - Nat.log 2 X) := pow_add _ _ _
      _ ≤ _ := Nat.mul_le_mul_right _ a
  · calc X * 2 ^ (23 - Nat.log 2 X) < 2 ^ (Nat.log 2 X).succ * 2 ^ (23 - Nat.log 2 X) :=
        Nat.mul_lt_mul_of_pos_right b (by positivity)
      _ = 2 ^ ((Nat.log 2 X).succ + (23 - Nat.log 2 X)) := (pow_add _ _ _).symm
      _ = 2 ^ 24 := by congr 1; omega

/-- A float of at least 2^23 units is a whole number of units. -/
theorem float_multiple {a : ℚ} (ha : F32 a) {s : ℕ} (h : (2 : ℚ) ^ 23 ≤ a * 2 ^ s) : ∃ n : ℤ, a * 2 ^ s = n := by
  obtain ⟨n, e, he, hn, rfl⟩ := ha
  have h2 : (2 : ℚ) ≠ 0 := by norm_num
  have hn' : (n : ℚ) ≤ 2 ^ 24 := by
    have : n ≤ 2 ^ 24 := le_trans (le_abs_self n) hn
    exact_mod_cast this
  have e1 : (n : ℚ) * 2 ^ e * 2 ^ s = n * 2 ^ (e + s) := by
    rw [mul_assoc, ← zpow_natCast, ← zpow_add₀ h2]
  rw [e1] at h ⊢
  rcases le_or_gt 0 (e + s) with hs | hs
  · obtain ⟨d, hd⟩ := Int.eq_ofNat_of_zero_le hs
    exact ⟨n * 2 ^ d, by rw [hd]; push_cast; rw [zpow_natCast]⟩
  · -- then the significand is 2^24 and the exponent -1
    have hd : (2 : ℚ) ^ (e + s) ≤ 2 ^ (-1 : ℤ) := two_zpow_le (by omega)
    have hp := two_pos_zpow (e + s)
    have k1 : (n : ℚ) * 2 ^ (e + s) ≤ 2 ^ 24 * 2 ^ (e + s) := mul_le_mul_of_nonneg_right hn' hp.le
    have k2 : (2 : ℚ) ^ 24 * 2 ^ (e + s) ≤ 2 ^ 24 * 2 ^ (-1 : ℤ) := mul_le_mul_of_nonneg_left hd (by norm_num)
    have k3 : (2 : ℚ) ^ 24 * 2 ^ (-1 : ℤ) = 2 ^ 23 := by norm_num
    refine ⟨2 ^ 23, ?_⟩
    push_cast
    linarith

/-- Floats different from an integer that is no power of two keep a distance from it. -/
theorem float_gap {a : ℚ} (ha : F32 a) {X : ℕ} (h3 : 3 ∣ X) (h0 : 0 < X) (h1 : X < 2 ^ 24) (hne : a ≠ X) :
    (X : ℚ) / 2 ^ 24 < |a - X| := by
  obtain ⟨s, -, s1, s2⟩ := scale_exists h0 h1
  have s3 : 2 ^ 23 < X * 2 ^ s := by
    refine lt_of_le_of_ne s1 fun h => ?_
    have : 3 ∣ 2 ^ 23 := h ▸ Dvd.dvd.mul_right h3 _
    norm_num at this
  have hp : (0 : ℚ) < 2 ^ s := by positivity
  have key : 1 ≤ |a * 2 ^ s - X * 2 ^ s| := by
    by_cases hb : (2 : ℚ) ^ 23 ≤ a * 2 ^ s
    · obtain ⟨n, hn⟩ := float_multiple ha hb
      have e : a * 2 ^ s - X * 2 ^ s = ((n - X * 2 ^ s : ℤ) : ℚ) := by rw [hn]; push_cast; rfl
      rw [e]
      have : n - X * 2 ^ s ≠ 0 := by
        intro h
        apply hne
        have : (n : ℚ) = X * 2 ^ s := by
          have : n = X * 2 ^ s := by omega
          rw [this]; push_cast; rfl
        rw [this] at hn
        exact mul_right_cancel₀ hp.ne' hn
      have : 1 ≤ |n - X * 2 ^ s| := Int.one_le_abs this
      exact_mod_cast this
    · push_neg at hb
      have : (2 : ℚ) ^ 23 + 1 ≤ X * 2 ^ s := by exact_mod_cast s3
      rw [abs_sub_comm, le_abs]
      left
      linarith
  rw [← sub_mul, abs_mul, abs_of_pos hp] at key
  rw [div_lt_iff₀ (by norm_num)]
  have s4 : (X : ℚ) * 2 ^ s < 2 ^ 24 := by exact_mod_cast s2
  have : (X : ℚ) * 2 ^ s < |a - X| * 2 ^ 24 * 2 ^ s := by nlinarith
  exact lt_of_mul_lt_mul_right this hp.le

/-- A number that is far enough from an integer is not rounded to it, from below. -/
theorem round_below {x : ℚ} {M : ℕ} (h0 : 0 < M) (h1 : M < 2 ^ 24) (h : x < M) (hd : (M : ℚ) / 2 ^ 24 < |x - M|) :
    rnd x < M := by
  obtain ⟨s, hs, s1, s2⟩ := scale_exists h0 h1
  have hp : (0 : ℚ) < 2 ^ s := by positivity
  have s1' : (2 : ℚ) ^ 23 ≤ M * 2 ^ s := by exact_mod_cast s1
  have hf : F32 ((M : ℚ) - 1 / 2 ^ s) := by
    refine ⟨M * 2 ^ s - 1, -(s : ℤ), by omega, ?_, ?_⟩
    · rw [abs_le]
      have : (M : ℤ) * 2 ^ s < 2 ^ 24 := by exact_mod_cast s2
      have : (0 : ℤ) ≤ (M : ℤ) * 2 ^ s := by positivity
      constructor <;> omega
    · rw [zpow_neg, zpow_natCast]
      push_cast
      field_simp
  have hg : (1 : ℚ) / 2 ^ s ≤ M / 2 ^ 23 := by
    rw [div_le_div_iff₀ hp (by norm_num)]
    linarith
  have hsp : (0 : ℚ) < 1 / 2 ^ s := by positivity
  by_contra hc
  push_neg at hc
  rcases le_or_gt x (M - 1 / 2 ^ s) with hx | hx
  · have := round_le 24 (-149) (by norm_num) hf hx
    have : rnd x ≤ M - 1 / 2 ^ s := this
    linarith
  · have hn := round_nearest 24 (-149) (by norm_num) x hf
    have hn : |rnd x - x| ≤ |M - 1 / 2 ^ s - x| := hn
    rw [abs_of_nonneg (by linarith), abs_of_neg (by linarith)] at hn
    rw [abs_of_neg (by linarith)] at hd
    have : (M : ℚ) / 2 ^ 23 = 2 * (M / 2 ^ 24) := by ring
    linarith

/-- The same from above. -/
theorem round_above {x : ℚ} {M : ℕ} (h0 : 0 < M) (h1 : M < 2 ^ 24) (h : (M : ℚ) < x) (hd : (M : ℚ) / 2 ^ 24 < |x - M|) :
    (M : ℚ) < rnd x := by
  obtain ⟨s, hs, s1, s2⟩ := scale_exists h0 h1
  have hp : (0 : ℚ) < 2 ^ s := by positivity
  have s1' : (2 : ℚ) ^ 23 ≤ M * 2 ^ s := by exact_mod_cast s1
  have hf : F32 ((M : ℚ) + 1 / 2 ^ s) := by
    refine ⟨M * 2 ^ s + 1, -(s : ℤ), by omega, ?_, ?_⟩
    · rw [abs_le]
      have : (M : ℤ) * 2 ^ s < 2 ^ 24 := by exact_mod_cast s2
      have : (0 : ℤ) ≤ (M : ℤ) * 2 ^ s := by positivity
      constructor <;> omega
    · rw [zpow_neg, zpow_natCast]
      push_cast
      field_simp
  have hg : (1 : ℚ) / 2 ^ s ≤ M / 2 ^ 23 := by
    rw [div_le_div_iff₀ hp (by norm_num)]
    linarith
  have hsp : (0 : ℚ) < 1 / 2 ^ s := by positivity
  by_contra hc
  push_neg at hc
  rcases le_or_gt ((M : ℚ) + 1 / 2 ^ s) x with hx | hx
  · have := le_round 24 (-149) (by norm_num) hf hx
    have : M + 1 / 2 ^ s ≤ rnd x := this
    linarith
  · have hn := round_nearest 24 (-149) (by norm_num) x hf
    have hn : |rnd x - x| ≤ |M + 1 / 2 ^ s - x| := hn
    rw [abs_of_nonpos (by linarith), abs_of_pos (by linarith)] at hn
    rw [abs_of_pos (by linarith)] at hd
    have : (M : ℚ) / 2 ^ 23 = 2 * (M / 2 ^ 24) := by ring
    linarith

/-- The quotient may be rounded, its integral part is right. -/
theorem floor_exact {a : ℚ} (ha : F32 a) (hs : a = 0 ∨ 1 / 2 ^ 126 ≤ |a|) {N : ℕ} (h3 : 3 ∣ N) (h0 : 0 < N) (hN : |a| + N < 2 ^ 23) :
    ⌊rnd (a / N)⌋ = ⌊a / N⌋ := by
  have hNq : (0 : ℚ) < N := by exact_mod_cast h0
  have hN1 : (1 : ℚ) ≤ N := by exact_mod_cast h0
  have l1 : (⌊a / N⌋ : ℚ) ≤ a / N := Int.floor_le _
  have l2 : a / N < ⌊a / N⌋ + 1 := Int.lt_floor_add_one _
  generalize ⌊a / N⌋ = m at *
  have l1' : (m : ℚ) * N ≤ a := (le_div_iff₀ hNq).mp l1
  have l2' : a < (m + 1) * N := (div_lt_iff₀ hNq).mp l2
  have a1 := neg_abs_le a
  have a2 := le_abs_self a
  have ub : (m : ℚ) < 2 ^ 23 := by
    by_contra hc
    push_neg at hc
    have := mul_le_mul hc hN1 (by norm_num) (by linarith)
    linarith
  have lb : -(2 : ℚ) ^ 23 < m + 1 := by
    by_contra hc
    push_neg at hc
    have := mul_le_mul (neg_le_neg hc) hN1 (by norm_num) (by linarith)
    linarith
  have ub' : m < 2 ^ 23 := by exact_mod_cast ub
  have lb' : -2 ^ 23 < m + 1 := by exact_mod_cast lb
  rw [Int.floor_eq_iff]
  constructor
  · exact le_rnd (float_int m (by rw [abs_le]; constructor <;> omega)) l1
  rcases lt_trichotomy (m + 1) 0 with hm | hm | hm
  · -- negative
    obtain ⟨M, hM⟩ := Int.eq_ofNat_of_zero_le (by omega : 0 ≤ -(m + 1))
    have hMq : (M : ℚ) = -(m + 1) := by exact_mod_cast hM.symm
    have hX : ((N * M : ℕ) : ℚ) = N * M := by push_cast; rfl
    have lt : ((N * M : ℕ) : ℚ) < -a := by rw [hX, hMq]; linarith
    have small : N * M < 2 ^ 24 := by
      have : ((N * M : ℕ) : ℚ) < 2 ^ 24 := by linarith
      exact_mod_cast this
    have hM0 : 0 < M := by omega
    have gap := float_gap ha.neg (Dvd.dvd.mul_right h3 M) (Nat.mul_pos h0 hM0) small lt.ne'
    have k := round_above (x := -a / N) (M := M) hM0 (by omega) (by rw [lt_div_iff₀ hNq]; rw [hX] at lt; linarith) (by
      have e : -a / N - M = (-a - (N * M : ℕ)) / N := by rw [hX]; field_simp
      rw [e, abs_div, abs_of_pos hNq, lt_div_iff₀ hNq]
      rw [hX] at gap ⊢
      have : (M : ℚ) / 2 ^ 24 * N = N * M / 2 ^ 24 := by ring
      rw [this]
      exact gap)
    rw [neg_div, rnd_neg] at k
    linarith
  · -- a negative number above -N
    have hm' : (m : ℚ) + 1 = 0 := by exact_mod_cast hm
    rw [hm'] at l2' ⊢
    rw [zero_mul] at l2'
    have h := hs.resolve_left l2'.ne
    rw [abs_of_neg l2'] at h
    have hf : F32 (-(2 : ℚ) ^ (-149 : ℤ)) := (float_pow (by norm_num)).neg
    have k := rnd_le (x := a / N) hf (by
      rw [div_le_iff₀ hNq]
      have e : (2 : ℚ) ^ (-149 : ℤ) = 1 / 2 ^ 149 := by norm_num
      rw [e]
      have hn : (N : ℚ) < 2 ^ 23 := by linarith [abs_nonneg a]
      have : (1 : ℚ) / 2 ^ 149 * N ≤ 1 / 2 ^ 149 * 2 ^ 23 := mul_le_mul_of_nonneg_left hn.le (by norm_num)
      have : (1 : ℚ) / 2 ^ 149 * 2 ^ 23 = 1 / 2 ^ 126 := by norm_num
      linarith)
    have := two_pos_zpow (-149)
    linarith
  · -- positive
    obtain ⟨M, hM⟩ := Int.eq_ofNat_of_zero_le hm.le
    have hMq : (M : ℚ) = m + 1 := by exact_mod_cast hM.symm
    have hX : ((N * M : ℕ) : ℚ) = N * M := by push_cast; rfl
    have lt : a < ((N * M : ℕ) : ℚ) := by rw [hX, hMq]; linarith
    have hM0 : 0 < M := by omega
    have small : N * M < 2 ^ 24 := by
      have e : (N : ℚ) * M = m * N + N := by rw [hMq]; ring
      have : ((N * M : ℕ) : ℚ) < 2 ^ 24 := by
        rw [hX, e]
        linarith
      exact_mod_cast this
    have gap := float_gap ha (Dvd.dvd.mul_right h3 M) (Nat.mul_pos h0 hM0) small lt.ne
    have k := round_below (x := a / N) (M := M) hM0 (by omega) (by rw [div_lt_iff₀ hNq]; rw [hX] at lt; linarith) (by
      have e : a / N - M = (a - (N * M : ℕ)) / N := by rw [hX]; field_simp
      rw [e, abs_div, abs_of_pos hNq, lt_div_iff₀ hNq]
      rw [hX] at gap ⊢
      have : (M : ℚ) / 2 ^ 24 * N = N * M / 2 ^ 24 := by ring
      rw [this]
      exact gap)
    rw [← hMq]
    exact k

theorem double_int (n : ℤ) (h : |n| ≤ 2 ^ 53) : IsFloat 53 (-1074) (n : ℚ) := ⟨n, 0, by norm_num, h, by simp⟩

theorem rnd64_int (n : ℤ) (h : |n| ≤ 2 ^ 53) : rnd64 n = n := round_of_isFloat 53 (-1074) (by norm_num) (double_int n h)

theorem double_of_float {x : ℚ} (h : F32 x) : IsFloat 53 (-1074) x := by
  obtain ⟨n, e, he, hn, rfl⟩ := h
  exact ⟨n, e, by omega, le_trans hn (by norm_num), rfl⟩

/-- What `mod_arith` computes. -/
theorem modArith_eq {a : ℚ} (ha : F32 a) (hs : a = 0 ∨ 1 / 2 ^ 126 ≤ |a|) {N : ℕ} (h3 : 3 ∣ N) (h0 : 0 < N) (hN : |a| + N < 2 ^ 23) :
    modArith a N = rnd (rnd64 (Color.modArith a (N : ℚ))) := by
  unfold modArith Color.modArith
  dsimp only
  rw [floor_exact ha hs h3 h0 hN]
  have hNq : (0 : ℚ) < N := by exact_mod_cast h0
  have l1 : (⌊a / N⌋ : ℚ) * N ≤ a := (le_div_iff₀ hNq).mp (Int.floor_le _)
  have l2 : a < (⌊a / N⌋ + 1) * N := (div_lt_iff₀ hNq).mp (Int.lt_floor_add_one _)
  generalize ⌊a / N⌋ = m at *
  have a1 := neg_abs_le a
  have a2 := le_abs_self a
  have e : (N : ℚ) * m = ((N * m : ℤ) : ℚ) := by push_cast; rfl
  have b : |(N : ℤ) * m| ≤ 2 ^ 53 := by
    rw [abs_le]
    constructor
    · have : (-2 ^ 53 : ℚ) ≤ ((N * m : ℤ) : ℚ) := by rw [← e]; linarith
      exact_mod_cast this
    · have : ((N * m : ℤ) : ℚ) ≤ 2 ^ 53 := by rw [← e]; linarith
      exact_mod_cast this
  rw [e, rnd64_int _ b]

/-- **C90** `mod_arith` with floats: for ordinary angles the result is from 0 to `N`, and within N/2^23 of the remainder. -/
theorem mod_arith_float {a : ℚ} (ha : F32 a) (hs : a = 0 ∨ 1 / 2 ^ 126 ≤ |a|) {N : ℕ} (h3 : 3 ∣ N) (h0 : 0 < N) (hN : |a| + N < 2 ^ 23) :
    0 ≤ modArith a N ∧ modArith a N ≤ N ∧ |modArith a N - (a - N * ⌊a / N⌋)| ≤ N / 2 ^ 23 := by
  rw [modArith_eq ha hs h3 h0 hN]
  have hNq : (0 : ℚ) < N := by exact_mod_cast h0
  have hN1 : (1 : ℚ) ≤ N := by exact_mod_cast h0
  have l1 : (⌊a / N⌋ : ℚ) * N ≤ a := (le_div_iff₀ hNq).mp (Int.floor_le _)
  have l2 : a < (⌊a / N⌋ + 1) * N := (div_lt_iff₀ hNq).mp (Int.lt_floor_add_one _)
  have hNs : N < 2 ^ 23 := by
    have : (N : ℚ) < 2 ^ 23 := by linarith [abs_nonneg a]
    exact_mod_cast this
  have fN : F32 (N : ℚ) := by
    have := float_int N (by rw [abs_le]; constructor <;> omega)
    exact_mod_cast this
  unfold Color.modArith
  have r0 : 0 ≤ a - N * ⌊a / N⌋ := by linarith
  have r1 : a - N * ⌊a / N⌋ ≤ N := by linarith
  generalize a - N * ⌊a / N⌋ = r at *
  have q0 : 0 ≤ rnd64 r := le_round 53 (-1074) (by norm_num) (double_of_float float_zero) r0
  have q1 : rnd64 r ≤ N := round_le 53 (-1074) (by norm_num) (double_of_float fN) r1
  refine ⟨rnd_nonneg q0, rnd_le fN q1, ?_⟩
  have d1 := rnd64_err r
  have d2 := rnd_err (rnd64 r)
  rw [abs_of_nonneg r0] at d1
  rw [abs_of_nonneg q0] at d2
  have := abs_sub_le (rnd (rnd64 r)) (rnd64 r) r
  have e1 : rnd64 r / 16777216 ≤ N / 16777216 := div_le_div_of_nonneg_right q1 (by norm_num)
  have e2 : r / 2 ^ 53 ≤ N / 2 ^ 53 := div_le_div_of_nonneg_right r1 (by norm_num)
  have e3 : (1 : ℚ) / 10 ^ 40 ≤ N / 2 ^ 60 := by
    have : (1 : ℚ) / 2 ^ 60 ≤ N / 2 ^ 60 := div_le_div_of_nonneg_right hN1 (by norm_num)
    have : (1 : ℚ) / 10 ^ 40 ≤ 1 / 2 ^ 60 := by norm_num
    linarith
  linarith

/-- **C90** For angles that are not negative the result is exact, and so below `N`. -/
theorem mod_arith_exact {a : ℚ} (ha : F32 a) (h : 0 ≤ a) (hs : a = 0 ∨ 1 / 2 ^ 126 ≤ |a|) {N : ℕ} (h3 : 3 ∣ N) (h0 : 0 < N)
    (hN : |a| + N < 2 ^ 23) : modArith a N = a - N * ⌊a / N⌋ := by
  rw [modArith_eq ha hs h3 h0 hN]
  have hNq : (0 : ℚ) < N := by exact_mod_cast h0
  have l1 : (⌊a / N⌋ : ℚ) * N ≤ a := (le_div_iff₀ hNq).mp (Int.floor_le _)
  have m0 : 0 ≤ ⌊a / N⌋ := Int.floor_nonneg.mpr (div_nonneg h hNq.le)
  have hf : F32 (Color.modArith a (N : ℚ)) := by
    unfold Color.modArith
    generalize ⌊a / N⌋ = m at *
    rw [abs_of_nonneg h] at hN
    have mq : (0 : ℚ) ≤ m := by exact_mod_cast m0
    have hNm : (0 : ℚ) ≤ N * m := mul_nonneg hNq.le mq
    obtain ⟨n, e, he, hn, rfl⟩ := ha
    have h2 : (2 : ℚ) ≠ 0 := by norm_num
    rcases le_or_gt 0 e with h | h
    · obtain ⟨d, rfl⟩ := Int.eq_ofNat_of_zero_le h
      have e1 : (n : ℚ) * 2 ^ (d : ℤ) - N * m = ((n * 2 ^ d - N * m : ℤ) : ℚ) := by push_cast; rw [zpow_natCast]
      have : |n * 2 ^ d - N * m| ≤ 2 ^ 24 := by
        rw [abs_le]
        constructor
        · have : (-2 ^ 24 : ℚ) ≤ ((n * 2 ^ d - N * m : ℤ) : ℚ) := by rw [← e1]; linarith
          exact_mod_cast this
        · have : ((n * 2 ^ d - N * m : ℤ) : ℚ) ≤ 2 ^ 24 := by rw [← e1]; linarith
          exact_mod_cast this
      rw [e1]
      exact float_int _ this
    · obtain ⟨d, hd⟩ := Int.eq_ofNat_of_zero_le (by omega : 0 ≤ -e)
      have hp := two_pos_zpow e
      have e2 : (2 : ℚ) ^ d * 2 ^ e = 1 := by
        rw [← zpow_natCast, ← hd, ← zpow_add₀ h2]; simp
      have e1 : (n : ℚ) * 2 ^ e - N * m = ((n - N * m * 2 ^ d : ℤ) : ℚ) * 2 ^ e := by
        push_cast
        rw [sub_mul, mul_assoc ((N : ℚ) * m), e2, mul_one]
      refine ⟨n - N * m * 2 ^ d, e, he, ?_, e1⟩
      have i1 : 0 ≤ n - N * m * 2 ^ d := by
        have : (0 : ℚ) ≤ ((n - N * m * 2 ^ d : ℤ) : ℚ) * 2 ^ e := by rw [← e1]; linarith
        have := nonneg_of_mul_nonneg_left this hp
        exact_mod_cast this
      have i2 : 0 ≤ N * m * 2 ^ d := by positivity
      rw [abs_of_nonneg i1]
      have := le_abs_self n
      linarith
  have e1 : rnd64 (Color.modArith a (N : ℚ)) = Color.modArith a (N : ℚ) :=
    round_of_isFloat 53 (-1074) (by norm_num) (double_of_float hf)
  rw [e1, rnd_of_float hf]
  rfl

/-- **C90** `smallest_angular_difference` with floats: between -180 and 180, and the difference of the angles up to whole turns
and an error of about a ten-thousandth of a degree for ordinary angles. -/
theorem smallest_difference_float {A B : ℚ} (hA : F32 A) (hB : F32 B) (h : |A| + |B| ≤ 2 ^ 21) :
    -180 ≤ smallestDifference A B ∧ smallestDifference A B ≤ 180 ∧
      ∃ t : ℤ, |smallestDifference A B - (B - A + 360 * t)| ≤ (|B - A| + 900) / 2 ^ 23 := by
  have hd : |B - A| ≤ 2 ^ 21 := by
    have := abs_sub B A
    linarith
  unfold smallestDifference
  dsimp only
  have ea := rnd_sub_err hB hA
  have fa := rnd_float (B - A)
  generalize rnd (B - A) = a at *
  have ha : |a| ≤ |B - A| * (1 + 1 / 16777216) := by
    have := abs_sub_abs_le_abs_sub a (B - A)
    linarith
  have f180 : F32 180 := by exact_mod_cast float_int 180 (by norm_num)
  have es : |rnd (a + 180) - (a + 180)| ≤ |a + 180| / 16777216 := by
    have := rnd_sub_err fa f180.neg
    rwa [sub_neg_eq_add] at this
  have fs := rnd_float (a + 180)
  have hs : rnd (a + 180) = 0 ∨ 1 / 2 ^ 126 ≤ |rnd (a + 180)| := by
    by_cases h0 : a = -180
    · left
      rw [h0, neg_add_cancel, rnd_zero]
    · right
      have g := float_gap fa.neg (X := 180) (by norm_num) (by norm_num) (by norm_num) (by
        push_cast
        intro hh
        apply h0
        linarith)
      push_cast at g
      rw [show -a - 180 = -(a + 180) by ring, abs_neg] at g
      have k := abs_sub_abs_le_abs_sub (a + 180) (rnd (a + 180))
      rw [abs_sub_comm (a + 180)] at k
      have : (1 : ℚ) / 2 ^ 126 ≤ 1 / 2 ^ 24 := by norm_num
      linarith
  have hsum : |a + 180| ≤ |a| + 180 := by
    have := abs_add_le a 180
    rwa [abs_of_pos (by norm_num : (0 : ℚ) < 180)] at this
  generalize rnd (a + 180) = c at *
  have hc : |c| ≤ |a + 180| * (1 + 1 / 16777216) := by
    have := abs_sub_abs_le_abs_sub c (a + 180)
    linarith
  obtain ⟨m0, m1, m2⟩ := mod_arith_float fs hs (N := 360) (by norm_num) (by norm_num) (by push_cast; linarith)
  push_cast at m0 m1 m2
  have fm : F32 (modArith c 360) := by unfold modArith; exact rnd_float _
  have ed := rnd_sub_err fm f180
  have d0 : -180 ≤ rnd (modArith c 360 - 180) := le_rnd f180.neg (by linarith)
  have d1 : rnd (modArith c 360 - 180) ≤ 180 := rnd_le f180 (by linarith)
  have fd := rnd_float (modArith c 360 - 180)
  have hm : |modArith c 360 - 180| ≤ 180 := by rw [abs_le]; constructor <;> linarith
  generalize modArith c 360 = z at *
  generalize rnd (z - 180) = r at *
  rw [if_neg (by linarith), if_neg (by linarith), add_zero, rnd_of_float fd]
  refine ⟨d0, d1, -⌊c / 360⌋, ?_⟩
  push_cast
  generalize (⌊c / 360⌋ : ℚ) = k at *
  have e : r - (B - A + 360 * -k) = (r - (z - 180)) + (z - (c - 360 * k)) + (c - (a + 180)) + (a - (B - A)) := by ring
  rw [e]
  have t1 := abs_add_le ((r - (z - 180)) + (z - (c - 360 * k)) + (c - (a + 180))) (a - (B - A))
  have t2 := abs_add_le ((r - (z - 180)) + (z - (c - 360 * k))) (c - (a + 180))
  have t3 := abs_add_le (r - (z - 180)) (z - (c - 360 * k))
  have : |B - A| * (1 + 1 / 16777216) ≤ |B - A| + 1 / 8 := by linarith
  linarith

/-- **C90** What is lost. A small negative angle gives 360, not something below; a subnormal negative one comes out negative;
and for huge angles the remainder is arbitrary. -/
theorem remainder_out_of_range :
    modArith (-1 / 2 ^ 16) 360 = 360 ∧ modArith (-1 / 2 ^ 149) 360 = -1 / 2 ^ 149 ∧ modArith (2 ^ 40) 360 = -26624 := by
  refine ⟨?_, ?_, ?_⟩ <;> decide +kernel

/-- An angle below zero, one beyond a full turn, and a difference across it. -/
example : modArith (-9 / 2) 360 = 711 / 2 ∧ modArith (725 / 2) 360 = 5 / 2 ∧ smallestDifference 350 (41 / 2) = 61 / 2 := by
  refine ⟨?_, ?_, ?_⟩ <;> decide +kernel

example : 0 ≤ modArith (-9 / 2) (360 : ℕ) ∧ modArith (-9 / 2) (360 : ℕ) ≤ (360 : ℕ) := by
  have hf : F32 (-9 / 2) := ⟨-9, -1, by norm_num, by norm_num, by norm_num⟩
  have := mod_arith_float hf (.inr (by norm_num [abs_of_neg])) (N := 360) (by norm_num) (by norm_num) (by norm_num [abs_of_neg])
  exact ⟨this.1, this.2.1⟩

end Verif.FloatAngle
