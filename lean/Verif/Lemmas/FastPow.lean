import Verif.Model.FastPow
import Verif.Lemmas.Float32
import Verif.Lemmas.FastLog
import Mathlib.Analysis.SpecialFunctions.Pow.Real
import Mathlib.Analysis.SpecialFunctions.Log.Base

/-!
# Rounding in `fastlog2`, `fastpow2` and `fastpow`
-/

namespace Verif.FastPow
open Float32

theorem rnd_near {x B : ℚ} (h : |x| ≤ B) (hB : 1 / 10 ^ 30 ≤ B) : |rnd x - x| ≤ B / 16000000 := by
  have k := round_err (p := 24) (emin := -149) x
  refine k.trans ?_
  have e1 : (2 : ℚ) ^ (-((24 : ℕ) : ℤ)) = 1 / 16777216 := by norm_num
  have e2 : (2 : ℚ) ^ ((-149 : ℤ) - 1) ≤ 1 / 10 ^ 30 / 10 ^ 10 := by norm_num
  rw [e1]
  have : |x| * (1 / 16777216) ≤ B * (1 / 16777216) := mul_le_mul_of_nonneg_right h (by norm_num)
  linarith

theorem rnd_int {n : ℤ} (h : |n| ≤ 1000) : rnd (n : ℚ) = n := by
  refine round_of_isFloat 24 (-149) (by norm_num) ⟨n, 0, by norm_num, ?_, by simp⟩
  exact h.trans (by norm_num)

/-! ## The bits -/

theorem bits_eq {x : ℚ} (hx : IsFloat 24 (-149) x) (h0 : 2 ^ (-126 : ℤ) ≤ x) :
    ∃ (e k : ℤ), -126 ≤ e ∧ 2 ^ 23 ≤ k ∧ k < 2 ^ 24 ∧ x = k * 2 ^ (e - 23) ∧ bits x = (e + 126) * 2 ^ 23 + k := by
  have xp : 0 < x := lt_of_lt_of_le (by norm_num) h0
  have ha : |x| = x := abs_of_pos xp
  have l1 := pow_log_le xp.ne'
  have l2 := lt_pow_log x
  rw [ha] at l1 l2
  have le : -126 ≤ Int.log 2 x := by
    by_contra hc
    have : (2 : ℚ) ^ (Int.log 2 x + 1) ≤ 2 ^ (-126 : ℤ) := two_zpow_le (by omega)
    linarith
  have pl : place 24 (-149) x = Int.log 2 x - 23 := by
    unfold place; rw [ha, max_eq_left (by push_cast; omega)]; push_cast; ring
  have r := round_of_isFloat 24 (-149) (by norm_num) hx
  unfold Float32.round at r
  rw [pl] at r
  have pp : (0 : ℚ) < 2 ^ (Int.log 2 x - 23) := two_pos_zpow _
  generalize hk : roundEven (x / 2 ^ (Int.log 2 x - 23)) = k at r
  have q : x / 2 ^ (Int.log 2 x - 23) = k := by rw [div_eq_iff pp.ne', r]
  have k1 : (2 : ℚ) ^ 23 ≤ k := by
    rw [← q, le_div_iff₀ pp, ← zpow_natCast, ← zpow_add₀ (by norm_num)]
    refine le_trans (le_of_eq ?_) l1; congr 1; push_cast; ring
  have k2 : (k : ℚ) < 2 ^ 24 := by
    rw [← q, div_lt_iff₀ pp, ← zpow_natCast, ← zpow_add₀ (by norm_num)]
    refine lt_of_lt_of_eq l2 ?_; congr 1; push_cast; ring
  refine ⟨Int.log 2 x, k, le, by exact_mod_cast k1, by exact_mod_cast k2, r.symm, ?_⟩
  unfold bits
  simp only [pl, ha, q, if_neg xp.ne', if_neg (not_lt.2 xp.le), Int.floor_intCast]
  ring

theorem mantissa_eq {e k : ℤ} (h1 : 2 ^ 23 ≤ k) (h2 : k < 2 ^ 24) : mantissa ((e + 126) * 2 ^ 23 + k) = k / 2 ^ 24 := by
  unfold mantissa
  have : (2 ^ 23 + ((e + 126) * 2 ^ 23 + k) % 2 ^ 23 : ℤ) = k := by omega
  rw [this]

theorem mantissa_range (i : ℤ) : 1 / 2 ≤ mantissa i ∧ mantissa i ≤ 1 := by
  unfold mantissa
  have a : (2 ^ 23 : ℤ) ≤ 2 ^ 23 + i % 2 ^ 23 := by omega
  have b : (2 ^ 23 + i % 2 ^ 23 : ℤ) ≤ 2 ^ 24 := by omega
  have a' : (2 ^ 23 : ℚ) ≤ ((2 ^ 23 + i % 2 ^ 23 : ℤ) : ℚ) := by exact_mod_cast a
  have b' : ((2 ^ 23 + i % 2 ^ 23 : ℤ) : ℚ) ≤ 2 ^ 24 := by exact_mod_cast b
  generalize ((2 ^ 23 + i % 2 ^ 23 : ℤ) : ℚ) = q at *
  constructor
  · rw [le_div_iff₀ (by norm_num)]; linarith
  · rw [div_le_iff₀ (by norm_num)]; linarith

theorem bits_small {x : ℚ} (hx : IsFloat 24 (-149) x) (h0 : 0 ≤ x) (h1 : x < 2 ^ (-15 : ℤ)) :
    0 ≤ bits x ∧ bits x ≤ 113 * 2 ^ 23 := by
  rcases eq_or_lt_of_le h0 with h | xp
  · rw [← h]; unfold bits; simp
  have z2 : (2 : ℚ) ≠ 0 := by norm_num
  rcases le_or_gt ((2 : ℚ) ^ (-126 : ℤ)) x with c | c
  · obtain ⟨e, k, e0, k0, k1, hxk, hb⟩ := bits_eq hx c
    have kq0 : (2 ^ 23 : ℚ) ≤ k := by exact_mod_cast k0
    have pe : (0 : ℚ) < 2 ^ (e - 23) := two_pos_zpow _
    have e1 : e ≤ -15 := by
      by_contra hc
      have a : (2 : ℚ) ^ (-15 : ℤ) ≤ 2 ^ e := two_zpow_le (by omega)
      have b : (2 : ℚ) ^ e ≤ x := by
        rw [hxk]
        calc (2 : ℚ) ^ e = 2 ^ 23 * 2 ^ (e - 23) := by rw [← zpow_natCast, ← zpow_add₀ z2]; congr 1; push_cast; ring
          _ ≤ (k : ℚ) * 2 ^ (e - 23) := mul_le_mul_of_nonneg_right kq0 pe.le
      linarith
    rw [hb]
    constructor <;> omega
  · have ha : |x| = x := abs_of_pos xp
    have l1 := pow_log_le xp.ne'
    rw [ha] at l1
    have le : Int.log 2 x < -126 := by
      by_contra hc
      have : (2 : ℚ) ^ (-126 : ℤ) ≤ 2 ^ Int.log 2 x := two_zpow_le (by omega)
      linarith
    have pl : place 24 (-149) x = -149 := by
      unfold place; rw [ha, max_eq_right (by push_cast; omega)]
    unfold bits
    simp only [pl, ha, if_neg xp.ne', if_neg (not_lt.2 xp.le)]
    have f0 : 0 ≤ ⌊x / 2 ^ (-149 : ℤ)⌋ := Int.floor_nonneg.2 (by positivity)
    have f1 : ⌊x / 2 ^ (-149 : ℤ)⌋ < 2 ^ 23 := by
      rw [Int.floor_lt, div_lt_iff₀ (two_pos_zpow _)]
      refine lt_of_lt_of_eq c ?_
      push_cast
      norm_num
    constructor <;> omega

/-- A number whose bits are those of about `(n + 126 + a) * 2^23` is about `2^n * a`. -/
theorem ofBits_near {n i : ℤ} {a ε : ℝ} (n0 : -126 ≤ n) (n1 : n ≤ 100) (a0 : 1 ≤ a) (a1 : a ≤ 2) (hε : ε ≤ 1 / 100)
    (h : |(i : ℝ) / 2 ^ 23 - (n + 126) - a| ≤ ε) :
    ∃ r : ℚ, ofBits i = .ok r ∧ |(r : ℝ) - (2 : ℝ) ^ n * a| ≤ (ε + ε ^ 2) * ((2 : ℝ) ^ n * a) := by
  have hε0 : 0 ≤ ε := (abs_nonneg _).trans h
  obtain ⟨I, hI⟩ : ∃ I : ℤ, I = i - (n + 126) * 2 ^ 23 := ⟨_, rfl⟩
  have hs : (i : ℝ) / 2 ^ 23 - (n + 126) = I / 2 ^ 23 := by rw [hI]; push_cast; ring
  rw [hs] at h
  obtain ⟨s, hs'⟩ : ∃ s : ℝ, s = I / 2 ^ 23 := ⟨_, rfl⟩
  rw [← hs', abs_le] at h
  have Is : (I : ℝ) = s * 2 ^ 23 := by rw [hs']; field_simp
  have I0 : 0 < I := by
    have : (0 : ℝ) < I := by rw [Is]; nlinarith [h.1]
    exact_mod_cast this
  have I3 : I < 3 * 2 ^ 23 := by
    have : (I : ℝ) < 3 * 2 ^ 23 := by rw [Is]; nlinarith [h.2]
    exact_mod_cast this
  have P : (0 : ℝ) < 2 ^ n := zpow_pos (by norm_num) n
  have z2 : (2 : ℝ) ≠ 0 := by norm_num
  have fin : ∀ s' : ℝ, |s' - a| ≤ (ε + ε ^ 2) * a → |(2 : ℝ) ^ n * s' - 2 ^ n * a| ≤ (ε + ε ^ 2) * (2 ^ n * a) := by
    intro s' hs
    rw [← mul_sub, abs_mul, abs_of_pos P]
    calc _ ≤ (2 : ℝ) ^ n * ((ε + ε ^ 2) * a) := mul_le_mul_of_nonneg_left hs P.le
      _ = _ := by ring
  rcases lt_or_ge I (2 ^ 23) with c | c
  · -- below 1
    have s1 : s < 1 := by
      have : (I : ℝ) < 2 ^ 23 := by exact_mod_cast c
      rw [Is] at this; linarith
    have e1 : i / 2 ^ 23 % 256 = n + 126 := by omega
    have e2 : i % 2 ^ 23 = I := by omega
    have e3 : i / 2 ^ 31 % 2 = 0 := by omega
    unfold ofBits
    simp only [e1, e2, e3, if_neg (show ¬ n + 126 = 255 by omega), if_neg (show ¬ ((0 : ℤ) = 1) by omega)]
    by_cases hn : n + 126 = 0
    · rw [if_pos hn]
      refine ⟨_, rfl, ?_⟩
      have en : n = -126 := by omega
      have : (((I : ℚ) * 2 ^ (-149 : ℤ) : ℚ) : ℝ) = 2 ^ n * s := by
        push_cast; rw [Is, en]; norm_num; ring
      rw [this]
      apply fin
      rw [abs_le]; constructor <;> nlinarith [h.1, h.2]
    · rw [if_neg hn]
      refine ⟨_, rfl, ?_⟩
      have : ((((2 ^ 23 + I : ℤ) : ℚ) * 2 ^ (n + 126 - 150) : ℚ) : ℝ) = 2 ^ n * ((1 + s) / 2) := by
        push_cast; rw [Is, show n + 126 - 150 = n + (-24) by ring, zpow_add₀ z2]; norm_num; ring
      rw [this]
      apply fin
      rw [abs_le]; constructor <;> nlinarith [h.1, h.2]
  · rcases lt_or_ge I (2 * 2 ^ 23) with c' | c'
    · have s1 : 1 ≤ s := by
        have : ((2 ^ 23 : ℤ) : ℝ) ≤ I := by exact_mod_cast c
        rw [Is] at this; push_cast at this; linarith
      have e1 : i / 2 ^ 23 % 256 = n + 127 := by omega
      have e2 : i % 2 ^ 23 = I - 2 ^ 23 := by omega
      have e3 : i / 2 ^ 31 % 2 = 0 := by omega
      unfold ofBits
      simp only [e1, e2, e3, if_neg (show ¬ n + 127 = 255 by omega), if_neg (show ¬ ((0 : ℤ) = 1) by omega),
        if_neg (show ¬ n + 127 = 0 by omega)]
      refine ⟨_, rfl, ?_⟩
      have : ((((2 ^ 23 + (I - 2 ^ 23) : ℤ) : ℚ) * 2 ^ (n + 127 - 150) : ℚ) : ℝ) = 2 ^ n * s := by
        push_cast; rw [Is, show n + 127 - 150 = n + (-23) by ring, zpow_add₀ z2]; norm_num; ring
      rw [this]
      apply fin
      rw [abs_le]; constructor <;> nlinarith [h.1, h.2]
    · have s1 : 2 ≤ s := by
        have : ((2 * 2 ^ 23 : ℤ) : ℝ) ≤ I := by exact_mod_cast c'
        rw [Is] at this; push_cast at this; linarith
      have e1 : i / 2 ^ 23 % 256 = n + 128 := by omega
      have e2 : i % 2 ^ 23 = I - 2 * 2 ^ 23 := by omega
      have e3 : i / 2 ^ 31 % 2 = 0 := by omega
      unfold ofBits
      simp only [e1, e2, e3, if_neg (show ¬ n + 128 = 255 by omega), if_neg (show ¬ ((0 : ℤ) = 1) by omega),
        if_neg (show ¬ n + 128 = 0 by omega)]
      refine ⟨_, rfl, ?_⟩
      have : ((((2 ^ 23 + (I - 2 * 2 ^ 23) : ℤ) : ℚ) * 2 ^ (n + 128 - 150) : ℚ) : ℝ) = 2 ^ n * (2 * (s - 1)) := by
        push_cast; rw [Is, show n + 128 - 150 = n + (-22) by ring, zpow_add₀ z2]; norm_num; ring
      rw [this]
      apply fin
      rw [abs_le]; constructor <;> nlinarith [h.1, h.2]

/-! ## `fastlog2` -/

theorem constants :
    rnd (11920928955078125 / 10 ^ 23) = 1 / 8388608 ∧ rnd (12422551499 / 10 ^ 8) = 16282487 / 131072 ∧
    rnd (1498030302 / 10 ^ 9) = 12566389 / 8388608 ∧ rnd (172587999 / 10 ^ 8) = 14477731 / 8388608 ∧
    rnd (3520887068 / 10 ^ 10) = 11814137 / 33554432 ∧ rnd (1212740575 / 10 ^ 7) = 15895633 / 131072 ∧
    rnd (277280233 / 10 ^ 7) = 7268735 / 262144 ∧ rnd (484252568 / 10 ^ 8) = 1269439 / 262144 ∧
    rnd (149012907 / 10 ^ 8) = 12500109 / 8388608 := by
  decide +kernel

/-- Rounding in `fastlog2`, for numbers between 2^-15 and 2. -/
theorem fastlog2_rounding {i : ℤ} {mx : ℚ} (i0 : 111 * 2 ^ 23 ≤ i) (i1 : i ≤ 129 * 2 ^ 23) (m0 : 1 / 2 ≤ mx) (m1 : mx ≤ 1) :
    |rnd (rnd (rnd (rnd (rnd (i : ℚ) * (1 / 8388608)) - 16282487 / 131072) - rnd (12566389 / 8388608 * mx))
      - rnd (14477731 / 8388608 / rnd (11814137 / 33554432 + mx)))
      - ((i : ℚ) / 2 ^ 23 - 16282487 / 131072 - 12566389 / 8388608 * mx - 14477731 / 8388608 / (11814137 / 33554432 + mx))|
      ≤ 20 / 10 ^ 6 := by
  have j0 : (111 * 2 ^ 23 : ℚ) ≤ i := by exact_mod_cast i0
  have j1 : (i : ℚ) ≤ 129 * 2 ^ 23 := by exact_mod_cast i1
  obtain ⟨t, ht⟩ : ∃ t : ℚ, t = (i : ℚ) / 2 ^ 23 := ⟨_, rfl⟩
  have t0 : 111 ≤ t := by rw [ht, le_div_iff₀ (by norm_num)]; exact j0
  have t1 : t ≤ 129 := by rw [ht, div_le_iff₀ (by norm_num)]; exact j1
  have a1 := rnd_near (x := (i : ℚ)) (B := 129 * 2 ^ 23) (by rw [abs_le]; constructor <;> linarith) (by norm_num)
  generalize rnd (i : ℚ) = y1 at *
  have b1 : |y1 * (1 / 8388608) - t| ≤ 129 / 16000000 := by
    have : y1 * (1 / 8388608) - t = (y1 - i) / 2 ^ 23 := by rw [ht]; ring
    rw [this, abs_div, abs_of_pos (show (0 : ℚ) < 2 ^ 23 by norm_num), div_le_iff₀ (by norm_num)]
    linarith
  rw [← ht]
  generalize y1 * (1 / 8388608) = y2 at *
  rw [abs_le] at b1
  have a2 := rnd_near (x := y2) (B := 13 * 10) (by rw [abs_le]; constructor <;> linarith) (by norm_num)
  generalize rnd y2 = y3 at *
  rw [abs_le] at a2
  have a3 := rnd_near (x := y3 - 16282487 / 131072) (B := 14) (by rw [abs_le]; constructor <;> linarith) (by norm_num)
  generalize rnd (y3 - 16282487 / 131072) = y4 at *
  rw [abs_le] at a3
  have a4 := rnd_near (x := 12566389 / 8388608 * mx) (B := 2) (by rw [abs_le]; constructor <;> linarith) (by norm_num)
  generalize rnd (12566389 / 8388608 * mx) = y5 at *
  rw [abs_le] at a4
  have a5 := rnd_near (x := y4 - y5) (B := 16) (by rw [abs_le]; constructor <;> linarith) (by norm_num)
  generalize rnd (y4 - y5) = y6 at *
  rw [abs_le] at a5
  have a6 := rnd_near (x := 11814137 / 33554432 + mx) (B := 2) (by rw [abs_le]; constructor <;> linarith) (by norm_num)
  generalize rnd (11814137 / 33554432 + mx) = d at *
  obtain ⟨d', hd'⟩ : ∃ d' : ℚ, d' = 11814137 / 33554432 + mx := ⟨_, rfl⟩
  rw [← hd'] at a6 ⊢
  rw [abs_le] at a6
  have dp : 84 / 100 ≤ d := by linarith
  have dp' : 84 / 100 ≤ d' := by linarith
  have b2 : |14477731 / 8388608 / d - 14477731 / 8388608 / d'| ≤ 4 / 10 ^ 7 := by
    have : 14477731 / 8388608 / d - 14477731 / 8388608 / d' = 14477731 / 8388608 * (d' - d) / (d * d') := by
      field_simp
    rw [this, abs_div, abs_of_pos (show 0 < d * d' by positivity), div_le_iff₀ (by positivity)]
    have : 84 / 100 * (84 / 100) ≤ d * d' := mul_le_mul dp dp' (by norm_num) (by linarith)
    rw [abs_mul, abs_of_pos (show (0 : ℚ) < 14477731 / 8388608 by norm_num)]
    have : |d' - d| ≤ 2 / 16000000 := by rw [abs_le]; constructor <;> linarith
    nlinarith
  have b3 : 0 ≤ 14477731 / 8388608 / d' ∧ 14477731 / 8388608 / d' ≤ 21 / 10 := by
    constructor
    · positivity
    · rw [div_le_iff₀ (by linarith)]; linarith
  generalize 14477731 / 8388608 / d = q at *
  generalize 14477731 / 8388608 / d' = q' at *
  rw [abs_le] at b2
  have a7 := rnd_near (x := q) (B := 3) (by rw [abs_le]; constructor <;> linarith) (by norm_num)
  generalize rnd q = y7 at *
  rw [abs_le] at a7
  have a8 := rnd_near (x := y6 - y7) (B := 18) (by rw [abs_le]; constructor <;> linarith) (by norm_num)
  generalize rnd (y6 - y7) = y8 at *
  rw [abs_le] at a8 ⊢
  constructor <;> linarith

theorem fastlog2_small {x : ℚ} (hx : IsFloat 24 (-149) x) (h0 : 0 ≤ x) (h1 : x < 2 ^ (-15 : ℤ)) : fastlog2 x ≤ 0 := by
  obtain ⟨i0, i1⟩ := bits_small hx h0 h1
  obtain ⟨m0, m1⟩ := mantissa_range (bits x)
  obtain ⟨q1, q2, q3, q4, q5, -, -, -, -⟩ := constants
  unfold fastlog2
  simp only [q1, q2, q3, q4, q5]
  generalize mantissa (bits x) = mx at *
  generalize bits x = i at *
  have j0 : (0 : ℚ) ≤ i := by exact_mod_cast i0
  have j1 : (i : ℚ) ≤ 113 * 2 ^ 23 := by exact_mod_cast i1
  have a1 := rnd_near (x := (i : ℚ)) (B := 129 * 2 ^ 23) (by rw [abs_le]; constructor <;> linarith) (by norm_num)
  generalize rnd (i : ℚ) = y1 at *
  rw [abs_le] at a1
  have a2 := rnd_near (x := y1 * (1 / 8388608)) (B := 13 * 10) (by rw [abs_le]; constructor <;> linarith) (by norm_num)
  generalize rnd (y1 * (1 / 8388608)) = y3 at *
  rw [abs_le] at a2
  have a3 := rnd_near (x := y3 - 16282487 / 131072) (B := 150) (by rw [abs_le]; constructor <;> linarith) (by norm_num)
  generalize rnd (y3 - 16282487 / 131072) = y4 at *
  rw [abs_le] at a3
  have a4 := rnd_near (x := 12566389 / 8388608 * mx) (B := 2) (by rw [abs_le]; constructor <;> linarith) (by norm_num)
  generalize rnd (12566389 / 8388608 * mx) = y5 at *
  rw [abs_le] at a4
  have a5 := rnd_near (x := y4 - y5) (B := 150) (by rw [abs_le]; constructor <;> linarith) (by norm_num)
  generalize rnd (y4 - y5) = y6 at *
  rw [abs_le] at a5
  have a6 := rnd_near (x := 11814137 / 33554432 + mx) (B := 2) (by rw [abs_le]; constructor <;> linarith) (by norm_num)
  generalize rnd (11814137 / 33554432 + mx) = d at *
  rw [abs_le] at a6
  have b3 : 0 ≤ 14477731 / 8388608 / d ∧ 14477731 / 8388608 / d ≤ 21 / 10 := by
    have : 84 / 100 ≤ d := by linarith
    constructor
    · positivity
    · rw [div_le_iff₀ (by linarith)]; linarith
  generalize 14477731 / 8388608 / d = q at *
  have a7 := rnd_near (x := q) (B := 3) (by rw [abs_le]; constructor <;> linarith) (by norm_num)
  generalize rnd q = y7 at *
  rw [abs_le] at a7
  have a8 := rnd_near (x := y6 - y7) (B := 160) (by rw [abs_le]; constructor <;> linarith) (by norm_num)
  generalize rnd (y6 - y7) = y8 at *
  rw [abs_le] at a8
  linarith

/-- The logarithm, for floats between 2^-15 and 2. -/
theorem fastlog2_near {x : ℚ} (hx : IsFloat 24 (-149) x) (h0 : 2 ^ (-15 : ℤ) ≤ x) (h1 : x ≤ 2) :
    |(fastlog2 x : ℝ) - Real.logb 2 x| ≤ 172 / 10 ^ 6 := by
  have xp : 0 < x := lt_of_lt_of_le (by norm_num) h0
  obtain ⟨e, k, -, k0, k1, hxk, hb⟩ := bits_eq hx ((by norm_num : (2 : ℚ) ^ (-126 : ℤ) ≤ 2 ^ (-15 : ℤ)).trans h0)
  have z2 : (2 : ℚ) ≠ 0 := by norm_num
  have kq0 : (2 ^ 23 : ℚ) ≤ k := by exact_mod_cast k0
  have kq1 : (k : ℚ) < 2 ^ 24 := by exact_mod_cast k1
  have pe : (0 : ℚ) < 2 ^ (e - 23) := two_pos_zpow _
  have e0 : -15 ≤ e := by
    by_contra hc
    have a : (2 : ℚ) ^ (e + 1) ≤ 2 ^ (-15 : ℤ) := two_zpow_le (by omega)
    have b : x < 2 ^ (e + 1) := by
      rw [hxk]
      calc (k : ℚ) * 2 ^ (e - 23) < 2 ^ 24 * 2 ^ (e - 23) := mul_lt_mul_of_pos_right kq1 pe
        _ = 2 ^ (e + 1) := by rw [← zpow_natCast, ← zpow_add₀ z2]; congr 1; push_cast; ring
    linarith
  have e1 : e ≤ 1 := by
    by_contra hc
    have a : (2 : ℚ) ^ (2 : ℤ) ≤ 2 ^ e := two_zpow_le (by omega)
    have b : (2 : ℚ) ^ e ≤ x := by
      rw [hxk]
      calc (2 : ℚ) ^ e = 2 ^ 23 * 2 ^ (e - 23) := by rw [← zpow_natCast, ← zpow_add₀ z2]; congr 1; push_cast; ring
        _ ≤ (k : ℚ) * 2 ^ (e - 23) := mul_le_mul_of_nonneg_right kq0 pe.le
    norm_num at a
    linarith
  obtain ⟨m, hm⟩ : ∃ m : ℚ, m = k / 2 ^ 24 := ⟨_, rfl⟩
  have m0 : 1 / 2 ≤ m := by rw [hm, le_div_iff₀ (by norm_num)]; linarith
  have m1 : m ≤ 1 := by rw [hm, div_le_iff₀ (by norm_num)]; linarith
  have R := fastlog2_rounding (i := (e + 126) * 2 ^ 23 + k) (mx := m) (by omega) (by omega) m0 m1
  obtain ⟨q1, q2, q3, q4, q5, -, -, -, -⟩ := constants
  have hf : fastlog2 x = rnd (rnd (rnd (rnd (rnd (((e + 126) * 2 ^ 23 + k : ℤ) : ℚ) * (1 / 8388608)) - 16282487 / 131072)
      - rnd (12566389 / 8388608 * m)) - rnd (14477731 / 8388608 / rnd (11814137 / 33554432 + m))) := by
    unfold fastlog2
    simp only [hb, mantissa_eq k0 k1, q1, q2, q3, q4, q5, ← hm]
  rw [← hf] at R
  generalize fastlog2 x = l at *
  have E : (((e + 126) * 2 ^ 23 + k : ℤ) : ℚ) / 2 ^ 23 - 16282487 / 131072 - 12566389 / 8388608 * m
      - 14477731 / 8388608 / (11814137 / 33554432 + m)
      = e + 1 + (125 + 2 * m - 16282487 / 131072 - 12566389 / 8388608 * m - 14477731 / 8388608 / (11814137 / 33554432 + m)) := by
    rw [hm]; push_cast; ring
  rw [E] at R
  have R' : |(l : ℝ) - (e + 1 + logPart m)| ≤ 20 / 10 ^ 6 := by
    have : ((|l - (e + 1 + (125 + 2 * m - 16282487 / 131072 - 12566389 / 8388608 * m
        - 14477731 / 8388608 / (11814137 / 33554432 + m)))| : ℚ) : ℝ) ≤ ((20 / 10 ^ 6 : ℚ) : ℝ) := by exact_mod_cast R
    push_cast at this
    unfold logPart
    exact this
  have mp : (0 : ℝ) < m := by exact_mod_cast (by linarith : (0 : ℚ) < m)
  have N := logPart_near (m := (m : ℝ)) (by
    have : ((1 / 2 : ℚ) : ℝ) ≤ m := by exact_mod_cast m0
    push_cast at this; exact this) (by exact_mod_cast m1)
  have L : Real.logb 2 x = e + 1 + Real.log m / Real.log 2 := by
    have : (x : ℝ) = 2 ^ (e + 1) * (m : ℝ) := by
      rw [hxk, hm]; push_cast
      rw [show e + 1 = (e - 23) + 24 by ring, zpow_add₀ (by norm_num : (2 : ℝ) ≠ 0)]; norm_num; ring
    rw [this, Real.logb, Real.log_mul (by positivity) mp.ne', Real.log_zpow, add_div,
      mul_div_assoc, div_self (Real.log_pos (by norm_num)).ne']
    push_cast; ring
  rw [L]
  rw [abs_le] at R' ⊢
  constructor <;> linarith [N.1, N.2, R'.1, R'.2]

/-! ## `fastpow2` -/

/-- Rounding in `fastpow2`; `n + z` is the exponent. -/
theorem fastpow2_rounding {n : ℤ} {z c z' : ℚ} (hz0 : 0 ≤ z) (hz1 : z ≤ 1) (hc : c = n + z) (c0 : -126 ≤ c) (c1 : c ≤ 12 / 10)
    (hz' : |z' - z| ≤ 2 / 10 ^ 7) :
    |rnd (2 ^ 23 * rnd (rnd (rnd (c + 15895633 / 131072) + rnd (7268735 / 262144 / rnd (1269439 / 262144 - z')))
      - rnd (12500109 / 8388608 * z')))
      - 2 ^ 23 * (n + 126 + (15895633 / 131072 - 126 + 7268735 / 262144 / (1269439 / 262144 - z) - 12500109 / 8388608 * z + z))|
      ≤ 2 ^ 23 * (35 / 10 ^ 6) := by
  rw [abs_le] at hz'
  have a1 := rnd_near (x := c + 15895633 / 131072) (B := 123) (by rw [abs_le]; constructor <;> linarith) (by norm_num)
  generalize rnd (c + 15895633 / 131072) = y1 at *
  rw [abs_le] at a1
  have a2 := rnd_near (x := 1269439 / 262144 - z') (B := 5) (by rw [abs_le]; constructor <;> linarith) (by norm_num)
  generalize rnd (1269439 / 262144 - z') = d at *
  rw [abs_le] at a2
  obtain ⟨d', hd'⟩ : ∃ d' : ℚ, d' = 1269439 / 262144 - z := ⟨_, rfl⟩
  have dp : 384 / 100 ≤ d := by linarith
  have dp' : 384 / 100 ≤ d' := by linarith
  rw [← hd']
  have b2 : |7268735 / 262144 / d - 7268735 / 262144 / d'| ≤ 10 / 10 ^ 7 := by
    have : 7268735 / 262144 / d - 7268735 / 262144 / d' = 7268735 / 262144 * (d' - d) / (d * d') := by
      field_simp
    rw [this, abs_div, abs_of_pos (show 0 < d * d' by positivity), div_le_iff₀ (by positivity)]
    have : 384 / 100 * (384 / 100) ≤ d * d' := mul_le_mul dp dp' (by norm_num) (by linarith)
    rw [abs_mul, abs_of_pos (show (0 : ℚ) < 7268735 / 262144 by norm_num)]
    have : |d' - d| ≤ 5 / 16000000 + 2 / 10 ^ 7 := by rw [abs_le]; constructor <;> linarith
    nlinarith
  have b3 : 0 ≤ 7268735 / 262144 / d' ∧ 7268735 / 262144 / d' ≤ 75 / 10 := by
    constructor
    · positivity
    · rw [div_le_iff₀ (by linarith)]; linarith
  generalize 7268735 / 262144 / d = q at *
  generalize 7268735 / 262144 / d' = q' at *
  rw [abs_le] at b2
  have a3 := rnd_near (x := q) (B := 8) (by rw [abs_le]; constructor <;> linarith) (by norm_num)
  generalize rnd q = y3 at *
  rw [abs_le] at a3
  have a4 := rnd_near (x := y1 + y3) (B := 131) (by rw [abs_le]; constructor <;> linarith) (by norm_num)
  generalize rnd (y1 + y3) = y4 at *
  rw [abs_le] at a4
  have a5 := rnd_near (x := 12500109 / 8388608 * z') (B := 2) (by rw [abs_le]; constructor <;> linarith) (by norm_num)
  generalize rnd (12500109 / 8388608 * z') = y5 at *
  rw [abs_le] at a5
  have a6 := rnd_near (x := y4 - y5) (B := 131) (by rw [abs_le]; constructor <;> linarith) (by norm_num)
  generalize rnd (y4 - y5) = y6 at *
  rw [abs_le] at a6
  have a7 := rnd_near (x := 2 ^ 23 * y6) (B := 2 ^ 23 * 132) (by rw [abs_le]; constructor <;> linarith) (by norm_num)
  generalize rnd (2 ^ 23 * y6) = y7 at *
  rw [abs_le] at a7 ⊢
  constructor <;> linarith

theorem fastpow2_finish {n : ℤ} {z c z' : ℚ} (hz0 : 0 ≤ z) (hz1 : z ≤ 1) (hc : c = n + z) (c0 : -126 ≤ c) (c1 : c ≤ 12 / 10)
    (hz' : |z' - z| ≤ 2 / 10 ^ 7) {v : ℚ}
    (hv : v = rnd (2 ^ 23 * rnd (rnd (rnd (c + 15895633 / 131072) + rnd (7268735 / 262144 / rnd (1269439 / 262144 - z')))
      - rnd (12500109 / 8388608 * z')))) :
    (-1 < v ∧ v < 2 ^ 32) ∧
    ∃ r : ℚ, ofBits (truncate v) = .ok r ∧ |(r : ℝ) - (2 : ℝ) ^ (c : ℝ)| ≤ 12 / 10 ^ 5 * (2 : ℝ) ^ (c : ℝ) := by
  have R := fastpow2_rounding hz0 hz1 hc c0 c1 hz'
  rw [← hv] at R
  have N := powPart_near (z := (z : ℝ)) (by exact_mod_cast hz0) (by exact_mod_cast hz1)
  have R' : |(v : ℝ) - 2 ^ 23 * (n + 126 + powPart z)| ≤ 2 ^ 23 * (35 / 10 ^ 6) := by
    unfold powPart
    have := (Rat.cast_le (K := ℝ)).2 R
    push_cast at this
    exact this
  have zr0 : (0 : ℝ) ≤ z := by exact_mod_cast hz0
  have zr1 : (z : ℝ) ≤ 1 := by exact_mod_cast hz1
  have p1 : (1 : ℝ) ≤ (2 : ℝ) ^ (z : ℝ) := Real.one_le_rpow (by norm_num) zr0
  have p2 : (2 : ℝ) ^ (z : ℝ) ≤ 2 := by
    calc (2 : ℝ) ^ (z : ℝ) ≤ (2 : ℝ) ^ (1 : ℝ) := Real.rpow_le_rpow_of_exponent_le (by norm_num) zr1
      _ = 2 := Real.rpow_one 2
  have n0 : -127 ≤ n := by
    have : (-127 : ℚ) ≤ n := by linarith
    exact_mod_cast this
  have n1 : n ≤ 1 := by
    have : (n : ℚ) < 2 := by linarith
    have : n < 2 := by exact_mod_cast this
    omega
  have nz : (-126 : ℝ) ≤ n + z := by
    have : ((-126 : ℚ) : ℝ) ≤ ((n + z : ℚ) : ℝ) := by rw [Rat.cast_le, ← hc]; exact c0
    push_cast at this; exact this
  have n1r : (n : ℝ) ≤ 1 := by exact_mod_cast n1
  have n0r : (-127 : ℝ) ≤ n := by exact_mod_cast n0
  rw [abs_le] at R' N
  -- the cases 2^(n + z) with n = -127 are those with z = 1
  obtain ⟨n', a, hn', hn1', ha1, ha2, hpow, hsum⟩ : ∃ (n' : ℤ) (a : ℝ), -126 ≤ n' ∧ n' ≤ 1 ∧ 1 ≤ a ∧ a ≤ 2 ∧
      (2 : ℝ) ^ (c : ℝ) = 2 ^ n' * a ∧ |(v : ℝ) / 2 ^ 23 - (n' + 126) - a| ≤ 8 / 10 ^ 5 + 35 / 10 ^ 6 := by
    have key : |(v : ℝ) / 2 ^ 23 - (n + 126) - (2 : ℝ) ^ (z : ℝ)| ≤ 8 / 10 ^ 5 + 35 / 10 ^ 6 := by
      rw [abs_le]; constructor <;> linarith [R'.1, R'.2, N.1, N.2]
    have hcr : (2 : ℝ) ^ (c : ℝ) = 2 ^ n * (2 : ℝ) ^ (z : ℝ) := by
      rw [hc]; push_cast; rw [Real.rpow_add (by norm_num), Real.rpow_intCast]
    rcases eq_or_lt_of_le n0 with h | h
    · have z1 : (z : ℝ) = 1 := by
        have : (n : ℝ) = -127 := by rw [← h]; norm_num
        linarith
      refine ⟨-126, 1, le_rfl, by norm_num, le_rfl, by norm_num, ?_, ?_⟩
      · rw [hcr, z1, ← h]; norm_num
      · rw [z1, ← h, Real.rpow_one] at key
        refine le_trans (le_of_eq ?_) key
        congr 1; push_cast; ring
    · exact ⟨n, _, by omega, n1, p1, p2, hcr, key⟩
  have vpos : (1 / 2 : ℝ) * 2 ^ 23 ≤ v := by
    have : (-126 : ℝ) ≤ n' := by exact_mod_cast hn'
    rw [abs_le] at hsum; linarith [hsum.1]
  have vlt : (v : ℝ) < 2 ^ 31 := by
    have : (n' : ℝ) ≤ 1 := by exact_mod_cast hn1'
    rw [abs_le] at hsum; linarith [hsum.2]
  have vpos' : (1 / 2 : ℚ) * 2 ^ 23 ≤ v := by
    have : (((1 / 2 : ℚ) * 2 ^ 23 : ℚ) : ℝ) ≤ v := by push_cast; exact vpos
    exact_mod_cast this
  have vlt' : v < 2 ^ 31 := by
    have : (v : ℝ) < ((2 ^ 31 : ℚ) : ℝ) := by push_cast; exact vlt
    exact_mod_cast this
  refine ⟨⟨by linarith, by linarith⟩, ?_⟩
  have tr : truncate v = ⌊v⌋ := by unfold truncate; rw [if_neg (by linarith)]
  rw [tr, hpow]
  have f1 := Int.floor_le v
  have f2 := Int.lt_floor_add_one v
  have f1' : ((⌊v⌋ : ℤ) : ℝ) ≤ v := by exact_mod_cast f1
  have f2' : (v : ℝ) < ((⌊v⌋ : ℤ) : ℝ) + 1 := by exact_mod_cast f2
  obtain ⟨r, h1, h2⟩ := ofBits_near (i := ⌊v⌋) (ε := 1152 / 10 ^ 7) hn' (by omega) ha1 ha2 (by norm_num) (by
    rw [abs_le] at hsum ⊢
    constructor <;> linarith [hsum.1, hsum.2])
  refine ⟨r, h1, h2.trans ?_⟩
  refine mul_le_mul_of_nonneg_right (by norm_num) ?_
  have : (0 : ℝ) < 2 ^ n' := zpow_pos (by norm_num) _
  positivity

/-- The exponential: always defined up to 12/10, and accurate (with the exponent clipped at -126). -/
theorem fastpow2_near {p : ℚ} (hp : p ≤ 12 / 10) :
    ∃ r : ℚ, fastpow2 p = .ok r ∧ |(r : ℝ) - (2 : ℝ) ^ (max p (-126) : ℝ)| ≤ 12 / 10 ^ 5 * (2 : ℝ) ^ (max p (-126) : ℝ) := by
  obtain ⟨c, hc⟩ : ∃ c : ℚ, c = if p < -126 then -126 else p := ⟨_, rfl⟩
  have cm : (max p (-126) : ℝ) = c := by
    rw [hc]
    split_ifs with h
    · rw [max_eq_right (by exact_mod_cast h.le)]; push_cast; rfl
    · rw [max_eq_left (by exact_mod_cast not_lt.1 h)]
  have c0 : -126 ≤ c := by rw [hc]; split_ifs with h <;> linarith
  have c1 : c ≤ 12 / 10 := by rw [hc]; split_ifs with h <;> linarith
  have csign : c < 0 ↔ p < 0 := by
    rw [hc]; split_ifs with h
    · constructor <;> intro <;> linarith
    · exact Iff.rfl
  rw [cm]
  obtain ⟨-, -, -, -, -, q6, q7, q8, q9⟩ := constants
  obtain ⟨o, ho⟩ : ∃ o : ℚ, o = if p < 0 then 1 else 0 := ⟨_, rfl⟩
  obtain ⟨w, hw⟩ : ∃ w : ℤ, w = truncate c := ⟨_, rfl⟩
  obtain ⟨n, hn, hz0, hz1, hw0, hw1⟩ : ∃ n : ℤ, (n : ℚ) = w - o ∧ 0 ≤ c - n ∧ c - n ≤ 1 ∧ -126 ≤ w ∧ w ≤ 1 := by
    rcases lt_or_ge c 0 with h | h
    · have tw : w = ⌈c⌉ := by rw [hw]; unfold truncate; rw [if_pos h]
      have g1 := Int.le_ceil c
      have g2 := Int.ceil_lt_add_one c
      refine ⟨w - 1, ?_, ?_, ?_, ?_, ?_⟩
      · rw [ho, if_pos (csign.1 h)]; push_cast; ring
      · rw [tw]; push_cast; linarith
      · rw [tw]; push_cast; linarith
      · rw [tw, ← Int.ceil_intCast (R := ℚ) (-126)]; exact Int.ceil_mono (by push_cast; exact c0)
      · rw [tw]; exact Int.ceil_le.2 (by push_cast; linarith)
    · have tw : w = ⌊c⌋ := by rw [hw]; unfold truncate; rw [if_neg (not_lt.2 h)]
      have g1 := Int.floor_le c
      have g2 := Int.lt_floor_add_one c
      refine ⟨w, ?_, ?_, ?_, ?_, ?_⟩
      · rw [ho, if_neg (fun q => absurd (csign.2 q) (not_lt.2 h))]; push_cast; ring
      · rw [tw]; linarith
      · rw [tw]; linarith
      · rw [tw]; exact Int.le_floor.2 (by push_cast; exact c0)
      · have : ⌊c⌋ < 2 := Int.floor_lt.2 (by push_cast; linarith)
        omega
  have rw' : rnd (w : ℚ) = w := rnd_int (by rw [abs_le]; constructor <;> omega)
  have o01 : 0 ≤ o ∧ o ≤ 1 := by rw [ho]; split_ifs <;> norm_num
  have a1 := rnd_near (x := c - w) (B := 1) (by rw [abs_le]; constructor <;> linarith [o01.1, o01.2]) (by norm_num)
  have zz : |rnd (rnd (c - w) + o) - (c - n)| ≤ 2 / 10 ^ 7 := by
    generalize rnd (c - w) = y at *
    rw [abs_le] at a1
    have a2 := rnd_near (x := y + o) (B := 11 / 10) (by rw [abs_le]; constructor <;> linarith [o01.1, o01.2]) (by norm_num)
    rw [abs_le] at a2 ⊢
    constructor <;> linarith
  have F := fastpow2_finish (n := n) (z := c - n) (c := c) hz0 hz1 (by ring) c0 c1 zz rfl
  obtain ⟨⟨v0, v1⟩, r, h1, h2⟩ := F
  refine ⟨r, ?_, h2⟩
  unfold fastpow2
  simp only [q6, q7, q8, q9, ← hc, ← ho, ← hw, rw']
  rw [if_neg (show ¬ ¬ (intMin ≤ w ∧ w ≤ intMax) from not_not.2 ⟨by unfold intMin; omega, by unfold intMax; omega⟩),
    if_neg (not_not.2 ⟨v0, v1⟩)]
  exact h1

/-! ## `fastpow` -/

/-- Accuracy for floats between 2^-15 and 2, exponents between 0 and 1. -/
theorem fastpow_near {x p : ℚ} (hx : IsFloat 24 (-149) x) (h0 : 2 ^ (-15 : ℤ) ≤ x) (h1 : x ≤ 2) (p0 : 0 ≤ p) (p1 : p ≤ 1) :
    ∃ r : ℚ, fastpow x p = .ok r ∧ |(r : ℝ) - (x : ℝ) ^ (p : ℝ)| ≤ (x : ℝ) ^ (p : ℝ) / 4000 := by
  have xp : (0 : ℝ) < x := by exact_mod_cast lt_of_lt_of_le (by norm_num) h0
  have L := fastlog2_near hx h0 h1
  have lb0 : -15 ≤ Real.logb 2 x := by
    rw [Real.le_logb_iff_rpow_le (by norm_num) xp]
    have : ((2 ^ (-15 : ℤ) : ℚ) : ℝ) ≤ x := by exact_mod_cast h0
    push_cast at this
    rw [show (-15 : ℝ) = ((-15 : ℤ) : ℝ) by norm_num, Real.rpow_intCast]
    exact this
  have lb1 : Real.logb 2 x ≤ 1 := by
    rw [Real.logb_le_iff_le_rpow (by norm_num) xp, Real.rpow_one]
    exact_mod_cast h1
  obtain ⟨l, hl⟩ : ∃ l : ℚ, l = fastlog2 x := ⟨_, rfl⟩
  rw [← hl, abs_le] at L
  have l0 : -16 ≤ l := by
    have : (-16 : ℝ) ≤ l := by linarith [L.1]
    exact_mod_cast this
  have l1 : l ≤ 11 / 10 := by
    have : (l : ℝ) ≤ ((11 / 10 : ℚ) : ℝ) := by push_cast; linarith [L.2]
    exact_mod_cast this
  have a := rnd_near (x := p * l) (B := 16) (by rw [abs_le]; constructor <;> nlinarith) (by norm_num)
  obtain ⟨t, ht⟩ : ∃ t : ℚ, t = rnd (p * l) := ⟨_, rfl⟩
  rw [← ht] at a
  have ar : |(t : ℝ) - p * l| ≤ 1 / 1000000 := by
    have := (Rat.cast_le (K := ℝ)).2 a
    push_cast at this
    norm_num at this ⊢
    exact this
  rw [abs_le] at a
  have t1 : t ≤ 12 / 10 := by nlinarith [a.2]
  have t0 : -17 ≤ t := by nlinarith [a.1]
  obtain ⟨r, e, n⟩ := fastpow2_near t1
  have tm : (max t (-126) : ℝ) = t := by
    rw [max_eq_left]
    have : ((-17 : ℚ) : ℝ) ≤ t := by exact_mod_cast t0
    push_cast at this; linarith
  rw [tm] at n
  refine ⟨r, by unfold fastpow; rw [← hl, ← ht]; exact e, ?_⟩
  have pr0 : (0 : ℝ) ≤ p := by exact_mod_cast p0
  have pr1 : (p : ℝ) ≤ 1 := by exact_mod_cast p1
  obtain ⟨δ, hδ⟩ : ∃ δ : ℝ, δ = t - p * Real.logb 2 x := ⟨_, rfl⟩
  have d1 : |δ| ≤ 173 / 10 ^ 6 := by
    rw [hδ]
    rw [abs_le] at ar ⊢
    constructor <;> nlinarith [ar.1, ar.2, L.1, L.2]
  have hX : (x : ℝ) ^ (p : ℝ) = (2 : ℝ) ^ (p * Real.logb 2 x) := by
    rw [mul_comm, Real.rpow_mul (by norm_num), Real.rpow_logb (by norm_num) (by norm_num) xp]
  have hT : (2 : ℝ) ^ (t : ℝ) = (x : ℝ) ^ (p : ℝ) * (2 : ℝ) ^ δ := by
    rw [hX, ← Real.rpow_add (by norm_num), hδ]; congr 1; ring
  have D : |(2 : ℝ) ^ δ - 1| ≤ 121 / 10 ^ 6 := by
    have l2 := Real.log_two_lt_d9
    have l20 : 0 < Real.log 2 := Real.log_pos (by norm_num)
    norm_num at l2
    rw [Real.rpow_def_of_pos (by norm_num)]
    have u : |Real.log 2 * δ| ≤ 120 / 10 ^ 6 := by
      rw [abs_mul, abs_of_pos l20]
      nlinarith [abs_nonneg δ]
    have k := Real.abs_exp_sub_one_sub_id_le (u.trans (by norm_num))
    generalize Real.log 2 * δ = s at *
    have : s ^ 2 ≤ (120 / 10 ^ 6) ^ 2 := by rw [← sq_abs]; exact pow_le_pow_left₀ (abs_nonneg s) u 2
    rw [abs_le] at k u ⊢
    constructor <;> linarith [k.1, k.2, u.1, u.2]
  have xpp : 0 < (x : ℝ) ^ (p : ℝ) := Real.rpow_pos_of_pos xp _
  rw [hT] at n
  clear hT hX
  generalize (x : ℝ) ^ (p : ℝ) = Q at *
  generalize (2 : ℝ) ^ δ = D' at *
  rw [abs_le] at n D ⊢
  have m1 : Q * D' ≤ Q * (1 + 121 / 10 ^ 6) := mul_le_mul_of_nonneg_left (by linarith [D.2]) xpp.le
  have m2 : Q * (1 - 121 / 10 ^ 6) ≤ Q * D' := mul_le_mul_of_nonneg_left (by linarith [D.1]) xpp.le
  constructor <;> linarith [n.1, n.2]

/-- Defined for every float from 0 to 2. -/
theorem fastpow_defined {x p : ℚ} (hx : IsFloat 24 (-149) x) (h0 : 0 ≤ x) (h1 : x ≤ 2) (p0 : 0 ≤ p) (p1 : p ≤ 1) :
    ∃ r : ℚ, fastpow x p = .ok r ∧ 0 < r ∧ r < 3 := by
  rcases lt_or_ge x (2 ^ (-15 : ℤ)) with c | c
  · have l := fastlog2_small hx h0 c
    have t : rnd (p * fastlog2 x) ≤ 0 :=
      round_le 24 (-149) (by norm_num) ⟨0, 0, by norm_num, by norm_num, by simp⟩ (mul_nonpos_of_nonneg_of_nonpos p0 l)
    obtain ⟨r, e, n⟩ := fastpow2_near (p := rnd (p * fastlog2 x)) (by linarith)
    refine ⟨r, e, ?_⟩
    have t' : (max (rnd (p * fastlog2 x)) (-126) : ℝ) ≤ 0 := max_le (by exact_mod_cast t) (by norm_num)
    have g0 : 0 < (2 : ℝ) ^ (max (rnd (p * fastlog2 x)) (-126) : ℝ) := Real.rpow_pos_of_pos (by norm_num) _
    have g1 : (2 : ℝ) ^ (max (rnd (p * fastlog2 x)) (-126) : ℝ) ≤ 1 := Real.rpow_le_one_of_one_le_of_nonpos (by norm_num) t'
    generalize (2 : ℝ) ^ (max (rnd (p * fastlog2 x)) (-126) : ℝ) = g at *
    rw [abs_le] at n
    constructor
    · exact_mod_cast (by linarith [n.1] : (0 : ℝ) < r)
    · exact_mod_cast (by linarith [n.2] : (r : ℝ) < 3)
  · obtain ⟨r, e, n⟩ := fastpow_near hx c h1 p0 p1
    refine ⟨r, e, ?_⟩
    have xp : (0 : ℝ) < x := by exact_mod_cast lt_of_lt_of_le (by norm_num) c
    have pr0 : (0 : ℝ) ≤ p := by exact_mod_cast p0
    have pr1 : (p : ℝ) ≤ 1 := by exact_mod_cast p1
    have g0 : 0 < (x : ℝ) ^ (p : ℝ) := Real.rpow_pos_of_pos xp _
    have g1 : (x : ℝ) ^ (p : ℝ) ≤ 2 := by
      calc (x : ℝ) ^ (p : ℝ) ≤ (2 : ℝ) ^ (p : ℝ) := Real.rpow_le_rpow xp.le (by exact_mod_cast h1) pr0
        _ ≤ (2 : ℝ) ^ (1 : ℝ) := Real.rpow_le_rpow_of_exponent_le (by norm_num) pr1
        _ = 2 := Real.rpow_one 2
    generalize (x : ℝ) ^ (p : ℝ) = g at *
    rw [abs_le] at n
    constructor
    · exact_mod_cast (by linarith [n.1] : (0 : ℝ) < r)
    · exact_mod_cast (by linarith [n.2] : (r : ℝ) < 3)

end Verif.FastPow
