import Mathlib.Tactic.Linarith
import Mathlib.Tactic.Positivity
import Mathlib.Tactic.FieldSimp
import Mathlib.Tactic.Ring
import Verif.Model.Float32
import Verif.Spec.Float32

/-! # Rounding: the basic facts -/

namespace Verif.Float32

theorem roundEven_near (q : ℚ) : |(roundEven q : ℚ) - q| ≤ 1 / 2 := by
  have h1 := Int.self_sub_floor q
  have h2 := Int.fract_nonneg q
  have h3 := Int.fract_lt_one q
  unfold roundEven
  split_ifs with a b c <;> push_cast <;> rw [abs_le] <;> constructor <;> linarith

theorem roundEven_int (n : ℤ) : roundEven (n : ℚ) = n := by
  simp [roundEven]

theorem roundEven_mono {a b : ℚ} (h : a ≤ b) : roundEven a ≤ roundEven b := by
  have hf := Int.floor_le_floor h
  have ha1 := Int.self_sub_floor a
  have hb1 := Int.self_sub_floor b
  have ha2 := Int.fract_nonneg a
  have ha3 := Int.fract_lt_one a
  have hb2 := Int.fract_nonneg b
  have hb3 := Int.fract_lt_one b
  rcases eq_or_lt_of_le hf with e | l
  · have : Int.fract a ≤ Int.fract b := by rw [← ha1, ← hb1, e]; linarith
    unfold roundEven
    rw [e]
    split_ifs <;> first | omega | (exfalso; linarith)
  · have h1 : roundEven a ≤ ⌊a⌋ + 1 := by unfold roundEven; split_ifs <;> omega
    have h2 : ⌊b⌋ ≤ roundEven b := by unfold roundEven; split_ifs <;> omega
    omega

theorem roundEven_neg (q : ℚ) : roundEven (-q) = -roundEven q := by
  by_cases hz : Int.fract q = 0
  · obtain ⟨n, hn⟩ : ∃ n : ℤ, q = n := ⟨⌊q⌋, by rw [← Int.self_sub_floor] at hz; linarith⟩
    subst hn
    rw [← Int.cast_neg, roundEven_int, roundEven_int]
  · have hf := Int.fract_neg hz
    have hfl : ⌊-q⌋ = -⌊q⌋ - 1 := by
      rw [Int.floor_eq_iff]
      have h1 := Int.self_sub_floor q
      have h2 := Int.fract_lt_one q
      have h3 : 0 < Int.fract q := lt_of_le_of_ne (Int.fract_nonneg q) (Ne.symm hz)
      push_cast
      constructor <;> linarith
    unfold roundEven
    rw [hf, hfl]
    split_ifs <;> first | omega | (exfalso; linarith)

variable (p : Nat) (emin : ℤ)

theorem place_neg (x : ℚ) : place p emin (-x) = place p emin x := by simp [place]

theorem round_neg (x : ℚ) : round p emin (-x) = -round p emin x := by
  rw [round, place_neg, neg_div, roundEven_neg, round]
  push_cast; ring

theorem round_zero : round p emin 0 = 0 := by
  have : roundEven 0 = 0 := by simpa using roundEven_int 0
  simp [round, this]

theorem pow_log_le {x : ℚ} (hx : x ≠ 0) : (2 : ℚ) ^ Int.log 2 |x| ≤ |x| := by
  have := Int.zpow_log_le_self (b := 2) (r := |x|) (by norm_num) (abs_pos.mpr hx)
  simpa using this

theorem lt_pow_log (x : ℚ) : |x| < (2 : ℚ) ^ (Int.log 2 |x| + 1) := by
  have := Int.lt_zpow_succ_log_self (b := 2) (by norm_num) |x|
  simpa using this

theorem two_pos_zpow (e : ℤ) : (0 : ℚ) < 2 ^ e := zpow_pos (by norm_num) e

theorem two_zpow_le {a b : ℤ} (h : a ≤ b) : (2 : ℚ) ^ a ≤ 2 ^ b := zpow_le_zpow_right₀ (by norm_num) h

/-- The error of rounding is half a unit in the last place. -/
theorem round_err_place (x : ℚ) : |round p emin x - x| ≤ 2 ^ place p emin x / 2 := by
  obtain ⟨e, he⟩ : ∃ e, place p emin x = e := ⟨_, rfl⟩
  have hpos := two_pos_zpow e
  have h := roundEven_near (x / 2 ^ e)
  rw [round, he]
  have : (roundEven (x / 2 ^ e) : ℚ) * 2 ^ e - x = (roundEven (x / 2 ^ e) - x / 2 ^ e) * 2 ^ e := by
    field_simp
  rw [this, abs_mul, abs_of_pos hpos]
  calc _ ≤ 1 / 2 * (2 : ℚ) ^ e := by gcongr
    _ = _ := by ring

/-- The error is relative, apart from underflow. -/
theorem round_err (x : ℚ) : |round p emin x - x| ≤ |x| * 2 ^ (-(p : ℤ)) + 2 ^ (emin - 1) := by
  have h2 : (2 : ℚ) ≠ 0 := by norm_num
  have hb := two_pos_zpow (emin - 1)
  by_cases hx : x = 0
  · subst hx
    rw [round_zero]
    simp
    exact hb.le
  refine le_trans (round_err_place p emin x) ?_
  unfold place
  have hc := two_pos_zpow (-(p : ℤ))
  rcases max_cases (Int.log 2 |x| - ((p : ℤ) - 1)) emin with ⟨h, _⟩ | ⟨h, _⟩ <;> rw [h]
  · have hl := pow_log_le hx
    have e1 : (2 : ℚ) ^ (Int.log 2 |x| - ((p : ℤ) - 1)) / 2 = 2 ^ Int.log 2 |x| * 2 ^ (-(p : ℤ)) := by
      rw [← zpow_add₀ h2, div_eq_mul_inv, ← zpow_neg_one, ← zpow_add₀ h2]; congr 1; ring
    rw [e1]
    have := mul_le_mul_of_nonneg_right hl hc.le
    linarith
  · rw [zpow_sub_one₀ h2]
    have := mul_nonneg (abs_nonneg x) hc.le
    linarith [show (2 : ℚ) ^ emin / 2 = 2 ^ emin * 2⁻¹ from div_eq_mul_inv _ _]

theorem IsFloat.neg {x : ℚ} (h : IsFloat p emin x) : IsFloat p emin (-x) := by
  obtain ⟨n, e, he, hn, rfl⟩ := h
  exact ⟨-n, e, he, by rwa [abs_neg], by push_cast; ring⟩

/-- A multiple of the unit in the last place bounds the rounded number as well. -/
theorem round_le_mul {x : ℚ} {n : ℤ} (h : x ≤ n * 2 ^ place p emin x) :
    round p emin x ≤ n * 2 ^ place p emin x := by
  obtain ⟨e, he⟩ : ∃ e, place p emin x = e := ⟨_, rfl⟩
  rw [he] at h
  rw [round, he]
  have hpos := two_pos_zpow e
  have : roundEven (x / 2 ^ e) ≤ roundEven (n : ℚ) := roundEven_mono (by rw [div_le_iff₀ hpos]; exact h)
  rw [roundEven_int] at this
  have : (roundEven (x / 2 ^ e) : ℚ) ≤ n := by exact_mod_cast this
  exact mul_le_mul_of_nonneg_right this hpos.le

/-- Rounding does not cross a number of the format. -/
theorem round_le (hp : 1 ≤ p) {x g : ℚ} (hg : IsFloat p emin g) (h : x ≤ g) : round p emin x ≤ g := by
  obtain ⟨n, e, he, hn, rfl⟩ := hg
  have h2 : (2 : ℚ) ≠ 0 := by norm_num
  have split : ∀ d : ℕ, (n : ℚ) * 2 ^ (place p emin x + d) = ((n * 2 ^ d : ℤ) : ℚ) * 2 ^ place p emin x := by
    intro d
    rw [zpow_add₀ h2, zpow_natCast]; push_cast; ring
  by_cases hc : place p emin x ≤ e
  · obtain ⟨d, rfl⟩ := Int.le.dest hc
    rw [split] at h ⊢
    exact round_le_mul p emin h
  · -- the number is at least as large as the bound
    have hpl : place p emin x = Int.log 2 |x| - (p - 1) := by
      unfold place at hc ⊢
      rcases max_cases (Int.log 2 |x| - ((p : ℤ) - 1)) emin with ⟨h', _⟩ | ⟨h', _⟩ <;> rw [h'] at hc ⊢
      omega
    have hx : x ≠ 0 ∨ x = 0 := (em _).symm
    have hn' : |(n : ℚ)| ≤ 2 ^ p := by exact_mod_cast hn
    have hgb : |(n : ℚ) * 2 ^ e| ≤ 2 ^ ((p : ℤ) - 1) * 2 ^ place p emin x := by
      rw [abs_mul, abs_of_pos (two_pos_zpow e)]
      calc |(n : ℚ)| * 2 ^ e ≤ 2 ^ p * 2 ^ e := mul_le_mul_of_nonneg_right hn' (two_pos_zpow e).le
        _ = 2 ^ ((p : ℤ) + e) := by rw [zpow_add₀ h2, zpow_natCast]
        _ ≤ 2 ^ ((p : ℤ) - 1 + place p emin x) := two_zpow_le (by omega)
        _ = _ := by rw [zpow_add₀ h2]
    have hpow : (2 : ℚ) ^ ((p : ℤ) - 1) = ((2 ^ (p - 1) : ℤ) : ℚ) := by
      push_cast
      rw [← zpow_natCast]; congr 1; omega
    rcases hx with hx | hx
    · have hl := pow_log_le hx
      have e1 : (2 : ℚ) ^ ((p : ℤ) - 1) * 2 ^ place p emin x = 2 ^ Int.log 2 |x| := by
        rw [← zpow_add₀ h2, hpl]; congr 1; ring
      rcases lt_or_gt_of_ne hx with hneg | hpos
      · rw [abs_of_neg hneg] at hl
        have h3 : x ≤ ((-2 ^ (p - 1) : ℤ) : ℚ) * 2 ^ place p emin x := by
          rw [Int.cast_neg, ← hpow, neg_mul, e1, abs_of_neg hneg]; linarith
        refine le_trans (round_le_mul p emin h3) ?_
        rw [Int.cast_neg, ← hpow, neg_mul]
        have := (abs_le.mp hgb).1
        linarith
      · have h4 : |x| ≤ |(n : ℚ) * 2 ^ e| := by
          rw [abs_of_pos hpos]; exact le_trans h (le_abs_self _)
        have h5 : x = ((2 ^ (p - 1) : ℤ) : ℚ) * 2 ^ place p emin x := by
          rw [← hpow, e1]
          refine le_antisymm ?_ ?_
          · rw [← e1]; exact le_trans h (le_trans (le_abs_self _) hgb)
          · rw [abs_of_pos hpos] at hl ⊢; exact hl
        exact le_trans (round_le_mul p emin (le_of_eq h5)) (by rw [← h5]; exact h)
    · subst hx; rw [round_zero]; exact h

theorem le_round (hp : 1 ≤ p) {x g : ℚ} (hg : IsFloat p emin g) (h : g ≤ x) : g ≤ round p emin x := by
  have := round_le p emin hp (hg.neg p emin) (neg_le_neg h)
  rw [round_neg] at this
  linarith

theorem round_of_isFloat (hp : 1 ≤ p) {x : ℚ} (h : IsFloat p emin x) : round p emin x = x :=
  le_antisymm (round_le p emin hp h le_rfl) (le_round p emin hp h le_rfl)

theorem isFloat_round (x : ℚ) : IsFloat p emin (round p emin x) := by
  have h2 : (2 : ℚ) ≠ 0 := by norm_num
  refine ⟨_, place p emin x, le_max_right _ _, ?_, rfl⟩
  have hpos := two_pos_zpow (place p emin x)
  have hb : |x / 2 ^ place p emin x| ≤ ((2 ^ p : ℤ) : ℚ) := by
    rw [abs_div, abs_of_pos hpos, div_le_iff₀ hpos]
    refine le_trans (lt_pow_log x).le ?_
    push_cast
    rw [← zpow_natCast, ← zpow_add₀ h2]
    refine two_zpow_le ?_
    have : Int.log 2 |x| - ((p : ℤ) - 1) ≤ place p emin x := le_max_left _ _
    omega
  rw [abs_le] at hb ⊢
  constructor
  · have := roundEven_mono hb.1
    rwa [← Int.cast_neg, roundEven_int] at this
  · have := roundEven_mono hb.2
    rwa [roundEven_int] at this

end Verif.Float32

namespace Verif.Float32

variable (p : Nat) (emin : ℤ)

theorem roundEven_nearest (q : ℚ) (n : ℤ) : |(roundEven q : ℚ) - q| ≤ |(n : ℚ) - q| := by
  rcases eq_or_ne n (roundEven q) with rfl | h
  · exact le_rfl
  · refine le_trans (roundEven_near q) ?_
    by_contra hc
    push_neg at hc
    have h1 := roundEven_near q
    rw [abs_lt] at hc
    rw [abs_le] at h1
    have h2 : (n : ℚ) - roundEven q < 1 := by linarith [hc.2, h1.1]
    have h3 : -1 < (n : ℚ) - roundEven q := by linarith [hc.1, h1.2]
    have h4 : n - roundEven q < 1 := by exact_mod_cast h2
    have h5 : -1 < n - roundEven q := by exact_mod_cast h3
    omega

theorem round_nearest_mul (x : ℚ) (n : ℤ) :
    |round p emin x - x| ≤ |n * 2 ^ place p emin x - x| := by
  obtain ⟨e, he⟩ : ∃ e, place p emin x = e := ⟨_, rfl⟩
  have hpos := two_pos_zpow e
  rw [round, he]
  have h1 : ∀ m : ℤ, (m : ℚ) * 2 ^ e - x = (m - x / 2 ^ e) * 2 ^ e := by intro m; field_simp
  rw [h1, h1, abs_mul, abs_mul, abs_of_pos hpos]
  exact mul_le_mul_of_nonneg_right (roundEven_nearest _ _) hpos.le

/-- Rounding gives the nearest number of the format. -/
theorem round_nearest (hp : 1 ≤ p) (x : ℚ) {g : ℚ} (hg : IsFloat p emin g) :
    |round p emin x - x| ≤ |g - x| := by
  obtain ⟨n, e, he, hn, rfl⟩ := hg
  have h2 : (2 : ℚ) ≠ 0 := by norm_num
  by_cases hx : x = 0
  · subst hx; rw [round_zero, sub_zero, abs_zero]; exact abs_nonneg _
  by_cases hc : place p emin x ≤ e
  · obtain ⟨d, rfl⟩ := Int.le.dest hc
    have : (n : ℚ) * 2 ^ (place p emin x + d) = ((n * 2 ^ d : ℤ) : ℚ) * 2 ^ place p emin x := by
      rw [zpow_add₀ h2, zpow_natCast]; push_cast; ring
    rw [this]
    exact round_nearest_mul p emin x _
  · have hpl : place p emin x = Int.log 2 |x| - (p - 1) := by
      unfold place at hc ⊢
      rcases max_cases (Int.log 2 |x| - ((p : ℤ) - 1)) emin with ⟨h', _⟩ | ⟨h', _⟩ <;> rw [h'] at hc ⊢
      omega
    have hn' : |(n : ℚ)| ≤ 2 ^ p := by exact_mod_cast hn
    have e1 : (2 : ℚ) ^ ((p : ℤ) - 1) * 2 ^ place p emin x = 2 ^ Int.log 2 |x| := by
      rw [← zpow_add₀ h2, hpl]; congr 1; ring
    have hgb : |(n : ℚ) * 2 ^ e| ≤ 2 ^ Int.log 2 |x| := by
      rw [abs_mul, abs_of_pos (two_pos_zpow e)]
      calc |(n : ℚ)| * 2 ^ e ≤ 2 ^ p * 2 ^ e := mul_le_mul_of_nonneg_right hn' (two_pos_zpow e).le
        _ = 2 ^ ((p : ℤ) + e) := by rw [zpow_add₀ h2, zpow_natCast]
        _ ≤ 2 ^ ((p : ℤ) - 1 + place p emin x) := two_zpow_le (by omega)
        _ = _ := by rw [zpow_add₀ h2, e1]
    have hpow : (2 : ℚ) ^ ((p : ℤ) - 1) = ((2 ^ (p - 1) : ℤ) : ℚ) := by
      push_cast
      rw [← zpow_natCast]; congr 1; omega
    have hl := pow_log_le hx
    rw [abs_le] at hgb
    rcases lt_or_gt_of_ne hx with hneg | hpos
    · refine le_trans (round_nearest_mul p emin x (-2 ^ (p - 1))) ?_
      rw [Int.cast_neg, ← hpow, neg_mul, e1]
      rw [abs_of_neg hneg] at hl ⊢
      rw [abs_of_neg hneg] at hgb
      rw [abs_of_nonneg (by linarith), abs_of_nonneg (by linarith)]
      linarith
    · refine le_trans (round_nearest_mul p emin x (2 ^ (p - 1))) ?_
      rw [← hpow, e1]
      rw [abs_of_pos hpos] at hl hgb ⊢
      rw [abs_of_nonpos (by linarith), abs_of_nonpos (by linarith)]
      linarith

/-- Rounding is monotone. -/
theorem round_mono (hp : 1 ≤ p) {x y : ℚ} (h : x ≤ y) : round p emin x ≤ round p emin y := by
  by_contra hc
  push_neg at hc
  have h1 := isFloat_round p emin x
  have h2 := isFloat_round p emin y
  have h3 : round p emin y < x := by
    by_contra h'; push_neg at h'
    exact absurd (round_le p emin hp h2 h') (not_le.mpr hc)
  have h4 : y < round p emin x := by
    by_contra h'; push_neg at h'
    exact absurd (le_round p emin hp h1 h') (not_le.mpr hc)
  have h5 := round_nearest p emin hp x h2
  have h6 := round_nearest p emin hp y h1
  rw [abs_of_pos (by linarith), abs_of_neg (by linarith)] at h5
  rw [abs_of_neg (by linarith), abs_of_pos (by linarith)] at h6
  have : x = y := by linarith
  subst this
  exact lt_irrefl _ hc

/-- The error is relative for numbers that are not too small. -/
theorem round_err_rel {x : ℚ} (h : (2 : ℚ) ^ (emin + p - 1) ≤ |x|) :
    |round p emin x - x| ≤ |x| * 2 ^ (-(p : ℤ)) := by
  have h2 : (2 : ℚ) ≠ 0 := by norm_num
  have hx : x ≠ 0 := by
    rintro rfl
    rw [abs_zero] at h
    exact absurd (two_pos_zpow _) (not_lt.mpr h)
  refine le_trans (round_err_place p emin x) ?_
  have hlog : emin + p - 1 < Int.log 2 |x| + 1 := by
    have := lt_of_le_of_lt h (lt_pow_log x)
    exact (zpow_lt_zpow_iff_right₀ (by norm_num : (1 : ℚ) < 2)).mp this
  have hpl : place p emin x = Int.log 2 |x| - (p - 1) := by
    unfold place; exact max_eq_left (by omega)
  have e1 : (2 : ℚ) ^ (Int.log 2 |x| - ((p : ℤ) - 1)) / 2 = 2 ^ Int.log 2 |x| * 2 ^ (-(p : ℤ)) := by
    rw [← zpow_add₀ h2, div_eq_mul_inv, ← zpow_neg_one, ← zpow_add₀ h2]; congr 1; ring
  rw [hpl, e1]
  exact mul_le_mul_of_nonneg_right (pow_log_le hx) (two_pos_zpow _).le

/-- Differences of numbers of the format do not underflow. -/
theorem round_sub_err (hp : 1 ≤ p) {x y : ℚ} (hx : IsFloat p emin x) (hy : IsFloat p emin y) :
    |round p emin (x - y) - (x - y)| ≤ |x - y| * 2 ^ (-(p : ℤ)) := by
  have h2 : (2 : ℚ) ≠ 0 := by norm_num
  by_cases h : (2 : ℚ) ^ (emin + p - 1) ≤ |x - y|
  · exact round_err_rel p emin h
  · have hmul : ∀ z, IsFloat p emin z → ∃ n : ℤ, z = n * 2 ^ emin := by
      rintro z ⟨n, e, he, _, rfl⟩
      obtain ⟨d, rfl⟩ := Int.le.dest he
      exact ⟨n * 2 ^ d, by rw [zpow_add₀ h2, zpow_natCast]; push_cast; ring⟩
    obtain ⟨n, hn⟩ := hmul x hx
    obtain ⟨m, hm⟩ := hmul y hy
    have hf : IsFloat p emin (x - y) := by
      refine ⟨n - m, emin, le_rfl, ?_, by rw [hn, hm]; push_cast; ring⟩
      push_neg at h
      rw [hn, hm, ← sub_mul, abs_mul, abs_of_pos (two_pos_zpow emin),
        show emin + (p : ℤ) - 1 = (p - 1) + emin by ring, zpow_add₀ h2] at h
      have h3 := lt_of_mul_lt_mul_right h (two_pos_zpow emin).le
      have h4 : |((n - m : ℤ) : ℚ)| ≤ ((2 ^ p : ℤ) : ℚ) := by
        push_cast
        refine le_trans h3.le ?_
        rw [← zpow_natCast]; exact two_zpow_le (by omega)
      exact_mod_cast h4
    rw [round_of_isFloat p emin hp hf, sub_self, abs_zero]
    exact mul_nonneg (abs_nonneg _) (two_pos_zpow _).le

end Verif.Float32
