import Verif.Lemmas.FloatStroke
import Verif.Model.FloatColor
import Verif.Lemmas.Colors
import Verif.Props.C33_Colors
import Verif.Props.C90_FloatAngles
import Mathlib.Algebra.Order.Group.MinMax
import Mathlib.Tactic.Linarith
import Mathlib.Tactic.FieldSimp

/-!
# HSV as a continuous function, and its rounding errors
-/

namespace Verif.FloatColor
open Float32 FloatStroke Color Mask Spectral

/-! ### What each channel loses, as a function of six times the hue -/

def dipR (x : ℚ) : ℚ := max 0 (min 1 (min (x - 1) (5 - x)))
def dipG (x : ℚ) : ℚ := 1 - max 0 (min 1 (min x (4 - x)))
def dipB (x : ℚ) : ℚ := 1 - max 0 (min 1 (min (x - 2) (6 - x)))

theorem max_lip (a x y : ℚ) : |max a x - max a y| ≤ |x - y| := by
  have h := abs_max_sub_max_le_max a x a y
  have e : a - a = 0 := sub_self a
  rw [e, abs_zero] at h
  exact h.trans (max_le (abs_nonneg _) le_rfl)

theorem min_lip (a x y : ℚ) : |min a x - min a y| ≤ |x - y| := by
  have h := abs_min_sub_min_le_max a x a y
  have e : a - a = 0 := sub_self a
  rw [e, abs_zero] at h
  exact h.trans (max_le (abs_nonneg _) le_rfl)

theorem hat_lip (p q x y : ℚ) : |max 0 (min 1 (min (x - p) (q - x))) - max 0 (min 1 (min (y - p) (q - y)))| ≤ |x - y| := by
  have h3 : |min (x - p) (q - x) - min (y - p) (q - y)| ≤ |x - y| := by
    refine (abs_min_sub_min_le_max (x - p) (q - x) (y - p) (q - y)).trans (max_le (le_of_eq ?_) (le_of_eq ?_))
    · exact congrArg abs (by ring)
    · rw [← abs_neg]; exact congrArg abs (by ring)
  exact (max_lip _ _ _).trans ((min_lip _ _ _).trans h3)

theorem dipR_lip (x y : ℚ) : |dipR x - dipR y| ≤ |x - y| := hat_lip 1 5 x y

theorem dipG_lip (x y : ℚ) : |dipG x - dipG y| ≤ |x - y| := by
  have h := hat_lip 0 4 x y
  rw [sub_zero, sub_zero] at h
  unfold dipG
  rw [show ∀ a b : ℚ, 1 - a - (1 - b) = -(a - b) by intros; ring, abs_neg]
  exact h

theorem dipB_lip (x y : ℚ) : |dipB x - dipB y| ≤ |x - y| := by
  have h := hat_lip 2 6 x y
  unfold dipB
  rw [show ∀ a b : ℚ, 1 - a - (1 - b) = -(a - b) by intros; ring, abs_neg]
  exact h

section
variable {x : ℚ}

theorem dipR0 (h : x ≤ 1) : dipR x = 0 := by
  unfold dipR; exact max_eq_left ((min_le_right _ _).trans ((min_le_left _ _).trans (by linarith)))
theorem dipR1 (h : 1 ≤ x) (h' : x ≤ 2) : dipR x = x - 1 := by
  unfold dipR; rw [min_eq_left (by linarith : x - 1 ≤ 5 - x), min_eq_right (by linarith), max_eq_right (by linarith)]
theorem dipR2 (h : 2 ≤ x) (h' : x ≤ 4) : dipR x = 1 := by
  unfold dipR; rw [min_eq_left (le_min (by linarith) (by linarith)), max_eq_right (by norm_num)]
theorem dipR4 (h : 4 ≤ x) (h' : x ≤ 5) : dipR x = 5 - x := by
  unfold dipR; rw [min_eq_right (by linarith : 5 - x ≤ x - 1), min_eq_right (by linarith), max_eq_right (by linarith)]
theorem dipR5 (h : 5 ≤ x) : dipR x = 0 := by
  unfold dipR; exact max_eq_left ((min_le_right _ _).trans ((min_le_right _ _).trans (by linarith)))
theorem dipG0 (h : 0 ≤ x) (h' : x ≤ 1) : dipG x = 1 - x := by
  unfold dipG; rw [min_eq_left (by linarith : x ≤ 4 - x), min_eq_right (by linarith), max_eq_right (by linarith)]
theorem dipG1 (h : 1 ≤ x) (h' : x ≤ 3) : dipG x = 0 := by
  unfold dipG; rw [min_eq_left (le_min (by linarith) (by linarith)), max_eq_right (by norm_num), sub_self]
theorem dipG3 (h : 3 ≤ x) (h' : x ≤ 4) : dipG x = x - 3 := by
  unfold dipG; rw [min_eq_right (by linarith : 4 - x ≤ x), min_eq_right (by linarith), max_eq_right (by linarith)]; ring
theorem dipG4 (h : 4 ≤ x) : dipG x = 1 := by
  unfold dipG; rw [max_eq_left ((min_le_right _ _).trans ((min_le_right _ _).trans (by linarith))), sub_zero]
theorem dipB0 (h : x ≤ 2) : dipB x = 1 := by
  unfold dipB; rw [max_eq_left ((min_le_right _ _).trans ((min_le_left _ _).trans (by linarith))), sub_zero]
theorem dipB2 (h : 2 ≤ x) (h' : x ≤ 3) : dipB x = 3 - x := by
  unfold dipB; rw [min_eq_left (by linarith : x - 2 ≤ 6 - x), min_eq_right (by linarith), max_eq_right (by linarith)]; ring
theorem dipB3 (h : 3 ≤ x) (h' : x ≤ 5) : dipB x = 0 := by
  unfold dipB; rw [min_eq_left (le_min (by linarith) (by linarith)), max_eq_right (by norm_num), sub_self]
theorem dipB5 (h : 5 ≤ x) (h' : x ≤ 6) : dipB x = x - 5 := by
  unfold dipB; rw [min_eq_right (by linarith : 6 - x ≤ x - 2), min_eq_right (by linarith), max_eq_right (by linarith)]; ring

end

theorem dip_turn : dipR 6 = dipR 0 ∧ dipG 6 = dipG 0 ∧ dipB 6 = dipB 0 := by
  refine ⟨?_, ?_, ?_⟩ <;> decide +kernel

theorem dipR_mem (x : ℚ) : 0 ≤ dipR x ∧ dipR x ≤ 1 := by
  unfold dipR; exact ⟨le_max_left _ _, max_le (by norm_num) (min_le_left _ _)⟩
theorem dipG_mem (x : ℚ) : 0 ≤ dipG x ∧ dipG x ≤ 1 := by
  unfold dipG
  have h1 : 0 ≤ max 0 (min 1 (min x (4 - x))) := le_max_left _ _
  have h2 : max 0 (min 1 (min x (4 - x))) ≤ 1 := max_le (by norm_num) (min_le_left _ _)
  constructor <;> linarith
theorem dipB_mem (x : ℚ) : 0 ≤ dipB x ∧ dipB x ≤ 1 := by
  unfold dipB
  have h1 : 0 ≤ max 0 (min 1 (min (x - 2) (6 - x))) := le_max_left _ _
  have h2 : max 0 (min 1 (min (x - 2) (6 - x))) ≤ 1 := max_le (by norm_num) (min_le_left _ _)
  constructor <;> linarith

/-- The colour with the hue, saturation and value, up to rounding errors of size `E`. -/
structure Nearly (E h s v : ℚ) (c : Rgb ℚ) : Prop where
  r : |c.r - v * (1 - s * dipR (6 * h))| ≤ E
  g : |c.g - v * (1 - s * dipG (6 * h))| ≤ E
  b : |c.b - v * (1 - s * dipB (6 * h))| ≤ E

/-! ### From HSV to RGB -/

/-- One channel. -/
theorem channel_err {v s g g' : ℚ} (v0 : 0 ≤ v) (v1 : v ≤ 1) (s0 : 0 ≤ s) (s1 : s ≤ 1) (g0 : 0 ≤ g) (g1 : g ≤ 1)
    (hg : |g' - g| ≤ 1 / 10 ^ 15) : |rnd (rnd64 (v * rnd64 (1 - rnd64 (s * g')))) - v * (1 - s * g)| ≤ 7 / 10 ^ 8 := by
  have sg0 : 0 ≤ s * g := mul_nonneg s0 g0
  have sg1 : s * g ≤ 1 := mul_le_one₀ s1 g0 g1
  have a1 : |s * g' - s * g| ≤ 1 / 10 ^ 15 := by
    rw [← mul_sub, abs_mul, abs_of_nonneg s0]
    calc s * |g' - g| ≤ 1 * |g' - g| := mul_le_mul_of_nonneg_right s1 (abs_nonneg _)
      _ ≤ _ := by linarith
  have e1 := rnd64_err (s * g')
  have b1 : |s * g'| ≤ 2 := by
    have := abs_sub_abs_le_abs_sub (s * g') (s * g)
    rw [abs_of_nonneg sg0] at this
    have : (1 : ℚ) / 10 ^ 15 ≤ 1 := by norm_num
    linarith
  generalize rnd64 (s * g') = p at *
  have a2 : |p - s * g| ≤ 2 / 10 ^ 15 := by
    have := abs_sub_le p (s * g') (s * g)
    have : |s * g'| / 2 ^ 53 ≤ 2 / 2 ^ 53 := div_le_div_of_nonneg_right b1 (by norm_num)
    have : (2 : ℚ) / 2 ^ 53 + 1 / 10 ^ 40 ≤ 1 / 10 ^ 15 := by norm_num
    linarith
  have a3 : |(1 - p) - (1 - s * g)| ≤ 2 / 10 ^ 15 := by
    rw [show (1 - p) - (1 - s * g) = -(p - s * g) by ring, abs_neg]; exact a2
  have e2 := rnd64_err (1 - p)
  have b2 : |1 - p| ≤ 2 := by
    have := abs_sub_abs_le_abs_sub (1 - p) (1 - s * g)
    rw [abs_of_nonneg (by linarith : 0 ≤ 1 - s * g)] at this
    have : (2 : ℚ) / 10 ^ 15 ≤ 1 := by norm_num
    linarith
  generalize rnd64 (1 - p) = y at *
  have a4 : |y - (1 - s * g)| ≤ 3 / 10 ^ 15 := by
    have := abs_sub_le y (1 - p) (1 - s * g)
    have : |1 - p| / 2 ^ 53 ≤ 2 / 2 ^ 53 := div_le_div_of_nonneg_right b2 (by norm_num)
    have : (2 : ℚ) / 2 ^ 53 + 1 / 10 ^ 40 ≤ 1 / 10 ^ 15 := by norm_num
    linarith
  have z0 : 0 ≤ v * (1 - s * g) := mul_nonneg v0 (by linarith)
  have z1 : v * (1 - s * g) ≤ 1 := mul_le_one₀ v1 (by linarith) (by linarith)
  have a5 : |v * y - v * (1 - s * g)| ≤ 3 / 10 ^ 15 := by
    rw [← mul_sub, abs_mul, abs_of_nonneg v0]
    calc v * |y - (1 - s * g)| ≤ 1 * |y - (1 - s * g)| := mul_le_mul_of_nonneg_right v1 (abs_nonneg _)
      _ ≤ _ := by linarith
  generalize v * (1 - s * g) = Z at *
  have e3 := rnd64_err (v * y)
  have b3 : |v * y| ≤ 1 + 3 / 10 ^ 15 := by
    have := abs_sub_abs_le_abs_sub (v * y) Z
    rw [abs_of_nonneg z0] at this
    linarith
  generalize v * y = q at *
  have e4 := rnd_err (rnd64 q)
  generalize rnd64 q = w at *
  have a6 : |w - Z| ≤ 4 / 10 ^ 15 := by
    have := abs_sub_le w q Z
    have : |q| / 2 ^ 53 ≤ (1 + 3 / 10 ^ 15) / 2 ^ 53 := div_le_div_of_nonneg_right b3 (by norm_num)
    have : (1 + 3 / 10 ^ 15 : ℚ) / 2 ^ 53 + 1 / 10 ^ 40 ≤ 1 / 10 ^ 15 := by norm_num
    linarith
  have b4 : |w| ≤ 1 + 4 / 10 ^ 15 := by
    have := abs_sub_abs_le_abs_sub w Z
    rw [abs_of_nonneg z0] at this
    linarith
  have := abs_sub_le (rnd w) w Z
  have : |w| / 16777216 ≤ (1 + 4 / 10 ^ 15) / 16777216 := div_le_div_of_nonneg_right b4 (by norm_num)
  have : (1 + 4 / 10 ^ 15 : ℚ) / 16777216 + 1 / 10 ^ 40 + 4 / 10 ^ 15 ≤ 7 / 10 ^ 8 := by norm_num
  linarith

theorem rnd64_of_float {x : ℚ} (h : F32 x) : rnd64 x = x :=
  round_of_isFloat 53 (-1074) (by norm_num) (FloatAngle.double_of_float h)

/-- Six times a hue, and its fractional part, are exact. -/
theorem sextant_exact {h : ℚ} (hf : F32 h) (h0 : 0 ≤ h) (h1 : h < 1) :
    rnd64 (h * 6) = h * 6 ∧ rnd64 (h * 6 - ⌊h * 6⌋) = h * 6 - ⌊h * 6⌋ := by
  have fl0 : 0 ≤ ⌊h * 6⌋ := Int.floor_nonneg.mpr (by linarith)
  have fle : ((⌊h * 6⌋ : ℤ) : ℚ) ≤ h * 6 := Int.floor_le _
  have flt := Int.lt_floor_add_one (h * 6)
  generalize ⌊h * 6⌋ = i at *
  obtain ⟨n, e, he, hn, rfl⟩ := hf
  have pe : (0 : ℚ) < 2 ^ e := zpow_pos (by norm_num) e
  have n0 : (0 : ℚ) ≤ n := by
    by_contra hc
    have := mul_neg_of_neg_of_pos (not_le.mp hc) pe
    linarith
  have n0' : 0 ≤ n := by exact_mod_cast n0
  rw [abs_of_nonneg n0'] at hn
  have fl0' : (0 : ℚ) ≤ i := by exact_mod_cast fl0
  constructor
  · refine round_of_isFloat 53 (-1074) (by norm_num) ⟨n * 6, e, by omega, ?_, by push_cast; ring⟩
    rw [abs_of_nonneg (by omega)]
    norm_num at hn ⊢
    omega
  · rcases le_or_gt 0 e with e0 | e0
    · have hn0 : n = 0 := by
        by_contra hc
        have : (1 : ℚ) ≤ n := by exact_mod_cast (by omega : 1 ≤ n)
        have h2 : (1 : ℚ) ≤ 2 ^ e := one_le_zpow₀ (by norm_num) e0
        have := mul_le_mul this h2 (by norm_num) n0
        linarith
      subst hn0
      have : (i : ℚ) = 0 := by
        have : (i : ℚ) ≤ 0 := by simpa using fle
        linarith
      rw [this]
      simp only [Int.cast_zero, zero_mul, sub_zero]
      exact rnd64_of_float float_zero
    · obtain ⟨k, hk⟩ := Int.eq_ofNat_of_zero_le (by omega : 0 ≤ -e)
      have ek : e = -(k : ℤ) := by omega
      have e1 : (2 : ℚ) ^ e * 2 ^ k = 1 := by
        rw [ek, ← zpow_natCast, ← zpow_add₀ (by norm_num)]; simp
      have key : ((n * 6 - i * 2 ^ k : ℤ) : ℚ) * 2 ^ e = (n : ℚ) * 2 ^ e * 6 - i := by
        push_cast
        calc ((n : ℚ) * 6 - i * 2 ^ k) * 2 ^ e = n * 2 ^ e * 6 - i * (2 ^ e * 2 ^ k) := by ring
          _ = _ := by rw [e1, mul_one]
      refine round_of_isFloat 53 (-1074) (by norm_num) ⟨n * 6 - i * 2 ^ k, e, by omega, ?_, key.symm⟩
      have lo : 0 ≤ n * 6 - i * 2 ^ k := by
        have : (0 : ℚ) ≤ ((n * 6 - i * 2 ^ k : ℤ) : ℚ) := by
          by_contra hc
          have := mul_neg_of_neg_of_pos (not_le.mp hc) pe
          linarith
        exact_mod_cast this
      rw [abs_of_nonneg lo]
      have : 0 ≤ i * 2 ^ k := mul_nonneg fl0 (by positivity)
      norm_num at hn ⊢
      omega

/-- The six sectors. -/
theorem pick_near {E h s v W Q T : ℚ} {i : ℤ} (i0 : 0 ≤ i) (i5 : i < 6) (fle : (i : ℚ) ≤ 6 * h) (flt : 6 * h < i + 1)
    (hV : |v - v * (1 - s * 0)| ≤ E) (hW : |W - v * (1 - s * 1)| ≤ E) (hQ : |Q - v * (1 - s * (6 * h - i))| ≤ E)
    (hT : |T - v * (1 - s * (1 - (6 * h - i)))| ≤ E) :
    Nearly E h s v (if i = 0 then ⟨v, T, W⟩ else if i = 1 then ⟨Q, v, W⟩ else if i = 2 then ⟨W, v, T⟩
      else if i = 3 then ⟨W, Q, v⟩ else if i = 4 then ⟨T, W, v⟩ else if i = 5 then ⟨v, W, Q⟩ else ⟨0, 0, 0⟩) := by
  have hi : i = 0 ∨ i = 1 ∨ i = 2 ∨ i = 3 ∨ i = 4 ∨ i = 5 := by omega
  rcases hi with rfl | rfl | rfl | rfl | rfl | rfl
  · rw [Int.cast_zero] at *
    rw [if_pos rfl]
    refine ⟨?_, ?_, ?_⟩ <;> dsimp only
    · rw [dipR0 (by linarith)]; exact hV
    · rw [dipG0 (by linarith) (by linarith)]; rwa [sub_zero] at hT
    · rw [dipB0 (by linarith)]; exact hW
  · rw [Int.cast_one] at *
    rw [if_neg (by decide), if_pos rfl]
    refine ⟨?_, ?_, ?_⟩ <;> dsimp only
    · rw [dipR1 (by linarith) (by linarith)]; exact hQ
    · rw [dipG1 (by linarith) (by linarith)]; exact hV
    · rw [dipB0 (by linarith)]; exact hW
  · rw [Int.cast_ofNat] at *
    rw [if_neg (by decide), if_neg (by decide), if_pos rfl]
    refine ⟨?_, ?_, ?_⟩ <;> dsimp only
    · rw [dipR2 (by linarith) (by linarith)]; exact hW
    · rw [dipG1 (by linarith) (by linarith)]; exact hV
    · rw [dipB2 (by linarith) (by linarith), show 3 - 6 * h = 1 - (6 * h - 2) by ring]; exact hT
  · rw [Int.cast_ofNat] at *
    rw [if_neg (by decide), if_neg (by decide), if_neg (by decide), if_pos rfl]
    refine ⟨?_, ?_, ?_⟩ <;> dsimp only
    · rw [dipR2 (by linarith) (by linarith)]; exact hW
    · rw [dipG3 (by linarith) (by linarith)]; exact hQ
    · rw [dipB3 (by linarith) (by linarith)]; exact hV
  · rw [Int.cast_ofNat] at *
    rw [if_neg (by decide), if_neg (by decide), if_neg (by decide), if_neg (by decide), if_pos rfl]
    refine ⟨?_, ?_, ?_⟩ <;> dsimp only
    · rw [dipR4 (by linarith) (by linarith), show 5 - 6 * h = 1 - (6 * h - 4) by ring]; exact hT
    · rw [dipG4 (by linarith)]; exact hW
    · rw [dipB3 (by linarith) (by linarith)]; exact hV
  · rw [Int.cast_ofNat] at *
    rw [if_neg (by decide), if_neg (by decide), if_neg (by decide), if_neg (by decide), if_neg (by decide), if_pos rfl]
    refine ⟨?_, ?_, ?_⟩ <;> dsimp only
    · rw [dipR5 (by linarith)]; exact hV
    · rw [dipG4 (by linarith)]; exact hW
    · rw [dipB5 (by linarith) (by linarith)]; exact hQ

theorem sector_near {h s v : ℚ} (hf : F32 h) (sf : F32 s) (h0 : 0 ≤ h) (h1 : h < 1) (s0 : 0 < s) (s1 : s ≤ 1)
    (v0 : 0 ≤ v) (v1 : v ≤ 1) : Nearly (7 / 10 ^ 8) h s v (
      let hue := rnd64 (h * 6)
      let i := ⌊hue⌋
      let f := rnd64 (hue - i)
      let w := rnd64 (v * rnd64 (1 - s))
      let q := rnd64 (v * rnd64 (1 - rnd64 (s * f)))
      let t := rnd64 (v * rnd64 (1 - rnd64 (s * rnd64 (1 - f))))
      if i = 0 then ⟨v, rnd t, rnd w⟩
      else if i = 1 then ⟨rnd q, v, rnd w⟩
      else if i = 2 then ⟨rnd w, v, rnd t⟩
      else if i = 3 then ⟨rnd w, rnd q, v⟩
      else if i = 4 then ⟨rnd t, rnd w, v⟩
      else if i = 5 then ⟨v, rnd w, rnd q⟩
      else ⟨0, 0, 0⟩) := by
  have hV : |v - v * (1 - s * 0)| ≤ 7 / 10 ^ 8 := by rw [mul_zero, sub_zero, mul_one, sub_self, abs_zero]; norm_num
  have hW : |rnd (rnd64 (v * rnd64 (1 - s))) - v * (1 - s * 1)| ≤ 7 / 10 ^ 8 := by
    have := channel_err v0 v1 s0.le s1 (g := 1) (g' := 1) (by norm_num) le_rfl (by rw [sub_self, abs_zero]; norm_num)
    rwa [show rnd64 (s * 1) = s by rw [mul_one]; exact rnd64_of_float sf] at this
  obtain ⟨e1, e2⟩ := sextant_exact hf h0 h1
  dsimp only
  rw [e1, e2]
  have fl0 : 0 ≤ ⌊h * 6⌋ := Int.floor_nonneg.mpr (by linarith)
  have fle : ((⌊h * 6⌋ : ℤ) : ℚ) ≤ h * 6 := Int.floor_le _
  have flt := Int.lt_floor_add_one (h * 6)
  have fl5 : ⌊h * 6⌋ < 6 := Int.floor_lt.mpr (by push_cast; linarith)
  generalize ⌊h * 6⌋ = i at *
  have hQ := channel_err v0 v1 s0.le s1 (g := h * 6 - i) (g' := h * 6 - i) (by linarith) (by linarith)
    (by rw [sub_self, abs_zero]; norm_num)
  have hT := channel_err v0 v1 s0.le s1 (g := 1 - (h * 6 - i)) (g' := rnd64 (1 - (h * 6 - i))) (by linarith) (by linarith)
    (by
      have := rnd64_err (1 - (h * 6 - i))
      rw [abs_of_nonneg (by linarith : 0 ≤ 1 - (h * 6 - i))] at this
      have h2 : (1 - (h * 6 - i)) / 2 ^ 53 ≤ 1 / 2 ^ 53 := div_le_div_of_nonneg_right (by linarith) (by norm_num)
      have : (1 : ℚ) / 2 ^ 53 + 1 / 10 ^ 40 ≤ 1 / 10 ^ 15 := by norm_num
      linarith)
  rw [mul_comm h 6] at hQ hT fle flt ⊢
  exact pick_near fl0 fl5 fle flt hV hW hQ hT

/-- HSV to RGB in single precision, within a rounding error of the exact colour. -/
theorem hsvToRgb_near {h s v : ℚ} (hf : F32 h) (sf : F32 s) (h0 : 0 ≤ h) (h1 : h ≤ 1) (s0 : 0 < s) (s1 : s ≤ 1)
    (v0 : 0 ≤ v) (v1 : v ≤ 1) : Nearly (7 / 10 ^ 8) h s v (hsvToRgb ⟨h, s, v⟩) := by
  unfold hsvToRgb
  dsimp only
  rw [clampK_id s0.le s1, clampK_id v0 v1, if_neg s0.ne']
  rcases h1.lt_or_eq with hlt | rfl
  · have hfl : ⌊h⌋ = 0 := Int.floor_eq_zero_iff.mpr ⟨h0, hlt⟩
    rw [hfl, Int.cast_zero, sub_zero, rnd64_of_float hf, rnd_of_float hf, if_neg hlt.ne]
    exact sector_near hf sf h0 hlt s0 s1 v0 v1
  · have hfl : ⌊(1 : ℚ)⌋ = 1 := Int.floor_one
    rw [hfl, Int.cast_one, sub_self, rnd64_of_float float_zero, rnd_zero, if_neg (show ¬ (0 : ℚ) = 1 by norm_num)]
    have := sector_near float_zero sf le_rfl (by norm_num) s0 s1 v0 v1
    dsimp only at this
    obtain ⟨t1, t2, t3⟩ := dip_turn
    refine ⟨?_, ?_, ?_⟩
    · rw [mul_one, t1]; have := this.r; rwa [mul_zero] at this
    · rw [mul_one, t2]; have := this.g; rwa [mul_zero] at this
    · rw [mul_one, t3]; have := this.b; rwa [mul_zero] at this

/-! ### From RGB to HSV -/

/-- A quotient of rounded differences, where the numerator is not larger than the denominator. -/
theorem ratio_err {x y M m : ℚ} (hx : F32 x) (hy : F32 y) (hM : F32 M) (hm : F32 m) (hd : m < M) (hle : |x - y| ≤ M - m) :
    |rnd (rnd (x - y) / rnd (M - m)) - (x - y) / (M - m)| ≤ 19 / 10 ^ 8 ∧ 0 < rnd (M - m) ∧
      |rnd (x - y)| ≤ rnd (M - m) := by
  have d0 : 0 < M - m := by linarith
  have ea := rnd_sub_err hx hy
  have ed := rnd_sub_err hM hm
  rw [abs_of_pos d0] at ed
  have d1 : (M - m) * (1 - 1 / 16777216) ≤ rnd (M - m) := by
    have := (abs_le.mp ed).1
    linarith
  have d2 : rnd (M - m) ≤ (M - m) * (1 + 1 / 16777216) := by
    have := (abs_le.mp ed).2
    linarith
  have dp : 0 < rnd (M - m) := lt_of_lt_of_le (mul_pos d0 (by norm_num)) d1
  have fd := rnd_float (M - m)
  have mono : |rnd (x - y)| ≤ rnd (M - m) := by
    rw [abs_le] at hle ⊢
    constructor
    · have h1 := round_mono 24 (-149) (by norm_num) (by linarith : -(M - m) ≤ x - y)
      have h2 := rnd_neg (M - m)
      unfold rnd at *
      linarith
    · exact round_mono 24 (-149) (by norm_num) (by linarith : x - y ≤ M - m)
  refine ⟨?_, dp, mono⟩
  generalize rnd (x - y) = a at *
  generalize rnd (M - m) = D at *
  generalize x - y = z at *
  generalize M - m = d at *
  have q1 : |a / D| ≤ 1 := by rw [abs_div, abs_of_pos dp, div_le_one dp]; exact mono
  have e1 := rnd_err (a / D)
  have e2 : |a / D - z / d| ≤ 125 / 10 ^ 9 := by
    have : a / D - z / d = ((a - z) - z / d * (D - d)) / D := by
      have := d0.ne'; have := dp.ne'
      field_simp
      ring
    rw [this, abs_div, abs_of_pos dp, div_le_iff₀ dp]
    have z1 : |z / d| ≤ 1 := by rw [abs_div, abs_of_pos d0, div_le_one d0]; exact hle
    have t1 : |a - z - z / d * (D - d)| ≤ |a - z| + |z / d * (D - d)| := abs_sub _ _
    have t2 : |z / d * (D - d)| ≤ |D - d| := by
      rw [abs_mul]
      calc |z / d| * |D - d| ≤ 1 * |D - d| := mul_le_mul_of_nonneg_right z1 (abs_nonneg _)
        _ = _ := one_mul _
    have t3 : |a - z| ≤ d / 16777216 := ea.trans (div_le_div_of_nonneg_right hle (by norm_num))
    linarith
  have := abs_sub_le (rnd (a / D)) (a / D) (z / d)
  have h3 : |a / D| / 16777216 ≤ 1 / 16777216 := div_le_div_of_nonneg_right q1 (by norm_num)
  have : (1 : ℚ) / 16777216 + 1 / 10 ^ 40 + 125 / 10 ^ 9 ≤ 19 / 10 ^ 8 := by norm_num
  linarith

theorem float_neg_le {a : ℚ} (ha : F32 a) (h : a < 0) : a ≤ -2 ^ (-149 : ℤ) := by
  obtain ⟨n, e, he, hn, rfl⟩ := ha
  have pe : (0 : ℚ) < 2 ^ e := zpow_pos (by norm_num) e
  have n0 : n < 0 := by
    by_contra hc
    have : (0 : ℚ) ≤ n := by exact_mod_cast (not_lt.mp hc)
    have := mul_nonneg this pe.le
    linarith
  have n1 : (n : ℚ) ≤ -1 := by exact_mod_cast (by omega : n ≤ -1)
  have h1 : (n : ℚ) * 2 ^ e ≤ -1 * 2 ^ e := mul_le_mul_of_nonneg_right n1 pe.le
  have h2 : (2 : ℚ) ^ (-149 : ℤ) ≤ 2 ^ e := zpow_le_zpow_right₀ (by norm_num) he
  linarith

/-- The sign of the quotient is that of the difference. -/
theorem ratio_sign {x y D : ℚ} (hx : F32 x) (hy : F32 y) (d0 : 0 < D) (d1 : D ≤ 1) :
    rnd (rnd (x - y) / D) < 0 ↔ x - y < 0 := by
  constructor
  · intro h
    by_contra hc
    have := rnd_nonneg (div_nonneg (rnd_nonneg (not_lt.mp hc)) d0.le)
    linarith
  · intro h
    have e := rnd_sub_err hx hy
    rw [abs_of_neg h] at e
    have a0 : rnd (x - y) < 0 := by have := (abs_le.mp e).2; linarith
    have a1 := float_neg_le (rnd_float _) a0
    have a2 : rnd (x - y) / D ≤ rnd (x - y) := by
      rw [div_le_iff₀ d0]
      nlinarith
    have f := float_pow (e := -149) le_rfl
    have f' : F32 (-2 ^ (-149 : ℤ)) := ⟨-1, -149, le_rfl, by norm_num, by simp⟩
    have a3 := rnd_le f' (a2.trans a1)
    have : (0 : ℚ) < 2 ^ (-149 : ℤ) := zpow_pos (by norm_num) _
    linarith

/-- Adding two, four or six. -/
theorem turn_err {n : ℤ} {h Y : ℚ} (hn : |n| ≤ 6) (hh : |h - Y| ≤ 19 / 10 ^ 8) (lo : 0 ≤ n + h) (hi : n + h ≤ 6) :
    |rnd (rnd64 (n + h)) - (n + Y)| ≤ 56 / 10 ^ 8 ∧ 0 ≤ rnd (rnd64 (n + h)) ∧ rnd (rnd64 (n + h)) ≤ 6 := by
  have f6 : F32 6 := by simpa using float_int 6 (by norm_num)
  have l1 : 0 ≤ rnd64 (n + h) := le_round 53 (-1074) (by norm_num) (FloatAngle.double_of_float float_zero) lo
  have l2 : rnd64 (n + h) ≤ 6 := round_le 53 (-1074) (by norm_num) (FloatAngle.double_of_float f6) hi
  refine ⟨?_, rnd_nonneg l1, rnd_le f6 l2⟩
  have e1 := rnd64_err (n + h)
  rw [abs_of_nonneg lo] at e1
  have e2 := rnd_err (rnd64 (n + h))
  rw [abs_of_nonneg l1] at e2
  generalize rnd64 (n + h) = w at *
  have t1 := abs_sub_le (rnd w) w (n + Y)
  have t2 := abs_sub_le w (n + h) (n + Y)
  rw [show (n : ℚ) + h - (n + Y) = h - Y by ring] at t2
  have h1 : ((n : ℚ) + h) / 2 ^ 53 ≤ 6 / 2 ^ 53 := div_le_div_of_nonneg_right hi (by norm_num)
  have h2 : w / 16777216 ≤ 6 / 16777216 := div_le_div_of_nonneg_right l2 (by norm_num)
  have : (6 : ℚ) / 2 ^ 53 + 1 / 10 ^ 40 + (6 / 16777216 + 1 / 10 ^ 40) + 19 / 10 ^ 8 ≤ 56 / 10 ^ 8 := by norm_num
  linarith

/-- The division by six. -/
theorem sixth_err {h X : ℚ} (lo : 0 ≤ h) (hi : h ≤ 6) (hh : |h - X| ≤ 56 / 10 ^ 8) :
    |6 * rnd (rnd64 (h / 6)) - X| ≤ 1 / 10 ^ 6 ∧ 0 ≤ rnd (rnd64 (h / 6)) ∧ rnd (rnd64 (h / 6)) ≤ 1 := by
  have lo' : 0 ≤ h / 6 := by linarith
  have hi' : h / 6 ≤ 1 := by linarith
  have l1 : 0 ≤ rnd64 (h / 6) := le_round 53 (-1074) (by norm_num) (FloatAngle.double_of_float float_zero) lo'
  have l2 : rnd64 (h / 6) ≤ 1 := round_le 53 (-1074) (by norm_num) (FloatAngle.double_of_float float_one) hi'
  refine ⟨?_, rnd_nonneg l1, rnd_le float_one l2⟩
  have e1 := rnd64_err (h / 6)
  rw [abs_of_nonneg lo'] at e1
  have e2 := rnd_err (rnd64 (h / 6))
  rw [abs_of_nonneg l1] at e2
  generalize rnd64 (h / 6) = w at *
  generalize rnd w = z at *
  have h1 : h / 6 / 2 ^ 53 ≤ 1 / 2 ^ 53 := div_le_div_of_nonneg_right hi' (by norm_num)
  have h2 : w / 16777216 ≤ 1 / 16777216 := div_le_div_of_nonneg_right l2 (by norm_num)
  have : (1 : ℚ) / 2 ^ 53 + 1 / 10 ^ 40 + (1 / 16777216 + 1 / 10 ^ 40) ≤ 6 / 10 ^ 8 := by norm_num
  rw [abs_le] at *
  constructor <;> linarith

/-- The hue and saturation of a colour that is not grey, in exact arithmetic; the hue in sixths of a turn. -/
structure Exact (r g b hue M m : ℚ) : Prop where
  top : M = max3 r g b
  bottom : m = min3 r g b
  hue : hue = if r = M then (if (g - b) / (M - m) < 0 then (g - b) / (M - m) + 6 else (g - b) / (M - m))
      else if g = M then 2 + (b - r) / (M - m) else 4 + (r - g) / (M - m)

theorem threshold_bounds : 1 / 10000 - 1 / 10 ^ 19 ≤ rnd64 (1 / 10000) ∧ rnd64 (1 / 10000) ≤ 1 / 10000 + 1 / 10 ^ 19 := by
  constructor <;> decide +kernel

theorem rgbToHsv_near {r g b M m hue : ℚ} (fr : F32 r) (fg : F32 g) (fb : F32 b) (hr : 0 ≤ r ∧ r ≤ 1) (hg : 0 ≤ g ∧ g ≤ 1)
    (hb : 0 ≤ b ∧ b ≤ 1) (hx : Exact r g b hue M m) (hthr : rnd (M - m) > rnd64 (1 / 10000)) :
    ∃ h s, rgbToHsv ⟨r, g, b⟩ = ⟨h, s, M⟩ ∧ F32 h ∧ F32 s ∧ 0 ≤ h ∧ h ≤ 1 ∧ 0 < s ∧ s ≤ 1 ∧
      |6 * h - hue| ≤ 1 / 10 ^ 6 ∧ |s - (M - m) / M| ≤ 12 / 10 ^ 8 := by
  obtain ⟨hM, hm, hh⟩ := hx
  have hM' := hM
  have hm' := hm
  rw [max3_eq] at hM'
  rw [min3_eq] at hm'
  have br : m ≤ r ∧ r ≤ M := ⟨by rw [hm']; simp, by rw [hM']; simp⟩
  have bg : m ≤ g ∧ g ≤ M := ⟨by rw [hm']; simp, by rw [hM']; simp⟩
  have bb : m ≤ b ∧ b ≤ M := ⟨by rw [hm']; simp, by rw [hM']; simp⟩
  have hmax : (r = M ∨ g = M) ∨ b = M := by
    rw [hM']
    rcases max_choice (max r g) b with h | h <;> rw [h]
    · rcases max_choice r g with h' | h' <;> rw [h'] <;> simp
    · simp
  have hmin : (r = m ∨ g = m) ∨ b = m := by
    rw [hm']
    rcases min_choice (min r g) b with h | h <;> rw [h]
    · rcases min_choice r g with h' | h' <;> rw [h'] <;> simp
    · simp
  have fM : F32 M := by rcases hmax with (h | h) | h <;> rw [← h] <;> assumption
  have fm : F32 m := by rcases hmin with (h | h) | h <;> rw [← h] <;> assumption
  have m0 : 0 ≤ m := by rcases hmin with (h | h) | h <;> rw [← h] <;> linarith
  have M1 : M ≤ 1 := by rcases hmax with (h | h) | h <;> rw [← h] <;> linarith
  have Dlo : 1 / 10000 - 1 / 10 ^ 19 < rnd (M - m) := lt_of_le_of_lt threshold_bounds.1 hthr
  have hlt : m < M := by
    rcases (br.1.trans br.2).lt_or_eq with h | h
    · exact h
    · rw [h, sub_self, rnd_zero] at Dlo
      norm_num at Dlo
  have M0 : 0 < M := by linarith
  obtain ⟨-, D0, -⟩ := ratio_err fM fm fM fm hlt (abs_of_pos (by linarith : 0 < M - m)).le
  have ed := rnd_sub_err fM fm
  rw [abs_of_pos (by linarith : 0 < M - m)] at ed
  have DM : rnd (M - m) ≤ M := rnd_le fM (by linarith)
  have D1 : rnd (M - m) ≤ 1 := DM.trans M1
  have Rgb' := ratio_err fg fb fM fm hlt (abs_le.mpr ⟨by linarith, by linarith⟩)
  have Rbr := ratio_err fb fr fM fm hlt (abs_le.mpr ⟨by linarith, by linarith⟩)
  have Rrg := ratio_err fr fg fM fm hlt (abs_le.mpr ⟨by linarith, by linarith⟩)
  have bound : ∀ {a : ℚ}, |a| ≤ rnd (M - m) → -1 ≤ rnd (a / rnd (M - m)) ∧ rnd (a / rnd (M - m)) ≤ 1 := by
    intro a ha
    have fneg : F32 (-1) := by simpa using float_int (-1) (by norm_num)
    rw [abs_le] at ha
    refine ⟨le_rnd fneg ?_, rnd_le float_one ?_⟩
    · rw [le_div_iff₀ D0]; linarith
    · rw [div_le_iff₀ D0]; linarith
  have Sgn := ratio_sign fg fb D0 D1
  have Bgb := bound Rgb'.2.2
  have Bbr := bound Rbr.2.2
  have Brg := bound Rrg.2.2
  -- the position on the circle
  have pos : ∃ H, (if r = M then (if rnd (rnd (g - b) / rnd (M - m)) < 0 then rnd (rnd64 (rnd (rnd (g - b) / rnd (M - m)) + 6))
        else rnd (rnd (g - b) / rnd (M - m)))
      else if g = M then rnd (rnd64 (2 + rnd (rnd (b - r) / rnd (M - m))))
      else if b = M then rnd (rnd64 (4 + rnd (rnd (r - g) / rnd (M - m)))) else 0) = H ∧
      0 ≤ H ∧ H ≤ 6 ∧ |H - hue| ≤ 56 / 10 ^ 8 := by
    refine ⟨_, rfl, ?_⟩
    rw [hh]
    by_cases h1 : r = M
    · rw [if_pos h1, if_pos h1]
      have same : rnd (rnd (g - b) / rnd (M - m)) < 0 ↔ (g - b) / (M - m) < 0 := by
        rw [Sgn]
        constructor
        · intro h; exact div_neg_of_neg_of_pos h (by linarith)
        · intro h
          by_contra hc
          have := div_nonneg (not_lt.mp hc) (by linarith : 0 ≤ M - m)
          linarith
      have R := Rgb'.1
      generalize rnd (rnd (g - b) / rnd (M - m)) = p at *
      by_cases h2 : p < 0
      · rw [if_pos h2, if_pos (same.mp h2)]
        obtain ⟨a, b', c⟩ := turn_err (n := 6) (by norm_num) R (by push_cast; linarith) (by push_cast; linarith)
        push_cast at a b' c
        rw [add_comm p 6, add_comm _ (6 : ℚ)]
        exact ⟨b', c, a⟩
      · rw [if_neg h2, if_neg (fun h => h2 (same.mpr h))]
        exact ⟨not_lt.mp h2, by linarith, R.trans (by norm_num)⟩
    · rw [if_neg h1, if_neg h1]
      by_cases h2 : g = M
      · rw [if_pos h2, if_pos h2]
        obtain ⟨a, b', c⟩ := turn_err (n := 2) (by norm_num) Rbr.1 (by push_cast; linarith) (by push_cast; linarith)
        push_cast at a b' c
        exact ⟨b', c, a⟩
      · have h3 : b = M := by
          rcases hmax with (h | h) | h
          · exact absurd h h1
          · exact absurd h h2
          · exact h
        rw [if_neg h2, if_neg h2, if_pos h3]
        obtain ⟨a, b', c⟩ := turn_err (n := 4) (by norm_num) Rrg.1 (by push_cast; linarith) (by push_cast; linarith)
        push_cast at a b' c
        exact ⟨b', c, a⟩
  obtain ⟨H, eH, H0, H6, Herr⟩ := pos
  obtain ⟨q1, q2, q3⟩ := sixth_err H0 H6 Herr
  refine ⟨rnd (rnd64 (H / 6)), rnd (rnd (M - m) / M), ?_, rnd_float _, rnd_float _, q2, q3, ?_, ?_, q1, ?_⟩
  · unfold rgbToHsv
    simp only [clampK_id hr.1 hr.2, clampK_id hg.1 hg.2, clampK_id hb.1 hb.2, ← hM, ← hm]
    rw [if_pos hthr, eH]
  · have f14 := float_pow (e := -14) (by norm_num)
    have : (2 : ℚ) ^ (-14 : ℤ) ≤ rnd (M - m) / M := by
      rw [le_div_iff₀ M0]
      have e : (2 : ℚ) ^ (-14 : ℤ) ≤ 1 / 10000 - 1 / 10 ^ 19 := by norm_num
      have : (2 : ℚ) ^ (-14 : ℤ) * M ≤ (1 / 10000 - 1 / 10 ^ 19) * 1 := mul_le_mul e M1 M0.le (by norm_num)
      refine this.trans ?_
      linarith
    exact lt_of_lt_of_le (zpow_pos (by norm_num) _) (le_rnd f14 this)
  · exact rnd_le float_one (by rw [div_le_one M0]; exact DM)
  · have e1 := rnd_err (rnd (M - m) / M)
    have p0 : 0 ≤ rnd (M - m) / M := div_nonneg D0.le M0.le
    have p1 : rnd (M - m) / M ≤ 1 := by rw [div_le_one M0]; exact DM
    rw [abs_of_nonneg p0] at e1
    have e2 : |rnd (M - m) / M - (M - m) / M| ≤ 1 / 16777216 := by
      rw [← sub_div, abs_div, abs_of_pos M0, div_le_iff₀ M0]
      have : M - m ≤ M := by linarith
      linarith
    have := abs_sub_le (rnd (rnd (M - m) / M)) (rnd (M - m) / M) ((M - m) / M)
    have : (1 : ℚ) / 16777216 + 1 / 10 ^ 40 + 1 / 16777216 ≤ 12 / 10 ^ 8 := by norm_num
    linarith

/-- The exact colour, from its hue and saturation. -/
theorem exact_back {r g b M m hue : ℚ} (hx : Exact r g b hue M m) (hlt : m < M) (m0 : 0 ≤ m) :
    (0 ≤ hue ∧ hue < 6) ∧ r = M * (1 - (M - m) / M * dipR hue) ∧ g = M * (1 - (M - m) / M * dipG hue) ∧
      b = M * (1 - (M - m) / M * dipB hue) := by
  have M0 : M ≠ 0 := by linarith
  have d0 : M - m ≠ 0 := by linarith
  have key : ∀ {x : ℚ} (p : ℚ), x = M - (M - m) * p → x = M * (1 - (M - m) / M * p) := by
    intro x p h
    rw [h]
    field_simp
  rcases hue_cases r g b M m hx.top hx.bottom hlt hue hx.hue with
    ⟨h1, h2, -, -, h3, lo, hi⟩ | ⟨h1, h2, -, -, h3, lo, hi⟩ | ⟨h1, h2, -, -, h3, lo, hi⟩ | ⟨h1, h2, -, -, h3, lo, hi⟩ |
    ⟨h1, h2, -, -, h3, lo, hi⟩ | ⟨h1, h2, -, -, h3, lo, hi⟩
  · refine ⟨⟨lo, by linarith⟩, key _ ?_, key _ ?_, key _ ?_⟩
    · rw [dipR0 hi, h1]; ring
    · rw [dipG0 lo hi, h3]; field_simp; ring
    · rw [dipB0 (by linarith), h2]; ring
  · refine ⟨⟨by linarith, by linarith⟩, key _ ?_, key _ ?_, key _ ?_⟩
    · rw [dipR1 lo hi, h3]; field_simp; ring
    · rw [dipG1 lo (by linarith), h1]; ring
    · rw [dipB0 hi, h2]; ring
  · refine ⟨⟨by linarith, by linarith⟩, key _ ?_, key _ ?_, key _ ?_⟩
    · rw [dipR2 lo (by linarith), h2]; ring
    · rw [dipG1 (by linarith) hi, h1]; ring
    · rw [dipB2 lo hi, h3]; field_simp; ring
  · refine ⟨⟨by linarith, by linarith⟩, key _ ?_, key _ ?_, key _ ?_⟩
    · rw [dipR2 (by linarith) hi, h2]; ring
    · rw [dipG3 lo hi, h3]; field_simp; ring
    · rw [dipB3 lo (by linarith), h1]; ring
  · refine ⟨⟨by linarith, by linarith⟩, key _ ?_, key _ ?_, key _ ?_⟩
    · rw [dipR4 lo hi, h3]; field_simp; ring
    · rw [dipG4 lo, h2]; ring
    · rw [dipB3 (by linarith) hi, h1]; ring
  · refine ⟨⟨by linarith, by linarith⟩, key _ ?_, key _ ?_, key _ ?_⟩
    · rw [dipR5 lo, h1]; ring
    · rw [dipG4 (by linarith), h2]; ring
    · rw [dipB5 lo hi.le, h3]; field_simp; ring

end Verif.FloatColor
