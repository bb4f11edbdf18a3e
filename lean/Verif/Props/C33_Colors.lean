import Verif.Lemmas.Colors
import Mathlib.Tactic.LinearCombination
import Mathlib.Algebra.Order.Round

/-!
# C33 – C37: angles, colour spaces, mixing of colours
-/

namespace Verif.Color
open Verif.Mask Verif.Spectral

variable {K : Type} [Field K] [LinearOrder K] [IsStrictOrderedRing K]

/-! ## Specification -/

/-- `a` and `b` differ by a multiple of `N`. -/
def Congruent (N a b : K) : Prop := ∃ k : ℤ, a = b + k * N

/-- A colour of the unit cube. -/
def InCube (c : Rgb K) : Prop := (0 ≤ c.r ∧ c.r ≤ 1) ∧ (0 ≤ c.g ∧ c.g ≤ 1) ∧ (0 ≤ c.b ∧ c.b ≤ 1)

/-- Hue in [0, 1), the other two components in [0, 1]. -/
def Standard (x : Hue K) : Prop := (0 ≤ x.h ∧ x.h < 1) ∧ (0 ≤ x.s ∧ x.s ≤ 1) ∧ (0 ≤ x.v ∧ x.v ≤ 1)

/-- The largest component. -/
def top (c : Rgb K) : K := max (max c.r c.g) c.b
/-- The smallest component. -/
def bottom (c : Rgb K) : K := min (min c.r c.g) c.b

/-- `x` lies between `a` and `b`, in either order. -/
def Between (x a b : K) : Prop := min a b ≤ x ∧ x ≤ max a b

section
variable [FloorRing K]

/-! ## C33 -/

/-- **C33.** `mod_arith` returns the representative in `[0, N)`. -/
theorem modArith_spec (a N : K) (hN : 0 < N) :
    0 ≤ modArith a N ∧ modArith a N < N ∧ Congruent N (modArith a N) a := by
  unfold modArith
  have h1 := Int.floor_le (a / N)
  have h2 := Int.lt_floor_add_one (a / N)
  rw [le_div_iff₀ hN] at h1
  rw [div_lt_iff₀ hN] at h2
  refine ⟨by linarith, by linarith, -⌊a / N⌋, ?_⟩
  push_cast
  ring

/-- **C33.** The smallest angular difference lies in `[-180, 180)`, is congruent to the difference, and
no congruent number is closer to zero. -/
theorem smallestDiff_spec (a b : K) :
    -180 ≤ smallestDiff a b ∧ smallestDiff a b < 180 ∧ Congruent 360 (smallestDiff a b) (b - a) ∧
      ∀ x, Congruent 360 x (b - a) → |smallestDiff a b| ≤ |x| := by
  obtain ⟨h1, h2, k, hk⟩ := modArith_spec (b - a + 180) (360 : K) (by norm_num)
  have e : smallestDiff a b = modArith (b - a + 180) 360 - 180 := by
    unfold smallestDiff
    dsimp only
    rw [if_neg (by linarith), if_neg (by linarith), add_zero]
  rw [e]
  refine ⟨by linarith, by linarith, ⟨k, by rw [hk]; ring⟩, ?_⟩
  rintro x ⟨j, hj⟩
  set m := modArith (b - a + 180) 360 with hm
  have hx : x = m - 180 + ((j - k : ℤ) : K) * 360 := by rw [hj, hk]; push_cast; ring
  rw [hx]
  rcases lt_trichotomy (j - k) 0 with h | h | h
  · have : ((j - k : ℤ) : K) ≤ -1 := by exact_mod_cast (by omega : j - k ≤ -1)
    rw [abs_of_nonpos (a := m - 180 + _) (by linarith)]
    rw [abs_le]
    constructor <;> linarith
  · rw [h]; simp
  · have : (1 : K) ≤ ((j - k : ℤ) : K) := by exact_mod_cast (by omega : 1 ≤ j - k)
    rw [abs_of_nonneg (a := m - 180 + _) (by linarith)]
    rw [abs_le]
    constructor <;> linarith

/-- Non-vacuity: across the wrap-around, and the opposite direction. -/
example : smallestDiff (350 : ℚ) 10 = 20 ∧ smallestDiff (10 : ℚ) 350 = -20 ∧ smallestDiff (0 : ℚ) 180 = -180 ∧
    smallestDiff (-725 : ℚ) 725 = 10 ∧ modArith (-30 : ℚ) 360 = 330 := by decide +kernel

/-! ## C34: HSV -/

omit [FloorRing K] in
theorem clamp_cube (c : Rgb K) (h : InCube c) :
    clampK c.r 0 1 = c.r ∧ clampK c.g 0 1 = c.g ∧ clampK c.b 0 1 = c.b :=
  ⟨clampK_id h.1.1 h.1.2, clampK_id h.2.1.1 h.2.1.2, clampK_id h.2.2.1 h.2.2.2⟩

omit [FloorRing K] [IsStrictOrderedRing K] in
theorem top_mem (r g b : K) : r ≤ max3 r g b ∧ g ≤ max3 r g b ∧ b ≤ max3 r g b := by
  rw [max3_eq]; simp

omit [FloorRing K] [IsStrictOrderedRing K] in
theorem bottom_mem (r g b : K) : min3 r g b ≤ r ∧ min3 r g b ≤ g ∧ min3 r g b ≤ b := by
  rw [min3_eq]; simp

omit [FloorRing K] [IsStrictOrderedRing K] in
theorem max3_le {r g b u : K} (hr : r ≤ u) (hg : g ≤ u) (hb : b ≤ u) : max3 r g b ≤ u := by
  rw [max3_eq]; simp [hr, hg, hb]

omit [FloorRing K] [IsStrictOrderedRing K] in
theorem le_min3 {r g b u : K} (hr : u ≤ r) (hg : u ≤ g) (hb : u ≤ b) : u ≤ min3 r g b := by
  rw [min3_eq]; simp [hr, hg, hb]

omit [FloorRing K] in
/-- The chromatic branch of `rgb_to_hsv`, with the six cases. -/
theorem rgbToHsv_chromatic (r g b : K) (hr : 0 ≤ r ∧ r ≤ 1) (hg : 0 ≤ g ∧ g ≤ 1) (hb : 0 ≤ b ∧ b ≤ 1)
    (hd : max3 r g b - min3 r g b > 1 / 10000) : ∃ hue M m, M = max3 r g b ∧ m = min3 r g b ∧ m < M ∧ 0 ≤ m ∧ M ≤ 1 ∧
      rgbToHsv ⟨r, g, b⟩ = ⟨hue / 6, (M - m) / M, M⟩ ∧
    ((r = M ∧ b = m ∧ m ≤ g ∧ g ≤ M ∧ hue = (g - m) / (M - m) ∧ 0 ≤ hue ∧ hue ≤ 1) ∨
    (g = M ∧ b = m ∧ m ≤ r ∧ r ≤ M ∧ hue = 2 - (r - m) / (M - m) ∧ 1 ≤ hue ∧ hue ≤ 2) ∨
    (g = M ∧ r = m ∧ m ≤ b ∧ b ≤ M ∧ hue = 2 + (b - m) / (M - m) ∧ 2 ≤ hue ∧ hue ≤ 3) ∨
    (b = M ∧ r = m ∧ m ≤ g ∧ g ≤ M ∧ hue = 4 - (g - m) / (M - m) ∧ 3 ≤ hue ∧ hue ≤ 4) ∨
    (b = M ∧ g = m ∧ m ≤ r ∧ r ≤ M ∧ hue = 4 + (r - m) / (M - m) ∧ 4 ≤ hue ∧ hue ≤ 5) ∨
    (r = M ∧ g = m ∧ m ≤ b ∧ b ≤ M ∧ hue = 6 - (b - m) / (M - m) ∧ 5 ≤ hue ∧ hue < 6)) := by
  have hlt : min3 r g b < max3 r g b := by
    have : (0 : K) < 1 / 10000 := by norm_num
    linarith
  refine ⟨_, _, _, rfl, rfl, hlt, le_min3 hr.1 hg.1 hb.1, max3_le hr.2 hg.2 hb.2, ?_,
    hue_cases r g b _ _ rfl rfl hlt _ rfl⟩
  unfold rgbToHsv
  simp only [clampK_id hr.1 hr.2, clampK_id hg.1 hg.2, clampK_id hb.1 hb.2]
  rw [if_pos hd]
  congr 2
  by_cases h1 : r = max3 r g b
  · rw [if_pos h1, if_pos h1]
  · rw [if_neg h1, if_neg h1]
    by_cases h2 : g = max3 r g b
    · rw [if_pos h2, if_pos h2]
    · rw [if_neg h2, if_neg h2, if_pos]
      have := hue_cases r g b _ _ rfl rfl hlt _ rfl
      rcases this with h | h | h | h | h | h
      · exact absurd h.1 h1
      · exact absurd h.1 h2
      · exact absurd h.1 h2
      · exact h.1
      · exact h.1
      · exact absurd h.1 h1

/-- **C34, range.** For any input (components outside [0, 1] are clamped first). -/
theorem rgbToHsv_standard (c : Rgb K) : Standard (rgbToHsv c) := by
  have e : rgbToHsv c = rgbToHsv ⟨clampK c.r 0 1, clampK c.g 0 1, clampK c.b 0 1⟩ := by
    unfold rgbToHsv
    simp only [clampK_id (clampK_mem c.r).1 (clampK_mem c.r).2, clampK_id (clampK_mem c.g).1 (clampK_mem c.g).2,
      clampK_id (clampK_mem c.b).1 (clampK_mem c.b).2]
  rw [e]
  have hr := clampK_mem c.r
  have hg := clampK_mem c.g
  have hb := clampK_mem c.b
  generalize clampK c.r 0 1 = r at *
  generalize clampK c.g 0 1 = g at *
  generalize clampK c.b 0 1 = b at *
  by_cases hd : max3 r g b - min3 r g b > 1 / 10000
  · obtain ⟨hue, M, m, -, -, hlt, hm0, hM1, eq, cases⟩ := rgbToHsv_chromatic r g b hr hg hb hd
    have hM0 : 0 < M := lt_of_le_of_lt hm0 hlt
    have hue0 : 0 ≤ hue ∧ hue < 6 := by
      rcases cases with h | h | h | h | h | h <;> exact ⟨by linarith [h.2.2.2.2.2.1], by linarith [h.2.2.2.2.2.2]⟩
    rw [eq]
    refine ⟨⟨by simp only; linarith, by simp only; linarith⟩, ⟨div_nonneg (by linarith) hM0.le, ?_⟩, hM0.le, hM1⟩
    simp only
    rw [div_le_one hM0]; linarith
  · unfold rgbToHsv
    simp only [clampK_id hr.1 hr.2, clampK_id hg.1 hg.2, clampK_id hb.1 hb.2]
    rw [if_neg hd]
    exact ⟨by norm_num, by norm_num, hr.1.trans (top_mem r g b).1, max3_le hr.2 hg.2 hb.2⟩

/-- **C34, round trip.** A colour whose components differ by more than 0.0001 survives unchanged; any other
becomes the grey of its largest component, which changes no component by more than 0.0001. -/
theorem hsv_roundtrip (c : Rgb K) (h : InCube c) :
    (top c - bottom c > 1 / 10000 → hsvToRgb (rgbToHsv c) = c) ∧
    (top c - bottom c ≤ 1 / 10000 → hsvToRgb (rgbToHsv c) = ⟨top c, top c, top c⟩) := by
  obtain ⟨r, g, b⟩ := c
  obtain ⟨hr, hg, hb⟩ := h
  simp only at hr hg hb
  have et : top ⟨r, g, b⟩ = max3 r g b := (max3_eq r g b).symm
  have eb : bottom ⟨r, g, b⟩ = min3 r g b := (min3_eq r g b).symm
  rw [et, eb]
  constructor
  · intro hd
    obtain ⟨hue, M, m, -, -, hlt, hm0, hM1, eq, cases⟩ := rgbToHsv_chromatic r g b hr hg hb hd
    have hM0 : 0 < M := lt_of_le_of_lt hm0 hlt
    have hue0 : 0 ≤ hue ∧ hue < 6 := by
      rcases cases with h | h | h | h | h | h <;> exact ⟨by linarith [h.2.2.2.2.2.1], by linarith [h.2.2.2.2.2.2]⟩
    have hdd : M - m ≠ 0 := (sub_pos.mpr hlt).ne'
    have hs0 : 0 < (M - m) / M := div_pos (by linarith) hM0
    have hs1 : (M - m) / M ≤ 1 := by rw [div_le_one hM0]; linarith
    have w : M * (1 - (M - m) / M) = m := by field_simp; ring
    have z : ∀ x t : K, t = (x - m) / (M - m) → M * (1 - (M - m) / M * (1 - t)) = x := by
      intro x t ht
      rw [ht]
      field_simp
      ring
    obtain ⟨s0, s1, s2, s3, s4, s5⟩ := hsv_sector ((M - m) / M) M hue hs0 hs1 hM0.le hM1 hue0.1 hue0.2
    rw [eq]
    rcases cases with ⟨a1, a2, -, -, a3, a4, a5⟩ | ⟨a1, a2, -, -, a3, a4, a5⟩ | ⟨a1, a2, -, -, a3, a4, a5⟩ |
      ⟨a1, a2, -, -, a3, a4, a5⟩ | ⟨a1, a2, -, -, a3, a4, a5⟩ | ⟨a1, a2, -, -, a3, a4, a5⟩
    · rw [s0 a5, w, z g _ a3, a1, a2]
    · rw [s1 a4 a5, w, show hue - 1 = 1 - (2 - hue) by ring, z r _ (by rw [a3]; ring), a1, a2]
    · rw [s2 a4 a5, w, show 3 - hue = 1 - (hue - 2) by ring, z b _ (by rw [a3]; ring), a1, a2]
    · rw [s3 a4 a5, w, show hue - 3 = 1 - (4 - hue) by ring, z g _ (by rw [a3]; ring), a1, a2]
    · rw [s4 a4 a5, w, show 5 - hue = 1 - (hue - 4) by ring, z r _ (by rw [a3]; ring), a1, a2]
    · rw [s5 a4, w, show hue - 5 = 1 - (6 - hue) by ring, z b _ (by rw [a3]; ring), a1, a2]
  · intro hd
    have : rgbToHsv ⟨r, g, b⟩ = ⟨0, 0, max3 r g b⟩ := by
      unfold rgbToHsv
      simp only [clampK_id hr.1 hr.2, clampK_id hg.1 hg.2, clampK_id hb.1 hb.2]
      rw [if_neg (not_lt.mpr hd)]
    rw [this]
    unfold hsvToRgb
    simp only [clampK_id (le_refl (0 : K)) zero_le_one, if_true,
      clampK_id (hr.1.trans (top_mem r g b).1) (max3_le hr.2 hg.2 hb.2)]

/-- `hsv_to_rgb` gives a colour of the unit cube for any numbers whatever, and the hue is periodic. -/
theorem hsvToRgb_cube (x : Hue K) : InCube (hsvToRgb x) := by
  have hs := clampK_mem x.s
  have hv := clampK_mem x.v
  by_cases h0 : clampK x.s 0 1 = 0
  · unfold hsvToRgb
    simp only [h0, if_true]
    exact ⟨hv, hv, hv⟩
  · have f0 := Int.floor_le x.h
    have f1 := Int.lt_floor_add_one x.h
    have e : hsvToRgb x = hsvToRgb ⟨(x.h - ⌊x.h⌋) * 6 / 6, clampK x.s 0 1, clampK x.v 0 1⟩ := by
      have : (x.h - (⌊x.h⌋ : K)) * 6 / 6 = x.h - ⌊x.h⌋ := by field_simp
      rw [this]
      unfold hsvToRgb
      simp only [clampK_id hs.1 hs.2, clampK_id hv.1 hv.2, Int.floor_sub_intCast, sub_self, Int.cast_zero, sub_zero]
    rw [e]
    generalize hh : (x.h - (⌊x.h⌋ : K)) * 6 = hue
    have hue0 : 0 ≤ hue ∧ hue < 6 := by rw [← hh]; constructor <;> linarith
    have hs' := lt_of_le_of_ne hs.1 (Ne.symm h0)
    generalize clampK x.s 0 1 = s at *
    generalize clampK x.v 0 1 = v at *
    have u : ∀ t : K, 0 ≤ t → t ≤ 1 → 0 ≤ v * (1 - s * t) ∧ v * (1 - s * t) ≤ 1 := by
      intro t ht0 ht1
      have h1 : 0 ≤ s * t := mul_nonneg hs.1 ht0
      have h2 : s * t ≤ 1 := mul_le_one₀ hs.2 ht0 ht1
      exact ⟨mul_nonneg hv.1 (by linarith), mul_le_one₀ hv.2 (by linarith) (by linarith)⟩
    have w : 0 ≤ v * (1 - s) ∧ v * (1 - s) ≤ 1 := by
      have := u 1 zero_le_one (le_refl _); rwa [mul_one] at this
    obtain ⟨s0, s1, s2, s3, s4, s5⟩ := hsv_sector s v hue hs' hs.2 hv.1 hv.2 hue0.1 hue0.2
    rcases le_or_gt hue 1 with c1 | c1
    · rw [s0 c1]; exact ⟨hv, u _ (by linarith) (by linarith), w⟩
    rcases le_or_gt hue 2 with c2 | c2
    · rw [s1 c1.le c2]; exact ⟨u _ (by linarith) (by linarith), hv, w⟩
    rcases le_or_gt hue 3 with c3 | c3
    · rw [s2 c2.le c3]; exact ⟨w, hv, u _ (by linarith) (by linarith)⟩
    rcases le_or_gt hue 4 with c4 | c4
    · rw [s3 c3.le c4]; exact ⟨w, u _ (by linarith) (by linarith), hv⟩
    rcases le_or_gt hue 5 with c5 | c5
    · rw [s4 c4.le c5]; exact ⟨u _ (by linarith) (by linarith), w, hv⟩
    · rw [s5 c5.le]; exact ⟨hv, w, u _ (by linarith) (by linarith)⟩

theorem hsvToRgb_periodic (h s v : K) (k : ℤ) : hsvToRgb ⟨h + k, s, v⟩ = hsvToRgb ⟨h, s, v⟩ := by
  unfold hsvToRgb
  simp only [Int.floor_add_intCast, Int.cast_add, add_sub_add_right_eq_sub]

/-- Non-vacuity: colours of all six sectors, and a near-grey one. -/
example : rgbToHsv (⟨1, 1 / 2, 1 / 4⟩ : Rgb ℚ) = ⟨1 / 18, 3 / 4, 1⟩ ∧
    hsvToRgb (rgbToHsv (⟨1 / 2, 1, 1 / 4⟩ : Rgb ℚ)) = ⟨1 / 2, 1, 1 / 4⟩ ∧
    hsvToRgb (rgbToHsv (⟨1 / 4, 1, 1 / 2⟩ : Rgb ℚ)) = ⟨1 / 4, 1, 1 / 2⟩ ∧
    hsvToRgb (rgbToHsv (⟨1 / 4, 1 / 2, 1⟩ : Rgb ℚ)) = ⟨1 / 4, 1 / 2, 1⟩ ∧
    hsvToRgb (rgbToHsv (⟨1 / 2, 1 / 4, 1⟩ : Rgb ℚ)) = ⟨1 / 2, 1 / 4, 1⟩ ∧
    hsvToRgb (rgbToHsv (⟨1, 1 / 4, 1 / 2⟩ : Rgb ℚ)) = ⟨1, 1 / 4, 1 / 2⟩ ∧
    hsvToRgb (rgbToHsv (⟨1 / 2, 49995 / 100000, 1 / 2⟩ : Rgb ℚ)) = ⟨1 / 2, 1 / 2, 1 / 2⟩ := by decide +kernel

/-! ## C35: HSL -/

omit [FloorRing K] in
theorem rgbToHsl_chromatic (r g b : K) (hr : 0 ≤ r ∧ r ≤ 1) (hg : 0 ≤ g ∧ g ≤ 1) (hb : 0 ≤ b ∧ b ≤ 1)
    (hd : max3 r g b ≠ min3 r g b) : ∃ hue M m, M = max3 r g b ∧ m = min3 r g b ∧ m < M ∧ 0 ≤ m ∧ M ≤ 1 ∧
      rgbToHsl ⟨r, g, b⟩ = ⟨hue / 6, if (M + m) / 2 ≤ 1 / 2 then (M - m) / (M + m) else (M - m) / (2 - M - m), (M + m) / 2⟩ ∧
    ((r = M ∧ b = m ∧ m ≤ g ∧ g ≤ M ∧ hue = (g - m) / (M - m) ∧ 0 ≤ hue ∧ hue ≤ 1) ∨
    (g = M ∧ b = m ∧ m ≤ r ∧ r ≤ M ∧ hue = 2 - (r - m) / (M - m) ∧ 1 ≤ hue ∧ hue ≤ 2) ∨
    (g = M ∧ r = m ∧ m ≤ b ∧ b ≤ M ∧ hue = 2 + (b - m) / (M - m) ∧ 2 ≤ hue ∧ hue ≤ 3) ∨
    (b = M ∧ r = m ∧ m ≤ g ∧ g ≤ M ∧ hue = 4 - (g - m) / (M - m) ∧ 3 ≤ hue ∧ hue ≤ 4) ∨
    (b = M ∧ g = m ∧ m ≤ r ∧ r ≤ M ∧ hue = 4 + (r - m) / (M - m) ∧ 4 ≤ hue ∧ hue ≤ 5) ∨
    (r = M ∧ g = m ∧ m ≤ b ∧ b ≤ M ∧ hue = 6 - (b - m) / (M - m) ∧ 5 ≤ hue ∧ hue < 6)) := by
  have hlt : min3 r g b < max3 r g b := lt_of_le_of_ne (min3_le_max3 r g b) (Ne.symm hd)
  have hcases := hue_cases r g b _ _ rfl rfl hlt _ rfl
  refine ⟨_, _, _, rfl, rfl, hlt, le_min3 hr.1 hg.1 hb.1, max3_le hr.2 hg.2 hb.2, ?_, hcases⟩
  have hdelta : max3 r g b - min3 r g b ≠ 0 := (sub_pos.mpr hlt).ne'
  unfold rgbToHsl
  simp only [clampK_id hr.1 hr.2, clampK_id hg.1 hg.2, clampK_id hb.1 hb.2, if_neg hd, if_neg hdelta]
  congr 1
  by_cases h1 : r = max3 r g b
  · simp only [if_pos h1]
    by_cases h3 : (g - b) / (max3 r g b - min3 r g b) < 0
    · rw [if_pos h3, if_pos (by linarith)]; ring
    · rw [if_neg h3, if_neg (by linarith)]
  · simp only [if_neg h1] at hcases ⊢
    have h3 : b = max3 r g b ∨ g = max3 r g b := by
      rcases hcases with h | h | h | h | h | h
      · exact absurd h.1 h1
      · exact .inr h.1
      · exact .inr h.1
      · exact .inl h.1
      · exact .inl h.1
      · exact absurd h.1 h1
    by_cases h2 : g = max3 r g b
    · simp only [if_pos h2] at hcases ⊢
      rw [if_neg]
      rcases hcases with h | h | h | h | h | h <;> linarith [h.2.2.2.2.2.1]
    · simp only [if_neg h2] at hcases ⊢
      have h3 : b = max3 r g b := h3.resolve_right h2
      rw [if_pos h3, if_neg]
      rcases hcases with h | h | h | h | h | h <;> linarith [h.2.2.2.2.2.1]

omit [FloorRing K] in
/-- The saturation of HSL, and how it is undone. -/
theorem hsl_saturation (M m : K) (hlt : m < M) (hm : 0 ≤ m) (hM : M ≤ 1) (s : K)
    (hs : s = if (M + m) / 2 ≤ 1 / 2 then (M - m) / (M + m) else (M - m) / (2 - M - m)) :
    0 < s ∧ s ≤ 1 ∧ (if (M + m) / 2 ≤ 1 / 2 then (M + m) / 2 * (1 + s)
      else (M + m) / 2 + s - (M + m) / 2 * s) = M := by
  have h1 : 0 < M + m := by linarith
  have h2 : 0 < 2 - M - m := by linarith
  have h3 : 0 < M - m := by linarith
  by_cases h : (M + m) / 2 ≤ 1 / 2
  · rw [if_pos h] at hs ⊢
    rw [hs]
    refine ⟨div_pos h3 h1, by rw [div_le_one h1]; linarith, ?_⟩
    field_simp
    ring
  · rw [if_neg h] at hs ⊢
    rw [hs]
    refine ⟨div_pos h3 h2, by rw [div_le_one h2]; linarith, ?_⟩
    have : 2 - M - m ≠ 0 := h2.ne'
    field_simp
    ring

/-- **C35, range.** -/
theorem rgbToHsl_standard (c : Rgb K) : Standard (rgbToHsl c) := by
  have e : rgbToHsl c = rgbToHsl ⟨clampK c.r 0 1, clampK c.g 0 1, clampK c.b 0 1⟩ := by
    unfold rgbToHsl
    simp only [clampK_id (clampK_mem c.r).1 (clampK_mem c.r).2, clampK_id (clampK_mem c.g).1 (clampK_mem c.g).2,
      clampK_id (clampK_mem c.b).1 (clampK_mem c.b).2]
  rw [e]
  have hr := clampK_mem c.r
  have hg := clampK_mem c.g
  have hb := clampK_mem c.b
  generalize clampK c.r 0 1 = r at *
  generalize clampK c.g 0 1 = g at *
  generalize clampK c.b 0 1 = b at *
  by_cases hd : max3 r g b = min3 r g b
  · unfold rgbToHsl
    simp only [clampK_id hr.1 hr.2, clampK_id hg.1 hg.2, clampK_id hb.1 hb.2, if_pos hd]
    have := le_min3 hr.1 hg.1 hb.1
    have := max3_le hr.2 hg.2 hb.2
    refine ⟨by norm_num, by norm_num, ?_, ?_⟩ <;> simp only <;> linarith
  · obtain ⟨hue, M, m, -, -, hlt, hm0, hM1, eq, cases⟩ := rgbToHsl_chromatic r g b hr hg hb hd
    have hue0 : 0 ≤ hue ∧ hue < 6 := by
      rcases cases with h | h | h | h | h | h <;> exact ⟨by linarith [h.2.2.2.2.2.1], by linarith [h.2.2.2.2.2.2]⟩
    obtain ⟨h1, h2, -⟩ := hsl_saturation M m hlt hm0 hM1 _ rfl
    rw [eq]
    refine ⟨⟨by simp only; linarith, by simp only; linarith⟩, ⟨h1.le, h2⟩, ?_, ?_⟩ <;> simp only <;> linarith

/-- **C35, round trip.** Every colour of the unit cube survives unchanged. -/
theorem hsl_roundtrip (c : Rgb K) (h : InCube c) : hslToRgb (rgbToHsl c) = c := by
  obtain ⟨r, g, b⟩ := c
  obtain ⟨hr, hg, hb⟩ := h
  simp only at hr hg hb
  by_cases hd : max3 r g b = min3 r g b
  · have e : rgbToHsl ⟨r, g, b⟩ = ⟨0, 0, (max3 r g b + min3 r g b) / 2⟩ := by
      unfold rgbToHsl
      simp only [clampK_id hr.1 hr.2, clampK_id hg.1 hg.2, clampK_id hb.1 hb.2, if_pos hd]
    obtain ⟨e1, e2, e3⟩ := grey_of_min_eq_max r g b hd
    have hm : (max3 r g b + min3 r g b) / 2 = max3 r g b := by rw [← hd]; ring
    rw [e, hm]
    unfold hslToRgb
    simp only [clampK_id (le_refl (0 : K)) zero_le_one, if_true,
      clampK_id (hr.1.trans (top_mem r g b).1) (max3_le hr.2 hg.2 hb.2)]
    rw [← e1, ← e2.trans e1.symm, ← e3.trans e2.symm]
  · obtain ⟨hue, M, m, -, -, hlt, hm0, hM1, eq, cases⟩ := rgbToHsl_chromatic r g b hr hg hb hd
    have hue0 : 0 ≤ hue ∧ hue < 6 := by
      rcases cases with h | h | h | h | h | h <;> exact ⟨by linarith [h.2.2.2.2.2.1], by linarith [h.2.2.2.2.2.2]⟩
    obtain ⟨h1, h2, h3⟩ := hsl_saturation M m hlt hm0 hM1 _ rfl
    have hdd : M - m ≠ 0 := (sub_pos.mpr hlt).ne'
    have hf : ⌊hue / 6⌋ = 0 := by
      rw [Int.floor_eq_iff]
      constructor
      · push_cast; linarith
      · push_cast; linarith
    have e6 : hue / 6 * 6 = hue := by field_simp
    have hm1 : 2 * ((M + m) / 2) - M = m := by ring
    rw [eq]
    generalize (if (M + m) / 2 ≤ 1 / 2 then (M - m) / (M + m) else (M - m) / (2 - M - m)) = s at *
    have e : hslToRgb ⟨hue / 6, s, (M + m) / 2⟩ =
        ⟨hslValue m M (hue + 2), hslValue m M hue, hslValue m M (hue - 2)⟩ := by
      unfold hslToRgb
      have l0 : 0 ≤ (M + m) / 2 := by linarith
      have l1 : (M + m) / 2 ≤ 1 := by linarith
      simp only [hf, Int.cast_zero, sub_zero, e6, clampK_id h1.le h2, clampK_id l0 l1, if_neg h1.ne', h3, hm1]
    rw [e]
    have z : ∀ x t : K, t = (x - m) / (M - m) → m + (M - m) * t = x := by
      intro x t ht
      rw [ht]
      field_simp
      ring
    obtain ⟨s0, s1, s2, s3, s4, s5⟩ := hsl_sector m M hue hue0.1 hue0.2
    rcases cases with ⟨a1, a2, -, -, a3, a4, a5⟩ | ⟨a1, a2, -, -, a3, a4, a5⟩ | ⟨a1, a2, -, -, a3, a4, a5⟩ |
      ⟨a1, a2, -, -, a3, a4, a5⟩ | ⟨a1, a2, -, -, a3, a4, a5⟩ | ⟨a1, a2, -, -, a3, a4, a5⟩
    · obtain ⟨b1, b2, b3⟩ := s0 a5
      rw [b1, b2, b3, z g _ a3, a1, a2]
    · obtain ⟨b1, b2, b3⟩ := s1 a4 a5
      rw [b1, b2, b3, z r _ (by rw [a3]; ring), a1, a2]
    · obtain ⟨b1, b2, b3⟩ := s2 a4 a5
      rw [b1, b2, b3, z b _ (by rw [a3]; ring), a1, a2]
    · obtain ⟨b1, b2, b3⟩ := s3 a4 a5
      rw [b1, b2, b3, z g _ (by rw [a3]; ring), a1, a2]
    · obtain ⟨b1, b2, b3⟩ := s4 a4 a5
      rw [b1, b2, b3, z r _ (by rw [a3]; ring), a1, a2]
    · obtain ⟨b1, b2, b3⟩ := s5 a4
      rw [b1, b2, b3, z b _ (by rw [a3]; ring), a1, a2]

example : rgbToHsl (⟨1, 1 / 2, 1 / 4⟩ : Rgb ℚ) = ⟨1 / 18, 1, 5 / 8⟩ ∧
    hslToRgb (rgbToHsl (⟨1 / 2, 1 / 3, 1 / 4⟩ : Rgb ℚ)) = ⟨1 / 2, 1 / 3, 1 / 4⟩ := by decide +kernel

end

end Verif.Color
