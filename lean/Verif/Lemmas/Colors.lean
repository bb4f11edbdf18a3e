import Verif.Model.Colors
import Mathlib.Data.Rat.Floor
import Mathlib.Tactic.NormNum
import Mathlib.Tactic.Linarith
import Mathlib.Tactic.Positivity
import Mathlib.Tactic.FieldSimp
import Mathlib.Tactic.Ring
import Mathlib.Tactic.IntervalCases

/-! # Helper lemmas for the colour spaces -/

namespace Verif.Color
open Verif.Mask Verif.Spectral

variable {K : Type} [Field K] [LinearOrder K] [IsStrictOrderedRing K]

omit [IsStrictOrderedRing K] in
theorem maxC_eq (a b : K) : maxC a b = max a b := by
  unfold maxC
  split_ifs with h
  · exact (max_eq_left h.le).symm
  · exact (max_eq_right (not_lt.mp h)).symm

omit [IsStrictOrderedRing K] in
theorem minC_eq (a b : K) : minC a b = min a b := by
  unfold minC
  split_ifs with h
  · exact (min_eq_left h.le).symm
  · exact (min_eq_right (not_lt.mp h)).symm

omit [IsStrictOrderedRing K] in
theorem max3_eq (a b c : K) : max3 a b c = max (max a b) c := by
  unfold max3
  rw [maxC_eq, maxC_eq]
  split_ifs with h
  · rw [max_eq_left (a := a) h.le]
  · rw [max_eq_right (a := a) (not_lt.mp h)]

omit [IsStrictOrderedRing K] in
theorem min3_eq (a b c : K) : min3 a b c = min (min a b) c := by
  unfold min3
  rw [minC_eq, minC_eq]
  split_ifs with h
  · rw [min_eq_left (a := a) h.le]
  · rw [min_eq_right (a := a) (not_lt.mp h)]

omit [IsStrictOrderedRing K] in
theorem clampK_id {v lo hi : K} (h0 : lo ≤ v) (h1 : v ≤ hi) : clampK v lo hi = v := by
  unfold clampK
  rw [if_neg (not_lt.mpr h1), if_neg (not_lt.mpr h0)]

theorem clampK_mem (v : K) : 0 ≤ clampK v 0 1 ∧ clampK v 0 1 ≤ 1 := by
  unfold clampK
  split_ifs with h1 h2
  · exact ⟨zero_le_one, le_refl _⟩
  · exact ⟨le_refl _, zero_le_one⟩
  · exact ⟨not_lt.mp h2, not_lt.mp h1⟩

variable [FloorRing K]

/-- The six sectors of `hsv_to_rgb`, including their right ends. -/
theorem hsv_sector (s v hue : K) (hs : 0 < s) (hs1 : s ≤ 1) (hv : 0 ≤ v) (hv1 : v ≤ 1) (h0 : 0 ≤ hue) (h6 : hue < 6) :
    (hue ≤ 1 → hsvToRgb ⟨hue / 6, s, v⟩ = ⟨v, v * (1 - s * (1 - hue)), v * (1 - s)⟩) ∧
    (1 ≤ hue → hue ≤ 2 → hsvToRgb ⟨hue / 6, s, v⟩ = ⟨v * (1 - s * (hue - 1)), v, v * (1 - s)⟩) ∧
    (2 ≤ hue → hue ≤ 3 → hsvToRgb ⟨hue / 6, s, v⟩ = ⟨v * (1 - s), v, v * (1 - s * (3 - hue))⟩) ∧
    (3 ≤ hue → hue ≤ 4 → hsvToRgb ⟨hue / 6, s, v⟩ = ⟨v * (1 - s), v * (1 - s * (hue - 3)), v⟩) ∧
    (4 ≤ hue → hue ≤ 5 → hsvToRgb ⟨hue / 6, s, v⟩ = ⟨v * (1 - s * (5 - hue)), v * (1 - s), v⟩) ∧
    (5 ≤ hue → hsvToRgb ⟨hue / 6, s, v⟩ = ⟨v, v * (1 - s), v * (1 - s * (hue - 5))⟩) := by
  have hf : ⌊hue / 6⌋ = 0 := by
    rw [Int.floor_eq_iff]
    constructor
    · simp; positivity
    · rw [div_lt_iff₀ (by norm_num)]; norm_num; exact h6
  have hne : hue / 6 ≠ 1 := by
    intro h
    rw [div_eq_iff (by norm_num)] at h
    linarith
  have e6 : hue / 6 * 6 = hue := by field_simp
  have main : hsvToRgb ⟨hue / 6, s, v⟩ =
      if ⌊hue⌋ = 0 then ⟨v, v * (1 - s * (1 - (hue - ⌊hue⌋))), v * (1 - s)⟩
      else if ⌊hue⌋ = 1 then ⟨v * (1 - s * (hue - ⌊hue⌋)), v, v * (1 - s)⟩
      else if ⌊hue⌋ = 2 then ⟨v * (1 - s), v, v * (1 - s * (1 - (hue - ⌊hue⌋)))⟩
      else if ⌊hue⌋ = 3 then ⟨v * (1 - s), v * (1 - s * (hue - ⌊hue⌋)), v⟩
      else if ⌊hue⌋ = 4 then ⟨v * (1 - s * (1 - (hue - ⌊hue⌋))), v * (1 - s), v⟩
      else if ⌊hue⌋ = 5 then ⟨v, v * (1 - s), v * (1 - s * (hue - ⌊hue⌋))⟩
      else ⟨0, 0, 0⟩ := by
    unfold hsvToRgb
    simp only [hf, Int.cast_zero, sub_zero, clampK_id hs.le hs1, clampK_id hv hv1, if_neg hs.ne', if_neg hne, e6]
  rw [main]
  have hfl : ∀ n : ℕ, (n : K) ≤ hue → hue ≤ (n : K) + 1 → ⌊hue⌋ = n ∨ (⌊hue⌋ = n + 1 ∧ hue = n + 1) := by
    intro n hn hn1
    rcases lt_or_eq_of_le hn1 with h | h
    · left
      rw [Int.floor_eq_iff]
      push_cast
      exact ⟨hn, h⟩
    · right
      refine ⟨?_, h⟩
      rw [h, Int.floor_eq_iff]
      push_cast
      exact ⟨le_refl _, by linarith⟩
  have hz : (0 : ℤ) = 0 := rfl
  refine ⟨fun h => ?_, fun ha hb => ?_, fun ha hb => ?_, fun ha hb => ?_, fun ha hb => ?_, fun ha => ?_⟩
  · rcases hfl 0 (by simpa using h0) (by simpa using h) with e | ⟨e, e'⟩
    · simp only [e]; norm_num
    · rw [e']; norm_num
  · rcases hfl 1 (by simpa using ha) (by norm_num; linarith) with e | ⟨e, e'⟩
    · simp only [e]; norm_num
    · simp only [e]; rw [e']; norm_num
  · rcases hfl 2 (by simpa using ha) (by norm_num; linarith) with e | ⟨e, e'⟩
    · simp only [e]; norm_num; ring_nf; simp
    · simp only [e]; rw [e']; norm_num
  · rcases hfl 3 (by simpa using ha) (by norm_num; linarith) with e | ⟨e, e'⟩
    · simp only [e]; norm_num
    · simp only [e]; rw [e']; norm_num
  · rcases hfl 4 (by simpa using ha) (by norm_num; linarith) with e | ⟨e, e'⟩
    · simp only [e]; norm_num; ring_nf; simp
    · simp only [e]; rw [e']; norm_num
  · rcases hfl 5 (by simpa using ha) (by norm_num; linarith) with e | ⟨e, e'⟩
    · simp only [e]; norm_num
    · norm_num at e'; linarith

omit [FloorRing K] in
/-- The six orders of the components, with the position on the colour circle in sixths. -/
theorem hue_cases (r g b M m : K) (hM : M = max3 r g b) (hm : m = min3 r g b) (hlt : m < M) (hue : K)
    (hh : hue = if r = M then (if (g - b) / (M - m) < 0 then (g - b) / (M - m) + 6 else (g - b) / (M - m))
      else if g = M then 2 + (b - r) / (M - m) else 4 + (r - g) / (M - m)) :
    (r = M ∧ b = m ∧ m ≤ g ∧ g ≤ M ∧ hue = (g - m) / (M - m) ∧ 0 ≤ hue ∧ hue ≤ 1) ∨
    (g = M ∧ b = m ∧ m ≤ r ∧ r ≤ M ∧ hue = 2 - (r - m) / (M - m) ∧ 1 ≤ hue ∧ hue ≤ 2) ∨
    (g = M ∧ r = m ∧ m ≤ b ∧ b ≤ M ∧ hue = 2 + (b - m) / (M - m) ∧ 2 ≤ hue ∧ hue ≤ 3) ∨
    (b = M ∧ r = m ∧ m ≤ g ∧ g ≤ M ∧ hue = 4 - (g - m) / (M - m) ∧ 3 ≤ hue ∧ hue ≤ 4) ∨
    (b = M ∧ g = m ∧ m ≤ r ∧ r ≤ M ∧ hue = 4 + (r - m) / (M - m) ∧ 4 ≤ hue ∧ hue ≤ 5) ∨
    (r = M ∧ g = m ∧ m ≤ b ∧ b ≤ M ∧ hue = 6 - (b - m) / (M - m) ∧ 5 ≤ hue ∧ hue < 6) := by
  rw [max3_eq] at hM
  rw [min3_eq] at hm
  have hd : 0 < M - m := sub_pos.mpr hlt
  have u : ∀ x, m ≤ x → x ≤ M → 0 ≤ (x - m) / (M - m) ∧ (x - m) / (M - m) ≤ 1 := by
    intro x h1 h2
    refine ⟨div_nonneg (by linarith) hd.le, ?_⟩
    rw [div_le_one hd]; linarith
  have neg : ∀ x : K, (m - x) / (M - m) = -((x - m) / (M - m)) := by
    intro x; rw [← neg_sub x m, neg_div]
  have br : m ≤ r ∧ r ≤ M := ⟨by rw [hm]; simp, by rw [hM]; simp⟩
  have bg : m ≤ g ∧ g ≤ M := ⟨by rw [hm]; simp, by rw [hM]; simp⟩
  have bb : m ≤ b ∧ b ≤ M := ⟨by rw [hm]; simp, by rw [hM]; simp⟩
  have ur := u r br.1 br.2
  have ug := u g bg.1 bg.2
  have ub := u b bb.1 bb.2
  have hmin : (r = m ∨ g = m) ∨ b = m := by
    rw [hm]
    rcases min_choice (min r g) b with h | h
    · rcases min_choice r g with h' | h'
      · left; left; rw [h, h']
      · left; right; rw [h, h']
    · right; exact h.symm
  have hmax : (r = M ∨ g = M) ∨ b = M := by
    rw [hM]
    rcases max_choice (max r g) b with h | h
    · rcases max_choice r g with h' | h'
      · left; left; rw [h, h']
      · left; right; rw [h, h']
    · right; exact h.symm
  by_cases hr : r = M
  · rw [if_pos hr] at hh
    by_cases hb : b = m
    · left
      rw [hb, if_neg (not_lt.mpr ug.1)] at hh
      exact ⟨hr, hb, bg.1, bg.2, hh, by rw [hh]; exact ug.1, by rw [hh]; exact ug.2⟩
    · have hg : g = m := by
        rcases hmin with (h | h) | h
        · exact absurd (h.symm.trans hr) hlt.ne
        · exact h
        · exact absurd h hb
      have hlt' : m < b := lt_of_le_of_ne bb.1 (Ne.symm hb)
      have p : 0 < (b - m) / (M - m) := div_pos (by linarith) hd
      rw [hg, neg, if_pos (by linarith)] at hh
      right; right; right; right; right
      exact ⟨hr, hg, bb.1, bb.2, by rw [hh]; ring, by rw [hh]; linarith [ub.2], by rw [hh]; linarith⟩
  · rw [if_neg hr] at hh
    by_cases hg : g = M
    · rw [if_pos hg] at hh
      by_cases hb : b = m
      · rw [hb, neg] at hh
        right; left
        exact ⟨hg, hb, br.1, br.2, by rw [hh]; ring, by rw [hh]; linarith [ur.2], by rw [hh]; linarith [ur.1]⟩
      · have hr' : r = m := by
          rcases hmin with (h | h) | h
          · exact h
          · exact absurd (h.symm.trans hg) hlt.ne
          · exact absurd h hb
        rw [hr'] at hh
        right; right; left
        exact ⟨hg, hr', bb.1, bb.2, hh, by rw [hh]; linarith [ub.1], by rw [hh]; linarith [ub.2]⟩
    · have hb : b = M := by
        rcases hmax with (h | h) | h
        · exact absurd h hr
        · exact absurd h hg
        · exact h
      rw [if_neg hg] at hh
      by_cases hr' : r = m
      · rw [hr', neg] at hh
        right; right; right; left
        exact ⟨hb, hr', bg.1, bg.2, by rw [hh]; ring, by rw [hh]; linarith [ug.2], by rw [hh]; linarith [ug.1]⟩
      · have hg' : g = m := by
          rcases hmin with (h | h) | h
          · exact absurd h hr'
          · exact h
          · exact absurd (h.symm.trans hb) hlt.ne
        rw [hg'] at hh
        right; right; right; right; left
        exact ⟨hb, hg', br.1, br.2, hh, by rw [hh]; linarith [ur.1], by rw [hh]; linarith [ur.2]⟩

omit [FloorRing K] in
theorem min3_le_max3 (r g b : K) : min3 r g b ≤ max3 r g b := by
  rw [max3_eq, min3_eq]
  calc min (min r g) b ≤ r := (min_le_left _ _).trans (min_le_left _ _)
    _ ≤ max (max r g) b := (le_max_left _ _).trans (le_max_left _ _)

omit [FloorRing K] in
theorem grey_of_min_eq_max (r g b : K) (h : max3 r g b = min3 r g b) : r = max3 r g b ∧ g = max3 r g b ∧ b = max3 r g b := by
  have h1 : min3 r g b ≤ r ∧ min3 r g b ≤ g ∧ min3 r g b ≤ b := by
    rw [min3_eq]; simp
  have h2 : r ≤ max3 r g b ∧ g ≤ max3 r g b ∧ b ≤ max3 r g b := by
    rw [max3_eq]; simp
  rw [← h] at h1
  exact ⟨le_antisymm h2.1 h1.1, le_antisymm h2.2.1 h1.2.1, le_antisymm h2.2.2 h1.2.2⟩

omit [FloorRing K] [IsStrictOrderedRing K] in
theorem hslValue_core (n1 n2 x : K) (h0 : 0 ≤ x) (h1 : x ≤ 6) : hslValue n1 n2 x =
    if x < 1 then n1 + (n2 - n1) * x else if x < 3 then n2 else if x < 4 then n1 + (n2 - n1) * (4 - x) else n1 := by
  unfold hslValue
  simp only [if_neg (not_lt.mpr h0), if_neg (not_lt.mpr h1), gt_iff_lt]

omit [FloorRing K] in
theorem hslValue_rise (n1 n2 x : K) (h0 : 0 ≤ x) (h1 : x ≤ 1) : hslValue n1 n2 x = n1 + (n2 - n1) * x := by
  rw [hslValue_core _ _ _ (by linarith) (by linarith)]
  split_ifs with a b c
  · rfl
  · have : x = 1 := le_antisymm h1 (not_lt.mp a)
    rw [this]; ring
  · linarith
  · linarith

omit [FloorRing K] in
theorem hslValue_top (n1 n2 x : K) (h0 : 1 ≤ x) (h1 : x ≤ 3) : hslValue n1 n2 x = n2 := by
  rw [hslValue_core _ _ _ (by linarith) (by linarith), if_neg (by linarith)]
  split_ifs with a b
  · rfl
  · have : x = 3 := le_antisymm h1 (not_lt.mp a)
    rw [this]; ring
  · linarith

omit [FloorRing K] in
theorem hslValue_fall (n1 n2 x : K) (h0 : 3 ≤ x) (h1 : x ≤ 4) : hslValue n1 n2 x = n1 + (n2 - n1) * (4 - x) := by
  rw [hslValue_core _ _ _ (by linarith) (by linarith), if_neg (by linarith), if_neg (by linarith)]
  split_ifs with a
  · rfl
  · have : x = 4 := le_antisymm h1 (not_lt.mp a)
    rw [this]; ring

omit [FloorRing K] in
theorem hslValue_low (n1 n2 x : K) (h0 : 4 ≤ x) (h1 : x ≤ 6) : hslValue n1 n2 x = n1 := by
  rw [hslValue_core _ _ _ (by linarith) (by linarith), if_neg (by linarith), if_neg (by linarith), if_neg (by linarith)]

omit [FloorRing K] in
theorem hslValue_above (n1 n2 x : K) (h0 : 6 ≤ x) (h1 : x ≤ 12) : hslValue n1 n2 x = hslValue n1 n2 (x - 6) := by
  rcases lt_or_eq_of_le h0 with h | h
  · unfold hslValue
    rw [if_pos h, if_neg (show ¬ x - 6 > 6 by linarith), if_neg (show ¬ x - 6 < 0 by linarith)]
  · rw [← h, hslValue_low _ _ _ (by norm_num) (le_refl _), hslValue_rise _ _ _ (by norm_num) (by norm_num)]
    ring

omit [FloorRing K] in
theorem hslValue_below (n1 n2 x : K) (h0 : -6 ≤ x) (h1 : x ≤ 0) : hslValue n1 n2 x = hslValue n1 n2 (x + 6) := by
  rcases lt_or_eq_of_le h1 with h | h
  · unfold hslValue
    rw [if_neg (show ¬ x > 6 by linarith), if_pos h, if_neg (show ¬ x + 6 > 6 by linarith),
      if_neg (show ¬ x + 6 < 0 by linarith)]
  · rw [h, hslValue_rise _ _ _ (by norm_num) (by norm_num), hslValue_low _ _ _ (by norm_num) (by norm_num)]
    ring

omit [FloorRing K] in
/-- The six sectors of the three hue functions of HSL. -/
theorem hsl_sector (a b hue : K) (h0 : 0 ≤ hue) (h6 : hue < 6) :
    (hue ≤ 1 → hslValue a b (hue + 2) = b ∧ hslValue a b hue = a + (b - a) * hue ∧ hslValue a b (hue - 2) = a) ∧
    (1 ≤ hue → hue ≤ 2 → hslValue a b (hue + 2) = a + (b - a) * (2 - hue) ∧ hslValue a b hue = b ∧
      hslValue a b (hue - 2) = a) ∧
    (2 ≤ hue → hue ≤ 3 → hslValue a b (hue + 2) = a ∧ hslValue a b hue = b ∧
      hslValue a b (hue - 2) = a + (b - a) * (hue - 2)) ∧
    (3 ≤ hue → hue ≤ 4 → hslValue a b (hue + 2) = a ∧ hslValue a b hue = a + (b - a) * (4 - hue) ∧
      hslValue a b (hue - 2) = b) ∧
    (4 ≤ hue → hue ≤ 5 → hslValue a b (hue + 2) = a + (b - a) * (hue - 4) ∧ hslValue a b hue = a ∧
      hslValue a b (hue - 2) = b) ∧
    (5 ≤ hue → hslValue a b (hue + 2) = b ∧ hslValue a b hue = a ∧
      hslValue a b (hue - 2) = a + (b - a) * (6 - hue)) := by
  refine ⟨fun h => ⟨?_, ?_, ?_⟩, fun h h' => ⟨?_, ?_, ?_⟩, fun h h' => ⟨?_, ?_, ?_⟩, fun h h' => ⟨?_, ?_, ?_⟩,
    fun h h' => ⟨?_, ?_, ?_⟩, fun h => ⟨?_, ?_, ?_⟩⟩
  · exact hslValue_top _ _ _ (by linarith) (by linarith)
  · exact hslValue_rise _ _ _ h0 h
  · rw [hslValue_below _ _ _ (by linarith) (by linarith)]; exact hslValue_low _ _ _ (by linarith) (by linarith)
  · rw [hslValue_fall _ _ _ (by linarith) (by linarith)]; ring
  · exact hslValue_top _ _ _ (by linarith) (by linarith)
  · rw [hslValue_below _ _ _ (by linarith) (by linarith)]; exact hslValue_low _ _ _ (by linarith) (by linarith)
  · exact hslValue_low _ _ _ (by linarith) (by linarith)
  · exact hslValue_top _ _ _ (by linarith) (by linarith)
  · exact hslValue_rise _ _ _ (by linarith) (by linarith)
  · exact hslValue_low _ _ _ (by linarith) (by linarith)
  · exact hslValue_fall _ _ _ h h'
  · exact hslValue_top _ _ _ (by linarith) (by linarith)
  · rw [hslValue_above _ _ _ (by linarith) (by linarith), hslValue_rise _ _ _ (by linarith) (by linarith)]; ring
  · exact hslValue_low _ _ _ (by linarith) (by linarith)
  · exact hslValue_top _ _ _ (by linarith) (by linarith)
  · rw [hslValue_above _ _ _ (by linarith) (by linarith), hslValue_top _ _ _ (by linarith) (by linarith)]
  · exact hslValue_low _ _ _ (by linarith) h6.le
  · rw [hslValue_fall _ _ _ (by linarith) (by linarith)]; ring

end Verif.Color
