import Verif.Lemmas.EngineLight
import Verif.Props.C33_Colors
import Verif.Props.C58_PlainColour
import Mathlib.Algebra.Order.Floor.Ring

/-!
# C117: the colour settings of a brush change the colour as they say

Hue, saturation, value and lightness are described here without the conversions of the code: by the pure colour of a
hue, by how far a colour is from grey, and by its largest and smallest component.
-/

namespace Verif.Color
open Verif.Mask Verif.Spectral

section
variable {K : Type} [Field K] [LinearOrder K]

/-! ## Specification -/

/-- The nearest number from 0 to 1. -/
def unit (x : K) : K := max 0 (min 1 x)

/-- The pure colour of a hue, in turns: 0 is red, 1/3 green, 2/3 blue; each component is 1 on a third of the circle
around its own colour, 0 on a third around the opposite one, and changes evenly between. -/
def pureColour [FloorRing K] (h : K) : Rgb K :=
  let x := 6 * Int.fract h
  ⟨unit (|x - 3| - 1), unit (2 - |x - 2|), unit (2 - |x - 4|)⟩

/-- The colour of a hue with a saturation and a value: the pure colour is mixed with white and the mixture is
darkened. -/
def tinted [FloorRing K] (h s v : K) : Rgb K :=
  let p := pureColour h
  ⟨v * (1 - s * (1 - p.r)), v * (1 - s * (1 - p.g)), v * (1 - s * (1 - p.b))⟩

/-- The colour of a hue with a saturation and a lightness: as far from the grey of that lightness, in the direction
of the pure colour, as the saturation says, 1 being as far as there is room. -/
def toned [FloorRing K] (h s l : K) : Rgb K :=
  let p := pureColour h
  let room := min l (1 - l)
  ⟨l + s * room * (2 * p.r - 1), l + s * room * (2 * p.g - 1), l + s * room * (2 * p.b - 1)⟩

/-- A grey. -/
def greyOf (v : K) : Rgb K := ⟨v, v, v⟩

/-- The lightness of a colour: half way from its smallest to its largest component. -/
def lightness (c : Rgb K) : K := (top c + bottom c) / 2

/-- `c'` is `c` with its hue turned by `dh`, its saturation changed by `ds` as far as the colour is bright, and its
value changed by `dv`. What is almost grey has no hue. -/
def HsvChange [FloorRing K] (dh ds dv : K) (c c' : Rgb K) : Prop :=
  (top c - bottom c > 1 / 10000 → ∃ h s, 0 ≤ s ∧ s ≤ 1 ∧ c = tinted h s (top c) ∧
    c' = tinted (h + dh) (unit (s + s * top c * ds)) (unit (top c + dv))) ∧
  (top c - bottom c ≤ 1 / 10000 → (dh = 0 ∧ ds = 0 ∧ dv = 0 ∧ c' = c) ∨
    ((dh ≠ 0 ∨ ds ≠ 0 ∨ dv ≠ 0) ∧ c' = greyOf (unit (top c + dv))))

/-- `c'` is `c` with its lightness changed by `dl`, and its saturation by `ds` as far as the new lightness is from
black and white. -/
def HslChange [FloorRing K] (dl ds : K) (c c' : Rgb K) : Prop :=
  ∃ h s, 0 ≤ s ∧ s ≤ 1 ∧ (bottom c = top c → s = 0) ∧ c = toned h s (lightness c) ∧
    c' = toned h (unit (s + s * min |1 - (lightness c + dl)| |lightness c + dl| * 2 * ds)) (unit (lightness c + dl))

/-! ## The conversions of the code give these colours -/

variable [IsStrictOrderedRing K]

theorem clampK_unit (x : K) : clampK x 0 1 = unit x := by
  unfold clampK unit
  split_ifs with h1 h2
  · rw [min_eq_left h1.le, max_eq_right zero_le_one]
  · rw [min_eq_right (by linarith), max_eq_left h2.le]
  · rw [min_eq_right (by linarith), max_eq_right (by linarith)]

theorem unit_one {x : K} (h : 1 ≤ x) : unit x = 1 := by
  unfold unit; rw [min_eq_left h, max_eq_right zero_le_one]

theorem unit_zero {x : K} (h : x ≤ 0) : unit x = 0 := by
  unfold unit; rw [min_eq_right (by linarith), max_eq_left h]

theorem unit_id {x : K} (h0 : 0 ≤ x) (h1 : x ≤ 1) : unit x = x := by
  unfold unit; rw [min_eq_right h1, max_eq_right h0]

theorem unit_mem (x : K) : 0 ≤ unit x ∧ unit x ≤ 1 := by
  rw [← clampK_unit]; exact clampK_mem x

variable [FloorRing K]

/-- The pure colours on the six sectors. -/
theorem pureColour_sector (h x : K) (hx : x = 6 * Int.fract h) :
    (x ≤ 1 → pureColour h = ⟨1, x, 0⟩) ∧ (1 ≤ x → x ≤ 2 → pureColour h = ⟨2 - x, 1, 0⟩) ∧
    (2 ≤ x → x ≤ 3 → pureColour h = ⟨0, 1, x - 2⟩) ∧ (3 ≤ x → x ≤ 4 → pureColour h = ⟨0, 4 - x, 1⟩) ∧
    (4 ≤ x → x ≤ 5 → pureColour h = ⟨x - 4, 0, 1⟩) ∧ (5 ≤ x → pureColour h = ⟨1, 0, 6 - x⟩) := by
  have x0 : 0 ≤ x := by rw [hx]; exact mul_nonneg (by norm_num) (Int.fract_nonneg h)
  have x6 : x < 6 := by rw [hx]; linarith [Int.fract_lt_one h]
  unfold pureColour
  simp only [← hx]
  refine ⟨fun b => ?_, fun a b => ?_, fun a b => ?_, fun a b => ?_, fun a b => ?_, fun a => ?_⟩
  · rw [abs_of_nonpos (by linarith : x - 3 ≤ 0), abs_of_nonpos (by linarith : x - 2 ≤ 0),
      abs_of_nonpos (by linarith : x - 4 ≤ 0), unit_one (by linarith), unit_id (by linarith) (by linarith),
      unit_zero (by linarith)]
    congr 1; ring
  · rw [abs_of_nonpos (by linarith : x - 3 ≤ 0), abs_of_nonpos (by linarith : x - 2 ≤ 0),
      abs_of_nonpos (by linarith : x - 4 ≤ 0), unit_id (by linarith) (by linarith), unit_one (by linarith),
      unit_zero (by linarith)]
    congr 1; ring
  · rw [abs_of_nonpos (by linarith : x - 3 ≤ 0), abs_of_nonneg (by linarith : 0 ≤ x - 2),
      abs_of_nonpos (by linarith : x - 4 ≤ 0), unit_zero (by linarith), unit_one (by linarith),
      unit_id (by linarith) (by linarith)]
    congr 1; ring
  · rw [abs_of_nonneg (by linarith : 0 ≤ x - 3), abs_of_nonneg (by linarith : 0 ≤ x - 2),
      abs_of_nonpos (by linarith : x - 4 ≤ 0), unit_zero (by linarith), unit_id (by linarith) (by linarith),
      unit_one (by linarith)]
    congr 1; ring
  · rw [abs_of_nonneg (by linarith : 0 ≤ x - 3), abs_of_nonneg (by linarith : 0 ≤ x - 2),
      abs_of_nonneg (by linarith : 0 ≤ x - 4), unit_id (by linarith) (by linarith), unit_zero (by linarith),
      unit_one (by linarith)]
    congr 1; ring
  · rw [abs_of_nonneg (by linarith : 0 ≤ x - 3), abs_of_nonneg (by linarith : 0 ≤ x - 2),
      abs_of_nonneg (by linarith : 0 ≤ x - 4), unit_one (by linarith), unit_zero (by linarith),
      unit_id (by linarith) (by linarith)]
    congr 1; ring

/-- The six sectors cover the circle. -/
theorem sector_cases (h : K) : ∃ x, x = 6 * Int.fract h ∧ 0 ≤ x ∧ x < 6 ∧
    (x ≤ 1 ∨ (1 ≤ x ∧ x ≤ 2) ∨ (2 ≤ x ∧ x ≤ 3) ∨ (3 ≤ x ∧ x ≤ 4) ∨ (4 ≤ x ∧ x ≤ 5) ∨ 5 ≤ x) := by
  refine ⟨_, rfl, mul_nonneg (by norm_num) (Int.fract_nonneg h), by linarith [Int.fract_lt_one h], ?_⟩
  generalize 6 * Int.fract h = x
  rcases le_or_gt x 1 with h1 | h1
  · exact .inl h1
  rcases le_or_gt x 2 with h2 | h2
  · exact .inr (.inl ⟨h1.le, h2⟩)
  rcases le_or_gt x 3 with h3 | h3
  · exact .inr (.inr (.inl ⟨h2.le, h3⟩))
  rcases le_or_gt x 4 with h4 | h4
  · exact .inr (.inr (.inr (.inl ⟨h3.le, h4⟩)))
  rcases le_or_gt x 5 with h5 | h5
  · exact .inr (.inr (.inr (.inr (.inl ⟨h4.le, h5⟩))))
  · exact .inr (.inr (.inr (.inr (.inr h5.le))))

/-- `hsv_to_rgb_float` gives the colour of the hue, the saturation and the value. -/
theorem hsvToRgb_tinted (h s v : K) : hsvToRgb ⟨h, s, v⟩ = tinted h (unit s) (unit v) := by
  have hs := unit_mem s
  have hv := unit_mem v
  by_cases h0 : unit s = 0
  · unfold hsvToRgb tinted
    simp only [clampK_unit, h0, if_true, zero_mul, sub_zero, mul_one]
  · obtain ⟨x, hx, x0, x6, cs⟩ := sector_cases h
    have e : hsvToRgb ⟨h, s, v⟩ = hsvToRgb ⟨x / 6, unit s, unit v⟩ := by
      have : x / 6 = h - ⌊h⌋ := by rw [hx, Int.fract]; field_simp
      rw [this]
      unfold hsvToRgb
      simp only [clampK_unit, unit_id hs.1 hs.2, unit_id hv.1 hv.2, Int.floor_sub_intCast, sub_self, Int.cast_zero, sub_zero]
    rw [e]
    obtain ⟨p0, p1, p2, p3, p4, p5⟩ := pureColour_sector h x hx
    obtain ⟨s0, s1, s2, s3, s4, s5⟩ := hsv_sector (unit s) (unit v) x (lt_of_le_of_ne hs.1 (Ne.symm h0)) hs.2 hv.1 hv.2 x0 x6
    unfold tinted
    rcases cs with c | ⟨c, c'⟩ | ⟨c, c'⟩ | ⟨c, c'⟩ | ⟨c, c'⟩ | c
    · rw [s0 c, p0 c]; ext <;> simp
    · rw [s1 c c', p1 c c']; ext <;> simp only <;> ring
    · rw [s2 c c', p2 c c']; ext <;> simp only <;> ring
    · rw [s3 c c', p3 c c']; ext <;> simp only <;> ring
    · rw [s4 c c', p4 c c']; ext <;> simp only <;> ring
    · rw [s5 c, p5 c]; ext <;> simp only <;> ring

/-- `hsl_to_rgb_float` gives the colour of the hue, the saturation and the lightness. -/
theorem hslToRgb_toned (h s l : K) : hslToRgb ⟨h, s, l⟩ = toned h (unit s) (unit l) := by
  have hs := unit_mem s
  have hl := unit_mem l
  by_cases h0 : unit s = 0
  · unfold hslToRgb toned
    simp only [clampK_unit, h0, if_true, zero_mul, add_zero]
  · obtain ⟨x, hx, x0, x6, cs⟩ := sector_cases h
    have e6 : (h - ⌊h⌋) * 6 = x := by rw [hx, Int.fract]; ring
    obtain ⟨p0, p1, p2, p3, p4, p5⟩ := pureColour_sector h x hx
    unfold hslToRgb toned
    simp only [clampK_unit, if_neg h0, e6]
    generalize unit l = L at *
    generalize unit s = S at *
    have hm : (if L ≤ 1 / 2 then L * (1 + S) else L + S - L * S) = L + S * min L (1 - L) := by
      split_ifs with q
      · rw [min_eq_left (by linarith)]; ring
      · rw [min_eq_right (by linarith)]; ring
    rw [hm]
    have hm1 : 2 * L - (L + S * min L (1 - L)) = L - S * min L (1 - L) := by ring
    rw [hm1]
    generalize S * min L (1 - L) = d
    obtain ⟨s0, s1, s2, s3, s4, s5⟩ := hsl_sector (L - d) (L + d) x x0 x6
    rcases cs with c | ⟨c, c'⟩ | ⟨c, c'⟩ | ⟨c, c'⟩ | ⟨c, c'⟩ | c
    · obtain ⟨a1, a2, a3⟩ := s0 c
      rw [a1, a2, a3, p0 c]; ext <;> simp only <;> ring
    · obtain ⟨a1, a2, a3⟩ := s1 c c'
      rw [a1, a2, a3, p1 c c']; ext <;> simp only <;> ring
    · obtain ⟨a1, a2, a3⟩ := s2 c c'
      rw [a1, a2, a3, p2 c c']; ext <;> simp only <;> ring
    · obtain ⟨a1, a2, a3⟩ := s3 c c'
      rw [a1, a2, a3, p3 c c']; ext <;> simp only <;> ring
    · obtain ⟨a1, a2, a3⟩ := s4 c c'
      rw [a1, a2, a3, p4 c c']; ext <;> simp only <;> ring
    · obtain ⟨a1, a2, a3⟩ := s5 c
      rw [a1, a2, a3, p5 c]; ext <;> simp only <;> ring

/-! ## The changes the code makes -/

theorem hsvChange_code (dh ds dv : K) {c : Rgb K} (hc : InCube c) : HsvChange dh ds dv c
    (if dh ≠ 0 ∨ ds ≠ 0 ∨ dv ≠ 0 then
      hsvToRgb ⟨(rgbToHsv c).h + dh, (rgbToHsv c).s + (rgbToHsv c).s * (rgbToHsv c).v * ds, (rgbToHsv c).v + dv⟩
     else c) := by
  have hst := rgbToHsv_standard c
  have rt := hsv_roundtrip c hc
  obtain ⟨r, g, b⟩ := c
  obtain ⟨hr, hg, hb⟩ := hc
  simp only at hr hg hb
  have et : top ⟨r, g, b⟩ = max3 r g b := (max3_eq r g b).symm
  have eb : bottom ⟨r, g, b⟩ = min3 r g b := (min3_eq r g b).symm
  constructor
  · intro hd
    rw [et, eb] at hd
    obtain ⟨hue, M, m, hM, -, -, -, -, eq, -⟩ := rgbToHsv_chromatic r g b hr hg hb hd
    have hv : (rgbToHsv ⟨r, g, b⟩).v = top ⟨r, g, b⟩ := by rw [eq, et, hM]
    have hc0 := rt.1 (by rw [et, eb]; exact hd)
    have hc1 : (⟨r, g, b⟩ : Rgb K) = tinted (rgbToHsv ⟨r, g, b⟩).h (rgbToHsv ⟨r, g, b⟩).s (top ⟨r, g, b⟩) := by
      have := hsvToRgb_tinted (rgbToHsv ⟨r, g, b⟩).h (rgbToHsv ⟨r, g, b⟩).s (rgbToHsv ⟨r, g, b⟩).v
      rw [unit_id hst.2.1.1 hst.2.1.2, unit_id hst.2.2.1 hst.2.2.2] at this
      rw [← hv, ← this]
      exact hc0.symm
    refine ⟨_, _, hst.2.1.1, hst.2.1.2, hc1, ?_⟩
    rw [← hv]
    split_ifs with q
    · rw [hsvToRgb_tinted]
    · push Not at q
      obtain ⟨q1, q2, q3⟩ := q
      rw [q1, q2, q3, mul_zero, add_zero, add_zero, add_zero, unit_id hst.2.1.1 hst.2.1.2,
        unit_id hst.2.2.1 hst.2.2.2, hv]
      exact hc1
  · intro hd
    by_cases q : dh ≠ 0 ∨ ds ≠ 0 ∨ dv ≠ 0
    · refine .inr ⟨q, ?_⟩
      rw [if_pos q, et]
      have : rgbToHsv ⟨r, g, b⟩ = ⟨0, 0, max3 r g b⟩ := by
        rw [et, eb] at hd
        unfold rgbToHsv
        simp only [clampK_id hr.1 hr.2, clampK_id hg.1 hg.2, clampK_id hb.1 hb.2]
        rw [if_neg (not_lt.mpr hd)]
      rw [this, hsvToRgb_tinted]
      simp only [zero_mul, add_zero, unit_zero (le_refl (0 : K))]
      unfold tinted greyOf
      simp
    · rw [if_neg q]
      push Not at q
      exact .inl ⟨q.1, q.2.1, q.2.2, rfl⟩

theorem hslChange_code (dl ds : K) {c : Rgb K} (hc : InCube c) : HslChange dl ds c
    (if dl ≠ 0 ∨ ds ≠ 0 then
      hslToRgb ⟨(rgbToHsl c).h, (rgbToHsl c).s + (rgbToHsl c).s *
        minC |1 - ((rgbToHsl c).v + dl)| |(rgbToHsl c).v + dl| * 2 * ds, (rgbToHsl c).v + dl⟩
     else c) := by
  have hst := rgbToHsl_standard c
  have rt := hsl_roundtrip c hc
  have hl : (rgbToHsl c).v = lightness c ∧ (bottom c = top c → (rgbToHsl c).s = 0) := by
    obtain ⟨r, g, b⟩ := c
    obtain ⟨hr, hg, hb⟩ := hc
    simp only at hr hg hb
    have et : top ⟨r, g, b⟩ = max3 r g b := (max3_eq r g b).symm
    have eb : bottom ⟨r, g, b⟩ = min3 r g b := (min3_eq r g b).symm
    unfold lightness
    rw [et, eb]
    unfold rgbToHsl
    simp only [clampK_id hr.1 hr.2, clampK_id hg.1 hg.2, clampK_id hb.1 hb.2]
    by_cases q : max3 r g b = min3 r g b
    · rw [if_pos q]; exact ⟨rfl, fun _ => rfl⟩
    · rw [if_neg q]; exact ⟨rfl, fun h => absurd h.symm q⟩
  have hc1 : c = toned (rgbToHsl c).h (rgbToHsl c).s (lightness c) := by
    have := hslToRgb_toned (rgbToHsl c).h (rgbToHsl c).s (rgbToHsl c).v
    rw [unit_id hst.2.1.1 hst.2.1.2, unit_id hst.2.2.1 hst.2.2.2] at this
    rw [← hl.1, ← this]
    exact rt.symm
  refine ⟨_, _, hst.2.1.1, hst.2.1.2, hl.2, hc1, ?_⟩
  rw [← hl.1]
  split_ifs with q
  · rw [hslToRgb_toned, minC_eq]
  · push Not at q
    rw [q.1, q.2, mul_zero, add_zero, add_zero, unit_id hst.2.1.1 hst.2.1.2, unit_id hst.2.2.1 hst.2.2.2, hl.1]
    exact hc1

/-! ## What the changes do to the components -/

theorem pureColour_ends (h : K) : top (pureColour h) = 1 ∧ bottom (pureColour h) = 0 := by
  obtain ⟨x, hx, x0, x6, cs⟩ := sector_cases h
  obtain ⟨p0, p1, p2, p3, p4, p5⟩ := pureColour_sector h x hx
  have t : ∀ a b c : K, a ≤ 1 → b ≤ 1 → c ≤ 1 → (a = 1 ∨ b = 1 ∨ c = 1) → top ⟨a, b, c⟩ = 1 := by
    intro a b c ha hb hc h
    refine le_antisymm (max_le (max_le ha hb) hc) ?_
    rcases h with h | h | h
    · exact h.symm.le.trans ((le_max_left _ _).trans (le_max_left _ _))
    · exact h.symm.le.trans ((le_max_right _ _).trans (le_max_left _ _))
    · exact h.symm.le.trans (le_max_right _ _)
  have u : ∀ a b c : K, 0 ≤ a → 0 ≤ b → 0 ≤ c → (a = 0 ∨ b = 0 ∨ c = 0) → bottom ⟨a, b, c⟩ = 0 := by
    intro a b c ha hb hc h
    refine le_antisymm ?_ (le_min (le_min ha hb) hc)
    rcases h with h | h | h
    · exact ((min_le_left _ _).trans (min_le_left _ _)).trans h.le
    · exact ((min_le_left _ _).trans (min_le_right _ _)).trans h.le
    · exact (min_le_right _ _).trans h.le
  rcases cs with c | ⟨c, c'⟩ | ⟨c, c'⟩ | ⟨c, c'⟩ | ⟨c, c'⟩ | c
  · rw [p0 c]; exact ⟨t _ _ _ (by linarith) (by linarith) (by linarith) (by simp),
      u _ _ _ (by linarith) (by linarith) (by linarith) (by simp)⟩
  · rw [p1 c c']; exact ⟨t _ _ _ (by linarith) (by linarith) (by linarith) (by simp),
      u _ _ _ (by linarith) (by linarith) (by linarith) (by simp)⟩
  · rw [p2 c c']; exact ⟨t _ _ _ (by linarith) (by linarith) (by linarith) (by simp),
      u _ _ _ (by linarith) (by linarith) (by linarith) (by simp)⟩
  · rw [p3 c c']; exact ⟨t _ _ _ (by linarith) (by linarith) (by linarith) (by simp),
      u _ _ _ (by linarith) (by linarith) (by linarith) (by simp)⟩
  · rw [p4 c c']; exact ⟨t _ _ _ (by linarith) (by linarith) (by linarith) (by simp),
      u _ _ _ (by linarith) (by linarith) (by linarith) (by simp)⟩
  · rw [p5 c]; exact ⟨t _ _ _ (by linarith) (by linarith) (by linarith) (by simp),
      u _ _ _ (by linarith) (by linarith) (by linarith) (by simp)⟩

omit [FloorRing K] in
/-- An increasing change of the components changes the largest and the smallest alike. -/
theorem ends_scaled (a k : K) (hk : 0 ≤ k) (p : Rgb K) :
    top (⟨a + k * p.r, a + k * p.g, a + k * p.b⟩ : Rgb K) = a + k * top p ∧
    bottom (⟨a + k * p.r, a + k * p.g, a + k * p.b⟩ : Rgb K) = a + k * bottom p := by
  have mono : Monotone fun x : K => a + k * x := fun x y h => by
    have := mul_le_mul_of_nonneg_left h hk
    simp only
    linarith
  unfold top bottom
  exact ⟨by rw [mono.map_max, mono.map_max], by rw [mono.map_min, mono.map_min]⟩

theorem tinted_ends (h : K) {s v : K} (hs : 0 ≤ s) (hv : 0 ≤ v) :
    top (tinted h s v) = v ∧ bottom (tinted h s v) = v * (1 - s) := by
  have e : tinted h s v = ⟨v * (1 - s) + v * s * (pureColour h).r, v * (1 - s) + v * s * (pureColour h).g,
      v * (1 - s) + v * s * (pureColour h).b⟩ := by
    unfold tinted; ext <;> simp only <;> ring
  obtain ⟨e1, e2⟩ := ends_scaled (v * (1 - s)) (v * s) (mul_nonneg hv hs) (pureColour h)
  obtain ⟨t1, t2⟩ := pureColour_ends h
  rw [e, e1, e2, t1, t2]
  constructor <;> ring

theorem toned_ends (h : K) {s l : K} (hs : 0 ≤ s) (hl : 0 ≤ l) (hl1 : l ≤ 1) :
    lightness (toned h s l) = l := by
  have e : toned h s l = ⟨(l - s * min l (1 - l)) + 2 * (s * min l (1 - l)) * (pureColour h).r,
      (l - s * min l (1 - l)) + 2 * (s * min l (1 - l)) * (pureColour h).g,
      (l - s * min l (1 - l)) + 2 * (s * min l (1 - l)) * (pureColour h).b⟩ := by
    unfold toned; ext <;> simp only <;> ring
  have hk : 0 ≤ 2 * (s * min l (1 - l)) := mul_nonneg (by norm_num) (mul_nonneg hs (le_min hl (by linarith)))
  obtain ⟨e1, e2⟩ := ends_scaled (l - s * min l (1 - l)) (2 * (s * min l (1 - l))) hk (pureColour h)
  obtain ⟨t1, t2⟩ := pureColour_ends h
  unfold lightness
  rw [e, e1, e2, t1, t2]
  ring

theorem fract_shift {h d x : K} (hx : x = 6 * Int.fract h) (h0 : 0 ≤ d) (h1 : d < 1) :
    (x + 6 * d < 6 → 6 * Int.fract (h + d) = x + 6 * d) ∧ (6 ≤ x + 6 * d → 6 * Int.fract (h + d) = x + 6 * d - 6) := by
  have f0 := Int.fract_nonneg h
  have f1 := Int.fract_lt_one h
  have e : Int.fract (h + d) = Int.fract (Int.fract h + d) := by
    rw [Int.fract_eq_fract]
    exact ⟨⌊h⌋, by unfold Int.fract; ring⟩
  rw [e]
  constructor
  · intro q
    rw [Int.fract_eq_self.mpr ⟨by linarith, by linarith⟩, hx]; ring
  · intro q
    have : Int.fract (Int.fract h + d) = Int.fract h + d - 1 := by
      rw [Int.fract_eq_iff]
      exact ⟨by linarith, by linarith, 1, by push_cast; ring⟩
    rw [this, hx]; ring

/-- Half a turn gives the opposite colour. -/
theorem pureColour_half (h : K) : pureColour (h + 1 / 2) =
    ⟨1 - (pureColour h).r, 1 - (pureColour h).g, 1 - (pureColour h).b⟩ := by
  obtain ⟨x, hx, x0, x6, cs⟩ := sector_cases h
  obtain ⟨p0, p1, p2, p3, p4, p5⟩ := pureColour_sector h x hx
  obtain ⟨f1, f2⟩ := fract_shift (d := 1 / 2) hx (by norm_num) (by norm_num)
  rcases lt_or_ge x 3 with hx3 | hx3
  · obtain ⟨q0, q1, q2, q3, q4, q5⟩ := pureColour_sector (h + 1 / 2) (x + 3) (by rw [f1 (by linarith)]; ring)
    rcases cs with c | ⟨c, c'⟩ | ⟨c, c'⟩ | ⟨c, c'⟩ | ⟨c, c'⟩ | c
    · rw [p0 c, q3 (by linarith) (by linarith)]; ext <;> simp only <;> ring
    · rw [p1 c c', q4 (by linarith) (by linarith)]; ext <;> simp only <;> ring
    · rw [p2 c c', q5 (by linarith)]; ext <;> simp only <;> ring
    · linarith
    · linarith
    · linarith
  · obtain ⟨q0, q1, q2, q3, q4, q5⟩ := pureColour_sector (h + 1 / 2) (x - 3) (by rw [f2 (by linarith)]; ring)
    rcases cs with c | ⟨c, c'⟩ | ⟨c, c'⟩ | ⟨c, c'⟩ | ⟨c, c'⟩ | c
    · linarith
    · linarith
    · have : x = 3 := le_antisymm c' hx3
      rw [p2 c c', q0 (by linarith), this]; ext <;> simp only <;> ring
    · rw [p3 c c', q0 (by linarith)]; ext <;> simp only <;> ring
    · rw [p4 c c', q1 (by linarith) (by linarith)]; ext <;> simp only <;> ring
    · rw [p5 c, q2 (by linarith) (by linarith)]; ext <;> simp only <;> ring

/-- A third of a turn makes red green, green blue and blue red. -/
theorem pureColour_third (h : K) : pureColour (h + 1 / 3) = ⟨(pureColour h).b, (pureColour h).r, (pureColour h).g⟩ := by
  obtain ⟨x, hx, x0, x6, cs⟩ := sector_cases h
  obtain ⟨p0, p1, p2, p3, p4, p5⟩ := pureColour_sector h x hx
  obtain ⟨f1, f2⟩ := fract_shift (d := 1 / 3) hx (by norm_num) (by norm_num)
  rcases lt_or_ge x 4 with hx3 | hx3
  · obtain ⟨q0, q1, q2, q3, q4, q5⟩ := pureColour_sector (h + 1 / 3) (x + 2) (by rw [f1 (by linarith)]; ring)
    rcases cs with c | ⟨c, c'⟩ | ⟨c, c'⟩ | ⟨c, c'⟩ | ⟨c, c'⟩ | c
    · rw [p0 c, q2 (by linarith) (by linarith)]; ext <;> simp only <;> ring
    · rw [p1 c c', q3 (by linarith) (by linarith)]; ext <;> simp only <;> ring
    · rw [p2 c c', q4 (by linarith) (by linarith)]; ext <;> simp only <;> ring
    · rw [p3 c c', q5 (by linarith)]; ext <;> simp only <;> ring
    · linarith
    · linarith
  · obtain ⟨q0, q1, q2, q3, q4, q5⟩ := pureColour_sector (h + 1 / 3) (x - 4) (by rw [f2 (by linarith)]; ring)
    rcases cs with c | ⟨c, c'⟩ | ⟨c, c'⟩ | ⟨c, c'⟩ | ⟨c, c'⟩ | c
    · linarith
    · linarith
    · linarith
    · have : x = 4 := le_antisymm c' hx3
      rw [p3 c c', q0 (by linarith), this]; ext <;> simp only <;> ring
    · rw [p4 c c', q0 (by linarith)]
    · rw [p5 c, q1 (by linarith) (by linarith)]; ext <;> simp only <;> ring

theorem pureColour_whole (h : K) (n : ℤ) : pureColour (h + n) = pureColour h := by
  unfold pureColour
  rw [Int.fract_add_intCast]

/-- The saturation and the largest component of a colour that is not almost grey. -/
theorem saturation_pos {c : Rgb K} (hg : top c - bottom c > 1 / 10000) {h s : K} (hs : 0 ≤ s) (hv : 0 ≤ top c)
    (hc : c = tinted h s (top c)) : 0 < s ∧ 0 < top c ∧ bottom c = top c * (1 - s) := by
  have e := (tinted_ends h hs hv).2
  rw [← hc] at e
  rw [e] at hg
  have q : 0 < top c * s := by
    have : (0 : K) < 1 / 10000 := by norm_num
    nlinarith
  refine ⟨lt_of_le_of_ne hs ?_, lt_of_le_of_ne hv ?_, e⟩
  · intro z; rw [← z, mul_zero] at q; exact lt_irrefl _ q
  · intro z; rw [← z, zero_mul] at q; exact lt_irrefl _ q

/-- **C117**, hue. The hue setting keeps the largest and the smallest component. Whole turns change nothing, half a
turn gives the opposite colour, a third of a turn makes of every red part a green one, of green blue and of blue
red. -/
theorem hue_turns {dh : K} {c c' : Rgb K} (hc : InCube c) (hg : top c - bottom c > 1 / 10000)
    (h : HsvChange dh 0 0 c c') :
    top c' = top c ∧ bottom c' = bottom c ∧ ((∃ n : ℤ, dh = n) → c' = c) ∧
    (dh = 1 / 2 → c' = ⟨top c + bottom c - c.r, top c + bottom c - c.g, top c + bottom c - c.b⟩) ∧
    (dh = 1 / 3 → c' = ⟨c.b, c.r, c.g⟩) := by
  have t0 : 0 ≤ top c := hc.1.1.trans ((le_max_left _ _).trans (le_max_left _ _))
  have t1 : top c ≤ 1 := max_le (max_le hc.1.2 hc.2.1.2) hc.2.2.2
  obtain ⟨hue, s, s0, s1, e, e'⟩ := h.1 hg
  rw [mul_zero, add_zero, add_zero, unit_id s0 s1, unit_id t0 t1] at e'
  obtain ⟨-, -, eb⟩ := saturation_pos hg s0 t0 e
  have k := tinted_ends (hue + dh) s0 t0
  rw [← e'] at k
  refine ⟨k.1, by rw [k.2, eb], ?_, ?_, ?_⟩
  · rintro ⟨n, hn⟩
    rw [e', hn]
    unfold tinted
    rw [pureColour_whole]
    exact e.symm
  · intro hd
    have f : (⟨top c + bottom c - c.r, top c + bottom c - c.g, top c + bottom c - c.b⟩ : Rgb K) =
        ⟨top c + bottom c - (tinted hue s (top c)).r, top c + bottom c - (tinted hue s (top c)).g,
          top c + bottom c - (tinted hue s (top c)).b⟩ := by rw [← e]
    rw [f, e', hd, eb]
    unfold tinted
    rw [pureColour_half]
    ext <;> simp only <;> ring
  · intro hd
    have f : (⟨c.b, c.r, c.g⟩ : Rgb K) =
        ⟨(tinted hue s (top c)).b, (tinted hue s (top c)).r, (tinted hue s (top c)).g⟩ := by rw [← e]
    rw [f, e', hd]
    unfold tinted
    rw [pureColour_third]

/-- **C117**, value. The value setting multiplies all components by the same number, so that the largest becomes what
it was plus the setting, from 0 to 1. -/
theorem value_scales {dv : K} {c c' : Rgb K} (hc : InCube c) (hg : top c - bottom c > 1 / 10000)
    (h : HsvChange 0 0 dv c c') :
    top c' = unit (top c + dv) ∧ ∃ k, 0 ≤ k ∧ k * top c = unit (top c + dv) ∧ c' = ⟨k * c.r, k * c.g, k * c.b⟩ := by
  have t0 : 0 ≤ top c := hc.1.1.trans ((le_max_left _ _).trans (le_max_left _ _))
  obtain ⟨hue, s, s0, s1, e, e'⟩ := h.1 hg
  rw [mul_zero, add_zero, add_zero, unit_id s0 s1] at e'
  obtain ⟨-, tp, -⟩ := saturation_pos hg s0 t0 e
  have u := unit_mem (top c + dv)
  have k := tinted_ends hue s0 u.1
  rw [← e'] at k
  have kt : unit (top c + dv) / top c * top c = unit (top c + dv) := div_mul_cancel₀ _ tp.ne'
  refine ⟨k.1, _, div_nonneg u.1 t0, kt, ?_⟩
  have f : ∀ a : K, (⟨a * c.r, a * c.g, a * c.b⟩ : Rgb K) =
      ⟨a * (tinted hue s (top c)).r, a * (tinted hue s (top c)).g, a * (tinted hue s (top c)).b⟩ := by
    intro a; rw [← e]
  rw [f, e']
  unfold tinted
  ext <;> simp only <;> rw [← mul_assoc, kt]

/-- **C117**, saturation by HSV. The largest component stays, and the others move away from it, or towards it, in the
same ratio: towards it for a negative setting, and up to it, so that the colour is grey, from minus one over the value
on. -/
theorem saturation_spreads {ds : K} {c c' : Rgb K} (hc : InCube c) (hg : top c - bottom c > 1 / 10000)
    (h : HsvChange 0 ds 0 c c') :
    top c' = top c ∧ ∃ k, 0 ≤ k ∧ (ds ≤ 0 → k ≤ 1) ∧ (0 ≤ ds → 1 ≤ k) ∧ (1 + top c * ds ≤ 0 → k = 0) ∧
      top c - c'.r = k * (top c - c.r) ∧ top c - c'.g = k * (top c - c.g) ∧ top c - c'.b = k * (top c - c.b) := by
  have t0 : 0 ≤ top c := hc.1.1.trans ((le_max_left _ _).trans (le_max_left _ _))
  have t1 : top c ≤ 1 := max_le (max_le hc.1.2 hc.2.1.2) hc.2.2.2
  obtain ⟨hue, s, s0, s1, e, e'⟩ := h.1 hg
  rw [add_zero, add_zero, unit_id t0 t1] at e'
  obtain ⟨sp, tp, -⟩ := saturation_pos hg s0 t0 e
  have u := unit_mem (s + s * top c * ds)
  have k := tinted_ends hue u.1 t0
  rw [← e'] at k
  have kt : unit (s + s * top c * ds) / s * s = unit (s + s * top c * ds) := div_mul_cancel₀ _ sp.ne'
  have comp : ∀ p : K, top c - top c * (1 - unit (s + s * top c * ds) * (1 - p)) =
      unit (s + s * top c * ds) / s * (top c - top c * (1 - s * (1 - p))) := by
    intro p
    have : unit (s + s * top c * ds) / s * (top c - top c * (1 - s * (1 - p))) =
        unit (s + s * top c * ds) / s * s * (top c * (1 - p)) := by ring
    rw [this, kt]; ring
  have st : 0 ≤ s * top c := mul_nonneg s0 t0
  refine ⟨k.1, unit (s + s * top c * ds) / s, div_nonneg u.1 s0, ?_, ?_, ?_, ?_, ?_, ?_⟩
  · intro hd
    rw [div_le_one sp]
    have : s + s * top c * ds ≤ s := by nlinarith
    unfold unit
    exact max_le s0 ((min_le_right _ _).trans this)
  · intro hd
    rw [one_le_div sp]
    have : s ≤ s + s * top c * ds := by nlinarith
    unfold unit
    exact (le_min s1 this).trans (le_max_right _ _)
  · intro hd
    have : s + s * top c * ds = s * (1 + top c * ds) := by ring
    rw [this, unit_zero (mul_nonpos_of_nonneg_of_nonpos s0 hd), zero_div]
  · have := comp (pureColour hue).r
    rw [e', show c.r = (tinted hue s (top c)).r by rw [← e]]
    exact this
  · have := comp (pureColour hue).g
    rw [e', show c.g = (tinted hue s (top c)).g by rw [← e]]
    exact this
  · have := comp (pureColour hue).b
    rw [e', show c.b = (tinted hue s (top c)).b by rw [← e]]
    exact this

/-- **C117**, lightness and saturation by HSL. The lightness becomes what it was plus the setting, from 0 to 1; the
components keep their order and the ratio of their distances from it. With the setting at 1 or more the colour is
white, with -1 or less it is black. -/
theorem lightness_moves {dl ds : K} {c c' : Rgb K} (hc : InCube c) (h : HslChange dl ds c c') :
    lightness c' = unit (lightness c + dl) ∧ (1 ≤ dl → c' = greyOf 1) ∧ (dl ≤ -1 → c' = greyOf 0) ∧
    (bottom c = top c → c' = greyOf (unit (lightness c + dl))) ∧
    ∃ k, 0 ≤ k ∧ c'.r - lightness c' = k * (c.r - lightness c) ∧ c'.g - lightness c' = k * (c.g - lightness c) ∧
      c'.b - lightness c' = k * (c.b - lightness c) ∧
      (dl = 0 → (ds ≤ 0 → k ≤ 1) ∧ (0 ≤ ds → 1 ≤ k ∨ bottom c = top c)) := by
  have t0 : 0 ≤ bottom c := le_min (le_min hc.1.1 hc.2.1.1) hc.2.2.1
  have t1 : top c ≤ 1 := max_le (max_le hc.1.2 hc.2.1.2) hc.2.2.2
  have tb : bottom c ≤ top c := ((min_le_left _ _).trans (min_le_left _ _)).trans ((le_max_left _ _).trans (le_max_left _ _))
  have l0 : 0 ≤ lightness c := by unfold lightness; linarith
  have l1 : lightness c ≤ 1 := by unfold lightness; linarith
  obtain ⟨hue, s, s0, s1, sg, e, e'⟩ := h
  have us := unit_mem (s + s * min |1 - (lightness c + dl)| |lightness c + dl| * 2 * ds)
  have ul := unit_mem (lightness c + dl)
  have kl := toned_ends hue us.1 ul.1 ul.2
  rw [← e'] at kl
  have er : ∀ s' : K, toned hue s' 1 = greyOf 1 := by intro s'; unfold toned greyOf; simp
  have ez : ∀ s' : K, toned hue s' 0 = greyOf 0 := by intro s'; unfold toned greyOf; simp
  refine ⟨kl, ?_, ?_, ?_, ?_⟩
  · intro q
    rw [e', unit_one (by linarith : 1 ≤ lightness c + dl), er]
  · intro q
    rw [e', unit_zero (by linarith : lightness c + dl ≤ 0), ez]
  · intro q
    have z := sg q
    rw [e', z, zero_mul, zero_mul, zero_mul, add_zero, unit_zero (le_refl (0 : K))]
    unfold toned greyOf
    simp
  · set s' := unit (s + s * min |1 - (lightness c + dl)| |lightness c + dl| * 2 * ds) with hs'
    set l' := unit (lightness c + dl) with hl'
    have room : 0 ≤ min l' (1 - l') := le_min ul.1 (by linarith [ul.2])
    have room0 : 0 ≤ min (lightness c) (1 - lightness c) := le_min l0 (by linarith)
    by_cases z : s * min (lightness c) (1 - lightness c) = 0
    · have hb : bottom c = top c := by
        have ea : c = ⟨lightness c, lightness c, lightness c⟩ := by
          have : toned hue s (lightness c) = ⟨lightness c, lightness c, lightness c⟩ := by
            unfold toned; simp only [z, zero_mul, add_zero]
          rw [← this]; exact e
        have b1 : bottom c = lightness c := by
          rw [ea]; unfold bottom; simp only [min_self]; rw [← ea]
        have b2 : top c = lightness c := by
          rw [ea]; unfold top; simp only [max_self]; rw [← ea]
        rw [b1, b2]
      have zs := sg hb
      have zs' : s' = 0 := by rw [hs', zs, zero_mul, zero_mul, zero_mul, add_zero, unit_zero (le_refl (0 : K))]
      have ec' : c' = ⟨l', l', l'⟩ := by
        rw [e', zs']; unfold toned; simp
      have ec : c = ⟨lightness c, lightness c, lightness c⟩ := by
        have : toned hue s (lightness c) = ⟨lightness c, lightness c, lightness c⟩ := by
          unfold toned; simp only [z, zero_mul, add_zero]
        rw [← this]; exact e
      refine ⟨0, le_refl _, ?_, ?_, ?_, fun _ => ⟨fun _ => zero_le_one, fun _ => .inr hb⟩⟩
      · rw [kl, ec']; simp
      · rw [kl, ec']; simp
      · rw [kl, ec']; simp
    · have sp : 0 < s * min (lightness c) (1 - lightness c) := lt_of_le_of_ne (mul_nonneg s0 room0) (Ne.symm z)
      have comp : ∀ p : K, l' + s' * min l' (1 - l') * (2 * p - 1) - l' =
          s' * min l' (1 - l') / (s * min (lightness c) (1 - lightness c)) *
            (lightness c + s * min (lightness c) (1 - lightness c) * (2 * p - 1) - lightness c) := by
        intro p
        generalize s * min (lightness c) (1 - lightness c) = B at *
        field_simp
        ring
      refine ⟨s' * min l' (1 - l') / (s * min (lightness c) (1 - lightness c)),
        div_nonneg (mul_nonneg us.1 room) sp.le, ?_, ?_, ?_, ?_⟩
      · have : c.r = (toned hue s (lightness c)).r := by rw [← e]
        rw [kl, this, e']; exact comp _
      · have : c.g = (toned hue s (lightness c)).g := by rw [← e]
        rw [kl, this, e']; exact comp _
      · have : c.b = (toned hue s (lightness c)).b := by rw [← e]
        rw [kl, this, e']; exact comp _
      · intro hd
        have hll : l' = lightness c := by rw [hl', hd, add_zero, unit_id l0 l1]
        rw [hll]
        have rp : 0 < min (lightness c) (1 - lightness c) := by
          rcases lt_or_eq_of_le room0 with q | q
          · exact q
          · rw [← q, mul_zero] at sp; exact absurd sp (lt_irrefl _)
        have ss : 0 ≤ s * min |1 - (lightness c + dl)| |lightness c + dl| * 2 :=
          mul_nonneg (mul_nonneg s0 (le_min (abs_nonneg _) (abs_nonneg _))) (by norm_num)
        constructor
        · intro q
          rw [div_le_one sp]
          refine mul_le_mul_of_nonneg_right ?_ room0
          rw [hs']
          have := mul_nonpos_of_nonneg_of_nonpos ss q
          unfold unit
          exact max_le s0 ((min_le_right _ _).trans (by linarith))
        · intro q
          left
          rw [one_le_div sp]
          refine mul_le_mul_of_nonneg_right ?_ room0
          rw [hs']
          have := mul_nonneg ss q
          unfold unit
          exact (le_min s1 (by linarith)).trans (le_max_right _ _)

end

end Verif.Color

namespace Verif.Engine
open Verif.Mask Verif.Color Verif.Spectral Verif.Map

section
variable {K R σ : Type} [Field K] [LinearOrder K] [IsStrictOrderedRing K] [FloorRing K]

/-- A colour raised to a power, component by component. -/
def raised (e : Env K R σ) (p : K) (c : Rgb K) : Rgb K := ⟨e.pow c.r p, e.pow c.g p, e.pow c.b p⟩

/-- `c'` is `c` with the changes that the settings say: first those in terms of hue, saturation and value, then those
in terms of lightness. Colours of a linear surface are changed as they are seen, with a gamma of 2.2. If no setting
changes the colour it is left as it is. -/
def Recoloured (e : Env K R σ) (lin : Bool) (dh dsv dv dl dsl : K) (c c' : Rgb K) : Prop :=
  (dh = 0 ∧ dsv = 0 ∧ dv = 0 ∧ dl = 0 ∧ dsl = 0 ∧ c' = c) ∨
  ((dh ≠ 0 ∨ dsv ≠ 0 ∨ dv ≠ 0 ∨ dl ≠ 0 ∨ dsl ≠ 0) ∧
    ∃ c1 c2, HsvChange dh dsv dv (if lin then raised e (1 / (22 / 10)) c else c) c1 ∧ HslChange dl dsl c1 c2 ∧
      c' = if lin then raised e (22 / 10) c2 else c2)

/-- Powers of numbers from 0 to 1 are from 0 to 1. -/
def PowersInRange (e : Env K R σ) : Prop := ∀ x p, 0 ≤ x → x ≤ 1 → 0 < p → 0 ≤ e.pow x p ∧ e.pow x p ≤ 1

theorem recoloured_code {e : Env K R σ} (he : PowersInRange e) (b : Brush K R) (lin : Bool) {c : Rgb K} (hc : InCube c) :
    Recoloured e lin (b.vals sChangeColorH) (b.vals sChangeColorHsvS) (b.vals sChangeColorV) (b.vals sChangeColorL)
      (b.vals sChangeColorHslS) c (colorDynamics e b lin c) := by
  by_cases q : (b.vals sChangeColorH ≠ 0 ∨ b.vals sChangeColorHsvS ≠ 0 ∨ b.vals sChangeColorV ≠ 0) ∨
      (b.vals sChangeColorL ≠ 0 ∨ b.vals sChangeColorHslS ≠ 0)
  · right
    refine ⟨by tauto, ?_⟩
    have h0 : InCube (if lin then raised e (1 / (22 / 10)) c else c) := by
      split_ifs
      · have p0 : (0 : K) < 1 / (22 / 10) := by norm_num
        exact ⟨he _ _ hc.1.1 hc.1.2 p0, he _ _ hc.2.1.1 hc.2.1.2 p0, he _ _ hc.2.2.1 hc.2.2.2 p0⟩
      · exact hc
    have h1 := hsvChange_code (b.vals sChangeColorH) (b.vals sChangeColorHsvS) (b.vals sChangeColorV) h0
    generalize hc0 : (if lin then raised e (1 / (22 / 10)) c else c) = c0 at *
    generalize hc1 : (if b.vals sChangeColorH ≠ 0 ∨ b.vals sChangeColorHsvS ≠ 0 ∨ b.vals sChangeColorV ≠ 0 then
      hsvToRgb ⟨(rgbToHsv c0).h + b.vals sChangeColorH, (rgbToHsv c0).s + (rgbToHsv c0).s * (rgbToHsv c0).v *
        b.vals sChangeColorHsvS, (rgbToHsv c0).v + b.vals sChangeColorV⟩ else c0) = c1 at *
    have h1c : InCube c1 := by
      rw [← hc1]
      split_ifs
      · exact hsvToRgb_cube _
      · exact h0
    have h2 := hslChange_code (b.vals sChangeColorL) (b.vals sChangeColorHslS) h1c
    refine ⟨c1, _, h1, h2, ?_⟩
    have gam : ∀ (p : K) (x : Rgb K), (if lin = true ∧ ((b.vals sChangeColorH ≠ 0 ∨ b.vals sChangeColorHsvS ≠ 0 ∨
        b.vals sChangeColorV ≠ 0) ∨ (b.vals sChangeColorL ≠ 0 ∨ b.vals sChangeColorHslS ≠ 0)) then
        (⟨e.pow x.r p, e.pow x.g p, e.pow x.b p⟩ : Rgb K) else x) = if lin then raised e p x else x := by
      intro p x
      cases lin
      · simp
      · simp only [q, and_self, if_true]; rfl
    unfold colorDynamics
    dsimp only
    rw [gam, gam, hc0, hc1]
  · left
    push Not at q
    obtain ⟨⟨q1, q2, q3⟩, q4, q5⟩ := q
    exact ⟨q1, q2, q3, q4, q5, colorDynamics_plain q1 q3 q2 q4 q5 lin c⟩

/-- **C117.** Whatever the events, on a canvas of either encoding: every dab of a brush that does not smudge has the
colour of the brush, changed as the settings for hue, saturation, value and lightness say at some moment of the
stroke. -/
theorem colour_changes {e : Env K R σ} (he : PowersInRange e) {fuel : Nat} (lin : Bool) (ms : List (Motion K))
    (hm : ∀ m ∈ ms, m.linear = lin) {b : Brush K R} (hs : ∀ i, calculate (b.settings sSmudge) i ≤ 0) (surf : σ)
    {r : Brush K R × (σ × List (Dab.Args K))} (h : strokes (recordDabs e) fuel b (surf, []) ms = .ok r) :
    ∀ a ∈ r.2.2, ∃ i, Recoloured e lin (calculate (b.settings sChangeColorH) i)
      (calculate (b.settings sChangeColorHsvS) i) (calculate (b.settings sChangeColorV) i)
      (calculate (b.settings sChangeColorL) i) (calculate (b.settings sChangeColorHslS) i)
      (chosenColour b.settings) ⟨a.colorR, a.colorG, a.colorB⟩ := by
  have k := session_light (e := recordDabs e) (lin := lin)
    (I := fun s (l : σ × List (Dab.Args K)) => s = b.settings ∧ ∀ a ∈ l.2, ∃ i, Recoloured e lin
      (calculate (b.settings sChangeColorH) i) (calculate (b.settings sChangeColorHsvS) i)
      (calculate (b.settings sChangeColorV) i) (calculate (b.settings sChangeColorL) i)
      (calculate (b.settings sChangeColorHslS) i) (chosenColour b.settings) ⟨a.colorR, a.colorG, a.colorB⟩)
    (J := fun s v (l : σ × List (Dab.Args K)) => s = b.settings ∧ (∃ i, v = fun id => calculate (s id) i) ∧
      ∀ a ∈ l.2, ∃ i, Recoloured e lin
      (calculate (b.settings sChangeColorH) i) (calculate (b.settings sChangeColorHsvS) i)
      (calculate (b.settings sChangeColorV) i) (calculate (b.settings sChangeColorL) i)
      (calculate (b.settings sChangeColorHslS) i) (chosenColour b.settings) ⟨a.colorR, a.colorG, a.colorB⟩)
    (fun s surf i h => ⟨h.1, ⟨_, rfl⟩, h.2⟩) (by
      rintro b' surf p ⟨hb, ⟨i, hv⟩, hl⟩ hd
      refine ⟨hb, ?_⟩
      rcases drawDab_oneDab hd with h | ⟨o, pos, sm, col, -, -, -, fr, hc, fr2, -, h⟩
      · rw [h]; exact hl
      · rw [h]
        intro a ha
        rcases List.mem_append.mp ha with q | q
        · exact hl a q
        · rw [List.mem_singleton.mp q]
          rw [hb] at hv
          have k := smudgeColor_plain (by rw [fr.vals, hv]; exact hs i) hc
          have kv : ∀ id, col.2.2.vals id = calculate (b.settings id) i := by intro id; rw [fr2.vals, hv]
          refine ⟨i, ?_⟩
          have kc : col.2.1 = chosenColour b.settings := by rw [k]; unfold chosenColour; rw [← hb]; rfl
          have g := recoloured_code he col.2.2 lin (c := col.2.1) (by rw [kc]; exact hsvToRgb_cube _)
          rw [kv, kv, kv, kv, kv] at g
          rw [← kc]
          exact g) ms hm ⟨rfl, by simp⟩ h
  exact k.2

/-- **C117**, an example of what follows: with the hue setting at one half and the others off, every dab of a session
has the opposite of the chosen colour, and with the lightness setting at one or more every dab is white. -/
theorem opposite_and_white {e : Env K R σ} (he : PowersInRange e) {fuel : Nat} (ms : List (Motion K))
    (hm : ∀ m ∈ ms, m.linear = false) {b : Brush K R} (hs : ∀ i, calculate (b.settings sSmudge) i ≤ 0) (surf : σ)
    {r : Brush K R × (σ × List (Dab.Args K))} (h : strokes (recordDabs e) fuel b (surf, []) ms = .ok r) :
    ((∀ i, calculate (b.settings sChangeColorH) i = 1 / 2 ∧ calculate (b.settings sChangeColorHsvS) i = 0 ∧
        calculate (b.settings sChangeColorV) i = 0 ∧ calculate (b.settings sChangeColorL) i = 0 ∧
        calculate (b.settings sChangeColorHslS) i = 0) →
      top (chosenColour b.settings) - bottom (chosenColour b.settings) > 1 / 10000 →
      ∀ a ∈ r.2.2, a.colorR + (chosenColour b.settings).r = top (chosenColour b.settings) + bottom (chosenColour b.settings) ∧
        a.colorG + (chosenColour b.settings).g = top (chosenColour b.settings) + bottom (chosenColour b.settings) ∧
        a.colorB + (chosenColour b.settings).b = top (chosenColour b.settings) + bottom (chosenColour b.settings)) ∧
    ((∀ i, 1 ≤ calculate (b.settings sChangeColorL) i) →
      ∀ a ∈ r.2.2, a.colorR = 1 ∧ a.colorG = 1 ∧ a.colorB = 1) := by
  have k := colour_changes he false ms hm hs surf h
  have cube : InCube (chosenColour b.settings) := hsvToRgb_cube _
  constructor
  · intro hq hg a ha
    obtain ⟨i, q⟩ := k a ha
    obtain ⟨q1, q2, q3, q4, q5⟩ := hq i
    rw [q1, q2, q3, q4, q5] at q
    rcases q with q | ⟨-, c1, c2, g1, g2, g3⟩
    · exact absurd q.1 (by norm_num)
    · simp only [Bool.false_eq_true, if_false] at g1 g3
      have w := hue_turns cube hg g1
      have e1 := w.2.2.2.1 rfl
      have cube1 : InCube c1 := by
        obtain ⟨hue, s, s0, s1, -, e'⟩ := g1.1 hg
        rw [e', ← hsvToRgb_tinted]; exact hsvToRgb_cube _
      obtain ⟨hue, s, s0, s1, -, u1, u2⟩ := g2
      have l0 : 0 ≤ lightness c1 ∧ lightness c1 ≤ 1 := by
        have t0 : 0 ≤ bottom c1 := le_min (le_min cube1.1.1 cube1.2.1.1) cube1.2.2.1
        have t1 : top c1 ≤ 1 := max_le (max_le cube1.1.2 cube1.2.1.2) cube1.2.2.2
        have tb : bottom c1 ≤ top c1 :=
          ((min_le_left _ _).trans (min_le_left _ _)).trans ((le_max_left _ _).trans (le_max_left _ _))
        unfold lightness
        constructor <;> linarith
      rw [mul_zero, add_zero, add_zero, unit_id s0 s1, unit_id l0.1 l0.2, ← u1] at u2
      rw [u2, e1] at g3
      have r1 : a.colorR = _ := congrArg Rgb.r g3
      have r2 : a.colorG = _ := congrArg Rgb.g g3
      have r3 : a.colorB = _ := congrArg Rgb.b g3
      rw [r1, r2, r3]
      refine ⟨?_, ?_, ?_⟩ <;> simp
  · intro hq a ha
    obtain ⟨i, q⟩ := k a ha
    rcases q with q | ⟨-, c1, c2, g1, g2, g3⟩
    · have := hq i
      rw [q.2.2.2.1] at this
      exact absurd this (by norm_num)
    · simp only [Bool.false_eq_true, if_false] at g1 g3
      have cube1 : InCube c1 := by
        rcases lt_or_ge (1 / 10000) (top (chosenColour b.settings) - bottom (chosenColour b.settings)) with hg | hg
        · obtain ⟨hue, s, s0, s1, -, e'⟩ := g1.1 hg
          rw [e', ← hsvToRgb_tinted]; exact hsvToRgb_cube _
        · rcases g1.2 hg with ⟨-, -, -, e'⟩ | ⟨-, e'⟩
          · rw [e']; exact cube
          · rw [e']; exact ⟨unit_mem _, unit_mem _, unit_mem _⟩
      have w := (lightness_moves cube1 g2).2.1 (hq i)
      rw [w] at g3
      have r1 : a.colorR = _ := congrArg Rgb.r g3
      have r2 : a.colorG = _ := congrArg Rgb.g g3
      have r3 : a.colorB = _ := congrArg Rgb.b g3
      exact ⟨r1, r2, r3⟩

end

/-! ### Sessions that meet the hypotheses -/

/-- The demonstration brush in a light red, with the hue setting at one half. -/
def Demo.opposite : Brush ℚ Nat :=
  Demo.set (Demo.set (Demo.set Demo.brush sColorS (3 / 4)) sColorV 1) sChangeColorH (1 / 2)

/-- A black brush of a red hue, with the value setting at one half. -/
def Demo.brightened : Brush ℚ Nat :=
  Demo.set (Demo.set (Demo.set Demo.brush sColorS 1) sColorV 0) sChangeColorV (1 / 2)

example : PowersInRange Demo.env := fun _ _ h0 h1 _ => ⟨h0, h1⟩

example : (∀ i, calculate (Demo.opposite.settings sSmudge) i ≤ 0) ∧
    (∀ i, calculate (Demo.opposite.settings sChangeColorH) i = 1 / 2) ∧
    top (chosenColour Demo.opposite.settings) - bottom (chosenColour Demo.opposite.settings) > 1 / 10000 :=
  ⟨fun i => (demo_constant _ i).le, fun i => demo_constant _ i, by decide +kernel⟩

/-- A light red becomes a light cyan; a black brush has no hue, so that it becomes grey and not red. -/
example : Demo.look (fun r => r.2.2.map fun a => (a.colorR, a.colorG, a.colorB))
    (strokes (recordDabs Demo.env) 100 Demo.opposite ([], [])
      [Demo.motion 0 0 (1 / 2) (1 / 10), Demo.motion 1 0 (1 / 2) (1 / 10), Demo.motion 4 0 (1 / 2) (1 / 10)]) =
    some [(1 / 4, 1, 1), (1 / 4, 1, 1)] ∧
    Demo.look (fun r => r.2.2.map fun a => (a.colorR, a.colorG, a.colorB))
    (strokes (recordDabs Demo.env) 100 Demo.brightened ([], [])
      [Demo.motion 0 0 (1 / 2) (1 / 10), Demo.motion 1 0 (1 / 2) (1 / 10), Demo.motion 4 0 (1 / 2) (1 / 10)]) =
    some [(1 / 2, 1 / 2, 1 / 2), (1 / 2, 1 / 2, 1 / 2)] := by constructor <;> decide +kernel

end Verif.Engine
