import Verif.Props.C33_Colors

/-!
# C36: HCY; C37: mixing
-/

namespace Verif.Color
open Verif.Mask Verif.Spectral

variable {K : Type} [Field K] [LinearOrder K] [IsStrictOrderedRing K]

section
variable [FloorRing K]

/-! ## C36: HCY -/

/-- Luma weights that are positive, no two of which exceed the whole. -/
structure Weights.Ok (w : Weights K) : Prop where
  r : 0 < w.r
  g : 0 < w.g
  b : 0 < w.b
  rg : w.r + w.g < 1
  gb : w.g + w.b < 1
  rb : w.r + w.b < 1

omit [FloorRing K] in
theorem codeWeights_ok : (codeWeights : Weights K).Ok := by
  constructor <;> simp only [codeWeights] <;> norm_num

/-- Largest, middle and smallest component, from lines 476-484. -/
def hcyP (tm c y : K) : K := if tm ≥ y then y + y * c * (1 - tm) / tm else y + (1 - y) * c
def hcyO (th tm c y : K) : K :=
  if tm ≥ y then y + y * c * (th - tm) / tm else y + (1 - y) * c * (th - tm) / (1 - tm)
def hcyN (tm c y : K) : K := if tm ≥ y then y - y * c else y - (1 - y) * c * tm / (1 - tm)

omit [IsStrictOrderedRing K] [FloorRing K] in
theorem hcyO_one (tm c y : K) (h1 : 1 - tm ≠ 0) : hcyO 1 tm c y = hcyP tm c y := by
  unfold hcyO hcyP
  split_ifs
  · rfl
  · field_simp

omit [IsStrictOrderedRing K] [FloorRing K] in
theorem hcyO_zero (tm c y : K) (h0 : tm ≠ 0) : hcyO 0 tm c y = hcyN tm c y := by
  unfold hcyO hcyN
  split_ifs
  · field_simp; ring
  · ring

theorem hcy_sector (w : Weights K) (hw : w.Ok) (c y hue : K) (hc : 0 ≤ c ∧ c ≤ 1) (hy : 0 ≤ y ∧ y ≤ 1)
    (h0 : 0 ≤ hue) (h6 : hue < 6) :
    (hue ≤ 1 → hcyToRgb w ⟨hue / 6, c, y⟩ =
      ⟨hcyP (w.r + w.g * hue) c y, hcyO hue (w.r + w.g * hue) c y, hcyN (w.r + w.g * hue) c y⟩) ∧
    (1 ≤ hue → hue ≤ 2 → hcyToRgb w ⟨hue / 6, c, y⟩ =
      ⟨hcyO (2 - hue) (w.g + w.r * (2 - hue)) c y, hcyP (w.g + w.r * (2 - hue)) c y, hcyN (w.g + w.r * (2 - hue)) c y⟩) ∧
    (2 ≤ hue → hue ≤ 3 → hcyToRgb w ⟨hue / 6, c, y⟩ =
      ⟨hcyN (w.g + w.b * (hue - 2)) c y, hcyP (w.g + w.b * (hue - 2)) c y, hcyO (hue - 2) (w.g + w.b * (hue - 2)) c y⟩) ∧
    (3 ≤ hue → hue ≤ 4 → hcyToRgb w ⟨hue / 6, c, y⟩ =
      ⟨hcyN (w.b + w.g * (4 - hue)) c y, hcyO (4 - hue) (w.b + w.g * (4 - hue)) c y, hcyP (w.b + w.g * (4 - hue)) c y⟩) ∧
    (4 ≤ hue → hue ≤ 5 → hcyToRgb w ⟨hue / 6, c, y⟩ =
      ⟨hcyO (hue - 4) (w.b + w.r * (hue - 4)) c y, hcyN (w.b + w.r * (hue - 4)) c y, hcyP (w.b + w.r * (hue - 4)) c y⟩) ∧
    (5 ≤ hue → hcyToRgb w ⟨hue / 6, c, y⟩ =
      ⟨hcyP (w.r + w.b * (6 - hue)) c y, hcyN (w.r + w.b * (6 - hue)) c y, hcyO (6 - hue) (w.r + w.b * (6 - hue)) c y⟩) := by
  have hf : ⌊hue / 6⌋ = 0 := by
    rw [Int.floor_eq_iff]
    constructor <;> push_cast <;> linarith
  have e6 : fmod1 (hue / 6) * 6 = hue := by
    unfold fmod1
    rw [if_pos (by linarith), hf]
    push_cast
    ring
  have main : ∀ th tm : K,
      (th = if hue < 1 then hue else if hue < 2 then 2 - hue else if hue < 3 then hue - 2
        else if hue < 4 then 4 - hue else if hue < 5 then hue - 4 else 6 - hue) →
      (tm = if hue < 1 then w.r + w.g * th else if hue < 2 then w.g + w.r * th else if hue < 3 then w.g + w.b * th
        else if hue < 4 then w.b + w.g * th else if hue < 5 then w.b + w.r * th else w.r + w.b * th) →
      hcyToRgb w ⟨hue / 6, c, y⟩ =
        if hue < 1 then ⟨hcyP tm c y, hcyO th tm c y, hcyN tm c y⟩
        else if hue < 2 then ⟨hcyO th tm c y, hcyP tm c y, hcyN tm c y⟩
        else if hue < 3 then ⟨hcyN tm c y, hcyP tm c y, hcyO th tm c y⟩
        else if hue < 4 then ⟨hcyN tm c y, hcyO th tm c y, hcyP tm c y⟩
        else if hue < 5 then ⟨hcyO th tm c y, hcyN tm c y, hcyP tm c y⟩
        else ⟨hcyP tm c y, hcyN tm c y, hcyO th tm c y⟩ := by
    intro th tm hth htm
    unfold hcyToRgb
    simp only [hf, Int.cast_zero, sub_zero, e6, clampK_id hc.1 hc.2, clampK_id hy.1 hy.2]
    simp only [← hth, ← htm]
    rfl
  obtain ⟨wr, wg, wb, wrg, wgb, wrb⟩ := hw
  refine ⟨fun h => ?_, fun h h' => ?_, fun h h' => ?_, fun h h' => ?_, fun h h' => ?_, fun h => ?_⟩
  · rcases lt_or_eq_of_le h with h' | h'
    · rw [main hue (w.r + w.g * hue) (by rw [if_pos h']) (by rw [if_pos h']), if_pos h']
    · subst h'
      rw [main 1 (w.r + w.g) (by norm_num) (by norm_num; ring)]
      norm_num
      rw [hcyO_one _ _ _ (by linarith)]
      simp
  · rcases lt_or_eq_of_le h' with h' | h'
    · have a := not_lt.mpr h
      rw [main (2 - hue) (w.g + w.r * (2 - hue)) (by rw [if_neg a, if_pos h']) (by rw [if_neg a, if_pos h']), if_neg a, if_pos h']
    · subst h'
      rw [main 0 w.g (by norm_num) (by norm_num)]
      norm_num
      rw [hcyO_zero _ _ _ wg.ne']
      simp
  · rcases lt_or_eq_of_le h' with h' | h'
    · have a : ¬ hue < 1 := by linarith
      have a' := not_lt.mpr h
      rw [main (hue - 2) (w.g + w.b * (hue - 2)) (by rw [if_neg a, if_neg a', if_pos h']) (by rw [if_neg a, if_neg a', if_pos h']),
        if_neg a, if_neg a', if_pos h']
    · subst h'
      rw [main 1 (w.b + w.g) (by norm_num) (by norm_num)]
      norm_num
      rw [add_comm w.g w.b, hcyO_one _ _ _ (by linarith)]
      simp
  · rcases lt_or_eq_of_le h' with h' | h'
    · have a : ¬ hue < 1 := by linarith
      have a' : ¬ hue < 2 := by linarith
      have a'' := not_lt.mpr h
      rw [main (4 - hue) (w.b + w.g * (4 - hue)) (by rw [if_neg a, if_neg a', if_neg a'', if_pos h'])
        (by rw [if_neg a, if_neg a', if_neg a'', if_pos h']), if_neg a, if_neg a', if_neg a'', if_pos h']
    · subst h'
      rw [main 0 w.b (by norm_num) (by norm_num)]
      norm_num
      rw [hcyO_zero _ _ _ wb.ne']
      simp
  · rcases lt_or_eq_of_le h' with h' | h'
    · have a : ¬ hue < 1 := by linarith
      have a' : ¬ hue < 2 := by linarith
      have a'' : ¬ hue < 3 := by linarith
      have a3 := not_lt.mpr h
      rw [main (hue - 4) (w.b + w.r * (hue - 4)) (by rw [if_neg a, if_neg a', if_neg a'', if_neg a3, if_pos h'])
        (by rw [if_neg a, if_neg a', if_neg a'', if_neg a3, if_pos h']), if_neg a, if_neg a', if_neg a'', if_neg a3, if_pos h']
    · subst h'
      rw [main 1 (w.r + w.b) (by norm_num) (by norm_num)]
      norm_num
      rw [add_comm w.b w.r, hcyO_one _ _ _ (by linarith)]
      simp
  · have a : ¬ hue < 1 := by linarith
    have a' : ¬ hue < 2 := by linarith
    have a'' : ¬ hue < 3 := by linarith
    have a3 : ¬ hue < 4 := by linarith
    have a4 := not_lt.mpr h
    rw [main (6 - hue) (w.r + w.b * (6 - hue)) (by rw [if_neg a, if_neg a', if_neg a'', if_neg a3, if_neg a4])
        (by rw [if_neg a, if_neg a', if_neg a'', if_neg a3, if_neg a4]), if_neg a, if_neg a', if_neg a'', if_neg a3, if_neg a4]

omit [FloorRing K] in
/-- The heart of the round trip: if the luma is `n + (p - n) * tm`, the three components come back. -/
theorem hcy_heart (p n th tm y o c : K) (hn : 0 ≤ n) (hlt : n < p) (hp : p ≤ 1) (ht0 : 0 < tm) (ht1 : tm < 1)
    (ho : o = n + (p - n) * th) (hy : y = n + (p - n) * tm) (hc : c = maxC ((y - n) / y) ((p - y) / (1 - y))) :
    (0 < y ∧ y < 1) ∧ (0 ≤ c ∧ c ≤ 1) ∧ hcyP tm c y = p ∧ hcyO th tm c y = o ∧ hcyN tm c y = n := by
  have hd : 0 < p - n := by linarith
  have h1 : 0 < (p - n) * tm := mul_pos hd ht0
  have h2 : (p - n) * tm < p - n := mul_lt_of_lt_one_right hd ht1
  have y0 : 0 < y := by linarith
  have y1 : 0 < 1 - y := by linarith
  rw [maxC_eq] at hc
  have c1 : (y - n) / y ≤ 1 := by rw [div_le_one y0]; linarith
  have c2 : (p - y) / (1 - y) ≤ 1 := by rw [div_le_one y1]; linarith
  have c0 : 0 ≤ (y - n) / y := div_nonneg (by linarith) y0.le
  have t0 : tm ≠ 0 := ht0.ne'
  have t1 : 1 - tm ≠ 0 := by linarith
  have hyn : y - n = (p - n) * tm := by linarith
  have hpy : p - y = (p - n) * (1 - tm) := by rw [hy]; ring
  refine ⟨⟨y0, by linarith⟩, ⟨by rw [hc]; exact c0.trans (le_max_left _ _), by rw [hc]; exact max_le c1 c2⟩, ?_⟩
  by_cases h : tm ≥ y
  · have hle : (p - y) / (1 - y) ≤ (y - n) / y := by
      rw [div_le_div_iff₀ y1 y0]
      nlinarith [mul_nonneg hd.le (sub_nonneg.mpr h)]
    have hcy : y * c = (p - n) * tm := by
      rw [hc, max_eq_left hle, ← hyn]; field_simp
    unfold hcyP hcyO hcyN
    rw [if_pos h, if_pos h, if_pos h, hcy]
    refine ⟨?_, ?_, by linarith⟩
    · field_simp; rw [hy]; ring
    · field_simp; rw [ho, hy]; ring
  · have h' : tm < y := not_le.mp h
    have hle : (y - n) / y ≤ (p - y) / (1 - y) := by
      rw [div_le_div_iff₀ y0 y1]
      nlinarith [mul_nonneg hd.le (sub_nonneg.mpr h'.le)]
    have hcy : (1 - y) * c = (p - n) * (1 - tm) := by
      rw [hc, max_eq_right hle, ← hpy]; field_simp
    unfold hcyP hcyO hcyN
    rw [if_neg h, if_neg h, if_neg h, hcy]
    refine ⟨by rw [hy]; ring, ?_, ?_⟩
    · field_simp; rw [ho, hy]; ring
    · field_simp; rw [hy]; ring

/-- A colour whose luma is the smallest component plus the chromatic part survives the round trip. -/
theorem hcy_roundtrip_of (w : Weights K) (hw : w.Ok) (c : Rgb K) (h : InCube c) (hchr : bottom c < top c)
    (hsum : w.r + w.g + w.b = 1 ∨ bottom c = 0) :
    ∃ x, rgbToHcy w c = .ok x ∧ Standard x ∧ hcyToRgb w x = c := by
  obtain ⟨r, g, b⟩ := c
  obtain ⟨hr, hg, hb⟩ := h
  simp only at hr hg hb
  have et : top ⟨r, g, b⟩ = max3 r g b := (max3_eq r g b).symm
  have eb : bottom ⟨r, g, b⟩ = min3 r g b := (min3_eq r g b).symm
  rw [et, eb] at hchr
  rw [eb] at hsum
  have hm0 := le_min3 hr.1 hg.1 hb.1
  have hM1 := max3_le hr.2 hg.2 hb.2
  have hcases := hue_cases r g b _ _ rfl rfl hchr _ rfl
  have hne : ¬ (r = g ∧ g = b) := by
    rintro ⟨rfl, rfl⟩
    rw [max3_eq, min3_eq] at hchr
    simp at hchr
  have e : ∀ M m hue y, M = max3 r g b → m = min3 r g b → y = w.r * r + w.g * g + w.b * b → 0 ≤ hue → hue < 6 →
      hue = (if r = M then (if (g - b) / (M - m) < 0 then (g - b) / (M - m) + 6 else (g - b) / (M - m))
        else if g = M then 2 + (b - r) / (M - m) else 4 + (r - g) / (M - m)) → 0 < y → y < 1 →
      rgbToHcy w ⟨r, g, b⟩ = .ok ⟨hue / 6, maxC ((y - m) / y) ((M - y) / (1 - y)), y⟩ := by
    intro M m hue y hM hm hy h0 h6 hh y0 y1
    have hf : ⌊hue / 6⌋ = 0 := by
      rw [Int.floor_eq_iff]
      constructor <;> push_cast <;> linarith
    have ef : fmod1 (hue / 6) = hue / 6 := by
      unfold fmod1
      rw [if_pos (by linarith), hf]
      push_cast
      ring
    have hmM : m ≠ M := by rw [hM, hm]; exact hchr.ne
    unfold rgbToHcy
    simp only [← hM, ← hm, ← hy, if_neg hne, if_neg hmM]
    have hh' : (if M = r then (if (g - b) / (M - m) < 0 then (g - b) / (M - m) + 6 else (g - b) / (M - m))
        else if M = g then (b - r) / (M - m) + 2 else (r - g) / (M - m) + 4) = hue := by
      rw [hh]
      simp only [eq_comm (a := M), add_comm (_ / _) (2 : K), add_comm (_ / _) (4 : K)]
    rw [if_neg (by rintro (h | h) <;> linarith)]
    rw [hh', ef]
  generalize hM : max3 r g b = M at *
  generalize hm : min3 r g b = m at *
  generalize hhue : (if r = M then (if (g - b) / (M - m) < 0 then (g - b) / (M - m) + 6 else (g - b) / (M - m))
        else if g = M then 2 + (b - r) / (M - m) else 4 + (r - g) / (M - m)) = hue at *
  have hdd : M - m ≠ 0 := (sub_pos.mpr hchr).ne'
  have back : ∀ x t : K, t = (x - m) / (M - m) → x = m + (M - m) * t := by
    intro x t ht
    rw [ht]; field_simp; ring
  have hue0 : 0 ≤ hue ∧ hue < 6 := by
    rcases hcases with h | h | h | h | h | h <;> exact ⟨by linarith [h.2.2.2.2.2.1], by linarith [h.2.2.2.2.2.2]⟩
  -- what has to be done in each of the six cases
  have fin : ∀ th tm o y : K, 0 < tm → tm < 1 → o = m + (M - m) * th → y = m + (M - m) * tm →
      y = w.r * r + w.g * g + w.b * b →
      (∀ c, 0 ≤ c ∧ c ≤ 1 → hcyP tm c y = M → hcyO th tm c y = o → hcyN tm c y = m → 0 ≤ y ∧ y ≤ 1 →
        hcyToRgb w ⟨hue / 6, c, y⟩ = ⟨r, g, b⟩) →
      ∃ x, rgbToHcy w ⟨r, g, b⟩ = .ok x ∧ Standard x ∧ hcyToRgb w x = ⟨r, g, b⟩ := by
    intro th tm o y t0 t1 ho hy hy' k
    obtain ⟨⟨y0, y1⟩, hc, hP, hO, hN⟩ := hcy_heart M m th tm y o _ hm0 hchr hM1 t0 t1 ho hy rfl
    refine ⟨_, e M m hue y rfl rfl hy' hue0.1 hue0.2 hhue.symm y0 y1, ?_, k _ hc hP hO hN ⟨y0.le, y1.le⟩⟩
    exact ⟨⟨by simp only; linarith [hue0.1], by simp only; linarith [hue0.2]⟩, hc, y0.le, y1.le⟩
  have luma : ∀ wp wo wn o th : K, wp + wo + wn = w.r + w.g + w.b → o = m + (M - m) * th →
      wp * M + wo * o + wn * m = m + (M - m) * (wp + wo * th) := by
    intro wp wo wn o th hw' ho
    rcases hsum with hs | hs
    · rw [ho]; linear_combination m * (hw'.trans hs)
    · rw [ho, hs]; ring
  have tmr : ∀ wp wo th : K, 0 < wp → 0 < wo → wp + wo < 1 → 0 ≤ th → th ≤ 1 → 0 < wp + wo * th ∧ wp + wo * th < 1 := by
    intro wp wo th h1 h2 h3 h4 h5
    have := mul_nonneg h2.le h4
    have := mul_le_of_le_one_right h2.le h5
    constructor <;> linarith
  obtain ⟨wr, wg, wb, wrg, wgb, wrb⟩ := id hw
  rcases hcases with ⟨a1, a2, -, -, a3, a4, a5⟩ | ⟨a1, a2, -, -, a3, a4, a5⟩ | ⟨a1, a2, -, -, a3, a4, a5⟩ |
    ⟨a1, a2, -, -, a3, a4, a5⟩ | ⟨a1, a2, -, -, a3, a4, a5⟩ | ⟨a1, a2, -, -, a3, a4, a5⟩
  · have t := tmr w.r w.g hue wr wg wrg a4 a5
    have ho := back g hue a3
    have hl := luma w.r w.g w.b g hue rfl ho
    refine fin hue _ g _ t.1 t.2 ho hl ?_ ?_
    · rw [a1, a2]
    · intro c hc hP hO hN hy
      rw [(hcy_sector w hw c _ hue hc hy hue0.1 hue0.2).1 a5, hP, hO, hN, a1, a2]
  · have t := tmr w.g w.r (2 - hue) wg wr (by linarith) (by linarith) (by linarith)
    have ho := back r (2 - hue) (by rw [a3]; ring)
    have hl := luma w.g w.r w.b r (2 - hue) (by ring) ho
    refine fin (2 - hue) _ r _ t.1 t.2 ho hl ?_ ?_
    · rw [a1, a2]; ring
    · intro c hc hP hO hN hy
      rw [(hcy_sector w hw c _ hue hc hy hue0.1 hue0.2).2.1 a4 a5, hP, hO, hN, a1, a2]
  · have t := tmr w.g w.b (hue - 2) wg wb (by linarith) (by linarith) (by linarith)
    have ho := back b (hue - 2) (by rw [a3]; ring)
    have hl := luma w.g w.b w.r b (hue - 2) (by ring) ho
    refine fin (hue - 2) _ b _ t.1 t.2 ho hl ?_ ?_
    · rw [a1, a2]; ring
    · intro c hc hP hO hN hy
      rw [(hcy_sector w hw c _ hue hc hy hue0.1 hue0.2).2.2.1 a4 a5, hP, hO, hN, a1, a2]
  · have t := tmr w.b w.g (4 - hue) wb wg (by linarith) (by linarith) (by linarith)
    have ho := back g (4 - hue) (by rw [a3]; ring)
    have hl := luma w.b w.g w.r g (4 - hue) (by ring) ho
    refine fin (4 - hue) _ g _ t.1 t.2 ho hl ?_ ?_
    · rw [a1, a2]; ring
    · intro c hc hP hO hN hy
      rw [(hcy_sector w hw c _ hue hc hy hue0.1 hue0.2).2.2.2.1 a4 a5, hP, hO, hN, a1, a2]
  · have t := tmr w.b w.r (hue - 4) wb wr (by linarith) (by linarith) (by linarith)
    have ho := back r (hue - 4) (by rw [a3]; ring)
    have hl := luma w.b w.r w.g r (hue - 4) (by ring) ho
    refine fin (hue - 4) _ r _ t.1 t.2 ho hl ?_ ?_
    · rw [a1, a2]; ring
    · intro c hc hP hO hN hy
      rw [(hcy_sector w hw c _ hue hc hy hue0.1 hue0.2).2.2.2.2.1 a4 a5, hP, hO, hN, a1, a2]
  · have t := tmr w.r w.b (6 - hue) wr wb (by linarith) (by linarith) (by linarith)
    have ho := back b (6 - hue) (by rw [a3]; ring)
    have hl := luma w.r w.b w.g b (6 - hue) (by ring) ho
    refine fin (6 - hue) _ b _ t.1 t.2 ho hl ?_ ?_
    · rw [a1, a2]; ring
    · intro c hc hP hO hN hy
      rw [(hcy_sector w hw c _ hue hc hy hue0.1 hue0.2).2.2.2.2.2 a4, hP, hO, hN, a1, a2]

/-- **C36, partial.** Colours of the unit cube with at least one component zero and one not survive the
round trip through HCY. Missing: all others; for them it is false, see `hcy_changes_greys`. -/
theorem hcy_roundtrip_partial (c : Rgb K) (h : InCube c) (h0 : bottom c = 0) (h1 : 0 < top c) :
    ∃ x, rgbToHcy codeWeights c = .ok x ∧ Standard x ∧ hcyToRgb codeWeights x = c :=
  hcy_roundtrip_of codeWeights codeWeights_ok c h (by rw [h0]; exact h1) (.inr h0)

/-- The cause is the red weight 0.2162: the weights add up to 1.0036. With weights that add up to 1, such as
0.2126, 0.7152, 0.0722, every chromatic colour would survive. -/
theorem hcy_roundtrip_if_weights_add_up (w : Weights K) (hw : w.Ok) (hs : w.r + w.g + w.b = 1) (c : Rgb K) (h : InCube c)
    (hc : bottom c < top c) : ∃ x, rgbToHcy w c = .ok x ∧ Standard x ∧ hcyToRgb w x = c :=
  hcy_roundtrip_of w hw c h hc (.inl hs)

omit [FloorRing K] in
theorem rec709_ok : (⟨2126 / 10000, 7152 / 10000, 722 / 10000⟩ : Weights K).Ok := by
  constructor <;> norm_num

/-- **C36, negated.** Every grey except black and white comes back lighter: multiplied by 1.0036 (at most 1). -/
theorem hcy_changes_greys (v : K) (h0 : 0 < v) (h1 : v < 1) :
    ∃ x, rgbToHcy codeWeights ⟨v, v, v⟩ = .ok x ∧
      hcyToRgb codeWeights x = (let u := min (10036 / 10000 * v) 1; ⟨u, u, u⟩) ∧
      hcyToRgb codeWeights x ≠ ⟨v, v, v⟩ := by
  have e : rgbToHcy codeWeights ⟨v, v, v⟩ = .ok ⟨0, 0, 10036 / 10000 * v⟩ := by
    unfold rgbToHcy
    have : max3 v v v = min3 v v v := by rw [max3_eq, min3_eq]; simp
    simp only [this, and_self, if_true, codeWeights, fmod1]
    congr 2
    · simp
    · ring
  have hcl : clampK (10036 / 10000 * v) 0 1 = min (10036 / 10000 * v) 1 := by
    unfold clampK
    split_ifs with a b
    · rw [min_eq_right a.le]
    · nlinarith
    · rw [min_eq_left (not_lt.mp a)]
  have e2 : hcyToRgb codeWeights ⟨0, 0, 10036 / 10000 * v⟩ =
      (let u : K := min (10036 / 10000 * v) 1; ⟨u, u, u⟩) := by
    unfold hcyToRgb
    simp only [hcl, Int.floor_zero, Int.cast_zero, sub_zero, clampK_id (le_refl (0 : K)) zero_le_one, fmod1,
      le_refl, if_true, zero_mul, mul_zero, zero_lt_one, zero_div, add_zero, ite_self]
  refine ⟨_, e, e2, ?_⟩
  rw [e2]
  intro h
  have := congrArg Rgb.r h
  simp only at this
  rcases min_choice (10036 / 10000 * v) 1 with h' | h' <;> rw [h'] at this <;> nlinarith

/-- Worse, a colour whose luma is computed as exactly 1 makes the conversion divide by zero. -/
theorem hcy_divides_by_zero :
    ∃ c : Rgb K, InCube c ∧ bottom c < top c ∧ rgbToHcy codeWeights c = .error .divByZero := by
  refine ⟨⟨1, 1, 343 / 361⟩, ⟨by norm_num, by norm_num, by norm_num⟩, by simp [bottom, top]; norm_num, ?_⟩
  unfold rgbToHcy
  rw [if_neg (by norm_num), if_pos]
  right
  simp only [codeWeights]
  norm_num

def hcyTrip (c : Rgb ℚ) : Option (Rgb ℚ) :=
  match rgbToHcy codeWeights c with
  | .ok x => some (hcyToRgb codeWeights x)
  | .error _ => none

/-- Non-vacuity. -/
example : hcyTrip ⟨1, 1 / 2, 0⟩ = some ⟨1, 1 / 2, 0⟩ ∧ hcyTrip ⟨1 / 2, 1 / 2, 1 / 2⟩ = some ⟨2509 / 5000, 2509 / 5000, 2509 / 5000⟩ ∧
    hcyTrip ⟨1, 1, 99 / 100⟩ = some ⟨1, 1, 1⟩ := by decide +kernel

end

/-! ## C37 -/

omit [IsStrictOrderedRing K] in
theorem between_self_left (a b : K) : Between a a b := ⟨min_le_left _ _, le_max_left _ _⟩

theorem lerp_between (f a b : K) (h0 : 0 ≤ f) (h1 : f ≤ 1) : Between (a * f + b * (1 - f)) a b := by
  unfold Between
  rcases le_total a b with h | h
  · rw [min_eq_left h, max_eq_right h]
    constructor <;> nlinarith
  · rw [min_eq_right h, max_eq_left h]
    constructor <;> nlinarith

/-- A colour with components and alpha in [0, 1]. -/
def Rgba.Ok (c : Rgba K) : Prop := (0 ≤ c.r ∧ c.r ≤ 1) ∧ (0 ≤ c.g ∧ c.g ≤ 1) ∧ (0 ≤ c.b ∧ c.b ≤ 1) ∧ (0 ≤ c.a ∧ c.a ≤ 1)

theorem mix_alpha (pow : K → K → K) (old a b : Rgba K) (f paint : K) (h0 : 0 ≤ f) (h1 : f ≤ 1)
    (ha : a.Ok) (hb : b.Ok) : (mixColors pow old a b f paint).a = f * a.a + (1 - f) * b.a := by
  show clampK (f * a.a + (1 - f) * b.a) 0 1 = _
  obtain ⟨-, -, -, a0, a1⟩ := ha
  obtain ⟨-, -, -, b0, b1⟩ := hb
  apply clampK_id
  · exact add_nonneg (mul_nonneg h0 a0) (mul_nonneg (by linarith) b0)
  · nlinarith

/-- **C37.** Additive mixing: alpha and colour are the weighted averages, whatever the static buffer holds. -/
theorem mix_additive (pow : K → K → K) (old a b : Rgba K) (f : K) (h0 : 0 ≤ f) (h1 : f ≤ 1) (ha : a.Ok) (hb : b.Ok) :
    mixColors pow old a b f 0 =
      ⟨f * a.r + (1 - f) * b.r, f * a.g + (1 - f) * b.g, f * a.b + (1 - f) * b.b, f * a.a + (1 - f) * b.a⟩ := by
  have e := mix_alpha pow old a b f 0 h0 h1 ha hb
  unfold mixColors at e ⊢
  simp only [lt_irrefl, if_false, gt_iff_lt, zero_lt_one, if_true, mul_zero, zero_add, sub_zero, one_mul] at e ⊢
  rw [e]
  ext <;> simp only <;> ring

/-- **C37.** It lies between the two colours in each component, and factor 1 or 0 gives one of them. -/
theorem mix_between (pow : K → K → K) (old a b : Rgba K) (f : K) (h0 : 0 ≤ f) (h1 : f ≤ 1) (ha : a.Ok) (hb : b.Ok) :
    let m := mixColors pow old a b f 0
    Between m.r a.r b.r ∧ Between m.g a.g b.g ∧ Between m.b a.b b.b ∧ Between m.a a.a b.a ∧ m.Ok ∧
      (f = 1 → m = a) ∧ (f = 0 → m = b) := by
  have e := mix_additive pow old a b f h0 h1 ha hb
  intro m
  have e' : m = _ := e
  have k : ∀ x y : K, f * x + (1 - f) * y = x * f + y * (1 - f) := fun x y => by ring
  have ok : ∀ x y z : K, Between z x y → (0 ≤ x ∧ x ≤ 1) → (0 ≤ y ∧ y ≤ 1) → 0 ≤ z ∧ z ≤ 1 :=
    fun x y z h hx hy => ⟨(le_min hx.1 hy.1).trans h.1, h.2.trans (max_le hx.2 hy.2)⟩
  have r := lerp_between f a.r b.r h0 h1
  have g := lerp_between f a.g b.g h0 h1
  have b' := lerp_between f a.b b.b h0 h1
  have aa := lerp_between f a.a b.a h0 h1
  simp only [k] at e'
  rw [e']
  refine ⟨r, g, b', aa, ⟨ok _ _ _ r ha.1 hb.1, ok _ _ _ g ha.2.1 hb.2.1, ok _ _ _ b' ha.2.2.1 hb.2.2.1,
    ok _ _ _ aa ha.2.2.2 hb.2.2.2⟩, ?_, ?_⟩
  · rintro rfl; ext <;> simp
  · rintro rfl; ext <;> simp

theorem spectralToRgb_cube (sp : List K) : InCube (spectralToRgb sp) := by
  unfold spectralToRgb
  exact ⟨clampK_mem _, clampK_mem _, clampK_mem _⟩

/-- For any mixture of pigment and additive mixing the result has components in [0, 1] and the averaged alpha;
nothing is assumed about the power function. The buffer only matters for `paint ≤ 0`, and there it is multiplied
by `paint`. -/
theorem mix_ok (pow : K → K → K) (old a b : Rgba K) (f paint : K) (h0 : 0 ≤ f) (h1 : f ≤ 1) (p0 : 0 ≤ paint)
    (p1 : paint ≤ 1) (ha : a.Ok) (hb : b.Ok) :
    (mixColors pow old a b f paint).Ok ∧ (mixColors pow old a b f paint).a = f * a.a + (1 - f) * b.a ∧
      ∀ old', mixColors pow old a b f paint = mixColors pow old' a b f paint := by
  have hal := mix_alpha pow old a b f paint h0 h1 ha hb
  have hb0 := mix_between pow old a b f h0 h1 ha hb
  have hold : ∀ old', mixColors pow old a b f paint = mixColors pow old' a b f paint := by
    intro old'
    rcases lt_or_eq_of_le p0 with h | h
    · unfold mixColors
      simp only [gt_iff_lt, if_pos h]
    · rw [← h, mix_additive pow old a b f h0 h1 ha hb, mix_additive pow old' a b f h0 h1 ha hb]
  refine ⟨?_, hal, hold⟩
  rcases lt_or_eq_of_le p0 with h | h
  swap
  · rw [← h]; exact hb0.2.2.2.2.1
  have hala : 0 ≤ (mixColors pow old a b f paint).a ∧ (mixColors pow old a b f paint).a ≤ 1 := by
    show 0 ≤ clampK _ 0 1 ∧ clampK _ 0 1 ≤ 1
    exact clampK_mem _
  have mixes : ∀ x u v : K, (0 ≤ x ∧ x ≤ 1) → (0 ≤ u ∧ u ≤ 1) → (0 ≤ v ∧ v ≤ 1) →
      0 ≤ x * paint + (1 - paint) * (u * f + v * (1 - f)) ∧ x * paint + (1 - paint) * (u * f + v * (1 - f)) ≤ 1 := by
    intro x u v hx hu hv
    have hw : 0 ≤ u * f + v * (1 - f) ∧ u * f + v * (1 - f) ≤ 1 := by
      constructor
      · exact add_nonneg (mul_nonneg hu.1 h0) (mul_nonneg hv.1 (by linarith))
      · nlinarith [mul_nonneg h0 (sub_nonneg.mpr hu.2), mul_nonneg (sub_nonneg.mpr h1) (sub_nonneg.mpr hv.2)]
    constructor
    · exact add_nonneg (mul_nonneg hx.1 p0) (mul_nonneg (by linarith) hw.1)
    · nlinarith [mul_nonneg p0 (sub_nonneg.mpr hx.2), mul_nonneg (sub_nonneg.mpr p1) (sub_nonneg.mpr hw.2)]
  have cube := spectralToRgb_cube (wgm pow (rgbToSpectral a.rgb) (rgbToSpectral b.rgb)
    (if a.a = 0 then 0 else f * a.a / (a.a + b.a * (1 - f))) (1 - if a.a = 0 then 0 else f * a.a / (a.a + b.a * (1 - f))))
  by_cases h' : paint < 1
  · refine ⟨?_, ?_, ?_, hala⟩ <;> unfold mixColors <;> simp only [gt_iff_lt, if_pos h, if_pos h']
    · exact mixes _ _ _ cube.1 ha.1 hb.1
    · exact mixes _ _ _ cube.2.1 ha.2.1 hb.2.1
    · exact mixes _ _ _ cube.2.2 ha.2.2.1 hb.2.2.1
  · refine ⟨?_, ?_, ?_, hala⟩ <;> unfold mixColors <;> simp only [gt_iff_lt, if_pos h, if_neg h']
    · exact cube.1
    · exact cube.2.1
    · exact cube.2.2

/-- Non-vacuity. -/
example : mixColors (fun x _ => x) (⟨9, 9, 9, 9⟩ : Rgba ℚ) ⟨1, 0, 1 / 2, 1⟩ ⟨0, 1, 1 / 2, 0⟩ (1 / 4) 0 =
    ⟨1 / 4, 3 / 4, 1 / 2, 1 / 4⟩ := by decide +kernel

end Verif.Color
