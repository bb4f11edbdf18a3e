import Verif.Lemmas.FloatColor

/-!
# C91: the brush colour in single precision

A brush keeps its colour as hue, saturation and value, all of type `float`. Converting a colour to HSV and back
changes every component by at most 0.000002 and does not change the largest one at all, unless the
components are within 0.0001 of each other: then the colour becomes grey. In the units of 1/32768 in which pictures
are stored, every component comes back the same or one unit less, and one unit less does happen.
-/

namespace Verif.FloatColor
open Float32 FloatStroke Color Mask Spectral

/-! ## Specification -/

/-- All components are numbers of the type `float`. -/
def Single (c : Rgb ℚ) : Prop := F32 c.r ∧ F32 c.g ∧ F32 c.b

/-- No component differs by more than `E`. -/
def Alike (E : ℚ) (c c' : Rgb ℚ) : Prop := |c'.r - c.r| ≤ E ∧ |c'.g - c.g| ≤ E ∧ |c'.b - c.b| ≤ E

/-- A colour of a picture, in units of 1/32768. -/
structure Units where
  r : ℕ
  g : ℕ
  b : ℕ

namespace Units

/-- No component above 32768. -/
def Valid (k : Units) : Prop := k.r ≤ 32768 ∧ k.g ≤ 32768 ∧ k.b ≤ 32768
/-- The largest component. -/
def top (k : Units) : ℕ := max (max k.r k.g) k.b
/-- The smallest component. -/
def bottom (k : Units) : ℕ := min (min k.r k.g) k.b
/-- As fractions. -/
def colour (k : Units) : Rgb ℚ := ⟨k.r / 32768, k.g / 32768, k.b / 32768⟩

end Units

/-- A component as it is written into a picture: times 32768, without the fraction
(mypaint-tiled-surface.c:652-654). -/
def stored (x : ℚ) : ℤ := ⌊rnd (x * 32768)⌋

/-- There and back again. -/
abbrev backAndForth (c : Rgb ℚ) : Rgb ℚ := hsvToRgb (rgbToHsv c)

/-! ## C91 -/

theorem lip_total {M s t x y : ℚ} {D : ℚ → ℚ} (lip : ∀ x y, |D x - D y| ≤ |x - y|) (mem : ∀ x, 0 ≤ D x ∧ D x ≤ 1) (M0 : 0 ≤ M) (M1 : M ≤ 1)
    (t0 : 0 ≤ t) (t1 : t ≤ 1) (hs : |s - t| ≤ 12 / 10 ^ 8) (hx : |x - y| ≤ 1 / 10 ^ 6) {out : ℚ}
    (ho : |out - M * (1 - s * D x)| ≤ 7 / 10 ^ 8) : |out - M * (1 - t * D y)| ≤ 2 / 10 ^ 6 := by
  have e : M * (1 - s * D x) - M * (1 - t * D y) = -(M * ((s - t) * D x + t * (D x - D y))) := by ring
  have h1 : |(s - t) * D x| ≤ 12 / 10 ^ 8 := by
    rw [abs_mul, abs_of_nonneg (mem x).1]
    calc |s - t| * D x ≤ |s - t| * 1 := mul_le_mul_of_nonneg_left (mem x).2 (abs_nonneg _)
      _ ≤ _ := by linarith
  have h2 : |t * (D x - D y)| ≤ 1 / 10 ^ 6 := by
    rw [abs_mul, abs_of_nonneg t0]
    calc t * |D x - D y| ≤ 1 * |D x - D y| := mul_le_mul_of_nonneg_right t1 (abs_nonneg _)
      _ ≤ _ := by rw [one_mul]; exact (lip x y).trans hx
  have h3 := abs_add_le ((s - t) * D x) (t * (D x - D y))
  have h4 : |M * (1 - s * D x) - M * (1 - t * D y)| ≤ 12 / 10 ^ 8 + 1 / 10 ^ 6 := by
    rw [e, abs_neg, abs_mul, abs_of_nonneg M0]
    calc M * |(s - t) * D x + t * (D x - D y)| ≤ 1 * |(s - t) * D x + t * (D x - D y)| :=
          mul_le_mul_of_nonneg_right M1 (abs_nonneg _)
      _ ≤ _ := by linarith
  have := abs_sub_le out (M * (1 - s * D x)) (M * (1 - t * D y))
  linarith

theorem exact_of (c : Rgb ℚ) : ∃ hue, Exact c.r c.g c.b hue (top c) (bottom c) :=
  ⟨_, (max3_eq _ _ _).symm, (min3_eq _ _ _).symm, rfl⟩

theorem bottom_mem {c : Rgb ℚ} (hc : InCube c) : 0 ≤ bottom c ∧ top c ≤ 1 := by
  obtain ⟨⟨a, b⟩, ⟨a', b'⟩, ⟨a'', b''⟩⟩ := hc
  exact ⟨le_min (le_min a a') a'', max_le (max_le b b') b''⟩

theorem bottom_le_top (c : Rgb ℚ) : bottom c ≤ top c :=
  (min_le_left _ _).trans ((min_le_left _ _).trans ((le_max_left _ _).trans (le_max_left _ _)))

theorem vivid_roundtrip {c : Rgb ℚ} (hf : Single c) (hc : InCube c) (hthr : rnd (top c - bottom c) > rnd64 (1 / 10000)) :
    Alike (2 / 10 ^ 6) c (backAndForth c) := by
  obtain ⟨hue, hx⟩ := exact_of c
  obtain ⟨m0, M1⟩ := bottom_mem hc
  have hle := bottom_le_top c
  have hlt : bottom c < top c := by
    rcases hle.lt_or_eq with h | h
    · exact h
    · rw [h, sub_self, rnd_zero] at hthr
      have := threshold_bounds.1
      norm_num at this hthr
      linarith
  generalize top c = M at *
  generalize bottom c = m at *
  have M0 : 0 < M := by linarith
  obtain ⟨h, s, e, fh, fs, h0, h1, s0, s1, eh, es⟩ := rgbToHsv_near hf.1 hf.2.1 hf.2.2 hc.1 hc.2.1 hc.2.2 hx hthr
  obtain ⟨-, br, bg, bb⟩ := exact_back hx hlt m0
  have N := hsvToRgb_near fh fs h0 h1 s0 s1 M0.le M1
  have t0 : 0 ≤ (M - m) / M := div_nonneg (by linarith) M0.le
  have t1 : (M - m) / M ≤ 1 := by rw [div_le_one M0]; linarith
  have e' : rgbToHsv c = ⟨h, s, M⟩ := e
  unfold backAndForth
  rw [e']
  refine ⟨?_, ?_, ?_⟩
  · rw [br]; exact lip_total dipR_lip dipR_mem M0.le M1 t0 t1 es eh N.r
  · rw [bg]; exact lip_total dipG_lip dipG_mem M0.le M1 t0 t1 es eh N.g
  · rw [bb]; exact lip_total dipB_lip dipB_mem M0.le M1 t0 t1 es eh N.b

theorem grey_hsv {c : Rgb ℚ} (hc : InCube c) (hthr : ¬ rnd (top c - bottom c) > rnd64 (1 / 10000)) :
    rgbToHsv c = ⟨0, 0, top c⟩ := by
  have e1 : max3 c.r c.g c.b = top c := max3_eq _ _ _
  have e2 : min3 c.r c.g c.b = bottom c := min3_eq _ _ _
  unfold rgbToHsv
  simp only [clampK_id hc.1.1 hc.1.2, clampK_id hc.2.1.1 hc.2.1.2, clampK_id hc.2.2.1 hc.2.2.2, e1, e2]
  rw [if_neg hthr]

theorem grey_roundtrip {c : Rgb ℚ} (hc : InCube c) (hthr : ¬ rnd (top c - bottom c) > rnd64 (1 / 10000)) :
    backAndForth c = ⟨top c, top c, top c⟩ := by
  obtain ⟨m0, M1⟩ := bottom_mem hc
  unfold backAndForth
  rw [grey_hsv hc hthr]
  unfold hsvToRgb
  dsimp only
  rw [clampK_id le_rfl zero_le_one, if_pos rfl, clampK_id (m0.trans (bottom_le_top c)) M1]

theorem wide {c : Rgb ℚ} (hd : 1 / 9999 ≤ top c - bottom c) : rnd (top c - bottom c) > rnd64 (1 / 10000) := by
  have := rnd_err (top c - bottom c)
  rw [abs_of_nonneg (by linarith : 0 ≤ top c - bottom c)] at this
  have h2 := (abs_le.mp this).1
  have h3 := threshold_bounds.2
  generalize rnd64 (1 / 10000) = z at *
  have : 1 / 10000 + 1 / 10 ^ 19 < (1 / 9999 : ℚ) * (1 - 1 / 16777216) - 1 / 10 ^ 40 := by norm_num
  show z < _
  linarith

theorem narrow {c : Rgb ℚ} (hd : top c - bottom c ≤ 1 / 10001) : ¬ rnd (top c - bottom c) > rnd64 (1 / 10000) := by
  have hle := bottom_le_top c
  have := rnd_err (top c - bottom c)
  rw [abs_of_nonneg (by linarith : 0 ≤ top c - bottom c)] at this
  have h2 := (abs_le.mp this).2
  have h3 := threshold_bounds.1
  generalize rnd64 (1 / 10000) = z at *
  have : (1 / 10001 : ℚ) * (1 + 1 / 16777216) + 1 / 10 ^ 40 ≤ 1 / 10000 - 1 / 10 ^ 19 := by norm_num
  rw [gt_iff_lt, not_lt]
  linarith

/-- **C91.** Converting a colour to HSV and back changes no component by more than 0.000002; or else the components
differ by at most 0.00011 from each other and the colour becomes grey, as light as the largest of them. -/
theorem hsv_roundtrip_float (c : Rgb ℚ) (hf : Single c) (hc : InCube c) :
    Alike (2 / 10 ^ 6) c (backAndForth c) ∨
      (top c - bottom c < 1 / 9999 ∧ backAndForth c = ⟨top c, top c, top c⟩) := by
  by_cases hthr : rnd (top c - bottom c) > rnd64 (1 / 10000)
  · exact Or.inl (vivid_roundtrip hf hc hthr)
  · refine Or.inr ⟨?_, grey_roundtrip hc hthr⟩
    by_contra h
    exact hthr (wide (not_lt.mp h))

/-- **C91.** A colour whose components are closer to each other than 0.000099 becomes grey. -/
theorem hsv_near_grey_float (c : Rgb ℚ) (hc : InCube c) (hd : top c - bottom c ≤ 1 / 10001) :
    backAndForth c = ⟨top c, top c, top c⟩ := grey_roundtrip hc (narrow hd)

/-! ### The largest component -/

theorem channel_mem {v p : ℚ} (fv : F32 v) (v0 : 0 ≤ v) (p0 : 0 ≤ p) (p1 : p ≤ 1) :
    0 ≤ rnd (rnd64 (v * rnd64 (1 - p))) ∧ rnd (rnd64 (v * rnd64 (1 - p))) ≤ v := by
  have d0 := FloatAngle.double_of_float float_zero
  have d1 := FloatAngle.double_of_float float_one
  have a0 : 0 ≤ rnd64 (1 - p) := le_round 53 (-1074) (by norm_num) d0 (by linarith)
  have a1 : rnd64 (1 - p) ≤ 1 := round_le 53 (-1074) (by norm_num) d1 (by linarith)
  have b0 : 0 ≤ rnd64 (v * rnd64 (1 - p)) := le_round 53 (-1074) (by norm_num) d0 (mul_nonneg v0 a0)
  have b1 : rnd64 (v * rnd64 (1 - p)) ≤ v := round_le 53 (-1074) (by norm_num) (FloatAngle.double_of_float fv)
    (mul_le_of_le_one_right v0 a1)
  exact ⟨rnd_nonneg b0, rnd_le fv b1⟩

theorem unit_round {x : ℚ} (h0 : 0 ≤ x) (h1 : x ≤ 1) : 0 ≤ rnd64 x ∧ rnd64 x ≤ 1 :=
  ⟨le_round 53 (-1074) (by norm_num) (FloatAngle.double_of_float float_zero) h0,
    round_le 53 (-1074) (by norm_num) (FloatAngle.double_of_float float_one) h1⟩

theorem top_left {v a b : ℚ} (ha : a ≤ v) (hb : b ≤ v) : top (⟨v, a, b⟩ : Rgb ℚ) = v := by
  unfold top; dsimp only; rw [max_eq_left ha, max_eq_left hb]
theorem top_mid {v a b : ℚ} (ha : a ≤ v) (hb : b ≤ v) : top (⟨a, v, b⟩ : Rgb ℚ) = v := by
  unfold top; dsimp only; rw [max_eq_right ha, max_eq_left hb]
theorem top_right {v a b : ℚ} (ha : a ≤ v) (hb : b ≤ v) : top (⟨a, b, v⟩ : Rgb ℚ) = v := by
  unfold top; dsimp only; rw [max_eq_right (max_le ha hb)]

/-- The value is the largest component, exactly, and no component is negative. -/
theorem hsvToRgb_top {h s v : ℚ} (hf : F32 h) (h0 : 0 ≤ h) (h1 : h < 1) (s0 : 0 ≤ s) (s1 : s ≤ 1) (fv : F32 v) (v0 : 0 ≤ v)
    (v1 : v ≤ 1) : top (hsvToRgb ⟨h, s, v⟩) = v ∧ InCube (hsvToRgb ⟨h, s, v⟩) := by
  unfold hsvToRgb
  dsimp only
  rw [clampK_id s0 s1, clampK_id v0 v1]
  by_cases hs : s = 0
  · rw [if_pos hs]
    exact ⟨top_left le_rfl le_rfl, ⟨v0, v1⟩, ⟨v0, v1⟩, ⟨v0, v1⟩⟩
  · rw [if_neg hs]
    have hfl : ⌊h⌋ = 0 := Int.floor_eq_zero_iff.mpr ⟨h0, h1⟩
    rw [hfl, Int.cast_zero, sub_zero, rnd64_of_float hf, rnd_of_float hf, if_neg h1.ne]
    obtain ⟨e1, e2⟩ := sextant_exact hf h0 h1
    rw [e1, e2]
    have fl0 : 0 ≤ ⌊h * 6⌋ := Int.floor_nonneg.mpr (by linarith)
    have fle : ((⌊h * 6⌋ : ℤ) : ℚ) ≤ h * 6 := Int.floor_le _
    have flt := Int.lt_floor_add_one (h * 6)
    have fl5 : ⌊h * 6⌋ < 6 := Int.floor_lt.mpr (by push_cast; linarith)
    generalize ⌊h * 6⌋ = i at *
    have f0 : 0 ≤ h * 6 - i := by linarith
    have f1 : h * 6 - i ≤ 1 := by linarith
    generalize h * 6 - (i : ℚ) = f at *
    have g := unit_round (x := 1 - f) (by linarith) (by linarith)
    have qb := unit_round (x := s * f) (mul_nonneg s0 f0) (mul_le_one₀ s1 f0 f1)
    have tb := unit_round (x := s * rnd64 (1 - f)) (mul_nonneg s0 g.1) (mul_le_one₀ s1 g.1 g.2)
    obtain ⟨w0, w1⟩ := channel_mem fv v0 s0 s1
    obtain ⟨q0, q1⟩ := channel_mem fv v0 qb.1 qb.2
    obtain ⟨t0, t1⟩ := channel_mem fv v0 tb.1 tb.2
    generalize rnd (rnd64 (v * rnd64 (1 - s))) = w at *
    generalize rnd (rnd64 (v * rnd64 (1 - rnd64 (s * f)))) = q at *
    generalize rnd (rnd64 (v * rnd64 (1 - rnd64 (s * rnd64 (1 - f))))) = t at *
    have W : 0 ≤ w ∧ w ≤ 1 := ⟨w0, w1.trans v1⟩
    have Q : 0 ≤ q ∧ q ≤ 1 := ⟨q0, q1.trans v1⟩
    have T : 0 ≤ t ∧ t ≤ 1 := ⟨t0, t1.trans v1⟩
    have V : 0 ≤ v ∧ v ≤ 1 := ⟨v0, v1⟩
    have hi : i = 0 ∨ i = 1 ∨ i = 2 ∨ i = 3 ∨ i = 4 ∨ i = 5 := by omega
    rcases hi with rfl | rfl | rfl | rfl | rfl | rfl
    · exact ⟨top_left t1 w1, V, T, W⟩
    · exact ⟨top_mid q1 w1, Q, V, W⟩
    · exact ⟨top_mid w1 t1, W, V, T⟩
    · exact ⟨top_right w1 q1, W, Q, V⟩
    · exact ⟨top_right t1 w1, T, W, V⟩
    · exact ⟨top_left w1 q1, V, W, Q⟩

/-- A full turn is no turn. -/
theorem hsvToRgb_turn (s v : ℚ) : hsvToRgb ⟨1, s, v⟩ = hsvToRgb ⟨0, s, v⟩ := by
  unfold hsvToRgb
  dsimp only
  have h1 : ⌊(1 : ℚ)⌋ = 1 := Int.floor_one
  have h0 : ⌊(0 : ℚ)⌋ = 0 := Int.floor_zero
  rw [h1, h0, Int.cast_one, Int.cast_zero, sub_self, sub_self]

/-- **C91.** The largest component comes back exactly, and no component leaves the range from 0 to 1. -/
theorem hsv_roundtrip_top (c : Rgb ℚ) (hf : Single c) (hc : InCube c) :
    top (backAndForth c) = top c ∧ InCube (backAndForth c) := by
  obtain ⟨m0, M1⟩ := bottom_mem hc
  have M0 := m0.trans (bottom_le_top c)
  by_cases hthr : rnd (top c - bottom c) > rnd64 (1 / 10000)
  · obtain ⟨hue, hx⟩ := exact_of c
    have fM : F32 (top c) := by
      unfold top
      rcases max_choice (max c.r c.g) c.b with h | h <;> rw [h]
      · rcases max_choice c.r c.g with h' | h' <;> rw [h']
        · exact hf.1
        · exact hf.2.1
      · exact hf.2.2
    obtain ⟨h, s, e, fh, fs, h0, h1, s0, s1, -, -⟩ := rgbToHsv_near hf.1 hf.2.1 hf.2.2 hc.1 hc.2.1 hc.2.2 hx hthr
    have e' : rgbToHsv c = ⟨h, s, top c⟩ := e
    unfold backAndForth
    rw [e']
    rcases h1.lt_or_eq with hlt | rfl
    · exact hsvToRgb_top fh h0 hlt s0.le s1 fM M0 M1
    · rw [hsvToRgb_turn]
      exact hsvToRgb_top float_zero le_rfl (by norm_num) s0.le s1 fM M0 M1
  · rw [grey_roundtrip hc hthr]
    exact ⟨top_left le_rfl le_rfl, ⟨M0, M1⟩, ⟨M0, M1⟩, ⟨M0, M1⟩⟩

/-! ### Colours of a picture -/

theorem unit_float {n : ℕ} (h : n ≤ 32768) : F32 ((n : ℚ) / 32768) :=
  ⟨n, -15, by norm_num, by
    rw [abs_of_nonneg (by positivity)]
    have : (n : ℤ) ≤ 32768 := by exact_mod_cast h
    norm_num
    omega, by
    rw [show (32768 : ℚ) = 2 ^ (15 : ℕ) by norm_num]
    push_cast
    rw [zpow_neg, div_eq_mul_inv]
    norm_num⟩

theorem unit_mem {n : ℕ} (h : n ≤ 32768) : 0 ≤ (n : ℚ) / 32768 ∧ (n : ℚ) / 32768 ≤ 1 := by
  refine ⟨by positivity, ?_⟩
  rw [div_le_one (by norm_num)]
  exact_mod_cast h

theorem units_ok {k : Units} (hk : k.Valid) : Single k.colour ∧ InCube k.colour :=
  ⟨⟨unit_float hk.1, unit_float hk.2.1, unit_float hk.2.2⟩, unit_mem hk.1, unit_mem hk.2.1, unit_mem hk.2.2⟩

theorem units_top (k : Units) : top k.colour = (k.top : ℚ) / 32768 := by
  unfold top Units.colour Units.top
  dsimp only
  push_cast
  rw [max_div_div_right (by norm_num), max_div_div_right (by norm_num)]

theorem units_bottom (k : Units) : bottom k.colour = (k.bottom : ℚ) / 32768 := by
  unfold bottom Units.colour Units.bottom
  dsimp only
  push_cast
  rw [min_div_div_right (by norm_num), min_div_div_right (by norm_num)]

theorem stored_near {x : ℚ} {n : ℕ} (hn : n ≤ 32768) (h : |x - n / 32768| ≤ 2 / 10 ^ 6) : stored x = n ∨ stored x = n - 1 := by
  have e := rnd_err (x * 32768)
  have hn' : (n : ℚ) ≤ 32768 := by exact_mod_cast hn
  have n0 : (0 : ℚ) ≤ n := by positivity
  rw [abs_le] at h
  have hx : |x * 32768| ≤ 32769 := by rw [abs_le]; constructor <;> linarith
  have h1 : |x * 32768| / 16777216 ≤ 32769 / 16777216 := div_le_div_of_nonneg_right hx (by norm_num)
  have h2 : (32769 : ℚ) / 16777216 + 1 / 10 ^ 40 ≤ 1 / 100 := by norm_num
  have h3 := abs_le.mp (e.trans ((add_le_add_left h1 _).trans h2))
  unfold stored
  generalize rnd (x * 32768) = y at *
  have lo : ((n : ℤ) - 1 : ℤ) ≤ ⌊y⌋ := Int.le_floor.mpr (by push_cast; linarith)
  have hi : ⌊y⌋ < (n : ℤ) + 1 := Int.floor_lt.mpr (by push_cast; linarith)
  omega

theorem stored_unit {n : ℕ} (hn : n ≤ 32768) : stored ((n : ℚ) / 32768) = n := by
  unfold stored
  rw [div_mul_cancel₀ _ (by norm_num), show rnd (n : ℚ) = n from rnd_of_float (by
    simpa using float_int n (by rw [abs_of_nonneg (by positivity)]; norm_num; omega))]
  exact Int.floor_natCast n

theorem units_top_le {k : Units} (hk : k.Valid) : k.top ≤ 32768 := max_le (max_le hk.1 hk.2.1) hk.2.2

/-- **C91.** A colour of a picture whose components differ by at least four units, converted to HSV and back and
stored again: each component is the same or one unit less, and the largest is the same. -/
theorem hsv_roundtrip_stored (k : Units) (hk : k.Valid) (hd : k.bottom + 4 ≤ k.top) :
    let c := backAndForth k.colour
    (stored c.r = k.r ∨ stored c.r = k.r - 1) ∧ (stored c.g = k.g ∨ stored c.g = k.g - 1) ∧
      (stored c.b = k.b ∨ stored c.b = k.b - 1) ∧ stored (top c) = k.top := by
  obtain ⟨hf, hc⟩ := units_ok hk
  have hd' : ((k.bottom : ℚ) + 4) ≤ k.top := by exact_mod_cast hd
  have hw : 1 / 9999 ≤ top k.colour - bottom k.colour := by
    rw [units_top, units_bottom, ← sub_div]
    have : (4 : ℚ) / 32768 ≤ ((k.top : ℚ) - k.bottom) / 32768 := div_le_div_of_nonneg_right (by linarith) (by norm_num)
    refine le_trans ?_ this
    norm_num
  obtain ⟨h1, h2, h3⟩ := vivid_roundtrip hf hc (wide hw)
  refine ⟨stored_near hk.1 h1, stored_near hk.2.1 h2, stored_near hk.2.2 h3, ?_⟩
  rw [(hsv_roundtrip_top _ hf hc).1, units_top]
  exact stored_unit (units_top_le hk)

/-- **C91.** If they differ by at most three units, the colour becomes grey, as light as its largest component. -/
theorem hsv_near_grey_stored (k : Units) (hk : k.Valid) (hd : k.top ≤ k.bottom + 3) :
    let c := backAndForth k.colour
    stored c.r = k.top ∧ stored c.g = k.top ∧ stored c.b = k.top := by
  obtain ⟨hf, hc⟩ := units_ok hk
  have hd' : (k.top : ℚ) ≤ k.bottom + 3 := by exact_mod_cast hd
  have hw : top k.colour - bottom k.colour ≤ 1 / 10001 := by
    rw [units_top, units_bottom, ← sub_div]
    have : ((k.top : ℚ) - k.bottom) / 32768 ≤ 3 / 32768 := div_le_div_of_nonneg_right (by linarith) (by norm_num)
    refine le_trans this ?_
    norm_num
  have e := hsv_near_grey_float _ hc hw
  intro c
  have ec : c = _ := e
  rw [ec]
  rw [units_top]
  exact ⟨stored_unit (units_top_le hk), stored_unit (units_top_le hk), stored_unit (units_top_le hk)⟩

/-- **C91.** The hue and saturation reported lie in the closed range from 0 to 1. -/
theorem hsv_range_float (c : Rgb ℚ) (hf : Single c) (hc : InCube c) :
    (0 ≤ (rgbToHsv c).h ∧ (rgbToHsv c).h ≤ 1) ∧ (0 ≤ (rgbToHsv c).s ∧ (rgbToHsv c).s ≤ 1) ∧ (rgbToHsv c).v = top c := by
  by_cases hthr : rnd (top c - bottom c) > rnd64 (1 / 10000)
  · obtain ⟨hue, hx⟩ := exact_of c
    obtain ⟨h, s, e, -, -, h0, h1, s0, s1, -, -⟩ := rgbToHsv_near hf.1 hf.2.1 hf.2.2 hc.1 hc.2.1 hc.2.2 hx hthr
    have e' : rgbToHsv c = ⟨h, s, top c⟩ := e
    rw [e']
    exact ⟨⟨h0, h1⟩, ⟨s0.le, s1⟩, rfl⟩
  · rw [grey_hsv hc hthr]
    exact ⟨⟨le_rfl, zero_le_one⟩, ⟨le_rfl, zero_le_one⟩, rfl⟩

/-- **C91.** In exact arithmetic the hue is below 1 (C34). In single precision it can be 1: the sum of six and a negative number
close to zero is rounded to six. -/
theorem hue_reaches_one : (rgbToHsv ⟨1, 0, 1 / 2 ^ 30⟩).h = 1 := by decide +kernel

/-- **C91.** One unit less does happen: the colour (5, 1, 1) of a picture comes back as (5, 0, 0). -/
theorem one_unit_is_lost : (backAndForth (Units.mk 5 1 1).colour |> fun c => (stored c.r, stored c.g, stored c.b)) = (5, 0, 0) := by
  decide +kernel

/-- Non-vacuity: an ordinary colour, whose components come back as (6150, 31972, 1856). -/
example : (Units.mk 6151 31972 1857).Valid ∧ (Units.mk 6151 31972 1857).bottom + 4 ≤ (Units.mk 6151 31972 1857).top := by
  unfold Units.Valid; decide
example : (backAndForth (Units.mk 6151 31972 1857).colour |> fun c => (stored c.r, stored c.g, stored c.b)) = (6150, 31972, 1856) := by
  decide +kernel

/-- A bluish grey that loses its blue. -/
example : (backAndForth (Units.mk 16384 16384 16387).colour |> fun c => (stored c.r, stored c.g, stored c.b)) = (16387, 16387, 16387) := by
  decide +kernel

end Verif.FloatColor
