import Verif.Lemmas.FloatRim

/-!
# C79: the opacities of a dab in single precision

With every rounding of the code, each entry of the mask of a dab is an opacity, unless the hardness is
one of the tiny numbers whose inverse is no `float`.
-/

namespace Verif.FloatMask

open Float32 FloatStroke Val

/-- The falloff, for every distance: converting it to an integer is defined and gives an opacity from 0
to 2^15, 0 outside of the dab. -/
theorem opacity_converts {h s rr : ℚ} (hh : F32 h) (hs : F32 s) (hr : F32 rr) (h0 : 1 / 2 ^ 128 < h) (h1 : h ≤ 1)
    (s0 : 0 ≤ s) (s1 : s ≤ 1) (r0 : 0 ≤ rr) :
    ∃ n, opaU16 (fin h) (fin s) (fin rr) = some n ∧ n ≤ 32768 ∧ (1 < rr → n = 0) := by
  have hpos : 0 < h := lt_trans (by positivity) h0
  unfold opaU16
  by_cases hr1 : 1 < rr
  · refine ⟨0, ?_, by norm_num, fun _ => rfl⟩
    have hgt : gt (fin rr) (fin 1) = true := by
      show (!decide (rr ≤ 1)) = true
      rw [decide_eq_false (not_le.mpr hr1)]; rfl
    have : opaOf (fin h) (fin s) (fin rr) = fin 0 := by
      unfold opaOf; dsimp only; rw [hgt, if_pos rfl]
    rw [this]
    obtain ⟨n, a, -, b⟩ := convert float_zero (by norm_num) (by norm_num)
    rw [a, b]
    norm_num
  · have r1 := not_lt.mp hr1
    by_cases hc : rr ≤ h
    · rw [opaOf_seg1 hh h0 h1 s0 s1 r0 hc]
      have e := seg1_err hpos h1 s0 s1 r0 hc
      have hq : 0 ≤ rr * (1 / h - 1) ∧ rr * (1 / h - 1) ≤ 1 := by
        have : 1 ≤ 1 / h := by rw [one_le_div hpos]; exact h1
        refine ⟨mul_nonneg r0 (by linarith), ?_⟩
        have k : rr * (1 / h - 1) ≤ h * (1 / h - 1) := mul_le_mul_of_nonneg_right hc (by linarith)
        have k2 : h * (1 / h - 1) = 1 - h := by field_simp
        linarith
      have b0 : 0 ≤ (1 - s) * (1 - rr * (1 / h - 1)) := mul_nonneg (by linarith) (by linarith [hq.2])
      have b1 : (1 - s) * (1 - rr * (1 / h - 1)) ≤ 1 := mul_le_one₀ (by linarith) (by linarith [hq.2]) (by linarith [hq.1])
      obtain ⟨e0, e1⟩ := abs_le.mp e
      obtain ⟨n, a, b, -⟩ := convert (v := seg1 h s rr) (rnd_float _) (by norm_num at *; linarith)
        (by norm_num at *; linarith)
      exact ⟨n, a, b, fun h => absurd h hr1⟩
    · have hc := not_le.mp hc
      have hlt : h < 1 := by linarith
      rw [opaOf_seg2 hh hs h0 hlt s0 s1 hc r1]
      have l0 := seg2_nonneg (s := s) hh hpos hlt s1 r1
      have l1 : seg2 h s rr ≤ 1 + 1 / 2 ^ 19 := by
        rcases le_total (1 / 2) h with hb | hb
        · exact le_trans (seg2_le hh hs hb hlt s0 s1 hr hc r1) (by norm_num)
        · have e := (abs_le.mp (seg2_err hh hs hpos hlt s0 s1 r0 r1)).2
          have hE : h / (1 - h) ≤ 1 := by rw [div_le_one (by linarith)]; linarith
          have hE0 : 0 ≤ h / (1 - h) := div_nonneg hpos.le (by linarith)
          have : h / (1 - h) * (1 - s) * (1 - rr) ≤ 1 :=
            mul_le_one₀ (mul_le_one₀ hE (by linarith) (by linarith)) (by linarith) (by linarith)
          norm_num at *
          linarith
      obtain ⟨n, a, b, -⟩ := convert (v := seg2 h s rr) (rnd_float _) (by norm_num at *; linarith)
        (by norm_num at *; linarith)
      exact ⟨n, a, b, fun h => absurd h hr1⟩

/-- **C79 (partial).**  For every dab whose hardness is above 2^-128, and every pixel for which the mask
is computed: a distance exists (nothing is divided zero by zero), it is not negative, and the opacity
converts to an integer from 0 to 2^15, which is 0 if the pixel is outside of the dab.

Missing: smaller hardness, where the property fails (`tiny_hardness_undefined`). -/
theorem mask_entry_defined_partial {shape : Shape} (ok : shape.Ok) {h s : ℚ} (hh : F32 h) (hs : F32 s)
    (h0 : 1 / 2 ^ 128 < h) (h1 : h ≤ 1) (s0 : 0 ≤ s) (s1 : s ≤ 1) {xp yp : Int}
    (x0 : (window shape.x shape.radius).1 ≤ xp) (x1 : xp ≤ (window shape.x shape.radius).2)
    (y0 : (window shape.y shape.radius).1 ≤ yp) (y1 : yp ≤ (window shape.y shape.radius).2) :
    ∃ rr n, rrAt shape xp yp = some rr ∧ 0 ≤ rr ∧ opaU16 (fin h) (fin s) (fin rr) = some n ∧ n ≤ 32768 ∧
      (1 < rr → n = 0) := by
  have hsome : (rrAt shape xp yp).isSome := by
    unfold rrAt
    split_ifs with h3
    · exact antialiased_defined ok h3 (window_near ok.radius h3 x0 x1) (window_near ok.radius h3 y0 y1)
    · rfl
  obtain ⟨rr, hrr⟩ := Option.isSome_iff_exists.mp hsome
  obtain ⟨r0, rf⟩ := rr_nonneg hrr
  obtain ⟨n, a, b, c⟩ := opacity_converts hh hs rf h0 h1 s0 s1 r0
  exact ⟨rr, n, hrr, r0, a, b, c⟩

/-- The opacity follows the documented falloff: up to 2^-20 inside, up to 2^-19 divided by `1 - hardness`
towards the rim. -/
theorem opacity_accurate {h s rr : ℚ} (hh : F32 h) (hs : F32 s) (h0 : 1 / 2 ^ 128 < h) (h1 : h ≤ 1)
    (s0 : 0 ≤ s) (s1 : s ≤ 1) (r0 : 0 ≤ rr) (r1 : rr ≤ 1) :
    ∃ v, opaOf (fin h) (fin s) (fin rr) = fin v ∧
      (rr ≤ h → |v - Spec.FloatMask.opacity h s rr| ≤ 1 / 2 ^ 20) ∧
      |v - Spec.FloatMask.opacity h s rr| * (1 - h) ≤ 1 / 2 ^ 19 := by
  have hpos : 0 < h := lt_trans (by positivity) h0
  have hr1 : ¬ rr > 1 := not_lt.mpr r1
  by_cases hc : rr ≤ h
  · have e := seg1_err hpos h1 s0 s1 r0 hc
    have eq : Spec.FloatMask.opacity h s rr = (1 - s) * (1 - rr * (1 / h - 1)) := by
      unfold Spec.FloatMask.opacity
      rw [if_neg hr1, if_pos hc]
      field_simp
    rw [← eq] at e
    refine ⟨_, opaOf_seg1 hh h0 h1 s0 s1 r0 hc, fun _ => le_trans e (by norm_num), ?_⟩
    have := abs_nonneg (seg1 h s rr - Spec.FloatMask.opacity h s rr)
    refine le_trans (mul_le_of_le_one_right this (by linarith)) (le_trans e (by norm_num))
  · have hc' := not_le.mp hc
    have hlt : h < 1 := by linarith
    have hd : 0 < 1 - h := by linarith
    have e := seg2_err hh hs hpos hlt s0 s1 r0 r1
    have eq : Spec.FloatMask.opacity h s rr = h / (1 - h) * (1 - s) * (1 - rr) := by
      unfold Spec.FloatMask.opacity
      rw [if_neg hr1, if_neg hc]
      field_simp
    rw [← eq] at e
    refine ⟨_, opaOf_seg2 hh hs h0 hlt s0 s1 hc' r1, fun h => absurd h hc, ?_⟩
    refine le_trans (mul_le_mul_of_nonneg_right e hd.le) ?_
    have : (16 / 16777216 * (h / (1 - h)) + 1 / 10 ^ 38) * (1 - h) = 16 / 16777216 * h + 1 / 10 ^ 38 * (1 - h) := by
      field_simp
    rw [this]
    norm_num
    linarith

/-- **C79, the negation.**  If the hardness is positive but at most 2^-128, the opacity at the centre of
a dab is not a number and its conversion is undefined, whatever the softness. -/
theorem tiny_hardness_undefined {shape : Shape} (h3 : 3 ≤ shape.radius) {xp yp : Int} (hx : shape.x = xp + 1 / 2)
    (hy : shape.y = yp + 1 / 2) (fx : F32 shape.x) (fy : F32 shape.y) {h s : ℚ} (h0 : 0 < h) (h1 : h ≤ 1 / 2 ^ 128)
    (s1 : s ≤ 1) : rrAt shape xp yp = some 0 ∧ opaU16 (fin h) (fin s) (fin 0) = none := by
  constructor
  · unfold rrAt
    rw [if_neg (not_lt.mpr h3)]
    unfold rrPlain
    dsimp only
    rw [← hx, ← hy, rnd_of_float fx, rnd_of_float fy, sub_self, sub_self, rnd_zero]
    simp only [zero_mul, rnd_zero, sub_self, add_zero]
  · have hinv : div (fin 1) (fin h) = inf := by
      show (if h = 0 then _ else ofExact (1 / h)) = _
      rw [if_neg h0.ne']
      have hf : F32 (2 ^ 128) := by
        have := float_pow (e := 128) (by norm_num)
        rwa [show (2 : ℚ) ^ (128 : ℤ) = 2 ^ 128 by norm_cast] at this
      have : (2 : ℚ) ^ 128 ≤ 1 / h := by
        rw [le_div_iff₀ h0]
        rw [le_div_iff₀ (by positivity)] at h1
        linarith
      unfold ofExact
      rw [if_pos (le_rnd hf this)]
    have hrest : ∃ a, sub (fin 1) (fin s) = fin a ∨ sub (fin 1) (fin s) = inf := by
      show ∃ a, ofExact (1 + -s) = fin a ∨ ofExact (1 + -s) = inf
      have h0 : 0 ≤ rnd (1 + -s) := rnd_nonneg (by linarith)
      unfold ofExact
      split_ifs with c1 c2
      · exact ⟨0, .inr rfl⟩
      · exfalso; norm_num at c2; linarith
      · exact ⟨_, .inl rfl⟩
    have hle : le (fin 0) (fin h) = true := by show decide ((0 : ℚ) ≤ h) = true; exact decide_eq_true h0.le
    have hgt : gt (fin 0) (fin 1) = false := by
      show (!decide ((0 : ℚ) ≤ 1)) = false
      rw [decide_eq_true (by norm_num)]; rfl
    have hz : ∀ v w : Val, (w = negInf ∨ w = nan) → add v (mul (fin 0) w) = nan := by
      rintro v w (rfl | rfl)
      · have : mul (fin 0) negInf = nan := by simp [mul, signed, neg]
        rw [this]; cases v <;> rfl
      · cases v <;> rfl
    have hslope : mul (neg (sub (div (fin 1) (fin h)) (fin 1))) (sub (fin 1) (fin s)) = negInf ∨
        mul (neg (sub (div (fin 1) (fin h)) (fin 1))) (sub (fin 1) (fin s)) = nan := by
      rw [hinv]
      obtain ⟨a, e | e⟩ := hrest
      · have : 0 ≤ a := by
          change ofExact (1 + -s) = fin a at e
          unfold ofExact at e
          split_ifs at e
          rw [← Val.fin.inj e]
          exact rnd_nonneg (by linarith)
        rw [e]
        show neg (signed a) = negInf ∨ neg (signed a) = nan
        unfold signed
        split_ifs with c1 c2
        · exact .inl rfl
        · linarith
        · exact .inr rfl
      · rw [e]; exact .inl rfl
    have : opaOf (fin h) (fin s) (fin 0) = nan := by
      unfold opaOf
      dsimp only
      rw [hle, hgt, if_pos rfl, if_pos rfl, hz _ _ hslope]
      rfl
    unfold opaU16
    rw [this]
    rfl

/-! ### Dabs that meet the conditions -/

/-- A slanted dab, smaller than three pixels. -/
def dot : Shape := ⟨10, 21 / 2, 2, 3, 5033165 / 2 ^ 23, 13421773 / 2 ^ 24, 9465433 / 2 ^ 24⟩

theorem dot_ok : dot.Ok := by
  constructor <;> norm_num [dot, abs_le]

example : ∃ rr n, rrAt dot 10 11 = some rr ∧ 0 ≤ rr ∧ opaU16 (fin (1 / 2)) (fin 0) (fin rr) = some n ∧ n ≤ 32768 ∧
    (1 < rr → n = 0) := by
  have hf : F32 (3 : ℚ) := by simpa using float_int 3 (by norm_num)
  have w : ∀ c : ℚ, F32 (c - 3) → F32 (c + 3) → window c dot.radius = (max ⌊c - 3⌋ 0, min ⌊c + 3⌋ 63) := by
    intro c h1 h2
    unfold window
    rw [show dot.radius + 1 = 3 by norm_num [dot], rnd_of_float hf]
    dsimp only
    rw [rnd_of_float h1, rnd_of_float h2]
  have f7 : F32 (10 - 3 : ℚ) := ⟨7, 0, by norm_num, by norm_num, by norm_num⟩
  have f13 : F32 (10 + 3 : ℚ) := ⟨13, 0, by norm_num, by norm_num, by norm_num⟩
  have g7 : F32 (21 / 2 - 3 : ℚ) := ⟨15, -1, by norm_num, by norm_num, by norm_num⟩
  have g13 : F32 (21 / 2 + 3 : ℚ) := ⟨27, -1, by norm_num, by norm_num, by norm_num⟩
  refine mask_entry_defined_partial dot_ok ⟨1, -1, by norm_num, by norm_num, by norm_num⟩ float_zero (by norm_num)
    (by norm_num) le_rfl (by norm_num) ?_ ?_ ?_ ?_
  · rw [show dot.x = 10 from rfl, w 10 f7 f13]; norm_num
  · rw [show dot.x = 10 from rfl, w 10 f7 f13]; norm_num
  · rw [show dot.y = 21 / 2 from rfl, w _ g7 g13]; norm_num
  · rw [show dot.y = 21 / 2 from rfl, w _ g7 g13]; norm_num

/-- A hardness of 2^-130 in the centre of pixel (3, 4). -/
example : rrAt ⟨7 / 2, 9 / 2, 5, 1, 0, 1, 9465433 / 2 ^ 24⟩ 3 4 = some 0 ∧
    opaU16 (fin (1 / 2 ^ 130)) (fin 0) (fin 0) = none :=
  tiny_hardness_undefined (by norm_num) (by norm_num) (by norm_num) ⟨7, -1, by norm_num, by norm_num, by norm_num⟩
    ⟨9, -1, by norm_num, by norm_num, by norm_num⟩ (by norm_num) (by norm_num) (by norm_num)

end Verif.FloatMask
