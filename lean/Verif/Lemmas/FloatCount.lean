import Verif.Spec.FloatStroke
import Verif.Lemmas.FloatStroke

/-! # The number of dabs to do, in single precision -/

namespace Verif.FloatStroke

open Float32 Spec.FloatStroke

theorem rnd_abs (x : ℚ) : |rnd x| ≤ |x| * (1 + 1 / 16777216) + 1 / 10 ^ 40 := by
  have h := rnd_err x
  have := abs_add_le (rnd x - x) x
  rw [sub_add_cancel] at this
  linarith

theorem rnd_upper {x : ℚ} (hx : 0 ≤ x) : rnd x ≤ x * (1 + 1 / 16777216) + 1 / 10 ^ 40 := by
  have := rnd_abs x
  rw [abs_of_nonneg hx] at this
  exact le_trans (le_abs_self _) this

/-- The distance is not overestimated. -/
theorem distance_le {L : Libm} (hL : LibmOk L) {A B : ℚ} {s : Spacing} (hs : Bounded A B s) (dx dy : ℚ) :
    distance L s dx dy ≤ stretch s.ratio * (|dx| + |dy|) * (1 + 1 / 2 ^ 18) + 1 / 10 ^ 15 := by
  obtain ⟨a, ha⟩ : ∃ a, a = |dx| := ⟨_, rfl⟩
  obtain ⟨b, hb⟩ : ∃ b, b = |dy| := ⟨_, rfl⟩
  have ha0 : 0 ≤ a := ha ▸ abs_nonneg _
  have hb0 : 0 ≤ b := hb ▸ abs_nonneg _
  unfold distance stretch
  by_cases hr : s.ratio > 1
  · rw [if_pos hr, if_pos hr]
    have hprod : ∀ z c : ℚ, |c| ≤ 1 → |rnd (z * c)| ≤ |z| * (1 + 1 / 16777216) + 1 / 10 ^ 40 := by
      intro z c hc
      have h := rnd_abs (z * c)
      rw [abs_mul] at h
      have : |z| * |c| ≤ |z| := mul_le_of_le_one_right (abs_nonneg _) hc
      nlinarith
    have h1 := hprod dy s.cs hs.cs
    have h2 := hprod dx s.sn hs.sn
    have h3 := hprod dy s.sn hs.sn
    have h4 := hprod dx s.cs hs.cs
    rw [← ha] at h2 h4 ⊢
    rw [← hb] at h1 h3 ⊢
    obtain ⟨y1, hy1⟩ : ∃ y1, y1 = rnd (rnd (dy * s.cs) - rnd (dx * s.sn)) := ⟨_, rfl⟩
    obtain ⟨xx, hxx⟩ : ∃ xx, xx = rnd (rnd (dy * s.sn) + rnd (dx * s.cs)) := ⟨_, rfl⟩
    have h5 := rnd_abs (rnd (dy * s.cs) - rnd (dx * s.sn))
    have h6 := rnd_abs (rnd (dy * s.sn) + rnd (dx * s.cs))
    have h5' := abs_sub (rnd (dy * s.cs)) (rnd (dx * s.sn))
    have h6' := abs_add_le (rnd (dy * s.sn)) (rnd (dx * s.cs))
    rw [← hy1] at h5
    rw [← hxx] at h6
    have h7 : |y1| ≤ (a + b) * (1 + 3 / 16777216) + 1 / 10 ^ 39 := by linarith
    have h8 : |xx| ≤ (a + b) * (1 + 3 / 16777216) + 1 / 10 ^ 39 := by linarith
    obtain ⟨yy, hyy⟩ : ∃ yy, yy = rnd (y1 * s.ratio) := ⟨_, rfl⟩
    have h9 := rnd_abs (y1 * s.ratio)
    rw [← hyy, abs_mul, abs_of_pos (by linarith : 0 < s.ratio)] at h9
    have hab : 0 ≤ a + b := by linarith
    have h10 : |y1| * s.ratio ≤ s.ratio * (a + b) * (1 + 3 / 16777216) + 1 / 10 ^ 33 := by
      have e1 := mul_le_mul_of_nonneg_right h7 (by linarith : 0 ≤ s.ratio)
      have e2 := hs.ratio
      nlinarith
    have hrab : a + b ≤ s.ratio * (a + b) := le_mul_of_one_le_left hab hr.le
    obtain ⟨q, hq⟩ : ∃ q, q = s.ratio * (a + b) := ⟨_, rfl⟩
    rw [← hq] at h10 hrab
    have hq0 : 0 ≤ q := le_trans hab hrab
    have h11 : |yy| ≤ q * (1 + 5 / 16777216) + 1 / 10 ^ 30 := by linarith
    have h12 : |xx| ≤ q * (1 + 5 / 16777216) + 1 / 10 ^ 30 := by linarith
    have hsq : ∀ z : ℚ, rnd (z * z) ≤ |z| * |z| * (1 + 1 / 16777216) + 1 / 10 ^ 40 := by
      intro z
      have := rnd_upper (mul_self_nonneg z)
      rwa [abs_mul_abs_self]
    have h13 := hsq yy
    have h14 := hsq xx
    have n1 : 0 ≤ rnd (yy * yy) := rnd_nonneg (mul_self_nonneg _)
    have n2 : 0 ≤ rnd (xx * xx) := rnd_nonneg (mul_self_nonneg _)
    have h15 := rnd_upper (add_nonneg n1 n2)
    obtain ⟨w, hw⟩ : ∃ w, w = q * (1 + 5 / 16777216) + 1 / 10 ^ 30 := ⟨_, rfl⟩
    rw [← hw] at h11 h12
    have hw0 : 0 ≤ w := le_trans (abs_nonneg _) h11
    have h16 : |yy| * |yy| ≤ w * w := mul_le_mul h11 h11 (abs_nonneg _) hw0
    have h17 : |xx| * |xx| ≤ w * w := mul_le_mul h12 h12 (abs_nonneg _) hw0
    have h18 : rnd (rnd (yy * yy) + rnd (xx * xx)) ≤ (2 * w * (1 + 1 / 2 ^ 22) + 1 / 10 ^ 19) ^ 2 := by
      nlinarith
    have h19 := hL.sqrt _ _ (by positivity) h18
    obtain ⟨r, hr'⟩ : ∃ r, r = L.sqrt (rnd (rnd (yy * yy) + rnd (xx * xx))) := ⟨_, rfl⟩
    have goal : rnd r ≤ 2 * q * (1 + 1 / 2 ^ 18) + 1 / 10 ^ 15 := by
      rw [← hr'] at h19
      rcases le_total 0 r with hr0 | hr0
      · have := rnd_upper hr0
        linarith
      · have := rnd_le float_zero hr0
        nlinarith
    rw [hr', hyy, hxx, hy1] at goal
    rw [show 2 * s.ratio * (a + b) = 2 * q by rw [hq]; ring]
    exact goal
  · rw [if_neg hr, if_neg hr]
    refine le_trans (hL.hypotf dx dy) ?_
    rw [← ha, ← hb]
    nlinarith

theorem countDabs_float (L : Libm) (s : Spacing) (p : Pen) (x y : ℚ) : F32 (countDabs L s p x y) := by
  unfold countDabs
  dsimp only
  split_ifs
  · exact float_zero
  · exact rnd_float _

theorem countDabs_nonneg (L : Libm) (s : Spacing) (p : Pen) (x y : ℚ) : 0 ≤ countDabs L s p x y := by
  unfold countDabs
  dsimp only
  split_ifs with h
  · exact le_rfl
  · exact le_of_not_gt h

/-- A quotient times a rate. -/
theorem rate_le {d D r n A : ℚ} (hd : d ≤ D) (hD : 0 ≤ D) (hr : 1 / 5 ≤ r) (hr1 : r ≤ 1000) (hn : 0 ≤ n)
    (hA : n / r ≤ A) (hA1 : A ≤ 2 ^ 19) :
    rnd (rnd (d / r) * n) ≤ D * (n / r) * (1 + 3 / 16777216) + 1 / 10 ^ 30 := by
  have hr0 : 0 < r := by linarith
  have h1 : rnd (d / r) ≤ D / r * (1 + 1 / 16777216) + 1 / 10 ^ 40 := by
    have h0 : d / r ≤ D / r := div_le_div_of_nonneg_right hd hr0.le
    rcases le_total 0 (d / r) with h | h
    · have := rnd_upper h; nlinarith
    · have h2 := rnd_le float_zero h
      have : 0 ≤ D / r := div_nonneg hD hr0.le
      nlinarith
  have hn1 : n ≤ 2 ^ 19 * 1000 := by
    rw [div_le_iff₀ hr0] at hA
    nlinarith
  have hDr : 0 ≤ D * (n / r) := mul_nonneg hD (div_nonneg hn hr0.le)
  have h2 : rnd (d / r) * n ≤ D * (n / r) * (1 + 1 / 16777216) + 1 / 10 ^ 31 := by
    have e1 := mul_le_mul_of_nonneg_right h1 hn
    have e2 : (D / r * (1 + 1 / 16777216) + 1 / 10 ^ 40) * n
        = D * (n / r) * (1 + 1 / 16777216) + n / 10 ^ 40 := by field_simp
    rw [e2] at e1
    have e3 : n / 10 ^ 40 ≤ 1 / 10 ^ 31 := by
      rw [div_le_div_iff₀ (by norm_num) (by norm_num)]
      nlinarith
    linarith
  rcases le_total 0 (rnd (d / r) * n) with h | h
  · have := rnd_upper h; linarith
  · have h2 := rnd_le float_zero h
    linarith

theorem rnd_up {z w : ℚ} (hw : 0 ≤ w) (hzw : z ≤ w) : rnd z ≤ w * (1 + 1 / 16777216) + 1 / 10 ^ 40 := by
  rcases le_total 0 z with h | h
  · have := rnd_upper h; linarith
  · have h2 := rnd_le float_zero h
    linarith

/-- The time. -/
theorem time_le {left n : ℚ} (hn : 0 ≤ n) (hn1 : n ≤ 2 ^ 40) :
    rnd (rnd left * n) ≤ |left| * n * (1 + 3 / 16777216) + 1 / 10 ^ 20 := by
  have e1 := rnd_abs left
  obtain ⟨l, hl⟩ : ∃ l, l = |left| := ⟨_, rfl⟩
  have hl0 : 0 ≤ l := hl ▸ abs_nonneg _
  rw [← hl] at e1 ⊢
  have e3 := mul_le_mul_of_nonneg_right (le_trans (le_abs_self _) e1) hn
  have e6 : 0 ≤ l * n := mul_nonneg hl0 hn
  have e7 : (l * (1 + 1 / 16777216) + 1 / 10 ^ 40) * n = l * n * (1 + 1 / 16777216) + n / 10 ^ 40 := by ring
  have e8 : n / 10 ^ 40 ≤ 1 / 10 ^ 25 := by linarith
  have := rnd_up (by positivity) (le_trans e3 (by rw [e7]; linarith :
    (l * (1 + 1 / 16777216) + 1 / 10 ^ 40) * n ≤ l * n * (1 + 1 / 16777216) + 1 / 10 ^ 25))
  linarith

/-- The sums. -/
theorem sums_le {c1 c2 c3 a t P Q : ℚ} (ha : 0 ≤ a) (ht : 0 ≤ t)
    (h12 : c1 + c2 ≤ a * (1 + 3 / 16777216) + 2 / 10 ^ 30)
    (h3 : c3 ≤ t * (1 + 3 / 16777216) + 1 / 10 ^ 20)
    (hP : a * (1 + 1 / 1000) ≤ P * (1 + 1 / 2 ^ 17) + 1 / 10 ^ 7) (hQ : t * (1 + 1 / 1000) ≤ Q) :
    rnd (rnd (c1 + c2) + c3) ≤ (P + Q) * (1 - 1 / 2000) + 1 / 10 ^ 5 := by
  have s1 := rnd_up (by positivity) h12
  have s2 := rnd_up (w := a * (1 + 5 / 16777216) + t * (1 + 3 / 16777216) + 2 / 10 ^ 20) (by positivity)
    (by linarith : rnd (c1 + c2) + c3 ≤ _)
  linarith

/-- The code does not ask for more dabs than the brush. -/
theorem countDabs_le {L : Libm} (hL : LibmOk L) {A B : ℚ} {s : Spacing} (hs : Bounded A B s)
    (hA : A ≤ 2 ^ 19) (hB : B ≤ 2 ^ 40) {p : Pen} {x y : ℚ} (hx : F32 x) (hy : F32 y) (hpx : F32 p.x)
    (hpy : F32 p.y) :
    countDabs L s p x y ≤ ahead A B p x y * (1 - 1 / 2000) + 1 / 10 ^ 5 := by
  obtain ⟨hr, hr1⟩ := hs.radius
  obtain ⟨hb, hb1⟩ := hs.base
  have hst : 1 ≤ stretch s.ratio := by unfold stretch; split_ifs <;> linarith
  have ha0 : 0 ≤ s.perActual / s.radius := div_nonneg hs.actual (by linarith)
  have hb0 : 0 ≤ s.perBasic / s.base := div_nonneg hs.basic (by linarith)
  have hpp := hs.perPixel
  obtain ⟨k, hk⟩ : ∃ k, k = stretch s.ratio := ⟨_, rfl⟩
  obtain ⟨α, hα⟩ : ∃ α, α = s.perActual / s.radius := ⟨_, rfl⟩
  obtain ⟨β, hβ⟩ : ∃ β, β = s.perBasic / s.base := ⟨_, rfl⟩
  rw [← hα] at ha0
  rw [← hβ] at hb0
  rw [← hk] at hst
  rw [← hk, ← hα, ← hβ] at hpp
  have hsum : α + β ≤ k * (α + β) := le_mul_of_one_le_left (by linarith) hst
  have hαA : α ≤ A := by linarith
  have hβA : β ≤ A := by linarith
  have hd1 := rnd_sub_err hx hpx
  have hd2 := rnd_sub_err hy hpy
  have hdist := distance_le hL hs (rnd (x - p.x)) (rnd (y - p.y))
  unfold ahead countDabs
  obtain ⟨Dx, hDx⟩ : ∃ D, D = |x - p.x| := ⟨_, rfl⟩
  obtain ⟨Dy, hDy⟩ : ∃ D, D = |y - p.y| := ⟨_, rfl⟩
  have hDx0 : 0 ≤ Dx := hDx ▸ abs_nonneg _
  have hDy0 : 0 ≤ Dy := hDy ▸ abs_nonneg _
  have hdx : |rnd (x - p.x)| ≤ Dx * (1 + 1 / 16777216) := by
    have := abs_add_le (rnd (x - p.x) - (x - p.x)) (x - p.x)
    rw [sub_add_cancel] at this
    rw [hDx]; linarith
  have hdy : |rnd (y - p.y)| ≤ Dy * (1 + 1 / 16777216) := by
    have := abs_add_le (rnd (y - p.y) - (y - p.y)) (y - p.y)
    rw [sub_add_cancel] at this
    rw [hDy]; linarith
  rw [← hDx, ← hDy]
  rw [← hk] at hdist
  obtain ⟨d, hd⟩ : ∃ d, d = distance L s (rnd (x - p.x)) (rnd (y - p.y)) := ⟨_, rfl⟩
  rw [← hd] at hdist ⊢
  obtain ⟨D, hD⟩ : ∃ D, D = k * (Dx + Dy) * (1 + 1 / 2 ^ 17) + 1 / 10 ^ 15 := ⟨_, rfl⟩
  have e2 : 0 ≤ k * (Dx + Dy) := mul_nonneg (by linarith) (by linarith)
  have hdD : d ≤ D := by
    have e1 : k * (|rnd (x - p.x)| + |rnd (y - p.y)|) ≤ k * ((Dx + Dy) * (1 + 1 / 16777216)) :=
      mul_le_mul_of_nonneg_left (by linarith) (by linarith)
    rw [hD]; linarith
  have hD0 : 0 ≤ D := by rw [hD]; positivity
  have r1 := rate_le hdD hD0 hr hr1 hs.actual (by rw [← hα]; exact hαA) hA
  have r2 := rate_le hdD hD0 hb hb1 hs.basic (by rw [← hβ]; exact hβA) hA
  rw [← hα] at r1
  rw [← hβ] at r2
  have ht := hs.perTime
  have hs0 := hs.second
  have r3 := time_le (left := p.left) hs0 (by linarith)
  obtain ⟨l, hl⟩ : ∃ l, l = |p.left| := ⟨_, rfl⟩
  have hl0 : 0 ≤ l := hl ▸ abs_nonneg _
  rw [← hl] at r3 ⊢
  have hmain : D * (α + β) * (1 + 1 / 1000) ≤ A * (Dx + Dy) * (1 + 1 / 2 ^ 17) + 1 / 10 ^ 7 := by
    have e1 : D * (α + β) * (1 + 1 / 1000)
        = (k * (α + β) * (1 + 1 / 1000)) * ((Dx + Dy) * (1 + 1 / 2 ^ 17))
          + (α + β) * (1 + 1 / 1000) / 10 ^ 15 := by rw [hD]; ring
    have e2 := mul_le_mul_of_nonneg_right hpp (by positivity : 0 ≤ (Dx + Dy) * (1 + 1 / 2 ^ 17))
    have e3 : (α + β) * (1 + 1 / 1000) / 10 ^ 15 ≤ 1 / 10 ^ 7 := by linarith
    rw [e1]
    linarith
  have htime : l * s.perSecond * (1 + 1 / 1000) ≤ B * l := by
    have := mul_le_mul_of_nonneg_left ht hl0
    linarith
  have p1 : 0 ≤ D * (α + β) := mul_nonneg hD0 (by linarith)
  have p3 : 0 ≤ l * s.perSecond := mul_nonneg hl0 hs0
  have := sums_le (c1 := rnd (rnd (d / s.radius) * s.perActual)) (c2 := rnd (rnd (d / s.base) * s.perBasic))
    p1 p3 (by linarith) r3 hmain htime
  dsimp only
  split_ifs
  · have : 0 ≤ A * (Dx + Dy) * (1 + 1 / 2 ^ 17) + 1 / 10 ^ 7 := le_trans (by positivity) hmain
    have : 0 ≤ B * l := le_trans (by positivity) htime
    linarith
  · exact this

end Verif.FloatStroke
