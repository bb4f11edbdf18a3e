import Verif.Lemmas.FloatMask
import Verif.Model.FloatMapping
import Verif.Spec.FloatMapping
import Mathlib.Tactic.Positivity
import Mathlib.Tactic.FieldSimp
import Mathlib.Tactic.Linarith

/-!
# Rounding errors of one segment of a curve
-/

namespace Verif.FloatMap
open Float32 FloatMask Map FloatStroke

/-- A product of which both factors and the result are rounded. -/
theorem product_err {u t y a a0 p : ℚ} (hu : 0 ≤ u) (hu1 : u ≤ 1 / 1000000) (ha : |a - a0| ≤ |a0| * u)
    (hp : |p - y * a| ≤ |y * a| * u + t) : |p - y * a0| ≤ |y * a0| * (5 / 2 * u) + t := by
  have h1 : |y * a - y * a0| ≤ |y * a0| * u := by
    rw [← mul_sub, abs_mul, abs_mul, mul_assoc]
    exact mul_le_mul_of_nonneg_left ha (abs_nonneg _)
  have h2 : |y * a| ≤ |y * a0| * (1 + u) := by
    have := abs_sub_abs_le_abs_sub (y * a) (y * a0)
    linarith
  have h3 : |p - y * a0| ≤ |p - y * a| + |y * a - y * a0| := abs_sub_le _ _ _
  have h4 : |y * a| * u ≤ |y * a0| * (1 + u) * u := mul_le_mul_of_nonneg_right h2 hu
  have h5 : 0 ≤ |y * a0| := abs_nonneg _
  have h6 : |y * a0| * u * u ≤ |y * a0| * u * (1 / 1000000) := mul_le_mul_of_nonneg_left hu1 (mul_nonneg h5 hu)
  have h7 : 0 ≤ |y * a0| * u := mul_nonneg h5 hu
  nlinarith

/-- A sum of two such products. -/
theorem sum_err {u t p q P Q A B s : ℚ} (hu : 0 ≤ u) (hu1 : u ≤ 1 / 1000000) (ht : 0 ≤ t) (hP : |P| = A) (hQ : |Q| = B)
    (hp : |p - P| ≤ A * (5 / 2 * u) + t) (hq : |q - Q| ≤ B * (5 / 2 * u) + t) (hs : |s - (p + q)| ≤ |p + q| * u) :
    |s - (P + Q)| ≤ (A + B) * (15 / 4 * u) + 3 * t := by
  have h0 : 0 ≤ A := hP ▸ abs_nonneg _
  have h0' : 0 ≤ B := hQ ▸ abs_nonneg _
  have h1 : |p + q - (P + Q)| ≤ (A + B) * (5 / 2 * u) + 2 * t := by
    have : p + q - (P + Q) = (p - P) + (q - Q) := by ring
    rw [this]
    refine le_trans (abs_add_le _ _) ?_
    linarith
  have h2 : |P + Q| ≤ A + B := by rw [← hP, ← hQ]; exact abs_add_le _ _
  have h3 : |p + q| ≤ (A + B) * (1 + 5 / 2 * u) + 2 * t := by
    have := abs_sub_abs_le_abs_sub (p + q) (P + Q)
    linarith
  have h4 : |p + q| * u ≤ ((A + B) * (1 + 5 / 2 * u) + 2 * t) * u := mul_le_mul_of_nonneg_right h3 hu
  have h5 : |s - (P + Q)| ≤ |s - (p + q)| + |p + q - (P + Q)| := abs_sub_le _ _ _
  have h6 : (A + B) * u * u ≤ (A + B) * u * (1 / 1000000) := mul_le_mul_of_nonneg_left hu1 (mul_nonneg (add_nonneg h0 h0') hu)
  have h7 : 0 ≤ (A + B) * u := mul_nonneg (add_nonneg h0 h0') hu
  have h8 : t * u ≤ t * (1 / 1000000) := mul_le_mul_of_nonneg_left hu1 ht
  linarith

/-- A quotient of two such numbers. -/
theorem quotient_err {u t s N d Δ W y : ℚ} (hu : 0 ≤ u) (hu1 : u ≤ 1 / 1000000) (ht : 0 ≤ t) (hΔ : Δ ≠ 0) (hN : |N| ≤ W)
    (hs : |s - N| ≤ W * (15 / 4 * u) + 3 * t) (hd : |d - Δ| ≤ |Δ| * u) (hy : |y - s / d| ≤ |s / d| * u + t) :
    |y - N / Δ| ≤ W / |Δ| * (8 * u) + 5 * t / |Δ| + t := by
  have hD : 0 < |Δ| := abs_pos.mpr hΔ
  have hW : 0 ≤ W := le_trans (abs_nonneg _) hN
  have hd1 : |Δ| * (1 - u) ≤ |d| := by
    have := abs_sub_abs_le_abs_sub Δ d
    rw [abs_sub_comm] at this
    linarith
  have hd2 : |Δ| * (999999 / 1000000) ≤ |d| := by
    refine le_trans ?_ hd1
    exact mul_le_mul_of_nonneg_left (by linarith) hD.le
  have hd3 : 0 < |d| := lt_of_lt_of_le (by positivity) hd2
  have hd0 : d ≠ 0 := abs_pos.mp hd3
  have e1 : s / d - N / Δ = ((s - N) * Δ - N * (d - Δ)) / (d * Δ) := by
    field_simp
    ring
  have h1 : |(s - N) * Δ - N * (d - Δ)| ≤ (W * (19 / 4 * u) + 3 * t) * |Δ| := by
    refine le_trans (abs_sub _ _) ?_
    rw [abs_mul, abs_mul]
    have k1 : |s - N| * |Δ| ≤ (W * (15 / 4 * u) + 3 * t) * |Δ| := mul_le_mul_of_nonneg_right hs hD.le
    have k2 : |N| * |d - Δ| ≤ W * (|Δ| * u) := mul_le_mul hN hd (abs_nonneg _) hW
    linarith
  have h2 : |s / d - N / Δ| ≤ (W * (5 * u) + 4 * t) / |Δ| := by
    rw [e1, abs_div, abs_mul, div_le_div_iff₀ (mul_pos hd3 hD) hD]
    have k1 : (W * (19 / 4 * u) + 3 * t) * |Δ| ≤ (W * (5 * u) + 4 * t) * (|Δ| * (999999 / 1000000)) := by
      have : (W * (19 / 4 * u) + 3 * t) ≤ (W * (5 * u) + 4 * t) * (999999 / 1000000) := by
        have := mul_nonneg hW hu
        linarith
      calc _ ≤ (W * (5 * u) + 4 * t) * (999999 / 1000000) * |Δ| := mul_le_mul_of_nonneg_right this hD.le
        _ = _ := by ring
    have k2 : (W * (5 * u) + 4 * t) * (|Δ| * (999999 / 1000000)) ≤ (W * (5 * u) + 4 * t) * |d| :=
      mul_le_mul_of_nonneg_left hd2 (by positivity)
    calc _ ≤ (W * (19 / 4 * u) + 3 * t) * |Δ| * |Δ| := mul_le_mul_of_nonneg_right h1 hD.le
      _ ≤ (W * (5 * u) + 4 * t) * |d| * |Δ| := mul_le_mul_of_nonneg_right (le_trans k1 k2) hD.le
      _ = _ := by ring
  have h3 : |N / Δ| ≤ W / |Δ| := by
    rw [abs_div]
    exact div_le_div_of_nonneg_right hN hD.le
  have e2 : (W * (5 * u) + 4 * t) / |Δ| = W / |Δ| * (5 * u) + 4 * (t / |Δ|) := by ring
  have e3 : 5 * t / |Δ| = 5 * (t / |Δ|) := by ring
  rw [e2] at h2
  rw [e3]
  have w0 : 0 ≤ W / |Δ| := div_nonneg hW hD.le
  have t0 : 0 ≤ t / |Δ| := div_nonneg ht hD.le
  generalize W / |Δ| = w at *
  generalize t / |Δ| = r at *
  have h4 : |s / d| ≤ w * (1 + 5 * u) + 4 * r := by
    have := abs_sub_abs_le_abs_sub (s / d) (N / Δ)
    linarith
  have h5 : |s / d| * u ≤ (w * (1 + 5 * u) + 4 * r) * u := mul_le_mul_of_nonneg_right h4 hu
  have h6 : |y - N / Δ| ≤ |y - s / d| + |s / d - N / Δ| := abs_sub_le _ _ _
  have h7 : w * u * u ≤ w * u * (1 / 1000000) := mul_le_mul_of_nonneg_left hu1 (mul_nonneg w0 hu)
  have h8 : 0 ≤ w * u := mul_nonneg w0 hu
  have h9 : r * u ≤ r * (1 / 1000000) := mul_le_mul_of_nonneg_left hu1 t0
  linarith

theorem rnd_err' (q : ℚ) : |rnd q - q| ≤ |q| * (1 / 2 ^ 24) + 1 / 2 ^ 150 := by
  have h := round_err 24 (-149) q
  have e1 : (2 : ℚ) ^ (-((24 : ℕ) : ℤ)) = 1 / 2 ^ 24 := by rw [zpow_neg, one_div, zpow_natCast]
  have e2 : (2 : ℚ) ^ ((-149 : ℤ) - 1) = 1 / 2 ^ 150 := by
    rw [show (-149 : ℤ) - 1 = -((150 : ℕ) : ℤ) by norm_num, zpow_neg, one_div, zpow_natCast]
  rw [e1, e2] at h
  exact h

theorem rnd_sub_err' {x y : ℚ} (hx : F32 x) (hy : F32 y) : |rnd (x - y) - (x - y)| ≤ |x - y| * (1 / 2 ^ 24) := by
  have h := round_sub_err 24 (-149) (by norm_num) hx hy
  have e1 : (2 : ℚ) ^ (-((24 : ℕ) : ℤ)) = 1 / 2 ^ 24 := by rw [zpow_neg, one_div, zpow_natCast]
  rw [e1] at h
  exact h

theorem rnd_size {q b : ℚ} (hq : |q| ≤ b) (hb : 1 ≤ b) : |rnd q| ≤ 2 * b := by
  have h := rnd_err' q
  have h1 := abs_sub_abs_le_abs_sub (rnd q) q
  have h2 : |q| * (1 / 2 ^ 24) ≤ b * (1 / 2 ^ 24) := mul_le_mul_of_nonneg_right hq (by norm_num)
  have h3 : (1 : ℚ) / 2 ^ 150 ≤ 1 / 2 := by norm_num
  have h4 : b * (1 / 2 ^ 24) ≤ b * (1 / 4) := mul_le_mul_of_nonneg_left (by norm_num) (by linarith)
  linarith

/-- **C89** One segment: finite, and within 2^-21 of the weight of the ends. -/
theorem segment_err {x0 y0 x1 y1 x : ℚ} (hx0 : Modest x0) (hy0 : Modest y0) (hx1 : Modest x1) (hy1 : Modest y1) (hx : Modest x)
    (hg : x0 = x1 ∨ 1 / 2 ^ 40 ≤ |x1 - x0|) :
    ∃ y, segment x0 y0 x1 y1 x = .fin y ∧ F32 y ∧
      |y - (if x0 = x1 ∨ y0 = y1 then y0 else (y1 * (x - x0) + y0 * (x1 - x)) / (x1 - x0))| ≤
        weight x0 y0 x1 y1 x / 2 ^ 21 + 1 / 2 ^ 100 := by
  by_cases hc : x0 = x1 ∨ y0 = y1
  · refine ⟨y0, ?_, hy0.float, ?_⟩
    · unfold segment; rw [if_pos hc]
    · rw [if_pos hc, sub_self, abs_zero]
      unfold weight
      rw [if_pos hc]
      positivity
  have hne : x1 - x0 ≠ 0 := fun h => hc (.inl (by linarith))
  have hg' : 1 / 2 ^ 40 ≤ |x1 - x0| := hg.resolve_left fun h => hc (.inl h)
  have bound : ∀ {a b : ℚ}, Modest a → Modest b → |a - b| ≤ 2 ^ 41 := by
    intro a b ha hb
    refine le_trans (abs_sub _ _) ?_
    have := ha.size
    have := hb.size
    linarith
  have fin_sub : ∀ {a b : ℚ}, Modest a → Modest b → (Val.fin a).sub (.fin b) = .fin (rnd (a - b)) := by
    intro a b ha hb
    show Val.ofExact (a + -b) = _
    rw [← sub_eq_add_neg]
    exact ofExact_small (le_trans (bound ha hb) (by norm_num))
  have hA := rnd_sub_err' hx.float hx0.float
  have hB := rnd_sub_err' hx1.float hx.float
  have hD := rnd_sub_err' hx1.float hx0.float
  have sA := rnd_size (bound hx hx0) (by norm_num)
  have sB := rnd_size (bound hx1 hx) (by norm_num)
  unfold segment weight
  rw [if_neg hc, if_neg hc, if_neg hc, fin_sub hx hx0, fin_sub hx1 hx, fin_sub hx1 hx0]
  generalize rnd (x - x0) = a at *
  generalize rnd (x1 - x) = b at *
  generalize rnd (x1 - x0) = d at *
  have prod : ∀ {y c : ℚ}, Modest y → |c| ≤ 2 * 2 ^ 41 → |y * c| ≤ 2 ^ 82 := by
    intro y c hy hc
    rw [abs_mul]
    calc _ ≤ (2 : ℚ) ^ 40 * (2 * 2 ^ 41) := mul_le_mul hy.size hc (abs_nonneg _) (by norm_num)
      _ = _ := by norm_num
  have pA := prod hy1 sA
  have pB := prod hy0 sB
  have e1 : (Val.fin y1).mul (.fin a) = .fin (rnd (y1 * a)) := ofExact_small (le_trans pA (by norm_num))
  have e2 : (Val.fin y0).mul (.fin b) = .fin (rnd (y0 * b)) := ofExact_small (le_trans pB (by norm_num))
  have qA := rnd_size pA (by norm_num)
  have qB := rnd_size pB (by norm_num)
  have fA : F32 (rnd (y1 * a)) := isFloat_round 24 (-149) _
  have fB : F32 (rnd (y0 * b)) := isFloat_round 24 (-149) _
  have rA := rnd_err' (y1 * a)
  have rB := rnd_err' (y0 * b)
  rw [e1, e2]
  generalize rnd (y1 * a) = p at *
  generalize rnd (y0 * b) = q at *
  have sum : |p + q| ≤ 2 ^ 84 := by
    refine le_trans (abs_add_le _ _) ?_
    linarith
  have e3 : (Val.fin p).add (.fin q) = .fin (rnd (p + q)) := ofExact_small (le_trans sum (by norm_num))
  have rS : |rnd (p + q) - (p + q)| ≤ |p + q| * (1 / 2 ^ 24) := by
    have := rnd_sub_err' fA fB.neg
    rwa [sub_neg_eq_add] at this
  have sS := rnd_size sum (by norm_num)
  rw [e3]
  generalize rnd (p + q) = s at *
  have dpos : 1 / 2 ^ 41 ≤ |d| := by
    have h1 := abs_sub_abs_le_abs_sub (x1 - x0) d
    rw [abs_sub_comm (x1 - x0) d] at h1
    have h2 : |x1 - x0| * (1 / 2 ^ 24) ≤ |x1 - x0| * (1 / 2) := mul_le_mul_of_nonneg_left (by norm_num) (abs_nonneg _)
    have h3 : (1 : ℚ) / 2 ^ 41 = 1 / 2 ^ 40 * (1 / 2) := by norm_num
    linarith
  have d0 : d ≠ 0 := by
    rintro rfl
    norm_num at dpos
  have quot : |s / d| ≤ 2 ^ 126 := by
    rw [abs_div, div_le_iff₀ (abs_pos.mpr d0)]
    have : (2 : ℚ) ^ 126 * (1 / 2 ^ 41) ≤ 2 ^ 126 * |d| := mul_le_mul_of_nonneg_left dpos (by norm_num)
    have e : (2 : ℚ) ^ 126 * (1 / 2 ^ 41) = 2 * 2 ^ 84 := by norm_num
    linarith
  have e4 : (Val.fin s).div (.fin d) = .fin (rnd (s / d)) := by
    show (if d = 0 then _ else _) = _
    rw [if_neg d0]
    exact ofExact_small (le_trans quot (by norm_num))
  rw [e4]
  refine ⟨_, rfl, isFloat_round 24 (-149) _, ?_⟩
  have rQ := rnd_err' (s / d)
  have u0 : (0 : ℚ) ≤ 1 / 2 ^ 24 := by norm_num
  have u1 : (1 : ℚ) / 2 ^ 24 ≤ 1 / 1000000 := by norm_num
  have t0 : (0 : ℚ) ≤ 1 / 2 ^ 150 := by norm_num
  have k1 := product_err u0 u1 hA rA
  have k2 := product_err u0 u1 hB rB
  have k3 := sum_err u0 u1 t0 rfl rfl k1 k2 rS
  have k4 := quotient_err u0 u1 t0 hne (abs_add_le _ _) k3 hD rQ
  rw [abs_mul, abs_mul] at k4
  refine le_trans k4 ?_
  have h1 : 5 * (1 / 2 ^ 150) / |x1 - x0| ≤ 1 / 2 ^ 101 := by
    rw [div_le_iff₀ (abs_pos.mpr hne)]
    have : (1 : ℚ) / 2 ^ 101 * (1 / 2 ^ 40) ≤ 1 / 2 ^ 101 * |x1 - x0| := mul_le_mul_of_nonneg_left hg' (by norm_num)
    have e : (5 : ℚ) * (1 / 2 ^ 150) ≤ 1 / 2 ^ 101 * (1 / 2 ^ 40) := by norm_num
    linarith
  have h2 : (1 : ℚ) / 2 ^ 150 + 1 / 2 ^ 101 ≤ 1 / 2 ^ 100 := by norm_num
  have h3 : (8 : ℚ) * (1 / 2 ^ 24) = 1 / 2 ^ 21 := by norm_num
  rw [h3, mul_one_div]
  linarith

end Verif.FloatMap
