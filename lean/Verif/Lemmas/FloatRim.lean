import Verif.Lemmas.FloatMask
import Verif.Spec.FloatMask

/-! # Rounding errors of the distances of a small dab: never zero by zero -/

namespace Verif.FloatMask

open Float32 FloatStroke

theorem near_rnd {x : ℚ} (h : |x| ≤ 16) : |rnd x - x| ≤ 1 / 10 ^ 6 :=
  le_trans (rnd_err_of h) (by norm_num)

theorem shrink_approx {p c e w d lo hi : ℚ} (d0 : 0 ≤ d) (hw : |w| ≤ 1) (hz : |c - p - e * w| ≤ d) (he : e ≤ 1 + d)
    (hhi : |hi - (c + 1 / 2)| ≤ d) (hlo : |lo - (c - 1 / 2)| ≤ d) :
    (clamp p lo hi - p) * w ≤ max (w * w - |w| / 2) 0 + 3 * d := by
  have w0 := abs_nonneg w
  rw [abs_le] at hz hhi hlo
  unfold clamp
  split_ifs with h1 h2
  · rcases le_total 0 w with h | h
    · have : (hi - p) * w ≤ 0 := mul_nonpos_of_nonpos_of_nonneg (by linarith) h
      have := le_max_right (w * w - |w| / 2) 0
      linarith
    · have hb : e * w + 1 / 2 - 2 * d ≤ hi - p := by linarith [hz.1, hhi.1]
      have := mul_le_mul_of_nonpos_right hb h
      have hm := le_max_left (w * w - |w| / 2) 0
      rw [abs_of_nonpos h] at hw hm ⊢
      have h3 : e * (w * w) ≤ (1 + d) * (w * w) := mul_le_mul_of_nonneg_right he (mul_self_nonneg w)
      have h4 : w * w ≤ 1 := by nlinarith
      nlinarith
  · rcases le_total 0 w with h | h
    · have hb : lo - p ≤ e * w - 1 / 2 + 2 * d := by linarith [hz.2, hlo.2]
      have := mul_le_mul_of_nonneg_right hb h
      have hm := le_max_left (w * w - |w| / 2) 0
      rw [abs_of_nonneg h] at hw hm ⊢
      have h3 : e * (w * w) ≤ (1 + d) * (w * w) := mul_le_mul_of_nonneg_right he (mul_self_nonneg w)
      have h4 : w * w ≤ 1 := by nlinarith
      nlinarith
    · have : (lo - p) * w ≤ 0 := mul_nonpos_of_nonneg_of_nonpos (by linarith) h
      have := le_max_right (w * w - |w| / 2) 0
      linarith
  · rw [sub_self, zero_mul]
    have := le_max_right (w * w - |w| / 2) 0
    linarith

theorem max_sum_approx {a b d : ℚ} (d0 : 0 ≤ d) (d1 : d ≤ 1 / 1000) (ha1 : |a| ≤ 1) (hb1 : |b| ≤ 1)
    (h : |a * a + b * b - 1| ≤ d) :
    max (a * a - |a| / 2) 0 + max (b * b - |b| / 2) 0 ≤ 1 / 2 + d := by
  have ha := abs_nonneg a
  have hb := abs_nonneg b
  rw [← abs_mul_abs_self a, ← abs_mul_abs_self b] at *
  generalize |a| = p at *
  generalize |b| = q at *
  rw [abs_le] at h
  rcases max_cases (p * p - p / 2) 0 with ⟨e1, _⟩ | ⟨e1, _⟩ <;>
    rcases max_cases (q * q - q / 2) 0 with ⟨e2, _⟩ | ⟨e2, _⟩ <;> rw [e1, e2]
  · nlinarith [h.1, h.2]
  · nlinarith [h.1, h.2]
  · nlinarith [h.1, h.2]
  · linarith

/-- If the clamped projection of the centre of the pixel lies about `ρ` away on the normal `u`, with `ρ`
well above 1/2, the centre is more than 1 away from the line on the same side. -/
theorem normal_far_approx {ux uy cx cy ox oy lx hx ly hy e ρ d : ℚ} (d0 : 0 ≤ d) (d1 : d ≤ 1 / 1000)
    (ux1 : |ux| ≤ 1) (uy1 : |uy| ≤ 1) (hu : |ux * ux + uy * uy - 1| ≤ d)
    (ex : |cx - ox - e * ux| ≤ d) (ey : |cy - oy - e * uy| ≤ d) (he : e ≤ 1 + d)
    (bx1 : |hx - (cx + 1 / 2)| ≤ d) (bx0 : |lx - (cx - 1 / 2)| ≤ d)
    (by1 : |hy - (cy + 1 / 2)| ≤ d) (by0 : |ly - (cy - 1 / 2)| ≤ d)
    (hρ : 56 / 100 ≤ ρ) (ho : |ox * ux + oy * uy| ≤ 2 * d)
    (n1 : |clamp ox lx hx - ρ * ux| ≤ 16 / 1000) (n2 : |clamp oy ly hy - ρ * uy| ≤ 16 / 1000) : False := by
  have a := shrink_approx d0 ux1 ex he bx1 bx0
  have b := shrink_approx d0 uy1 ey he by1 by0
  have c := max_sum_approx d0 d1 ux1 uy1 hu
  obtain ⟨X, hX⟩ : ∃ X, X = clamp ox lx hx := ⟨_, rfl⟩
  obtain ⟨Y, hY⟩ : ∃ Y, Y = clamp oy ly hy := ⟨_, rfl⟩
  rw [← hX] at a n1
  rw [← hY] at b n2
  have k1 : |(X - ρ * ux) * ux| ≤ 16 / 1000 := by
    rw [abs_mul]; nlinarith [abs_nonneg ux, abs_nonneg (X - ρ * ux)]
  have k2 : |(Y - ρ * uy) * uy| ≤ 16 / 1000 := by
    rw [abs_mul]; nlinarith [abs_nonneg uy, abs_nonneg (Y - ρ * uy)]
  have e1 : (X - ox) * ux + (Y - oy) * uy =
      ρ * (ux * ux + uy * uy) + (X - ρ * ux) * ux + (Y - ρ * uy) * uy - (ox * ux + oy * uy) := by ring
  have k3 : 56 / 100 * (1 - d) ≤ ρ * (ux * ux + uy * uy) := by
    have : 1 - d ≤ ux * ux + uy * uy := by linarith [(abs_le.mp hu).1]
    nlinarith
  linarith [(abs_le.mp k1).1, (abs_le.mp k2).1, (abs_le.mp ho).2]

theorem rnd_low {z : ℚ} (h : 0 ≤ z) : z * (1 - 1 / 10 ^ 6) - 1 / 10 ^ 40 ≤ rnd z := by
  have := rnd_err z
  rw [abs_of_nonneg h] at this
  linarith [(abs_le.mp this).1]

/-- The square of a large number is not rounded to a small one. -/
theorem square_small {z : ℚ} (h : rnd (z * z) ≤ 21 / 10 ^ 6) : |z| ≤ 6 / 1000 := by
  by_contra hc
  push Not at hc
  have h1 := rnd_low (mul_self_nonneg z)
  rw [← abs_mul_abs_self] at h1 h
  have h2 : (6 / 1000 : ℚ) * (6 / 1000) < |z| * |z| := by nlinarith [abs_nonneg z]
  norm_num at h1 h h2
  linarith

theorem sum_err {a b : ℚ} (ha : |a| ≤ 7) (hb : |b| ≤ 7) : |rnd (rnd a + rnd b) - (a + b)| ≤ 3 / 10 ^ 6 := by
  have h1 := near_rnd (by linarith : |a| ≤ 16)
  have h2 := near_rnd (by linarith : |b| ≤ 16)
  have h3 : |rnd a + rnd b| ≤ 16 := by
    rw [abs_le] at *
    constructor <;> linarith [h1.1, h1.2, h2.1, h2.2, ha.1, ha.2, hb.1, hb.2]
  have h4 := near_rnd h3
  rw [abs_le] at *
  constructor <;> linarith [h1.1, h1.2, h2.1, h2.2, h4.1, h4.2]

theorem diff_err {a b : ℚ} (ha : |a| ≤ 7) (hb : |b| ≤ 7) : |rnd (rnd a - rnd b) - (a - b)| ≤ 3 / 10 ^ 6 := by
  have := sum_err (a := a) (b := -b) ha (by rwa [abs_neg])
  rwa [rnd_neg, ← sub_eq_add_neg, ← sub_eq_add_neg] at this

theorem mul_le_seven {a b : ℚ} (ha : |a| ≤ 7) (hb : |b| ≤ 1) : |a * b| ≤ 7 := by
  rw [abs_mul]; nlinarith [abs_nonneg a, abs_nonneg b]

/-- A small `r_far` puts the point close to the centre of the dab. -/
theorem rSample_small {fx fy aspect sn cs : ℚ} (ha : 1 ≤ aspect) (c1 : |cs| ≤ 1) (s1 : |sn| ≤ 1)
    (hcs : |cs * cs + sn * sn - 1| ≤ 1 / 10 ^ 6) (hx : |fx| ≤ 7) (hy : |fy| ≤ 7)
    (h : rSample fx fy aspect sn cs ≤ 2 / 10 ^ 5) : |fx| ≤ 15 / 1000 ∧ |fy| ≤ 15 / 1000 := by
  unfold rSample at h
  dsimp only at h
  have g1 := diff_err (mul_le_seven hy c1) (mul_le_seven hx s1)
  have g2 := sum_err (mul_le_seven hy s1) (mul_le_seven hx c1)
  obtain ⟨g, hg⟩ : ∃ g, g = rnd (rnd (fy * cs) - rnd (fx * sn)) := ⟨_, rfl⟩
  obtain ⟨k, hk⟩ : ∃ k, k = rnd (rnd (fy * sn) + rnd (fx * cs)) := ⟨_, rfl⟩
  have hgf : F32 g := hg ▸ rnd_float _
  rw [← hg] at g1 h
  rw [← hk] at g2 h
  have y0 := rnd_nonneg (mul_self_nonneg (rnd (g * aspect)))
  have x0 := rnd_nonneg (mul_self_nonneg k)
  have hl := rnd_low (add_nonneg y0 x0)
  have hsum : rnd (rnd (g * aspect) * rnd (g * aspect)) + rnd (k * k) ≤ 21 / 10 ^ 6 := by
    by_contra hc
    push Not at hc
    norm_num at hc hl h
    linarith
  have hy1 := square_small (z := rnd (g * aspect)) (by linarith)
  have hx1 := square_small (z := k) (by linarith)
  have hgle : |g| ≤ |rnd (g * aspect)| := by
    rcases le_total 0 g with h0 | h0
    · have : g ≤ rnd (g * aspect) := le_rnd hgf (by nlinarith)
      rw [abs_of_nonneg h0]
      exact le_trans this (le_abs_self _)
    · have : rnd (g * aspect) ≤ g := rnd_le hgf (by nlinarith)
      rw [abs_of_nonpos h0]
      exact le_trans (by linarith) (neg_le_abs _)
  have p1 : |fy * cs - fx * sn| ≤ 7 / 1000 := by
    have h2 := le_trans hgle hy1
    rw [abs_le] at g1 h2 ⊢
    constructor <;> linarith [g1.1, g1.2, h2.1, h2.2]
  have p2 : |fy * sn + fx * cs| ≤ 7 / 1000 := by
    rw [abs_le] at g2 hx1 ⊢
    constructor <;> linarith [g2.1, g2.2, hx1.1, hx1.2]
  obtain ⟨G, hG⟩ : ∃ G, G = fy * cs - fx * sn := ⟨_, rfl⟩
  obtain ⟨Q, hQ⟩ : ∃ Q, Q = fy * sn + fx * cs := ⟨_, rfl⟩
  have ex : fx * (cs * cs + sn * sn) = Q * cs - G * sn := by rw [hQ, hG]; ring
  have ey : fy * (cs * cs + sn * sn) = G * cs + Q * sn := by rw [hQ, hG]; ring
  rw [← hG] at p1
  rw [← hQ] at p2
  have q1 : ∀ {z w : ℚ}, |z| ≤ 7 / 1000 → |w| ≤ 1 → |z * w| ≤ 7 / 1000 := by
    intro z w hz hw
    rw [abs_mul]; nlinarith [abs_nonneg z, abs_nonneg w]
  have b1 := q1 p2 c1
  have b2 := q1 p1 s1
  have b3 := q1 p1 c1
  have b4 := q1 p2 s1
  have q2 : ∀ {f v : ℚ}, f * (cs * cs + sn * sn) = v → |v| ≤ 14 / 1000 → |f| ≤ 15 / 1000 := by
    intro f v hf hv
    have : |f| * |cs * cs + sn * sn| ≤ 14 / 1000 := by rw [← abs_mul, hf]; exact hv
    have h3 : 1 - 1 / 10 ^ 6 ≤ |cs * cs + sn * sn| :=
      le_trans (by linarith [(abs_le.mp hcs).1]) (le_abs_self _)
    by_contra hc
    push Not at hc
    nlinarith
  constructor
  · refine q2 ex ?_
    rw [abs_le] at *
    constructor <;> linarith [b1.1, b1.2, b2.1, b2.2]
  · refine q2 ey ?_
    rw [abs_le] at *
    constructor <;> linarith [b3.1, b3.2, b4.1, b4.2]

/-! ### One pixel of a small dab -/

/-- One coordinate of the pixel: its borders and its centre. -/
theorem pixel_err {z : ℚ} (h : |z| ≤ 501 / 100) :
    |rnd z| ≤ 51 / 10 ∧ |rnd (rnd z - 1 / 2)| ≤ 57 / 10 ∧ |rnd (rnd z - 1)| ≤ 62 / 10 ∧
    |rnd z - (rnd (rnd z - 1 / 2) + 1 / 2)| ≤ 1 / 10 ^ 4 ∧
    |rnd (rnd z - 1) - (rnd (rnd z - 1 / 2) - 1 / 2)| ≤ 1 / 10 ^ 4 ∧
    rnd (rnd z - 1) ≤ rnd (rnd z - 1 / 2) ∧ rnd (rnd z - 1 / 2) ≤ rnd z := by
  have h1 := near_rnd (by linarith : |z| ≤ 16)
  have hf := rnd_float z
  obtain ⟨R, hR⟩ : ∃ R, R = rnd z := ⟨_, rfl⟩
  rw [← hR] at h1 hf ⊢
  have hb : |R| ≤ 51 / 10 := by
    rw [abs_le] at *
    constructor <;> linarith [h1.1, h1.2, h.1, h.2]
  have h2 := near_rnd (x := R - 1 / 2) (by rw [abs_le] at *; constructor <;> linarith [hb.1, hb.2])
  have h3 := near_rnd (x := R - 1) (by rw [abs_le] at *; constructor <;> linarith [hb.1, hb.2])
  refine ⟨hb, ?_, ?_, ?_, ?_, rnd_mono (by linarith), rnd_le hf (by linarith)⟩ <;>
  · rw [abs_le] at *
    constructor <;> linarith [hb.1, hb.2, h2.1, h2.2, h3.1, h3.2]

theorem clamp_between {v lo hi B : ℚ} (h : lo ≤ hi) (h1 : |lo| ≤ B) (h2 : |hi| ≤ B) : |clamp v lo hi| ≤ B := by
  unfold clamp
  split_ifs with a b
  · exact h2
  · exact h1
  · rw [abs_le] at *
    constructor <;> linarith [h1.1, h2.2]

theorem closest_err {cs sn cx cy : ℚ} (c1 : |cs| ≤ 1) (s1 : |sn| ≤ 1)
    (hcs : |cs * cs + sn * sn - 1| ≤ 1 / 10 ^ 6) (hx : |cx| ≤ 57 / 10) (hy : |cy| ≤ 57 / 10) :
    |(closestPoint cs sn cx cy).1 - cs * (cx * cs + cy * sn)| ≤ 9 / 10 ^ 5 ∧
    |(closestPoint cs sn cx cy).2 - sn * (cx * cs + cy * sn)| ≤ 9 / 10 ^ 5 := by
  unfold closestPoint
  dsimp only
  have hl := sum_err (mul_le_seven (by linarith : |cs| ≤ 7) c1) (mul_le_seven (by linarith : |sn| ≤ 7) s1)
  have hd := sum_err (mul_le_seven (by linarith : |cx| ≤ 7) c1) (mul_le_seven (by linarith : |cy| ≤ 7) s1)
  obtain ⟨l, hle⟩ : ∃ l, l = rnd (rnd (cs * cs) + rnd (sn * sn)) := ⟨_, rfl⟩
  obtain ⟨d, hde⟩ : ∃ d, d = rnd (rnd (cx * cs) + rnd (cy * sn)) := ⟨_, rfl⟩
  rw [← hle] at hl ⊢
  rw [← hde] at hd ⊢
  have hl1 : |l - 1| ≤ 4 / 10 ^ 6 := by
    rw [abs_le] at *
    constructor <;> linarith [hl.1, hl.2, hcs.1, hcs.2]
  have mulb : ∀ {a b : ℚ}, |a| ≤ 57 / 10 → |b| ≤ 1 → |a * b| ≤ 57 / 10 := by
    intro a b ha hb
    rw [abs_mul]; nlinarith [abs_nonneg a, abs_nonneg b]
  have hT1 := mulb hx c1
  have hT2 := mulb hy s1
  obtain ⟨T, hT⟩ : ∃ T, T = cx * cs + cy * sn := ⟨_, rfl⟩
  have hTb : |T| ≤ 114 / 10 := by
    rw [hT]; rw [abs_le] at *
    constructor <;> linarith [hT1.1, hT1.2, hT2.1, hT2.2]
  rw [← hT] at hd ⊢
  have l0 : 0 < l := by linarith [(abs_le.mp hl1).1]
  have hq : |d / l - T| ≤ 6 / 10 ^ 5 := by
    have e : d / l - T = (d - T - T * (l - 1)) / l := by field_simp; ring
    rw [e, abs_div, abs_of_pos l0, div_le_iff₀ l0]
    have k1 : |T * (l - 1)| ≤ 114 / 10 * (4 / 10 ^ 6) := by
      rw [abs_mul]; exact mul_le_mul hTb hl1 (abs_nonneg _) (by norm_num)
    have k2 : 1 - 4 / 10 ^ 6 ≤ l := by linarith [(abs_le.mp hl1).1]
    have k3 : |d - T - T * (l - 1)| ≤ 3 / 10 ^ 6 + 114 / 10 * (4 / 10 ^ 6) := by
      rw [abs_le] at *
      constructor <;> linarith [hd.1, hd.2, k1.1, k1.2]
    refine le_trans k3 (le_trans ?_ (mul_le_mul_of_nonneg_left k2 (by norm_num)))
    norm_num
  have ht := near_rnd (x := d / l) (by
    rw [abs_le] at *
    constructor <;> linarith [hq.1, hq.2, hTb.1, hTb.2])
  obtain ⟨t, hte⟩ : ∃ t, t = rnd (d / l) := ⟨_, rfl⟩
  rw [← hte] at ht ⊢
  have htT : |t - T| ≤ 61 / 10 ^ 6 := by
    refine le_trans (abs_split ht hq) (by norm_num)
  have fin : ∀ c : ℚ, |c| ≤ 1 → |rnd (c * t) - c * T| ≤ 9 / 10 ^ 5 := by
    intro c hc
    have k1 : |c * t - c * T| ≤ 61 / 10 ^ 6 := by
      rw [← mul_sub, abs_mul]; nlinarith [abs_nonneg c, abs_nonneg (t - T)]
    have k2 : |c * T| ≤ 114 / 10 := by
      rw [abs_mul]; nlinarith [abs_nonneg c, abs_nonneg T]
    have k3 := near_rnd (x := c * t) (by
      rw [abs_le] at *
      constructor <;> linarith [k1.1, k1.2, k2.1, k2.2])
    refine le_trans (abs_split k3 k1) (by norm_num)
  exact ⟨fin cs c1, fin sn s1⟩

theorem sign_err {cs sn cx cy : ℚ} (c1 : |cs| ≤ 1) (s1 : |sn| ≤ 1) (hx : |cx| ≤ 57 / 10) (hy : |cy| ≤ 57 / 10) :
    |signPointInLine cx cy cs (-sn) - (cx * sn - cy * cs - 2 * sn * cs)| ≤ 5 / 10 ^ 6 := by
  unfold signPointInLine
  rw [neg_neg, sub_neg_eq_add]
  have a1 : |cx - cs| ≤ 67 / 10 := by
    rw [abs_le] at *; constructor <;> linarith [c1.1, c1.2, hx.1, hx.2]
  have a2 : |cy + sn| ≤ 67 / 10 := by
    rw [abs_le] at *; constructor <;> linarith [s1.1, s1.2, hy.1, hy.2]
  have b1 := near_rnd (by linarith : |cx - cs| ≤ 16)
  have b2 := near_rnd (by linarith : |cy + sn| ≤ 16)
  obtain ⟨p, hp⟩ : ∃ p, p = rnd (cx - cs) := ⟨_, rfl⟩
  obtain ⟨q, hq⟩ : ∃ q, q = rnd (cy + sn) := ⟨_, rfl⟩
  rw [← hp] at b1 ⊢
  rw [← hq] at b2 ⊢
  have p7 : |p| ≤ 7 := by rw [abs_le] at *; constructor <;> linarith [b1.1, b1.2, a1.1, a1.2]
  have q7 : |q| ≤ 7 := by rw [abs_le] at *; constructor <;> linarith [b2.1, b2.2, a2.1, a2.2]
  have h := diff_err (mul_le_seven p7 s1) (mul_le_seven q7 c1)
  rw [mul_comm cs q]
  have k1 : |p * sn - (cx - cs) * sn| ≤ 1 / 10 ^ 6 := by
    rw [← sub_mul, abs_mul]; nlinarith [abs_nonneg (p - (cx - cs)), abs_nonneg sn]
  have k2 : |q * cs - (cy + sn) * cs| ≤ 1 / 10 ^ 6 := by
    rw [← sub_mul, abs_mul]; nlinarith [abs_nonneg (q - (cy + sn)), abs_nonneg cs]
  rw [abs_le] at *
  constructor <;> linarith [h.1, h.2, k1.1, k1.2, k2.1, k2.2]

/-- The two possibilities for the nearest point. -/
theorem nearest_eq (s : Shape) (xp yp : Int) : nearest s xp yp = (0, 0) ∨ nearest s xp yp =
    (clamp (closestPoint s.cs s.sn (rnd (rnd (s.x - xp) - 1 / 2)) (rnd (rnd (s.y - yp) - 1 / 2))).1
      (rnd (rnd (s.x - xp) - 1)) (rnd (s.x - xp)),
     clamp (closestPoint s.cs s.sn (rnd (rnd (s.x - xp) - 1 / 2)) (rnd (rnd (s.y - yp) - 1 / 2))).2
      (rnd (rnd (s.y - yp) - 1)) (rnd (s.y - yp))) := by
  unfold nearest
  dsimp only
  split_ifs
  · exact .inl rfl
  · exact .inr rfl

theorem nearest_bound {s : Shape} {xp yp : Int} (hx : |s.x - xp| ≤ 501 / 100) (hy : |s.y - yp| ≤ 501 / 100) :
    |(nearest s xp yp).1| ≤ 62 / 10 ∧ |(nearest s xp yp).2| ≤ 62 / 10 := by
  obtain ⟨a1, a2, a3, -, -, a6, a7⟩ := pixel_err hx
  obtain ⟨b1, b2, b3, -, -, b6, b7⟩ := pixel_err hy
  rcases nearest_eq s xp yp with h | h <;> rw [h]
  · constructor <;> norm_num
  · exact ⟨clamp_between (le_trans a6 a7) a3 (by linarith), clamp_between (le_trans b6 b7) b3 (by linarith)⟩

theorem abs_mul_le_of {a b B : ℚ} (ha : |a| ≤ B) (hb : |b| ≤ 1) : |a * b| ≤ B := by
  rw [abs_mul]
  exact le_trans (mul_le_mul ha hb (abs_nonneg _) (le_trans (abs_nonneg _) ha)) (by rw [mul_one])

theorem not_origin {r ux uy : ℚ} (r0 : 56 / 100 ≤ r) (hu : 1 - 1 / 10 ^ 6 ≤ ux * ux + uy * uy)
    (n1 : |r * ux| ≤ 16 / 1000) (n2 : |r * uy| ≤ 16 / 1000) : False := by
  have k1 : r * ux * (r * ux) ≤ 16 / 1000 * (16 / 1000) := by
    rw [← abs_mul_abs_self]; exact mul_le_mul n1 n1 (abs_nonneg _) (by norm_num)
  have k2 : r * uy * (r * uy) ≤ 16 / 1000 * (16 / 1000) := by
    rw [← abs_mul_abs_self]; exact mul_le_mul n2 n2 (abs_nonneg _) (by norm_num)
  have k4 : (56 / 100 : ℚ) * (56 / 100) ≤ r * r := mul_le_mul r0 r0 (by norm_num) (by linarith)
  have k5 : r * r * (ux * ux + uy * uy) ≤ 2 * (16 / 1000 * (16 / 1000)) := by linarith
  have k6 : (56 / 100 : ℚ) * (56 / 100) * (1 - 1 / 10 ^ 6) ≤ r * r * (ux * ux + uy * uy) :=
    mul_le_mul k4 hu (by norm_num) (mul_self_nonneg r)
  norm_num at k5 k6
  linarith

/-- The nearest point is not at the distance at which the farthest one would be the centre of the dab. -/
theorem nearest_not {s : Shape} (hs : s.Ok) {xp yp : Int} (hx : |s.x - xp| ≤ 501 / 100) (hy : |s.y - yp| ≤ 501 / 100)
    {ux uy e : ℚ} (hu : (ux = s.sn ∧ uy = -s.cs) ∨ (ux = -s.sn ∧ uy = s.cs))
    (hE : e = rnd (rnd (s.x - xp) - 1 / 2) * ux + rnd (rnd (s.y - yp) - 1 / 2) * uy) (he : e ≤ 1 + 1 / 10 ^ 4)
    (n1 : |(nearest s xp yp).1 - s.rad1 * ux| ≤ 16 / 1000)
    (n2 : |(nearest s xp yp).2 - s.rad1 * uy| ≤ 16 / 1000) : False := by
  obtain ⟨-, a2, -, a4, a5, -, -⟩ := pixel_err hx
  obtain ⟨-, b2, -, b4, b5, -, -⟩ := pixel_err hy
  obtain ⟨ρ0, ρ1⟩ := hs.rad1
  have hc := hs.circle
  have hux : |ux| ≤ 1 := by rcases hu with ⟨h, -⟩ | ⟨h, -⟩ <;> rw [h] <;> simpa using hs.sn
  have huy : |uy| ≤ 1 := by rcases hu with ⟨-, h⟩ | ⟨-, h⟩ <;> rw [h] <;> simpa using hs.cs
  have huu : ux * ux + uy * uy = s.cs * s.cs + s.sn * s.sn := by
    rcases hu with ⟨h, h'⟩ | ⟨h, h'⟩ <;> rw [h, h'] <;> ring
  rcases nearest_eq s xp yp with h | h
  · rw [h] at n1 n2
    simp only [zero_sub, abs_neg] at n1 n2
    exact not_origin ρ0 (by rw [huu]; linarith [(abs_le.mp hc).1]) n1 n2
  · rw [h] at n1 n2
    dsimp only at n1 n2
    obtain ⟨o1, o2⟩ := closest_err hs.cs hs.sn hc a2 b2
    obtain ⟨cx, hcx⟩ : ∃ cx, cx = rnd (rnd (s.x - xp) - 1 / 2) := ⟨_, rfl⟩
    obtain ⟨cy, hcy⟩ : ∃ cy, cy = rnd (rnd (s.y - yp) - 1 / 2) := ⟨_, rfl⟩
    rw [← hcx] at a2 a4 a5 n1 n2 o1 o2 hE
    rw [← hcy] at b2 b4 b5 n1 n2 o1 o2 hE
    obtain ⟨ox, hox⟩ : ∃ ox, ox = (closestPoint s.cs s.sn cx cy).1 := ⟨_, rfl⟩
    obtain ⟨oy, hoy⟩ : ∃ oy, oy = (closestPoint s.cs s.sn cx cy).2 := ⟨_, rfl⟩
    rw [← hox] at o1 n1
    rw [← hoy] at o2 n2
    obtain ⟨T, hT⟩ : ∃ T, T = cx * s.cs + cy * s.sn := ⟨_, rfl⟩
    rw [← hT] at o1 o2
    have small : ∀ z : ℚ, |z| ≤ 57 / 10 → |z * (1 - (s.cs * s.cs + s.sn * s.sn))| ≤ 6 / 10 ^ 6 := by
      intro z hz
      rw [abs_mul, abs_sub_comm]
      refine le_trans (mul_le_mul hz hc (abs_nonneg _) (by norm_num)) (by norm_num)
    have i1 : cx - s.cs * T - e * ux = cx * (1 - (s.cs * s.cs + s.sn * s.sn)) := by
      rw [hE, hT]; rcases hu with ⟨h, h'⟩ | ⟨h, h'⟩ <;> rw [h, h'] <;> ring
    have i2 : cy - s.sn * T - e * uy = cy * (1 - (s.cs * s.cs + s.sn * s.sn)) := by
      rw [hE, hT]; rcases hu with ⟨h, h'⟩ | ⟨h, h'⟩ <;> rw [h, h'] <;> ring
    have j1 := small cx a2
    have j2 := small cy b2
    rw [← i1] at j1
    rw [← i2] at j2
    have ex : |cx - ox - e * ux| ≤ 1 / 10 ^ 4 := by
      rw [abs_le] at j1 o1 ⊢
      constructor <;> linarith [j1.1, j1.2, o1.1, o1.2]
    have ey : |cy - oy - e * uy| ≤ 1 / 10 ^ 4 := by
      rw [abs_le] at j2 o2 ⊢
      constructor <;> linarith [j2.1, j2.2, o2.1, o2.2]
    have ho : |ox * ux + oy * uy| ≤ 2 * (1 / 10 ^ 4) := by
      have e1 : ox * ux + oy * uy = (ox - s.cs * T) * ux + (oy - s.sn * T) * uy := by
        rcases hu with ⟨h, h'⟩ | ⟨h, h'⟩ <;> rw [h, h'] <;> ring
      have k1 : |(ox - s.cs * T) * ux| ≤ 9 / 10 ^ 5 := abs_mul_le_of o1 hux
      have k2 : |(oy - s.sn * T) * uy| ≤ 9 / 10 ^ 5 := abs_mul_le_of o2 huy
      rw [e1]
      rw [abs_le] at k1 k2 ⊢
      constructor <;> linarith [k1.1, k1.2, k2.1, k2.2]
    exact normal_far_approx (d := 1 / 10 ^ 4) (by norm_num) (by norm_num) hux huy
      (by rw [huu]; refine le_trans hc (by norm_num)) ex ey he a4 a5 b4 b5 ρ0 ho n1 n2

theorem back {n b w f : ℚ} (h1 : |f - (n + b)| ≤ 1 / 10 ^ 6) (h2 : |f| ≤ 15 / 1000) (h3 : |b + w| ≤ 1 / 10 ^ 6) :
    |n - w| ≤ 16 / 1000 := by
  rw [abs_le] at *
  constructor <;> linarith [h1.1, h1.2, h2.1, h2.2, h3.1, h3.2]

theorem sums {a b : ℚ} (ha : |a| ≤ 62 / 10) (hb : |b| ≤ 58 / 100) :
    |rnd (a + b) - (a + b)| ≤ 1 / 10 ^ 6 ∧ |rnd (a + b)| ≤ 7 := by
  have h1 : |a + b| ≤ 68 / 10 := by
    rw [abs_le] at *; constructor <;> linarith [ha.1, ha.2, hb.1, hb.2]
  have h2 := near_rnd (by linarith : |a + b| ≤ 16)
  refine ⟨h2, ?_⟩
  rw [abs_le] at *; constructor <;> linarith [h1.1, h1.2, h2.1, h2.2]

theorem prods {z r : ℚ} (hz : |z| ≤ 1) (r0 : 56 / 100 ≤ r) (r1 : r ≤ 57 / 100) :
    |rnd (z * r) - z * r| ≤ 1 / 10 ^ 6 ∧ |rnd (z * r)| ≤ 58 / 100 := by
  have hb : |z * r| ≤ 57 / 100 := by
    rw [abs_mul, abs_of_nonneg (by linarith : 0 ≤ r)]
    nlinarith [abs_nonneg z]
  have h := near_rnd (by linarith : |z * r| ≤ 16)
  refine ⟨h, ?_⟩
  rw [abs_le] at *; constructor <;> linarith [h.1, h.2, hb.1, hb.2]

/-- The farthest point keeps away from the centre of the dab. -/
theorem rFar_large {s : Shape} (hs : s.Ok) {xp yp : Int} (hx : |s.x - xp| ≤ 501 / 100) (hy : |s.y - yp| ≤ 501 / 100) :
    2 / 10 ^ 5 < rFar s xp yp := by
  by_contra hc
  push Not at hc
  obtain ⟨-, a2, -⟩ := pixel_err hx
  obtain ⟨-, b2, -⟩ := pixel_err hy
  obtain ⟨m1, m2⟩ := nearest_bound hx hy
  obtain ⟨ρ0, ρ1⟩ := hs.rad1
  have hsg := sign_err hs.cs hs.sn a2 b2
  have hsc : |2 * s.sn * s.cs| ≤ 1 + 1 / 10 ^ 6 := by
    have := hs.circle
    rw [abs_le] at this ⊢
    constructor
    · nlinarith [sq_nonneg (s.sn + s.cs), this.2]
    · nlinarith [sq_nonneg (s.sn - s.cs), this.2]
  obtain ⟨ps, hSb⟩ := prods hs.sn ρ0 ρ1
  obtain ⟨pc, hCb⟩ := prods hs.cs ρ0 ρ1
  obtain ⟨nx, hnx⟩ : ∃ nx, nx = (nearest s xp yp).1 := ⟨_, rfl⟩
  obtain ⟨ny, hny⟩ : ∃ ny, ny = (nearest s xp yp).2 := ⟨_, rfl⟩
  rw [← hnx] at m1
  rw [← hny] at m2
  obtain ⟨S, hS⟩ : ∃ S, S = rnd (s.sn * s.rad1) := ⟨_, rfl⟩
  obtain ⟨C, hC⟩ : ∃ C, C = rnd (s.cs * s.rad1) := ⟨_, rfl⟩
  rw [← hS] at ps hSb
  rw [← hC] at pc hCb
  have ps' : |-S + s.rad1 * s.sn| ≤ 1 / 10 ^ 6 := by
    rw [show -S + s.rad1 * s.sn = -(S - s.sn * s.rad1) by ring, abs_neg]; exact ps
  have pc' : |-C + s.rad1 * s.cs| ≤ 1 / 10 ^ 6 := by
    rw [show -C + s.rad1 * s.cs = -(C - s.cs * s.rad1) by ring, abs_neg]; exact pc
  have ps2 : |S + s.rad1 * -s.sn| ≤ 1 / 10 ^ 6 := by
    rw [show S + s.rad1 * -s.sn = S - s.sn * s.rad1 by ring]; exact ps
  have pc2 : |C + s.rad1 * -s.cs| ≤ 1 / 10 ^ 6 := by
    rw [show C + s.rad1 * -s.cs = C - s.cs * s.rad1 by ring]; exact pc
  have hsg1 := (abs_le.mp hsg).1
  have hsg2 := (abs_le.mp hsg).2
  have hsc1 := (abs_le.mp hsc).1
  have hsc2 := (abs_le.mp hsc).2
  unfold rFar farthest at hc
  dsimp only at hc
  rw [← hnx, ← hny, ← hS, ← hC] at hc
  split_ifs at hc with hlt
  · dsimp only at hc
    rw [sub_eq_add_neg] at hc
    obtain ⟨f1, f2⟩ := sums m1 (by rwa [abs_neg] : |(-S)| ≤ 58 / 100)
    obtain ⟨g1, g2⟩ := sums m2 hCb
    obtain ⟨r1, r2⟩ := rSample_small hs.aspect hs.cs hs.sn hs.circle f2 g2 hc
    refine nearest_not hs hx hy (.inl ⟨rfl, rfl⟩) rfl ?_ (hnx ▸ back f1 r1 ps') (hny ▸ back g1 r2 pc2)
    linarith
  · dsimp only at hc
    rw [sub_eq_add_neg] at hc
    obtain ⟨f1, f2⟩ := sums m1 hSb
    obtain ⟨g1, g2⟩ := sums m2 (by rwa [abs_neg] : |(-C)| ≤ 58 / 100)
    obtain ⟨r1, r2⟩ := rSample_small hs.aspect hs.cs hs.sn hs.circle f2 g2 hc
    refine nearest_not hs hx hy (.inr ⟨rfl, rfl⟩) rfl ?_ (hnx ▸ back f1 r1 ps2) (hny ▸ back g1 r2 pc')
    linarith

theorem scale_bounds {s : Shape} (h0 : 1 / 10 ≤ s.radius) (h3 : s.radius < 3) : 1 / 10 ≤ s.scale := by
  unfold Shape.scale
  have hr : rnd (s.radius * s.radius) ≤ 9 := by
    have : F32 9 := by simpa using float_int 9 (by norm_num)
    exact rnd_le this (by nlinarith)
  have hr0 : 0 < rnd (s.radius * s.radius) := by
    have h1 : (1 : ℚ) / 128 ≤ s.radius * s.radius := by nlinarith
    have : F32 (1 / 128) := ⟨1, -7, by norm_num, by norm_num, by norm_num⟩
    have := le_rnd this h1
    linarith
  have h9 : (1 : ℚ) / 9 ≤ 1 / rnd (s.radius * s.radius) := one_div_le_one_div_of_le hr0 hr
  have := rnd_low (z := 1 / rnd (s.radius * s.radius)) (by positivity)
  norm_num at this ⊢
  norm_num at h9
  linarith

/-- For a small dab there is always a distance. -/
theorem antialiased_defined {s : Shape} (hs : s.Ok) (h3 : s.radius < 3) {xp yp : Int} (hx : |s.x - xp| ≤ 501 / 100)
    (hy : |s.y - yp| ≤ 501 / 100) : (rrAntialiased s xp yp).isSome := by
  unfold rrAntialiased
  dsimp only
  split_ifs with h1 h2 h4
  · rfl
  · rfl
  · exfalso
    have hF := rFar_large hs hx hy
    have hk := scale_bounds hs.radius h3
    have h5 : 2 / 10 ^ 6 < rFar s xp yp * s.scale := by nlinarith
    have h6 := rnd_low (z := rFar s xp yp * s.scale) (by linarith)
    obtain ⟨far, hfar⟩ : ∃ far, far = rnd (rFar s xp yp * s.scale) := ⟨_, rfl⟩
    rw [← hfar] at h4 h6
    obtain ⟨near, hnear⟩ : ∃ near, near = rrNear s xp yp := ⟨_, rfl⟩
    rw [← hnear] at h1 h4
    have h7 : 19 / 10 ^ 7 < far := by norm_num at h5 h6 ⊢; linarith
    have hg : F32 (-(1 - 1 / 2 ^ 20)) := ⟨-1048575, -20, by norm_num, by norm_num, by norm_num⟩
    have h8 : -(1 - 1 / 2 ^ 20) ≤ rnd (far - near) := le_rnd hg (by norm_num at h7 ⊢; linarith)
    have h9 : F32 (1 / 2 ^ 20) := ⟨1, -20, by norm_num, by norm_num, by norm_num⟩
    have := le_rnd h9 (by linarith : (1 : ℚ) / 2 ^ 20 ≤ 1 + rnd (far - near))
    rw [h4] at this
    norm_num at this
  · rfl

theorem rSample_nonneg (x y aspect sn cs : ℚ) : 0 ≤ rSample x y aspect sn cs :=
  rnd_nonneg (add_nonneg (rnd_nonneg (mul_self_nonneg _)) (rnd_nonneg (mul_self_nonneg _)))

theorem scale_nonneg (s : Shape) : 0 ≤ s.scale :=
  rnd_nonneg (div_nonneg (by norm_num) (rnd_nonneg (mul_self_nonneg _)))

/-- Distances are not negative, and floats. -/
theorem rr_nonneg {s : Shape} {xp yp : Int} {rr : ℚ} (h : rrAt s xp yp = some rr) : 0 ≤ rr ∧ F32 rr := by
  unfold rrAt at h
  split_ifs at h
  · unfold rrAntialiased at h
    dsimp only at h
    have n0 : 0 ≤ rrNear s xp yp := rnd_nonneg (mul_nonneg (rSample_nonneg _ _ _ _ _) (scale_nonneg s))
    have f0 : 0 ≤ rnd (rFar s xp yp * s.scale) := rnd_nonneg (mul_nonneg (rSample_nonneg _ _ _ _ _) (scale_nonneg s))
    split_ifs at h with h1 h2 h3
    · rw [← Option.some.inj h]; exact ⟨n0, rnd_float _⟩
    · rw [← Option.some.inj h]
      exact ⟨rnd_nonneg (mul_nonneg (rnd_nonneg (add_nonneg f0 n0)) (by norm_num)), rnd_float _⟩
    · rw [← Option.some.inj h]
      refine ⟨rnd_nonneg ?_, rnd_float _⟩
      rw [sub_nonneg]
      refine rnd_le float_one ?_
      have hmono : rnd (1 - rrNear s xp yp) ≤ rnd (1 + rnd (rnd (rFar s xp yp * s.scale) - rrNear s xp yp)) := by
        refine rnd_mono ?_
        have hf : F32 (-rrNear s xp yp) := (rnd_float _).neg
        have := le_rnd hf (by linarith : -rrNear s xp yp ≤ rnd (rFar s xp yp * s.scale) - rrNear s xp yp)
        linarith
      have hv : 0 ≤ rnd (1 - rrNear s xp yp) := rnd_nonneg (by linarith)
      exact div_le_one_of_le₀ hmono (le_trans hv hmono)
  · rw [← Option.some.inj h]
    exact ⟨rnd_nonneg (mul_nonneg (rnd_nonneg (add_nonneg (rnd_nonneg (mul_self_nonneg _))
      (rnd_nonneg (mul_self_nonneg _)))) (scale_nonneg s)), rnd_float _⟩

theorem float_four : F32 4 := by simpa using float_int 4 (by norm_num)

/-- Pixels of the window of a small dab are close to its centre. -/
theorem window_near {c radius : ℚ} (h0 : 1 / 10 ≤ radius) (h3 : radius < 3) {p : Int}
    (l : (window c radius).1 ≤ p) (r : p ≤ (window c radius).2) : |c - p| ≤ 501 / 100 := by
  unfold window at l r
  dsimp only at l r
  have f0 : 0 ≤ rnd (radius + 1) := rnd_nonneg (by linarith)
  have f4 : rnd (radius + 1) ≤ 4 := rnd_le float_four (by linarith)
  obtain ⟨f, hf⟩ : ∃ f, f = rnd (radius + 1) := ⟨_, rfl⟩
  rw [← hf] at l r f0 f4
  have l1 := le_trans (le_max_left _ _) l
  have l0 := le_trans (le_max_right _ _) l
  have r1 := le_trans r (min_le_left _ _)
  have r0 := le_trans r (min_le_right _ _)
  have p0 : (0 : ℚ) ≤ p := by exact_mod_cast l0
  have p1 : (p : ℚ) ≤ 63 := by exact_mod_cast r0
  have l2 : rnd (c - f) < p + 1 := by
    have := Int.lt_floor_add_one (rnd (c - f))
    have h : ((⌊rnd (c - f)⌋ : ℤ) : ℚ) ≤ p := by exact_mod_cast l1
    linarith
  have r2 : (p : ℚ) ≤ rnd (c + f) := Int.le_floor.mp r1
  have hi : c < 68 := by
    by_contra h
    push Not at h
    have h64 : F32 64 := by simpa using float_int 64 (by norm_num)
    have := le_rnd h64 (by linarith : (64 : ℚ) ≤ c - f)
    linarith
  have lo : -5 ≤ c := by
    by_contra h
    push Not at h
    have hm1 : F32 (-1) := float_one.neg
    have := rnd_le hm1 (by linarith : c + f ≤ -1)
    linarith
  have e1 := rnd_err_of (x := c - f) (B := 100) (by rw [abs_le]; constructor <;> linarith)
  have e2 := rnd_err_of (x := c + f) (B := 100) (by rw [abs_le]; constructor <;> linarith)
  rw [abs_le] at *
  norm_num at e1 e2
  constructor <;> linarith [e1.1, e1.2, e2.1, e2.2]

end Verif.FloatMask
