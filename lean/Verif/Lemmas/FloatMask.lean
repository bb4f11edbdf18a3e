import Mathlib.Tactic.LinearCombination
import Verif.Lemmas.FloatLoop
import Verif.Model.FloatMask

/-! # Rounding errors of the falloff of a dab -/

namespace Verif.FloatMask

open Float32 FloatStroke

theorem rnd_mono {a b : ℚ} (h : a ≤ b) : rnd a ≤ rnd b := round_mono 24 (-149) (by norm_num) h

/-- The first segment of the falloff. -/
def seg1 (h s rr : ℚ) : ℚ :=
  rnd (rnd (1 - s) - rnd (rr * rnd (rnd (rnd (1 / h) - 1) * rnd (1 - s))))

/-- The second segment of the falloff. -/
def seg2 (h s rr : ℚ) : ℚ :=
  rnd (rnd (rnd (h / rnd (1 - h)) * rnd (1 - s)) - rnd (rr * rnd (rnd (h / rnd (1 - h)) * rnd (1 - s))))

theorem rnd_unit {a : ℚ} (h0 : 0 ≤ a) (h1 : a ≤ 1) : 0 ≤ rnd a ∧ rnd a ≤ 1 :=
  ⟨rnd_nonneg h0, rnd_le float_one h1⟩

theorem abs_split {a b c e f : ℚ} (h1 : |a - b| ≤ e) (h2 : |b - c| ≤ f) : |a - c| ≤ e + f := by
  rw [abs_le] at *; constructor <;> linarith [h1.1, h1.2, h2.1, h2.2]

theorem abs_mul_unit {a b q e : ℚ} (h : |a - b| ≤ e) (q0 : 0 ≤ q) (q1 : q ≤ 1) : |q * a - q * b| ≤ e := by
  rw [← mul_sub, abs_mul, abs_of_nonneg q0]
  have := abs_nonneg (a - b)
  nlinarith

theorem rnd_err_of {x B : ℚ} (h : |x| ≤ B) : |rnd x - x| ≤ B / 16777216 + 1 / 10 ^ 40 := by
  have := rnd_err x
  have : |x| / 16777216 ≤ B / 16777216 := by linarith
  linarith

theorem seg1_slope {h s : ℚ} (h0 : 0 < h) (h1 : h ≤ 1) (s0 : 0 ≤ s) (s1 : s ≤ 1) :
    |h * rnd (rnd (rnd (1 / h) - 1) * rnd (1 - s)) - (1 - h) * (1 - s)| ≤ 8 / 16777216 := by
  obtain ⟨A, hA⟩ : ∃ A, A = 1 - s := ⟨_, rfl⟩
  have A0 : 0 ≤ A := by linarith
  have A1 : A ≤ 1 := by linarith
  rw [← hA]
  obtain ⟨a0, a1⟩ := rnd_unit A0 A1
  have ha := rnd_err_of (x := A) (B := 1) (by rw [abs_of_nonneg A0]; exact A1)
  obtain ⟨a, hae⟩ : ∃ a, a = rnd A := ⟨_, rfl⟩
  rw [← hae] at a0 a1 ha ⊢
  have hi := rnd_err (1 / h)
  obtain ⟨i, hie⟩ : ∃ i, i = rnd (1 / h) := ⟨_, rfl⟩
  rw [← hie] at hi ⊢
  have hj := rnd_err (i - 1)
  obtain ⟨j, hje⟩ : ∃ j, j = rnd (i - 1) := ⟨_, rfl⟩
  rw [← hje] at hj ⊢
  have hm := rnd_err (j * a)
  obtain ⟨m, hme⟩ : ∃ m, m = rnd (j * a) := ⟨_, rfl⟩
  rw [← hme] at hm ⊢
  have up : ∀ x y e : ℚ, |x - y| ≤ |y| / 16777216 + e → 0 ≤ e →
      |h * x - h * y| ≤ |h * y| / 16777216 + e := by
    intro x y e hxy he
    rw [← mul_sub, abs_mul, abs_mul, abs_of_pos h0]
    have h2 := mul_le_mul_of_nonneg_left hxy h0.le
    nlinarith
  have hi' := up _ _ _ hi (by norm_num)
  have hj' := up _ _ _ hj (by norm_num)
  have hm' := up _ _ _ hm (by norm_num)
  rw [mul_one_div_cancel h0.ne', abs_one] at hi'
  rw [mul_sub, mul_one] at hj'
  rw [← mul_assoc] at hm'
  obtain ⟨I, hI⟩ : ∃ I, I = h * i := ⟨_, rfl⟩
  obtain ⟨J, hJ⟩ : ∃ J, J = h * j := ⟨_, rfl⟩
  rw [← hI] at hi'
  rw [← hI, ← hJ] at hj'
  rw [← hJ] at hm'
  have hI2 : |I - h| ≤ 1 + 1 / 10 ^ 6 := by
    rw [abs_le] at hi' ⊢
    constructor <;> linarith [hi'.1, hi'.2]
  have hJ1 : |J - (1 - h)| ≤ 3 / 16777216 := by
    have e1 : |J - (I - h)| ≤ (1 + 1 / 10 ^ 6) / 16777216 + 1 / 10 ^ 40 := by linarith
    have e2 : |(I - h) - (1 - h)| ≤ 1 / 16777216 + 1 / 10 ^ 40 := by
      rw [show (I - h) - (1 - h) = I - 1 by ring]; exact hi'
    refine le_trans (abs_split e1 e2) (by norm_num)
  have hJ2 : |J| ≤ 1 + 1 / 10 ^ 6 := by
    rw [abs_le] at hJ1 ⊢
    constructor <;> linarith [hJ1.1, hJ1.2]
  have hJa : |J * a| ≤ 1 + 1 / 10 ^ 6 := by
    rw [abs_mul, abs_of_nonneg a0]
    nlinarith [abs_nonneg J]
  have c1 : |h * m - J * a| ≤ (1 + 1 / 10 ^ 6) / 16777216 + 1 / 10 ^ 40 := by linarith
  have c2 : |J * a - (1 - h) * a| ≤ 3 / 16777216 := by
    have := abs_mul_unit hJ1 a0 a1
    rwa [mul_comm a, mul_comm a] at this
  have c3 : |(1 - h) * a - (1 - h) * A| ≤ 1 / 16777216 + 1 / 10 ^ 40 :=
    abs_mul_unit ha (by linarith) (by linarith)
  refine le_trans (abs_split (abs_split c1 c2) c3) (by norm_num)

theorem seg1_err {h s rr : ℚ} (h0 : 0 < h) (h1 : h ≤ 1) (s0 : 0 ≤ s) (s1 : s ≤ 1) (r0 : 0 ≤ rr) (r1 : rr ≤ h) :
    |seg1 h s rr - (1 - s) * (1 - rr * (1 / h - 1))| ≤ 16 / 16777216 := by
  have hM := seg1_slope h0 h1 s0 s1
  unfold seg1
  obtain ⟨m, hm⟩ : ∃ m, m = rnd (rnd (rnd (1 / h) - 1) * rnd (1 - s)) := ⟨_, rfl⟩
  rw [← hm] at hM ⊢
  obtain ⟨A, hA⟩ : ∃ A, A = 1 - s := ⟨_, rfl⟩
  have A0 : 0 ≤ A := by linarith
  have A1 : A ≤ 1 := by linarith
  rw [← hA] at hM ⊢
  obtain ⟨a0, a1⟩ := rnd_unit A0 A1
  have ha := rnd_err_of (x := A) (B := 1) (by rw [abs_of_nonneg A0]; exact A1)
  obtain ⟨a, hae⟩ : ∃ a, a = rnd A := ⟨_, rfl⟩
  rw [← hae] at a0 a1 ha ⊢
  obtain ⟨q, hq⟩ : ∃ q, q = rr / h := ⟨_, rfl⟩
  have hrr : rr = q * h := by rw [hq, div_mul_cancel₀ _ h0.ne']
  have q0 : 0 ≤ q := hq ▸ div_nonneg r0 h0.le
  have q1 : q ≤ 1 := by rw [hq, div_le_one h0]; exact r1
  have hexact : A * (1 - rr * (1 / h - 1)) = A - q * ((1 - h) * A) := by
    rw [hrr]; field_simp
  have hqm : |q * (h * m) - q * ((1 - h) * A)| ≤ 8 / 16777216 := abs_mul_unit hM q0 q1
  have hrm : rr * m = q * (h * m) := by rw [hrr]; ring
  rw [hexact, hrm]
  have hE : 0 ≤ q * ((1 - h) * A) ∧ q * ((1 - h) * A) ≤ 1 := by
    have e1 : 0 ≤ (1 - h) * A := mul_nonneg (by linarith) A0
    have e2 : (1 - h) * A ≤ 1 := by nlinarith
    exact ⟨mul_nonneg q0 e1, by nlinarith⟩
  obtain ⟨E, hEe⟩ : ∃ E, E = q * ((1 - h) * A) := ⟨_, rfl⟩
  obtain ⟨Q, hQe⟩ : ∃ Q, Q = q * (h * m) := ⟨_, rfl⟩
  rw [← hEe] at hE hqm ⊢
  rw [← hQe] at hqm ⊢
  have hQ : |Q| ≤ 1 + 1 / 10 ^ 6 := by
    rw [abs_le] at hqm ⊢
    constructor <;> linarith [hqm.1, hqm.2, hE.1, hE.2]
  have hp := rnd_err_of hQ
  obtain ⟨p, hpe⟩ : ∃ p, p = rnd Q := ⟨_, rfl⟩
  rw [← hpe] at hp ⊢
  have hap : |a - p| ≤ 1 + 1 / 10 ^ 5 := by
    rw [abs_le] at hp hqm ⊢
    constructor <;> linarith [hqm.1, hqm.2, hE.1, hE.2, hp.1, hp.2]
  have hv := rnd_err_of hap
  rw [abs_le] at hv hp hqm ha ⊢
  constructor <;> linarith [hv.1, hv.2, hp.1, hp.2, hqm.1, hqm.2, ha.1, ha.2]

theorem gap_pos {h : ℚ} (hh : F32 h) (h1 : h < 1) :
    0 < rnd (1 - h) ∧ |rnd (1 - h) - (1 - h)| ≤ (1 - h) / 16777216 := by
  have := rnd_sub_err float_one hh
  rw [abs_of_pos (by linarith : 0 < 1 - h)] at this
  refine ⟨?_, this⟩
  have := (abs_le.mp this).1
  linarith

theorem seg2_slope {h s : ℚ} (hh : F32 h) (hs : F32 s) (h0 : 0 < h) (h1 : h < 1) (s0 : 0 ≤ s) (s1 : s ≤ 1) :
    |rnd (rnd (h / rnd (1 - h)) * rnd (1 - s)) - h / (1 - h) * (1 - s)| ≤
      6 / 16777216 * (h / (1 - h)) + 1 / 10 ^ 39 := by
  obtain ⟨A, hA⟩ : ∃ A, A = 1 - s := ⟨_, rfl⟩
  have A0 : 0 ≤ A := by linarith
  have A1 : A ≤ 1 := by linarith
  rw [← hA]
  obtain ⟨a0, a1⟩ := rnd_unit A0 A1
  have ha := rnd_err A
  rw [abs_of_nonneg A0] at ha
  obtain ⟨a, hae⟩ : ∃ a, a = rnd A := ⟨_, rfl⟩
  rw [← hae] at a0 a1 ha ⊢
  obtain ⟨w0, hw⟩ := gap_pos hh h1
  obtain ⟨w, hwe⟩ : ∃ w, w = rnd (1 - h) := ⟨_, rfl⟩
  rw [← hwe] at w0 hw ⊢
  have hd : 0 < 1 - h := by linarith
  obtain ⟨E, hE⟩ : ∃ E, E = h / (1 - h) := ⟨_, rfl⟩
  have E0 : 0 < E := hE ▸ div_pos h0 hd
  have hEh : E * (1 - h) = h := by rw [hE, div_mul_cancel₀ _ hd.ne']
  rw [← hE]
  rw [abs_le] at hw
  have g1 : |h / w - E| ≤ 2 / 16777216 * E := by
    rw [abs_le]
    constructor
    · rw [neg_le_sub_iff_le_add, ← sub_le_iff_le_add, le_div_iff₀ w0]
      nlinarith [hw.1, hw.2]
    · rw [sub_le_iff_le_add, div_le_iff₀ w0]
      nlinarith [hw.1, hw.2]
  have g2 : |h / w| ≤ E * (1 + 1 / 10 ^ 6) := by
    rw [abs_le] at g1 ⊢
    constructor <;> linarith [g1.1, g1.2]
  have g3 := rnd_err_of g2
  obtain ⟨g, hg⟩ : ∃ g, g = rnd (h / w) := ⟨_, rfl⟩
  rw [← hg] at g3 ⊢
  have g4 := abs_split g3 g1
  have g5 : |g| ≤ E * (1 + 1 / 10 ^ 5) + 1 / 10 ^ 40 := by
    rw [abs_le] at g4 ⊢
    constructor <;> linarith [g4.1, g4.2]
  have ga : |g * a| ≤ E * (1 + 1 / 10 ^ 5) + 1 / 10 ^ 40 := by
    rw [abs_mul, abs_of_nonneg a0]
    nlinarith [abs_nonneg g]
  have g6 := rnd_err_of ga
  have g7 : |g * a - E * a| ≤ E * (1 + 1 / 10 ^ 6) / 16777216 + 1 / 10 ^ 40 + 2 / 16777216 * E := by
    have := abs_mul_unit g4 a0 a1
    rwa [mul_comm a, mul_comm a] at this
  have g8 : |E * a - E * A| ≤ E / 16777216 := by
    rw [← mul_sub, abs_mul, abs_of_pos E0]
    have := rnd_sub_err float_one hs
    rw [← hA, ← hae, abs_of_nonneg A0] at this
    nlinarith
  refine le_trans (abs_split (abs_split g6 g7) g8) ?_
  nlinarith

theorem seg2_err {h s rr : ℚ} (hh : F32 h) (hs : F32 s) (h0 : 0 < h) (h1 : h < 1) (s0 : 0 ≤ s) (s1 : s ≤ 1)
    (r0 : 0 ≤ rr) (r1 : rr ≤ 1) :
    |seg2 h s rr - h / (1 - h) * (1 - s) * (1 - rr)| ≤ 16 / 16777216 * (h / (1 - h)) + 1 / 10 ^ 38 := by
  have hP := seg2_slope hh hs h0 h1 s0 s1
  unfold seg2
  obtain ⟨P, hPe⟩ : ∃ P, P = rnd (rnd (h / rnd (1 - h)) * rnd (1 - s)) := ⟨_, rfl⟩
  rw [← hPe] at hP ⊢
  have E0 : 0 < h / (1 - h) := div_pos h0 (by linarith)
  obtain ⟨E, hE⟩ : ∃ E, E = h / (1 - h) := ⟨_, rfl⟩
  rw [← hE] at hP E0 ⊢
  have hEA : 0 ≤ E * (1 - s) ∧ E * (1 - s) ≤ E := ⟨mul_nonneg E0.le (by linarith), by nlinarith⟩
  obtain ⟨Q, hQ⟩ : ∃ Q, Q = E * (1 - s) := ⟨_, rfl⟩
  rw [← hQ] at hP hEA ⊢
  have hPb : |P| ≤ E * (1 + 1 / 10 ^ 5) + 1 / 10 ^ 39 := by
    rw [abs_le] at hP ⊢
    constructor <;> linarith [hP.1, hP.2, hEA.1, hEA.2]
  have hrP : |rr * P| ≤ E * (1 + 1 / 10 ^ 5) + 1 / 10 ^ 39 := by
    rw [abs_mul, abs_of_nonneg r0]; nlinarith [abs_nonneg P]
  have hp := rnd_err_of hrP
  obtain ⟨p, hpe⟩ : ∃ p, p = rnd (rr * P) := ⟨_, rfl⟩
  rw [← hpe] at hp ⊢
  have hd : |P * (1 - rr)| ≤ E * (1 + 1 / 10 ^ 5) + 1 / 10 ^ 39 := by
    rw [abs_mul, abs_of_nonneg (by linarith : 0 ≤ 1 - rr)]; nlinarith [abs_nonneg P]
  have hPp : |P - p| ≤ E * (1 + 1 / 10 ^ 4) + 1 / 10 ^ 38 / 2 := by
    rw [abs_le] at hp hd ⊢
    constructor <;> linarith [hp.1, hp.2, hd.1, hd.2]
  have hv := rnd_err_of hPp
  have hc : |(1 - rr) * P - (1 - rr) * Q| ≤ 6 / 16777216 * E + 1 / 10 ^ 39 :=
    abs_mul_unit hP (by linarith) (by linarith)
  rw [abs_le] at hv hp hc ⊢
  constructor <;> linarith [hv.1, hv.2, hp.1, hp.2, hc.1, hc.2]

theorem seg2_nonneg {h s rr : ℚ} (hh : F32 h) (h0 : 0 < h) (h1 : h < 1) (s1 : s ≤ 1) (r1 : rr ≤ 1) :
    0 ≤ seg2 h s rr := by
  unfold seg2
  obtain ⟨w0, -⟩ := gap_pos hh h1
  have hP : 0 ≤ rnd (rnd (h / rnd (1 - h)) * rnd (1 - s)) :=
    rnd_nonneg (mul_nonneg (rnd_nonneg (div_nonneg h0.le w0.le)) (rnd_nonneg (by linarith)))
  refine rnd_nonneg ?_
  rw [sub_nonneg]
  refine rnd_le (rnd_float _) ?_
  nlinarith

/-- Floats from 1/2 to 1 are multiples of 2^-24. -/
theorem float_grid {z : ℚ} (hz : F32 z) (h : 1 / 2 ≤ z) : ∃ n : ℤ, z = n / 16777216 := by
  obtain ⟨n, e, he, hn, rfl⟩ := hz
  have h2 : (2 : ℚ) ≠ 0 := by norm_num
  by_cases hc : -24 ≤ e
  · obtain ⟨d, rfl⟩ := Int.le.dest hc
    refine ⟨n * 2 ^ d, ?_⟩
    rw [zpow_add₀ h2, zpow_natCast]; push_cast; norm_num; ring
  · -- then the number is 1/2
    have a1 : (2 : ℚ) ^ e ≤ 2 ^ (-25 : ℤ) := two_zpow_le (by omega)
    have a2 : (n : ℚ) ≤ 2 ^ 24 := by exact_mod_cast le_trans (le_abs_self n) hn
    have a3 := two_pos_zpow e
    norm_num at a1 a2
    refine ⟨8388608, ?_⟩
    have : (n : ℚ) * 2 ^ e ≤ 1 / 2 := by nlinarith
    norm_num
    linarith

theorem seg2_le {h s rr : ℚ} (hh : F32 h) (hs : F32 s) (h0 : 1 / 2 ≤ h) (h1 : h < 1) (s0 : 0 ≤ s) (s1 : s ≤ 1)
    (hr : F32 rr) (r0 : h < rr) (r1 : rr ≤ 1) : seg2 h s rr ≤ 1 + 1 / 2 ^ 20 := by
  have hP := seg2_slope hh hs (by linarith) h1 s0 s1
  unfold seg2
  obtain ⟨P, hPe⟩ : ∃ P, P = rnd (rnd (h / rnd (1 - h)) * rnd (1 - s)) := ⟨_, rfl⟩
  have hd : 0 < 1 - h := by linarith
  have hP0 : 0 ≤ P := by
    rw [hPe]
    exact rnd_nonneg (mul_nonneg (rnd_nonneg (div_nonneg (by linarith) (gap_pos hh h1).1.le))
      (rnd_nonneg (by linarith)))
  rw [← hPe] at hP ⊢
  obtain ⟨m, hm⟩ := float_grid hh h0
  obtain ⟨n, hn⟩ := float_grid hr (by linarith)
  have hmn : h + 1 / 16777216 ≤ rr := by
    rw [hm, hn] at r0 ⊢
    have : m < n := by
      have := (div_lt_div_iff_of_pos_right (by norm_num : (0 : ℚ) < 16777216)).mp r0
      exact_mod_cast this
    have : (m : ℚ) + 1 ≤ n := by exact_mod_cast this
    linarith
  have hp := rnd_err (rr * P)
  rw [abs_of_nonneg (mul_nonneg (by linarith) hP0)] at hp
  have hp1 := (abs_le.mp hp).1
  have hrP : rr * P ≤ P := by nlinarith
  have hE : h / (1 - h) * (1 - h) = h := div_mul_cancel₀ _ hd.ne'
  obtain ⟨E, hEe⟩ : ∃ E, E = h / (1 - h) := ⟨_, rfl⟩
  rw [← hEe] at hP hE
  have hE0 : 0 ≤ E := by nlinarith
  have hP1 : P ≤ E * (1 + 6 / 16777216) + 1 / 10 ^ 39 := by
    have := (abs_le.mp hP).2
    nlinarith
  have hfloat : F32 (1 + 1 / 2 ^ 20) := ⟨1048577, -20, by norm_num, by norm_num, by norm_num⟩
  refine rnd_le hfloat ?_
  have k1 : P - rnd (rr * P) ≤ P * (1 - h) + 1 / 10 ^ 40 := by nlinarith
  have k2 : P * (1 - h) ≤ (E * (1 + 6 / 16777216) + 1 / 10 ^ 39) * (1 - h) :=
    mul_le_mul_of_nonneg_right hP1 hd.le
  have k3 : (E * (1 + 6 / 16777216) + 1 / 10 ^ 39) * (1 - h) = h * (1 + 6 / 16777216) + 1 / 10 ^ 39 * (1 - h) := by
    linear_combination (1 + 6 / 16777216) * hE
  have k4 : h * (1 + 6 / 16777216) ≤ 1 + 6 / 16777216 := by nlinarith
  linarith

/-! ### With infinities -/

open Val

theorem ofExact_fin {q : ℚ} (h : |rnd q| < 2 ^ 128) : ofExact q = fin (rnd q) := by
  rw [abs_lt] at h
  unfold ofExact
  rw [if_neg (by linarith [h.2]), if_neg (by linarith [h.1])]

theorem ofExact_small {q : ℚ} (h : |q| ≤ 2 ^ 127) : ofExact q = fin (rnd q) := by
  refine ofExact_fin ?_
  have hf : F32 (2 ^ 127) := by
    have := float_pow (e := 127) (by norm_num)
    rwa [show (2 : ℚ) ^ (127 : ℤ) = 2 ^ 127 by norm_cast] at this
  rw [abs_le] at h
  have a := rnd_le hf h.2
  have b := rnd_le hf (by linarith [h.1] : -q ≤ 2 ^ 127)
  rw [rnd_neg] at b
  rw [abs_lt]
  constructor <;> norm_num at * <;> linarith

/-- The inverse of a hardness above 2^-128 does not overflow. -/
theorem inv_bound {h : ℚ} (hh : F32 h) (h0 : 1 / 2 ^ 128 < h) : 1 / h ≤ (2 ^ 24 - 1) * 2 ^ 104 := by
  have hpos : 0 < h := lt_trans (by positivity) h0
  obtain ⟨n, e, he, hn, rfl⟩ := hh
  -- a multiple of 2^-149
  obtain ⟨d, rfl⟩ := Int.le.dest he
  have h2 : (2 : ℚ) ≠ 0 := by norm_num
  have e1 : (n : ℚ) * 2 ^ (-149 + (d : ℤ)) = ((n * 2 ^ d : ℤ) : ℚ) / 2 ^ 149 := by
    rw [zpow_add₀ h2, zpow_natCast]; push_cast; norm_num; ring
  rw [e1] at h0 hpos ⊢
  have h3 : (2 : ℚ) ^ 21 < ((n * 2 ^ d : ℤ) : ℚ) := by
    rw [lt_div_iff₀ (by positivity)] at h0
    norm_num at h0 ⊢
    linarith
  have h4 : (2 : ℤ) ^ 21 < n * 2 ^ d := by exact_mod_cast h3
  have h5 : (2097153 : ℚ) ≤ ((n * 2 ^ d : ℤ) : ℚ) := by
    have : (2097153 : ℤ) ≤ n * 2 ^ d := by norm_num at h4; omega
    exact_mod_cast this
  rw [one_div_div, div_le_iff₀ (by linarith)]
  norm_num at h5 ⊢
  linarith

theorem rnd_inv {h : ℚ} (hh : F32 h) (h0 : 1 / 2 ^ 128 < h) (h1 : h ≤ 1) :
    1 ≤ rnd (1 / h) ∧ rnd (1 / h) ≤ (2 ^ 24 - 1) * 2 ^ 104 := by
  have hpos : 0 < h := lt_trans (by positivity) h0
  refine ⟨le_rnd float_one (by rw [one_le_div hpos]; exact h1), rnd_le ?_ (inv_bound hh h0)⟩
  refine ⟨2 ^ 24 - 1, 104, by norm_num, by norm_num, ?_⟩
  push_cast
  norm_cast

theorem float_big : F32 ((2 ^ 24 - 1) * 2 ^ 104) := by
  refine ⟨2 ^ 24 - 1, 104, by norm_num, by norm_num, ?_⟩
  push_cast
  norm_cast

/-- Within the first segment. -/
theorem opaOf_seg1 {h s rr : ℚ} (hh : F32 h) (h0 : 1 / 2 ^ 128 < h) (h1 : h ≤ 1) (s0 : 0 ≤ s) (s1 : s ≤ 1)
    (r0 : 0 ≤ rr) (r1 : rr ≤ h) : opaOf (fin h) (fin s) (fin rr) = fin (seg1 h s rr) := by
  have hpos : 0 < h := lt_trans (by positivity) h0
  obtain ⟨a0, a1⟩ := rnd_unit (by linarith : 0 ≤ 1 - s) (by linarith)
  obtain ⟨i0, i1⟩ := rnd_inv hh h0 h1
  have big : ((2 : ℚ) ^ 24 - 1) * 2 ^ 104 < 2 ^ 128 := by norm_num
  have e1 : sub (fin 1) (fin s) = fin (rnd (1 - s)) := by
    show ofExact (1 + -s) = _
    rw [← sub_eq_add_neg]
    exact ofExact_small (by rw [abs_of_nonneg (by linarith)]; norm_num; linarith)
  have e2 : mul (fin 1) (fin (rnd (1 - s))) = fin (rnd (1 - s)) := by
    show ofExact (1 * rnd (1 - s)) = _
    rw [one_mul, ofExact_small (by rw [abs_of_nonneg a0]; norm_num; linarith), rnd_of_float (rnd_float _)]
  have e3 : div (fin 1) (fin h) = fin (rnd (1 / h)) := by
    show (if h = 0 then _ else ofExact (1 / h)) = _
    rw [if_neg hpos.ne', ofExact_fin (by rw [abs_of_nonneg (by linarith)]; linarith)]
  obtain ⟨i, hi⟩ : ∃ i, i = rnd (1 / h) := ⟨_, rfl⟩
  have j0 : 0 ≤ rnd (i - 1) := rnd_nonneg (by rw [hi]; linarith)
  have j1 : rnd (i - 1) ≤ (2 ^ 24 - 1) * 2 ^ 104 := rnd_le float_big (by rw [hi]; linarith)
  have e4 : sub (fin i) (fin 1) = fin (rnd (i - 1)) := by
    show ofExact (i + -1) = _
    rw [← sub_eq_add_neg]
    exact ofExact_fin (by rw [abs_of_nonneg j0]; linarith)
  obtain ⟨j, hj⟩ : ∃ j, j = rnd (i - 1) := ⟨_, rfl⟩
  obtain ⟨a, ha⟩ : ∃ a, a = rnd (1 - s) := ⟨_, rfl⟩
  rw [← hj] at j0 j1 e4
  rw [← ha] at a0 a1 e1 e2
  rw [← hi] at e3
  have m0 : 0 ≤ rnd (j * a) := rnd_nonneg (mul_nonneg j0 a0)
  have m1 : rnd (j * a) ≤ (2 ^ 24 - 1) * 2 ^ 104 := rnd_le float_big (by nlinarith)
  have e5 : mul (neg (fin j)) (fin a) = fin (-rnd (j * a)) := by
    show ofExact (-j * a) = _
    rw [neg_mul, ofExact_fin (by rw [rnd_neg, abs_neg, abs_of_nonneg m0]; linarith), rnd_neg]
  have hslope := seg1_slope hpos h1 s0 s1
  rw [← hi, ← hj, ← ha] at hslope
  obtain ⟨m, hm⟩ : ∃ m, m = rnd (j * a) := ⟨_, rfl⟩
  rw [← hm] at m0 m1 e5 hslope
  have hrm : 0 ≤ rr * m ∧ rr * m ≤ 2 := by
    refine ⟨mul_nonneg r0 m0, ?_⟩
    have k1 : rr * m ≤ h * m := mul_le_mul_of_nonneg_right r1 m0
    have k2 := (abs_le.mp hslope).2
    have k3 : (1 - h) * (1 - s) ≤ 1 := by nlinarith
    linarith
  have htwo : F32 2 := by simpa using float_int 2 (by norm_num)
  have p0 : 0 ≤ rnd (rr * m) := rnd_nonneg hrm.1
  have p1 : rnd (rr * m) ≤ 2 := rnd_le htwo hrm.2
  have e6 : mul (fin rr) (fin (-m)) = fin (-rnd (rr * m)) := by
    show ofExact (rr * -m) = _
    rw [mul_neg, ofExact_small (by rw [abs_neg, abs_of_nonneg hrm.1]; norm_num; linarith), rnd_neg]
  have hle : le (fin rr) (fin h) = true := by show decide (rr ≤ h) = true; exact decide_eq_true r1
  have hgt : gt (fin rr) (fin 1) = false := by
    show (!decide (rr ≤ 1)) = false
    rw [decide_eq_true (by linarith)]; rfl
  unfold opaOf seg1
  dsimp only
  rw [hle, hgt, e1, e2, e3, e4, e5, if_pos rfl, if_pos rfl, e6, ← ha, ← hi, ← hj, ← hm]
  show ofExact (a + -rnd (rr * m)) = _
  rw [← sub_eq_add_neg]
  refine ofExact_small ?_
  rw [abs_le]
  constructor <;> norm_num <;> linarith

/-- Within the second segment. -/
theorem opaOf_seg2 {h s rr : ℚ} (hh : F32 h) (hs : F32 s) (h0 : 1 / 2 ^ 128 < h) (h1 : h < 1) (s0 : 0 ≤ s)
    (s1 : s ≤ 1) (r0 : h < rr) (r1 : rr ≤ 1) : opaOf (fin h) (fin s) (fin rr) = fin (seg2 h s rr) := by
  have hpos : 0 < h := lt_trans (by positivity) h0
  obtain ⟨a0, a1⟩ := rnd_unit (by linarith : 0 ≤ 1 - s) (by linarith)
  have e1 : sub (fin 1) (fin s) = fin (rnd (1 - s)) := by
    show ofExact (1 + -s) = _
    rw [← sub_eq_add_neg]
    exact ofExact_small (by rw [abs_of_nonneg (by linarith)]; norm_num; linarith)
  obtain ⟨w0, hw⟩ := gap_pos hh h1
  have e2 : sub (fin 1) (fin h) = fin (rnd (1 - h)) := by
    show ofExact (1 + -h) = _
    rw [← sub_eq_add_neg]
    exact ofExact_small (by rw [abs_of_nonneg (by linarith)]; norm_num; linarith)
  have hgap := float_below_one hh h1
  have hwl : 1 / 2 ^ 25 ≤ rnd (1 - h) := by
    have := (abs_le.mp hw).1
    norm_num
    linarith
  obtain ⟨w, hwe⟩ : ∃ w, w = rnd (1 - h) := ⟨_, rfl⟩
  obtain ⟨a, ha⟩ : ∃ a, a = rnd (1 - s) := ⟨_, rfl⟩
  rw [← hwe] at w0 hwl e2
  rw [← ha] at a0 a1 e1
  have hq : 0 ≤ h / w ∧ h / w ≤ 2 ^ 25 := by
    refine ⟨div_nonneg hpos.le w0.le, ?_⟩
    rw [div_le_iff₀ w0]
    norm_num at hwl ⊢
    linarith
  have hf25 : F32 (2 ^ 25) := by
    have := float_pow (e := 25) (by norm_num)
    rwa [show (2 : ℚ) ^ (25 : ℤ) = 2 ^ 25 by norm_cast] at this
  have g0 := rnd_nonneg hq.1
  have g1 := rnd_le hf25 hq.2
  have e3 : div (fin h) (fin w) = fin (rnd (h / w)) := by
    show (if w = 0 then _ else ofExact (h / w)) = _
    rw [if_neg w0.ne', ofExact_small (by rw [abs_of_nonneg hq.1]; norm_num at hq ⊢; linarith [hq.2])]
  have e4 : div (neg (fin h)) (fin w) = fin (-rnd (h / w)) := by
    show (if w = 0 then _ else ofExact (-h / w)) = _
    rw [if_neg w0.ne', neg_div, ofExact_small (by rw [abs_neg, abs_of_nonneg hq.1]; norm_num at hq ⊢; linarith [hq.2]),
      rnd_neg]
  obtain ⟨g, hg⟩ : ∃ g, g = rnd (h / w) := ⟨_, rfl⟩
  rw [← hg] at g0 g1 e3 e4
  have hga : 0 ≤ g * a ∧ g * a ≤ 2 ^ 25 := ⟨mul_nonneg g0 a0, by nlinarith⟩
  have P0 := rnd_nonneg hga.1
  have P1 := rnd_le hf25 hga.2
  have e5 : mul (fin g) (fin a) = fin (rnd (g * a)) := by
    show ofExact (g * a) = _
    exact ofExact_small (by rw [abs_of_nonneg hga.1]; norm_num at hga ⊢; linarith [hga.2])
  have e6 : mul (fin (-g)) (fin a) = fin (-rnd (g * a)) := by
    show ofExact (-g * a) = _
    rw [neg_mul, ofExact_small (by rw [abs_neg, abs_of_nonneg hga.1]; norm_num at hga ⊢; linarith [hga.2]), rnd_neg]
  obtain ⟨P, hP⟩ : ∃ P, P = rnd (g * a) := ⟨_, rfl⟩
  rw [← hP] at P0 P1 e5 e6
  have hrP : 0 ≤ rr * P ∧ rr * P ≤ 2 ^ 25 := ⟨mul_nonneg (by linarith) P0, by nlinarith⟩
  have p0 := rnd_nonneg hrP.1
  have p1 := rnd_le hf25 hrP.2
  have e7 : mul (fin rr) (fin (-P)) = fin (-rnd (rr * P)) := by
    show ofExact (rr * -P) = _
    rw [mul_neg, ofExact_small (by rw [abs_neg, abs_of_nonneg hrP.1]; norm_num at hrP ⊢; linarith [hrP.2]), rnd_neg]
  have hle : le (fin rr) (fin h) = false := by
    show decide (rr ≤ h) = false
    exact decide_eq_false (not_le.mpr r0)
  have hgt : gt (fin rr) (fin 1) = false := by
    show (!decide (rr ≤ 1)) = false
    rw [decide_eq_true r1]; rfl
  unfold opaOf seg2
  dsimp only
  rw [hle, hgt, e1, e2, e3, e4, e5, e6, if_neg Bool.false_ne_true, if_neg Bool.false_ne_true,
    if_neg Bool.false_ne_true, e7, ← ha, ← hwe, ← hg, ← hP]
  show ofExact (P + -rnd (rr * P)) = _
  rw [← sub_eq_add_neg]
  refine ofExact_small ?_
  rw [abs_le]
  constructor <;> norm_num at * <;> linarith

/-- Conversion of an opacity close to the range from 0 to 1. -/
theorem convert {v : ℚ} (hv : F32 v) (h0 : -(1 / 2 ^ 15) < v) (h1 : v < 1 + 1 / 2 ^ 15) :
    ∃ n, toU16 (mul (fin v) (fin 32768)) = some n ∧ n ≤ 32768 ∧ n = ⌊v * 32768⌋.toNat := by
  have hf : F32 (v * 32768) := by
    obtain ⟨n, e, he, hn, rfl⟩ := hv
    refine ⟨n, e + 15, by omega, hn, ?_⟩
    rw [zpow_add₀ (by norm_num)]; norm_num; ring
  have e : mul (fin v) (fin 32768) = fin (v * 32768) := by
    show ofExact (v * 32768) = _
    rw [ofExact_small, rnd_of_float hf]
    rw [abs_le]
    constructor <;> norm_num at * <;> linarith
  have hc : -1 < v * 32768 ∧ v * 32768 < 65536 := by
    constructor <;> norm_num at * <;> linarith
  refine ⟨⌊v * 32768⌋.toNat, ?_, ?_, rfl⟩
  · rw [e]
    show (if _ then _ else _) = _
    rw [if_pos hc]
  · have : ⌊v * 32768⌋ < 32769 := by
      rw [Int.floor_lt]; norm_num at *; linarith
    omega

end Verif.FloatMask
