import Verif.Lemmas.PolyCheck
import Mathlib.Analysis.SpecialFunctions.Log.Deriv
import Mathlib.Analysis.Complex.ExponentialBounds
import Mathlib.Tactic.FieldSimp
import Mathlib.Tactic.LinearCombination

/-!
# The two rational functions behind `fastlog2` and `fastpow2`, compared with the logarithm and the exponential

In exact arithmetic; rounding is added in `Verif.Lemmas.FastPow`.
-/

namespace Verif.FastPow
open PolyCheck Finset

/-! ## The logarithm on [1/2, 1] -/

/-- `log (1 + t)` to eighth order. -/
def logSeries : List ℚ := [0, 1, -1/2, 1/3, -1/4, 1/5, -1/6, 1/7, -1/8]

theorem logSeries_near {t : ℝ} (h0 : 0 ≤ t) (h1 : t ≤ 1 / 8) : |Real.log (1 + t) - ev logSeries t| ≤ 1 / 10 ^ 8 := by
  have ha : |(-t)| = t := by rw [abs_neg, abs_of_nonneg h0]
  have k := Real.abs_log_sub_add_sum_range_le (x := -t) (by rw [ha]; linarith) 8
  rw [ha] at k
  have e : (∑ i ∈ range 8, (-t) ^ (i + 1) / ((i : ℝ) + 1)) = - ev logSeries t := by
    simp only [sum_range_succ, sum_range_zero, logSeries, ev]; push_cast; ring
  rw [e, sub_neg_eq_add, neg_add_eq_sub] at k
  refine k.trans ?_
  rw [div_le_iff₀ (by linarith)]
  have : t ^ 9 ≤ (1 / 8) ^ 9 := pow_le_pow_left₀ h0 h1 9
  have : t ^ (8 + 1) ≤ (1 / 8) ^ 9 := this
  norm_num at this ⊢
  linarith

/-- `log` at the points `1/2, 9/16, …`. -/
def logAt : ℕ → ℚ
  | 0 => -6931471805 / 10 ^ 10
  | k + 1 => logAt k + (evq logSeries (1 / (8 + k)))
where
  evq : List ℚ → ℚ → ℚ
  | [], _ => 0
  | a :: p, x => a + x * evq p x

theorem evq_ev : ∀ (p : List ℚ) (x : ℚ), ((logAt.evq p x : ℚ) : ℝ) = ev p x
  | [], x => by simp [logAt.evq, ev]
  | a :: p, x => by simp only [logAt.evq, ev]; push_cast; rw [evq_ev p x]

theorem logAt_near : ∀ k : ℕ, |Real.log ((8 + k) / 16) - logAt k| ≤ (k + 1) / 10 ^ 8
  | 0 => by
    have h1 := Real.log_two_gt_d9
    have h2 := Real.log_two_lt_d9
    have e : Real.log ((8 + (0 : ℕ)) / 16) = - Real.log 2 := by rw [← Real.log_inv]; norm_num
    rw [e, logAt, abs_le]
    push_cast
    constructor <;> norm_num at h1 h2 ⊢ <;> linarith
  | k + 1 => by
    have ih := logAt_near k
    have hk : (0 : ℝ) ≤ k := Nat.cast_nonneg k
    have h8 : (0 : ℝ) < 8 + k := by linarith
    have s := logSeries_near (t := 1 / (8 + (k : ℝ))) (by positivity)
      (one_div_le_one_div_of_le (by norm_num) (by linarith))
    have e : Real.log ((8 + ((k + 1 : ℕ) : ℝ)) / 16) = Real.log ((8 + k) / 16) + Real.log (1 + 1 / (8 + (k : ℝ))) := by
      rw [← Real.log_mul (by positivity) (by positivity)]
      congr 1; push_cast; field_simp; ring
    have e2 : ((logAt (k + 1) : ℚ) : ℝ) = logAt k + ev logSeries (1 / (8 + (k : ℝ))) := by
      rw [logAt]; push_cast; rw [evq_ev]; push_cast; rfl
    rw [e, e2]
    push_cast
    rw [abs_le] at ih s ⊢
    constructor <;> linarith [ih.1, ih.2, s.1, s.2, show ((k : ℝ) + 1 + 1) / 10 ^ 8 = (k + 1) / 10 ^ 8 + 1 / 10 ^ 8 by ring]

/-- `log` on the `k`-th part, as a polynomial in the distance from its left end. -/
def logPoly (k : ℕ) : List ℚ := add [logAt k] (comp logSeries [0, 16 / (8 + k)])

theorem logPoly_near (k : ℕ) {v : ℝ} (h0 : 0 ≤ v) (h1 : v ≤ 1 / 16) :
    |Real.log ((8 + k) / 16 + v) - ev (logPoly k) v| ≤ (k + 2) / 10 ^ 8 := by
  have hk : (0 : ℝ) ≤ k := Nat.cast_nonneg k
  have h8 : (0 : ℝ) < 8 + k := by linarith
  have a := logAt_near k
  have s := logSeries_near (t := v * (16 / (8 + (k : ℝ)))) (by positivity) (by
    rw [← mul_div_assoc, div_le_iff₀ h8]; linarith)
  have e : Real.log ((8 + k) / 16 + v) = Real.log ((8 + k) / 16) + Real.log (1 + v * (16 / (8 + (k : ℝ)))) := by
    rw [← Real.log_mul (by positivity) (by positivity)]
    congr 1; field_simp
  have e2 : ev (logPoly k) v = logAt k + ev logSeries (v * (16 / (8 + (k : ℝ)))) := by
    rw [logPoly, ev_add, ev_comp]
    simp only [ev]; push_cast; ring_nf
  rw [e, e2]
  rw [abs_le] at a s ⊢
  constructor <;> linarith [a.1, a.2, s.1, s.2, show ((k : ℝ) + 2) / 10 ^ 8 = (k + 1) / 10 ^ 8 + 1 / 10 ^ 8 by ring]

/-- What `fastlog2` adds to the exponent. -/
noncomputable def logPart (m : ℝ) : ℝ :=
  125 + 2 * m - 16282487 / 131072 - 12566389 / 8388608 * m - 14477731 / 8388608 / (11814137 / 33554432 + m)

/-- The numerator of `ln 2 * (logPart m - t) - log m`, and of its negation, on the `k`-th part. -/
def logCheck (k : ℕ) (t : ℚ) : List ℚ :=
  let m : List ℚ := [(8 + k) / 16, 1]
  let d := add [11814137 / 33554432] m
  let a := add [125 - 16282487 / 131072 - t] (scale (2 - 12566389 / 8388608) m)
  add (scale (6931471805 / 10 ^ 10) (add (mul a d) [-14477731 / 8388608])) (scale (-1) (mul (logPoly k) d))

theorem logCheck_eq (k : ℕ) (t : ℚ) (v : ℝ) (hd : (11814137 / 33554432 + ((8 + k) / 16 + v) : ℝ) ≠ 0) :
    ev (logCheck k t) v = (6931471805 / 10 ^ 10 * (logPart ((8 + k) / 16 + v) - t) - ev (logPoly k) v)
      * (11814137 / 33554432 + ((8 + k) / 16 + v)) := by
  have e : ev ([(8 + k) / 16, 1] : List ℚ) v = (8 + k) / 16 + v := by simp only [ev]; push_cast; ring
  unfold logCheck logPart
  simp only [ev_add, ev_scale, ev_mul, e]
  simp only [ev]
  push_cast
  generalize (8 + (k : ℝ)) / 16 + v = m at *
  have h := div_mul_cancel₀ (14477731 / 8388608 : ℝ) hd
  linear_combination (6931471805 / 10 ^ 10) * h

/-- The bounds, as the kernel checks them: a little inside the ones claimed, for the errors of `ln 2` and of the series. -/
theorem log_checked : ∀ k : Fin 8,
    nonneg 12 (add (logCheck k (-15 / 10 ^ 5)) [-2 / 10 ^ 7]) (1 / 16) = true ∧
    nonneg 12 (add (scale (-1) (logCheck k (1 / 10 ^ 5))) [-2 / 10 ^ 7]) (1 / 16) = true := by
  decide +kernel

theorem logPart_near {m : ℝ} (h0 : 1 / 2 ≤ m) (h1 : m ≤ 1) :
    -152 / 10 ^ 6 ≤ logPart m - Real.log m / Real.log 2 ∧ logPart m - Real.log m / Real.log 2 ≤ 11 / 10 ^ 6 := by
  obtain ⟨k, v, hv0, hv1, rfl⟩ : ∃ (k : Fin 8) (v : ℝ), 0 ≤ v ∧ v ≤ 1 / 16 ∧ m = (8 + ((k : ℕ) : ℝ)) / 16 + v := by
    rcases eq_or_lt_of_le h1 with h | h
    · exact ⟨7, 1 / 16, by norm_num, le_rfl, by rw [h]; norm_num⟩
    · have a0 : (0 : ℤ) ≤ ⌊16 * m⌋ - 8 := by
        have : (8 : ℤ) ≤ ⌊16 * m⌋ := Int.le_floor.2 (by push_cast; linarith)
        omega
      have a1 : ⌊16 * m⌋ < 16 := Int.floor_lt.2 (by push_cast; linarith)
      obtain ⟨n, hn⟩ := Int.eq_ofNat_of_zero_le a0
      have hn' : (⌊16 * m⌋ : ℝ) = 8 + n := by
        have : ⌊16 * m⌋ = 8 + (n : ℤ) := by omega
        rw [this]; push_cast; rfl
      refine ⟨⟨n, by omega⟩, m - (8 + (n : ℝ)) / 16, ?_, ?_, by ring⟩
      · have := Int.floor_le (16 * m); linarith
      · have := Int.lt_floor_add_one (16 * m); linarith
  have hk0 : (0 : ℝ) ≤ (k : ℕ) := Nat.cast_nonneg _
  have hk7 : ((k : ℕ) : ℝ) ≤ 7 := by exact_mod_cast (by omega : (k : ℕ) ≤ 7)
  have d0 : (0 : ℝ) < 11814137 / 33554432 + ((8 + ((k : ℕ) : ℝ)) / 16 + v) := by positivity
  have d1 : (11814137 / 33554432 + ((8 + ((k : ℕ) : ℝ)) / 16 + v) : ℝ) ≤ 3 / 2 := by linarith
  have near := logPoly_near k hv0 hv1
  obtain ⟨c1, c2⟩ := log_checked k
  have c1 := nonneg_sound _ _ _ c1 v hv0 (by push_cast; linarith)
  have c2 := nonneg_sound _ _ _ c2 v hv0 (by push_cast; linarith)
  rw [ev_add, logCheck_eq _ _ _ d0.ne'] at c1
  rw [ev_add, ev_scale, logCheck_eq _ _ _ d0.ne'] at c2
  simp only [ev] at c1 c2
  push_cast at c1 c2
  generalize ev (logPoly k) v = q at *
  generalize (8 + ((k : ℕ) : ℝ)) / 16 + v = m at *
  have l1 := Real.log_two_gt_d9
  have l2 := Real.log_two_lt_d9
  norm_num at l1 l2
  have l0 : 0 < Real.log 2 := by linarith
  rw [abs_le] at near
  generalize (11814137 / 33554432 : ℝ) + m = d at *
  have g1 : 1 / 10 ^ 7 ≤ 6931471805 / 10 ^ 10 * (logPart m + 15 / 10 ^ 5) - q := by
    by_contra hc
    push Not at hc
    nlinarith
  have g2 : 6931471805 / 10 ^ 10 * (logPart m - 1 / 10 ^ 5) - q ≤ - (1 / 10 ^ 7) := by
    by_contra hc
    push Not at hc
    nlinarith
  have lm0 : - Real.log 2 ≤ Real.log m := by
    rw [← Real.log_inv]; exact Real.log_le_log (by norm_num) (by linarith)
  have lm1 : Real.log m ≤ 0 := Real.log_nonpos (by linarith) h1
  have k9 : ((k : ℕ) + 2 : ℝ) / 10 ^ 8 ≤ 9 / 10 ^ 8 := by
    rw [div_le_div_iff_of_pos_right (by norm_num)]; linarith
  have p0 : -2 ≤ logPart m := by linarith [near.1, near.2]
  have p1 : logPart m ≤ 1 := by linarith [near.1, near.2]
  constructor
  · rw [le_sub_iff_add_le, ← le_sub_iff_add_le', div_le_iff₀ l0]
    nlinarith [near.1, near.2]
  · rw [sub_le_iff_le_add, ← sub_le_iff_le_add', le_div_iff₀ l0]
    nlinarith [near.1, near.2]

/-! ## The exponential on [0, 1] -/

/-- What `fastpow2` makes the mantissa, with 1 for the implicit bit. -/
noncomputable def powPart (z : ℝ) : ℝ :=
  15895633 / 131072 - 126 + 7268735 / 262144 / (1269439 / 262144 - z) - 12500109 / 8388608 * z + z

/-- `exp` to eighth order. -/
def expSeries : List ℚ := [1, 1, 1/2, 1/6, 1/24, 1/120, 1/720, 1/5040, 1/40320]

theorem expSeries_le {t : ℝ} (h0 : 0 ≤ t) : ev expSeries t ≤ Real.exp t := by
  have k := Real.sum_le_exp_of_nonneg h0 9
  refine le_trans (le_of_eq ?_) k
  simp only [sum_range_succ, sum_range_zero, expSeries, ev, Nat.factorial]; push_cast; ring

theorem le_expSeries {t : ℝ} (h0 : 0 ≤ t) (h1 : t ≤ 7 / 10) : Real.exp t ≤ ev expSeries t + 2 / 10 ^ 7 := by
  have k := Real.exp_bound' h0 (by linarith) (n := 9) (by norm_num)
  refine k.trans ?_
  have e : (∑ m ∈ range 9, t ^ m / (m.factorial : ℝ)) = ev expSeries t := by
    simp only [sum_range_succ, sum_range_zero, expSeries, ev, Nat.factorial]; push_cast; ring
  rw [e]
  have p : t ^ 9 ≤ (7 / 10) ^ 9 := pow_le_pow_left₀ h0 h1 9
  have : t ^ 9 * ((9 : ℕ) + 1) / ((Nat.factorial 9 : ℕ) * (9 : ℕ)) ≤ 2 / 10 ^ 7 := by
    simp only [Nat.factorial]
    norm_num at p ⊢
    linarith
  linarith

def powCheck (l t : ℚ) : List ℚ :=
  let d : List ℚ := [1269439 / 262144, -1]
  add (add (mul [15895633 / 131072 - 126 + t, 1 - 12500109 / 8388608] d) [7268735 / 262144])
    (scale (-1) (mul (comp expSeries [0, l]) d))

theorem powCheck_eq (l t : ℚ) (z : ℝ) (hd : (1269439 / 262144 - z : ℝ) ≠ 0) :
    ev (powCheck l t) z = (powPart z + t - ev expSeries (l * z)) * (1269439 / 262144 - z) := by
  have e : ev ([0, l] : List ℚ) z = l * z := by simp only [ev]; push_cast; ring
  have e2 : ev ([1269439 / 262144, -1] : List ℚ) z = 1269439 / 262144 - z := by simp only [ev]; push_cast; ring
  unfold powCheck powPart
  simp only [ev_add, ev_scale, ev_mul, ev_comp, e, e2]
  simp only [ev]
  push_cast
  generalize (1269439 / 262144 : ℝ) - z = d at *
  field_simp
  ring

theorem pow_checked : nonneg 12 (powCheck (6931471808 / 10 ^ 10) (8 / 10 ^ 5 - 2 / 10 ^ 7)) 1 = true ∧
    nonneg 12 (scale (-1) (powCheck (6931471803 / 10 ^ 10) (- 8 / 10 ^ 5))) 1 = true := by
  decide +kernel

theorem powPart_near {z : ℝ} (h0 : 0 ≤ z) (h1 : z ≤ 1) : |powPart z - (2 : ℝ) ^ z| ≤ 8 / 10 ^ 5 := by
  have d0 : (0 : ℝ) < 1269439 / 262144 - z := by norm_num; linarith
  have l1 := Real.log_two_gt_d9
  have l2 := Real.log_two_lt_d9
  norm_num at l1 l2
  have e : (2 : ℝ) ^ z = Real.exp (Real.log 2 * z) := Real.rpow_def_of_pos (by norm_num) z
  have m1 : Real.exp (6931471803 / 10 ^ 10 * z) ≤ (2 : ℝ) ^ z := by
    rw [e]; exact Real.exp_le_exp.2 (mul_le_mul_of_nonneg_right (by linarith) h0)
  have m2 : (2 : ℝ) ^ z ≤ Real.exp (6931471808 / 10 ^ 10 * z) := by
    rw [e]; exact Real.exp_le_exp.2 (mul_le_mul_of_nonneg_right (by linarith) h0)
  have s1 := expSeries_le (t := 6931471803 / 10 ^ 10 * z) (by positivity)
  have s2 := le_expSeries (t := 6931471808 / 10 ^ 10 * z) (by positivity) (by linarith)
  have k1 := nonneg_sound _ _ _ pow_checked.1 z h0 (by push_cast; exact h1)
  have k2 := nonneg_sound _ _ _ pow_checked.2 z h0 (by push_cast; exact h1)
  rw [powCheck_eq _ _ _ d0.ne'] at k1
  rw [ev_scale, powCheck_eq _ _ _ d0.ne', ← mul_assoc] at k2
  have k1 := nonneg_of_mul_nonneg_left k1 d0
  have k2 := nonneg_of_mul_nonneg_left k2 d0
  push_cast at k1 k2
  rw [abs_le]
  constructor <;> linarith

end Verif.FastPow
