import Verif.Props.C97_Pigment

/-!
# Rounding when pigment paint is smudged or erased
-/

namespace Verif.FloatPaint
open Float32 FastPow Blend Spectral

/-! ## How much of the result is mixed as pigment -/

theorem vertical_near : |rnd (rnd64 (165 / 100)) - 165 / 100| ≤ 1 / 10 ^ 7 := by decide +kernel

theorem isFloat_dyadic {n : Int} {k : ℕ} (hn : |n| ≤ 32768 * 8) (hk : k ≤ 100) : IsFloat 24 (-149) ((n : ℚ) / 2 ^ k) := by
  refine ⟨n, -k, by omega, ?_, ?_⟩
  · exact hn.trans (by norm_num)
  · rw [zpow_neg, zpow_natCast, div_eq_mul_inv]

/-- The argument of the sigmoid is exact. -/
theorem argument_exact {a : Nat} (ha : a ≤ 32768) : rnd (rnd (rnd ((a : ℚ) / 32768) * 8) - 3) = (a : ℚ) / 32768 * 8 - 3 := by
  have e1 : rnd ((a : ℚ) / 32768) = (a : ℚ) / 32768 :=
    round_of_isFloat 24 (-149) (by norm_num) (by
      have := isFloat_dyadic (n := a) (k := 15) (by rw [abs_of_nonneg (by positivity)]; omega) (by norm_num)
      norm_num at this ⊢; exact this)
  have e2 : rnd ((a : ℚ) / 32768 * 8) = (a : ℚ) / 32768 * 8 :=
    round_of_isFloat 24 (-149) (by norm_num) (by
      have := isFloat_dyadic (n := a) (k := 12) (by rw [abs_of_nonneg (by positivity)]; omega) (by norm_num)
      rw [show (a : ℚ) / 32768 * 8 = ((a : ℤ) : ℚ) / 2 ^ 12 by push_cast; ring]; exact this)
  have e3 : rnd ((a : ℚ) / 32768 * 8 - 3) = (a : ℚ) / 32768 * 8 - 3 :=
    round_of_isFloat 24 (-149) (by norm_num) (by
      have := isFloat_dyadic (n := (a : ℤ) - 12288) (k := 12) (by rw [abs_le]; constructor <;> omega) (by norm_num)
      rw [show (a : ℚ) / 32768 * 8 - 3 = (((a : ℤ) - 12288 : ℤ) : ℚ) / 2 ^ 12 by push_cast; ring]; exact this)
  rw [e1, e2, e3]

theorem quotient_near {b B u U : ℚ} (h0 : 0 ≤ B) (hb : |b| = B) (hU : U = 1 + B * (165 / 100)) (hu : |u - U| ≤ 2 / 10 ^ 6) :
    |b / u - b / U| ≤ 13 / 10 ^ 7 := by
  have U1 : 1 ≤ U := by rw [hU]; nlinarith
  rw [abs_le] at hu
  have u1 : 99 / 100 ≤ u := by linarith [hu.1]
  have e : b / u - b / U = b * (U - u) / (u * U) := by
    field_simp
  rw [e, abs_div, abs_mul, hb, abs_of_pos (show 0 < u * U by positivity), div_le_iff₀ (by positivity)]
  have d : |U - u| ≤ 2 / 10 ^ 6 := by rw [abs_le]; constructor <;> linarith [hu.1, hu.2]
  have k1 : B * |U - u| ≤ B * (2 / 10 ^ 6) := mul_le_mul_of_nonneg_left d h0
  have k2 : 99 / 100 * U ≤ u * U := mul_le_mul_of_nonneg_right u1 (by linarith)
  rw [hU] at k1 k2 ⊢
  linarith

/-- The sigmoid is computed with an error of at most two millionths. -/
theorem blendFactor_near {a : Nat} (ha : a ≤ 32768) :
    |blendFactor (rnd ((a : ℚ) / 32768)) - spectralBlendFactor ((a : ℚ) / 32768)| ≤ 2 / 10 ^ 6 := by
  unfold blendFactor spectralBlendFactor
  simp only
  rw [argument_exact ha]
  have aq : (a : ℚ) ≤ 32768 := by exact_mod_cast ha
  have a0 : (0 : ℚ) ≤ a := Nat.cast_nonneg a
  obtain ⟨b, hb⟩ : ∃ b : ℚ, b = (a : ℚ) / 32768 * 8 - 3 := ⟨_, rfl⟩
  rw [← hb]
  obtain ⟨B, hB⟩ : ∃ B : ℚ, B = |b| := ⟨_, rfl⟩
  have B0 : 0 ≤ B := by rw [hB]; exact abs_nonneg b
  have B5 : B ≤ 5 := by rw [hB, abs_le]; constructor <;> linarith
  rw [← hB]
  have hv := vertical_near
  generalize rnd (rnd64 (165 / 100)) = v at *
  rw [abs_le] at hv
  have p0 : 0 ≤ B * v := mul_nonneg B0 (by linarith [hv.1])
  have p1 : B * v ≤ 9 := by nlinarith [hv.2]
  have pn : |B * v - B * (165 / 100)| ≤ 5 / 10 ^ 7 := by
    rw [← mul_sub, abs_mul, abs_of_nonneg B0]
    have : |v - 165 / 100| ≤ 1 / 10 ^ 7 := abs_le.2 hv
    nlinarith
  have t1 := rnd_near (x := B * v) (B := 9) (by rw [abs_of_nonneg p0]; exact p1) (by norm_num)
  generalize rnd (B * v) = t at *
  rw [abs_le] at t1 pn
  have u1 := rnd_near (x := 1 + t) (B := 11) (by rw [abs_le]; constructor <;> linarith [t1.1, t1.2]) (by norm_num)
  generalize rnd (1 + t) = u at *
  rw [abs_le] at u1
  have q := quotient_near (u := u) B0 hB.symm rfl (by rw [abs_le]; constructor <;> linarith [t1.1, t1.2, u1.1, u1.2, pn.1, pn.2])
  have qb : |b / (1 + B * (165 / 100))| ≤ 1 := by
    rw [abs_div, ← hB, abs_of_pos (show 0 < 1 + B * (165 / 100) by linarith), div_le_one (by linarith)]; linarith
  generalize b / (1 + B * (165 / 100)) = W at *
  generalize b / u = w at *
  rw [abs_le] at q qb
  have w1 := rnd_near (x := w) (B := 2) (by rw [abs_le]; constructor <;> linarith [q.1, q.2, qb.1, qb.2]) (by norm_num)
  generalize rnd w = w' at *
  rw [abs_le] at w1
  have z1 := rnd64_near (x := 1 / 2 + w') (B := 3) (by rw [abs_le]; constructor <;> linarith [q.1, q.2, qb.1, qb.2, w1.1, w1.2]) (by norm_num)
  generalize rnd64 (1 / 2 + w') = z at *
  rw [abs_le] at z1
  have y1 := rnd_near (x := z) (B := 4) (by rw [abs_le]; constructor <;> linarith [q.1, q.2, qb.1, qb.2, w1.1, w1.2, z1.1, z1.2]) (by norm_num)
  generalize rnd z = y at *
  rw [abs_le] at y1 ⊢
  constructor <;> linarith [q.1, q.2, w1.1, w1.2, z1.1, z1.2, y1.1, y1.2]

theorem factor_cast (a : Nat) : ((spectralBlendFactor ((a : ℚ) / 32768) : ℚ) : ℝ) = spectralBlendFactor (frac a : ℝ) := by
  unfold spectralBlendFactor frac
  simp only
  push_cast
  norm_num

/-- The two factors as the machine has them, beside the exact ones. -/
structure Factors (sf af : ℚ) (SF : ℝ) : Prop where
  s0 : 0 ≤ sf
  s1 : sf ≤ 1
  a0 : 0 ≤ af
  a1 : af ≤ 1
  near : |(sf : ℝ) - SF| ≤ 2 / 10 ^ 6
  sum : |af - (1 - sf)| ≤ 1 / 10 ^ 7
  whole : sf = 0 → af = 1
  S0 : 0 ≤ SF
  S1 : SF ≤ 1

theorem factors_ok {a : Nat} (ha : a ≤ 32768) :
    Factors (Mask.clampK (blendFactor (rnd ((a : ℚ) / 32768))) 0 1)
      (rnd (rnd64 (1 - Mask.clampK (blendFactor (rnd ((a : ℚ) / 32768))) 0 1)))
      (Mask.clampK (spectralBlendFactor (frac a : ℝ)) 0 1) := by
  have n := (Rat.cast_le (K := ℝ)).2 (blendFactor_near ha)
  push_cast at n
  rw [factor_cast] at n
  have cn := clamp_near n
  rw [← clamp_cast] at cn
  obtain ⟨s0, s1⟩ := clamp_unit (blendFactor (rnd ((a : ℚ) / 32768)))
  obtain ⟨S0, S1⟩ := clamp_unit (spectralBlendFactor (frac a : ℝ))
  generalize Mask.clampK (blendFactor (rnd ((a : ℚ) / 32768))) 0 1 = sf at *
  generalize Mask.clampK (spectralBlendFactor (frac a : ℝ)) 0 1 = SF at *
  have z : IsFloat 24 (-149) 0 := ⟨0, 0, by norm_num, by norm_num, by simp⟩
  have o : IsFloat 24 (-149) 1 := ⟨1, 0, by norm_num, by norm_num, by simp⟩
  have z64 : IsFloat 53 (-1074) 0 := ⟨0, 0, by norm_num, by norm_num, by simp⟩
  have o64 : IsFloat 53 (-1074) 1 := ⟨1, 0, by norm_num, by norm_num, by simp⟩
  have c0 : 0 ≤ rnd64 (1 - sf) := le_round 53 (-1074) (by norm_num) z64 (by linarith)
  have c1 : rnd64 (1 - sf) ≤ 1 := round_le 53 (-1074) (by norm_num) o64 (by linarith)
  have nc := rnd64_near (x := 1 - sf) (B := 1) (by rw [abs_of_nonneg (by linarith)]; linarith) (by norm_num)
  refine ⟨s0, s1, le_round 24 (-149) (by norm_num) z c0, round_le 24 (-149) (by norm_num) o c1, cn, ?_, ?_, S0, S1⟩
  · generalize rnd64 (1 - sf) = c at *
    have nb := rnd_near (x := c) (B := 1) (by rw [abs_of_nonneg c0]; exact c1) (by norm_num)
    rw [abs_le] at nb nc ⊢
    constructor <;> linarith [nb.1, nb.2, nc.1, nc.2]
  · intro h
    rw [h]
    decide +kernel

/-! ## One channel -/

theorem toSum_near {sf af x : ℚ} {SF X : ℝ} (F : Factors sf af SF) (x0 : 0 ≤ x) (x1 : x ≤ 1) (X0 : 0 ≤ X) (X1 : X ≤ 1)
    (hx : |(x : ℝ) - X| ≤ 10232 / 10 ^ 7) {l out : Nat} (hl : l ≤ out) (ho : out ≤ 32768) :
    ∃ n, toSum af sf x l out = .ok n ∧ n ≤ out ∧
      (n : ℝ) ≤ (1 - SF) * l + SF * X * out + 337 / 10 ∧ (1 - SF) * l + SF * X * out - 337 / 10 < (n : ℝ) + 1 := by
  have oq : (out : ℚ) ≤ 32768 := by exact_mod_cast ho
  have lq : (l : ℚ) ≤ out := by exact_mod_cast hl
  have l0 : (0 : ℚ) ≤ l := Nat.cast_nonneg l
  have o0 : (0 : ℚ) ≤ out := Nat.cast_nonneg out
  obtain ⟨s0, s1, a0, a1, near, sum, -, S0, S1⟩ := F
  unfold toSum
  simp only
  have m1 : 0 ≤ af * l := mul_nonneg a0 l0
  have m2 : af * l ≤ 32768 := by nlinarith
  have k1 := rnd_near (x := af * l) (B := 32768) (by rw [abs_of_nonneg m1]; exact m2) (by norm_num)
  have v1 : 0 ≤ rnd (af * l) := le_round 24 (-149) (by norm_num) ⟨0, 0, by norm_num, by norm_num, by simp⟩ m1
  have m3 : 0 ≤ sf * x := mul_nonneg s0 x0
  have m4 : sf * x ≤ 1 := by nlinarith
  have k2 := rnd_near (x := sf * x) (B := 1) (by rw [abs_of_nonneg m3]; exact m4) (by norm_num)
  have v2 : 0 ≤ rnd (sf * x) := le_round 24 (-149) (by norm_num) ⟨0, 0, by norm_num, by norm_num, by simp⟩ m3
  have v2' : rnd (sf * x) ≤ 1 := round_le 24 (-149) (by norm_num) ⟨1, 0, by norm_num, by norm_num, by simp⟩ m4
  obtain ⟨t, ht⟩ : ∃ t : ℚ, t = rnd (af * l) := ⟨_, rfl⟩
  obtain ⟨w, hw⟩ : ∃ w : ℚ, w = rnd (sf * x) := ⟨_, rfl⟩
  rw [← ht] at k1 v1 ⊢
  rw [← hw] at k2 v2 v2' ⊢
  have m5 : 0 ≤ w * out := mul_nonneg v2 o0
  have m6 : w * out ≤ 32768 := by nlinarith
  have k3 := rnd_near (x := w * out) (B := 32768) (by rw [abs_of_nonneg m5]; exact m6) (by norm_num)
  have v3 : 0 ≤ rnd (w * out) := le_round 24 (-149) (by norm_num) ⟨0, 0, by norm_num, by norm_num, by simp⟩ m5
  generalize rnd (w * out) = z at *
  have wo : |w * out - sf * x * out| ≤ 32768 / 16000000 := by
    rw [← sub_mul, abs_mul, abs_of_nonneg o0]
    have := mul_le_mul k2 oq o0 (by norm_num)
    linarith
  rw [abs_le] at k1 k3 wo
  have m7 : 0 ≤ t + z := by linarith
  have k4 := rnd_near (x := t + z) (B := 65600) (by rw [abs_of_nonneg m7]; linarith [k1.2, k3.2]) (by norm_num)
  have v4 : 0 ≤ rnd (t + z) := le_round 24 (-149) (by norm_num) ⟨0, 0, by norm_num, by norm_num, by simp⟩ m7
  generalize rnd (t + z) = y at *
  rw [abs_le] at k4
  have near1 : |y - (af * l + sf * x * out)| ≤ 2 / 100 := by
    rw [abs_le]; constructor <;> linarith [k1.1, k1.2, k3.1, k3.2, wo.1, wo.2, k4.1, k4.2]
  -- not above the opacity of the result
  have top1 : y < out + 1 := by
    rw [abs_le] at near1 sum
    have b1 : af * l ≤ af * out := mul_le_mul_of_nonneg_left lq a0
    have b2 : sf * x * out ≤ sf * out := by
      have : sf * x ≤ sf := by nlinarith
      exact mul_le_mul_of_nonneg_right this o0
    have b3 : (af + sf) * out ≤ (1 + 1 / 10 ^ 7) * out := mul_le_mul_of_nonneg_right (by linarith [sum.2]) o0
    linarith [near1.2]
  simp only [if_pos (show -1 < y ∧ y < 4294967296 from ⟨by linarith, by linarith⟩)]
  have f0 : 0 ≤ ⌊y⌋ := Int.floor_nonneg.2 v4
  obtain ⟨n, hn⟩ := Int.eq_ofNat_of_zero_le f0
  have g1 := Int.floor_le y
  have g2 := Int.lt_floor_add_one y
  have g3 : ⌊y⌋ < (out : ℤ) + 1 := Int.floor_lt.2 (by push_cast; exact top1)
  rw [hn] at g1 g2 g3
  have no : n ≤ out := by omega
  refine ⟨n, by rw [hn]; congr 1; exact Nat.mod_eq_of_lt (by omega), no, ?_⟩
  push_cast at g1 g2
  -- compare with the exact value
  have near2 : |(y : ℝ) - (af * l + sf * x * out)| ≤ 2 / 100 := by
    have := (Rat.cast_le (K := ℝ)).2 near1
    push_cast at this; exact this
  have sum2 : |(af : ℝ) - (1 - sf)| ≤ 1 / 10 ^ 7 := by
    have := (Rat.cast_le (K := ℝ)).2 sum
    push_cast at this; exact this
  have G1 : (n : ℝ) ≤ y := by exact_mod_cast g1
  have G2 : (y : ℝ) < n + 1 := by exact_mod_cast g2
  have oR : (out : ℝ) ≤ 32768 := by exact_mod_cast ho
  have o0R : (0 : ℝ) ≤ out := Nat.cast_nonneg out
  have l0R : (0 : ℝ) ≤ l := Nat.cast_nonneg l
  have lR : (l : ℝ) ≤ 32768 := by exact_mod_cast hl.trans ho
  have s0R : (0 : ℝ) ≤ sf := by exact_mod_cast s0
  have s1R : (sf : ℝ) ≤ 1 := by exact_mod_cast s1
  have d1 : |(af : ℝ) * l - (1 - SF) * l| ≤ 7 / 100 := by
    rw [← sub_mul, abs_mul, abs_of_nonneg l0R]
    have : |(af : ℝ) - (1 - SF)| ≤ 21 / 10 ^ 7 := by
      rw [abs_le] at near sum2 ⊢; constructor <;> linarith [near.1, near.2, sum2.1, sum2.2]
    have := mul_le_mul this lR l0R (by norm_num)
    linarith
  have d2 : |(sf : ℝ) * x * out - SF * X * out| ≤ 336 / 10 := by
    rw [← sub_mul, abs_mul, abs_of_nonneg o0R]
    have e : |(sf : ℝ) * x - SF * X| ≤ 10232 / 10 ^ 7 + 2 / 10 ^ 6 := by
      rw [show (sf : ℝ) * x - SF * X = sf * (x - X) + (sf - SF) * X by ring]
      refine (abs_add_le _ _).trans (add_le_add ?_ ?_)
      · rw [abs_mul, abs_of_nonneg s0R]
        have := mul_le_mul s1R hx (abs_nonneg _) (by norm_num)
        linarith
      · rw [abs_mul, abs_of_nonneg X0]
        have := mul_le_mul near X1 X0 (by norm_num)
        linarith
    have := mul_le_mul e oR o0R (by norm_num)
    linarith
  generalize (af : ℝ) * l = P at *
  generalize (sf : ℝ) * x * out = Q at *
  generalize (1 - SF) * (l : ℝ) = P' at *
  generalize SF * X * (out : ℝ) = Q' at *
  rw [abs_le] at near2 d1 d2
  constructor <;> linarith [near2.1, near2.2, d1.1, d1.2, d2.1, d2.2]

theorem closeSum {n : Nat} {y : ℝ} (h1 : (n : ℝ) ≤ y + 337 / 10) (h2 : y - 337 / 10 < (n : ℝ) + 1) (h0 : 0 ≤ y) :
    |(n : ℤ) - (toUInt y : ℤ)| ≤ 34 := by
  unfold toUInt
  rw [Int.toNat_of_nonneg (Int.floor_nonneg.2 h0)]
  have g1 := Int.floor_le y
  have g2 := Int.lt_floor_add_one y
  generalize ⌊y⌋ = m at *
  have a : ((n : ℤ) : ℝ) - (m : ℤ) < 35 := by push_cast; linarith
  have b : (-35 : ℝ) < ((n : ℤ) : ℝ) - (m : ℤ) := by push_cast; linarith
  have a' : (n : ℤ) - m < 35 := by exact_mod_cast a
  have b' : -35 < (n : ℤ) - m := by exact_mod_cast b
  rw [abs_le]; constructor <;> omega

/-! ## The weights -/

theorem weights_of {f fa : ℚ} (f0 : 0 ≤ f) (f1 : f ≤ 1) (a0 : 0 ≤ fa) (a1 : fa ≤ 1) (na : |fa - f| ≤ 126 / 10 ^ 9) :
    Weights f fa (rnd (rnd64 (1 - fa))) := by
  have z : IsFloat 24 (-149) 0 := ⟨0, 0, by norm_num, by norm_num, by simp⟩
  have o : IsFloat 24 (-149) 1 := ⟨1, 0, by norm_num, by norm_num, by simp⟩
  have z64 : IsFloat 53 (-1074) 0 := ⟨0, 0, by norm_num, by norm_num, by simp⟩
  have o64 : IsFloat 53 (-1074) 1 := ⟨1, 0, by norm_num, by norm_num, by simp⟩
  have c0 : 0 ≤ rnd64 (1 - fa) := le_round 53 (-1074) (by norm_num) z64 (by linarith)
  have c1 : rnd64 (1 - fa) ≤ 1 := round_le 53 (-1074) (by norm_num) o64 (by linarith)
  have nc := rnd64_near (x := 1 - fa) (B := 1) (by rw [abs_of_nonneg (by linarith)]; linarith) (by norm_num)
  generalize rnd64 (1 - fa) = c at *
  have nb := rnd_near (x := c) (B := 1) (by rw [abs_of_nonneg c0]; exact c1) (by norm_num)
  refine ⟨f0, f1, a0, a1, le_round 24 (-149) (by norm_num) z c0, round_le 24 (-149) (by norm_num) o c1, ?_, ?_⟩
  · exact na.trans (by norm_num)
  · rw [abs_le] at na nb nc ⊢
    constructor <;> linarith [na.1, na.2, nb.1, nb.2, nc.1, nc.2]

/-- The weight of the brush when it also carries an opacity. -/
theorem product_weights {n d ca : Nat} (h : n ≤ d) (hca : ca ≤ 32768) :
    Weights ((n : ℚ) / d * ((ca : ℚ) / 32768)) (rnd (rnd ((n : ℚ) / d) * rnd ((ca : ℚ) / 32768)))
      (rnd (rnd64 (1 - rnd (rnd ((n : ℚ) / d) * rnd ((ca : ℚ) / 32768))))) := by
  obtain ⟨f0, f1⟩ := unit_div h
  have e1 : rnd ((ca : ℚ) / 32768) = (ca : ℚ) / 32768 :=
    round_of_isFloat 24 (-149) (by norm_num) (by
      have := isFloat_dyadic (n := ca) (k := 15) (by rw [abs_of_nonneg (by positivity)]; omega) (by norm_num)
      norm_num at this ⊢; exact this)
  rw [e1]
  obtain ⟨c0, c1⟩ := unit_div hca
  push_cast at c0 c1
  generalize (n : ℚ) / d = f at *
  generalize (ca : ℚ) / 32768 = k at *
  have z : IsFloat 24 (-149) 0 := ⟨0, 0, by norm_num, by norm_num, by simp⟩
  have o : IsFloat 24 (-149) 1 := ⟨1, 0, by norm_num, by norm_num, by simp⟩
  have a0 : 0 ≤ rnd f := le_round 24 (-149) (by norm_num) z f0
  have a1 : rnd f ≤ 1 := round_le 24 (-149) (by norm_num) o f1
  have na := rnd_near (x := f) (B := 1) (by rw [abs_of_nonneg f0]; exact f1) (by norm_num)
  generalize rnd f = g at *
  have p0 : 0 ≤ g * k := mul_nonneg a0 c0
  have p1 : g * k ≤ 1 := by nlinarith
  have nb := rnd_near (x := g * k) (B := 1) (by rw [abs_of_nonneg p0]; exact p1) (by norm_num)
  have nd : |g * k - f * k| ≤ 1 / 16000000 := by
    rw [← sub_mul, abs_mul, abs_of_nonneg c0]
    have := mul_le_mul na c1 c0 (by norm_num)
    linarith
  refine weights_of (mul_nonneg f0 c0) (by nlinarith) (le_round 24 (-149) (by norm_num) z p0) (round_le 24 (-149) (by norm_num) o p1) ?_
  rw [abs_le] at nb nd ⊢
  constructor <;> linarith [nb.1, nb.2, nd.1, nd.2]

end Verif.FloatPaint
