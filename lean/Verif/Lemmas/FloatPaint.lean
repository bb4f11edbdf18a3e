import Verif.Model.FloatPaint
import Verif.Props.C96_FastPow

/-!
# Rounding in pigment mixing
-/

namespace Verif.FloatPaint
open Float32 FastPow Blend Spectral

theorem rnd_rel {x : ℚ} (h : 0 ≤ x) : |rnd x - x| ≤ (x + 1 / 10 ^ 30) / 16000000 :=
  rnd_near (by rw [abs_of_nonneg h]; linarith [show (0 : ℚ) ≤ 1 / 10 ^ 30 by norm_num]) (by linarith)

theorem rnd_abs (x : ℚ) : |rnd x - x| ≤ (|x| + 1 / 10 ^ 30) / 16000000 :=
  rnd_near (by linarith [show (0 : ℚ) ≤ 1 / 10 ^ 30 by norm_num]) (by linarith [abs_nonneg x])

theorem rnd64_near {x B : ℚ} (h : |x| ≤ B) (hB : 1 / 10 ^ 30 ≤ B) : |rnd64 x - x| ≤ B / 10 ^ 15 := by
  have k := round_err (p := 53) (emin := -1074) x
  refine k.trans ?_
  have e1 : (2 : ℚ) ^ (-((53 : ℕ) : ℤ)) ≤ 2 / 10 ^ 16 := by norm_num
  have e2 : (2 : ℚ) ^ ((-1074 : ℤ) - 1) ≤ 1 / 10 ^ 30 / 10 ^ 20 :=
    (two_zpow_le (b := -200) (by norm_num)).trans (by norm_num)
  have : |x| * (2 : ℚ) ^ (-((53 : ℕ) : ℤ)) ≤ B * (2 / 10 ^ 16) :=
    mul_le_mul h e1 (by positivity) (by linarith [show (0 : ℚ) ≤ 1 / 10 ^ 30 by norm_num])
  linarith

theorem rel_mul {c C l L α β : ℚ} (hC : 0 ≤ C) (hL : 0 ≤ L) (hα : 0 ≤ α) (h1 : |c - C| ≤ α * C) (h2 : |l - L| ≤ β * L) :
    |c * l - C * L| ≤ (α + β + α * β) * (C * L) := by
  have e : c * l - C * L = (c - C) * (l - L) + (c - C) * L + C * (l - L) := by ring
  rw [e]
  have a1 : |(c - C) * (l - L)| ≤ α * C * (β * L) := by
    rw [abs_mul]; exact mul_le_mul h1 h2 (abs_nonneg _) (by positivity)
  have a2 : |(c - C) * L| ≤ α * C * L := by
    rw [abs_mul, abs_of_nonneg hL]; exact mul_le_mul_of_nonneg_right h1 hL
  have a3 : |C * (l - L)| ≤ C * (β * L) := by
    rw [abs_mul, abs_of_nonneg hC]; exact mul_le_mul_of_nonneg_left h2 hC
  calc _ ≤ |(c - C) * (l - L)| + |(c - C) * L| + |C * (l - L)| := abs_add_three _ _ _
    _ ≤ _ := by nlinarith

/-! ## From colours to spectra -/

theorem offset_eq : offset = 16760439 / 16777216 := by decide +kernel

theorem eps64_near : |eps64 - 1 / 1000| ≤ 1 / 10 ^ 18 := by
  have : eps64 = 1152921504606847 / 1152921504606846976 := by decide +kernel
  rw [this, abs_le]; constructor <;> norm_num

/-- The exact value of `lift`. -/
def up (x : ℚ) : ℚ := x * (1 - 1 / 1000) + 1 / 1000

theorem lift_near {X : ℚ} (h0 : 0 ≤ X) (h1 : X ≤ 1) : |lift (rnd X) - up X| ≤ 3 / 10 ^ 7 * up X := by
  unfold lift up
  rw [offset_eq]
  have he := eps64_near
  generalize eps64 = e at *
  have a1 := rnd_rel h0
  generalize rnd X = x at *
  rw [abs_le] at he a1
  have x0 : 0 ≤ x + 1 / 10 ^ 30 := by linarith
  have a2 := rnd_abs (x * (16760439 / 16777216))
  have xa : |x * (16760439 / 16777216)| ≤ X * (1 + 1 / 10 ^ 7) + 1 / 10 ^ 29 := by
    rw [abs_le]; constructor <;> linarith
  generalize rnd (x * (16760439 / 16777216)) = y at *
  rw [abs_le] at a2
  have a3 := rnd64_near (x := y + e) (B := 2) (by rw [abs_le]; constructor <;> linarith) (by norm_num)
  generalize rnd64 (y + e) = z at *
  rw [abs_le] at a3
  have a4 := rnd_rel (x := z) (by linarith)
  rw [abs_le] at a4 ⊢
  constructor <;> linarith

/-- What the tables must satisfy; they do (`tables_good`). -/
def Good (s : Int × Int × Int) : Prop :=
  (0 ≤ s.1 ∧ |con s.1 - (s.1 : ℚ) / 10 ^ 15| ≤ 1 / 10 ^ 7 * ((s.1 : ℚ) / 10 ^ 15)) ∧
  (0 ≤ s.2.1 ∧ |con s.2.1 - (s.2.1 : ℚ) / 10 ^ 15| ≤ 1 / 10 ^ 7 * ((s.2.1 : ℚ) / 10 ^ 15)) ∧
  (0 ≤ s.2.2 ∧ |con s.2.2 - (s.2.2 : ℚ) / 10 ^ 15| ≤ 1 / 10 ^ 7 * ((s.2.2 : ℚ) / 10 ^ 15)) ∧
  (1 / 2 : ℚ) ≤ ((s.1 + s.2.1 + s.2.2 : Int) : ℚ) / 10 ^ 15 ∧ ((s.1 + s.2.1 + s.2.2 : Int) : ℚ) / 10 ^ 15 ≤ 107 / 100

instance (s : Int × Int × Int) : Decidable (Good s) := by unfold Good; infer_instance

theorem tables_good : ∀ s ∈ primaries, Good s := by decide +kernel

def GoodCoefficient (n : Int) : Prop := |con n - (n : ℚ) / 10 ^ 15| ≤ 1 / 10 ^ 7 * |(n : ℚ) / 10 ^ 15|

instance (n : Int) : Decidable (GoodCoefficient n) := by unfold GoodCoefficient; infer_instance

theorem matrix_good : ∀ t ∈ tMatrix, GoodCoefficient t.1 ∧ GoodCoefficient t.2.1 ∧ GoodCoefficient t.2.2 := by decide +kernel

/-- The exact reflectance in one band. -/
def exactBand (s : Int × Int × Int) (c : Rgb ℚ) : ℚ :=
  (s.1 : ℚ) / 10 ^ 15 * up c.r + (s.2.1 : ℚ) / 10 ^ 15 * up c.g + (s.2.2 : ℚ) / 10 ^ 15 * up c.b

/-- A colour in the unit cube. -/
def Unit (c : Rgb ℚ) : Prop := (0 ≤ c.r ∧ c.r ≤ 1) ∧ (0 ≤ c.g ∧ c.g ≤ 1) ∧ (0 ≤ c.b ∧ c.b ≤ 1)

/-- The colour as floats. -/
def rounded (c : Rgb ℚ) : Rgb ℚ := ⟨rnd c.r, rnd c.g, rnd c.b⟩

theorem up_range {x : ℚ} (h0 : 0 ≤ x) (h1 : x ≤ 1) : 1 / 1000 ≤ up x ∧ up x ≤ 1 := by
  unfold up; constructor <;> linarith

theorem exactBand_range {s : Int × Int × Int} (hs : Good s) {c : Rgb ℚ} (hc : Unit c) :
    1 / 2000 ≤ exactBand s c ∧ exactBand s c ≤ ((s.1 + s.2.1 + s.2.2 : Int) : ℚ) / 10 ^ 15 := by
  obtain ⟨⟨p1, -⟩, ⟨p2, -⟩, ⟨p3, -⟩, lo, -⟩ := hs
  obtain ⟨⟨r0, r1⟩, ⟨g0, g1⟩, ⟨b0, b1⟩⟩ := hc
  obtain ⟨ur0, ur1⟩ := up_range r0 r1
  obtain ⟨ug0, ug1⟩ := up_range g0 g1
  obtain ⟨ub0, ub1⟩ := up_range b0 b1
  have q1 : (0 : ℚ) ≤ (s.1 : ℚ) / 10 ^ 15 := div_nonneg (by exact_mod_cast p1) (by norm_num)
  have q2 : (0 : ℚ) ≤ (s.2.1 : ℚ) / 10 ^ 15 := div_nonneg (by exact_mod_cast p2) (by norm_num)
  have q3 : (0 : ℚ) ≤ (s.2.2 : ℚ) / 10 ^ 15 := div_nonneg (by exact_mod_cast p3) (by norm_num)
  unfold exactBand
  have e : ((s.1 + s.2.1 + s.2.2 : Int) : ℚ) / 10 ^ 15 = (s.1 : ℚ) / 10 ^ 15 + (s.2.1 : ℚ) / 10 ^ 15 + (s.2.2 : ℚ) / 10 ^ 15 := by
    push_cast; ring
  rw [e] at lo ⊢
  generalize (s.1 : ℚ) / 10 ^ 15 = A at *
  generalize (s.2.1 : ℚ) / 10 ^ 15 = B at *
  generalize (s.2.2 : ℚ) / 10 ^ 15 = C at *
  constructor
  · nlinarith [mul_le_mul_of_nonneg_left ur0 q1, mul_le_mul_of_nonneg_left ug0 q2, mul_le_mul_of_nonneg_left ub0 q3]
  · nlinarith [mul_le_mul_of_nonneg_left ur1 q1, mul_le_mul_of_nonneg_left ug1 q2, mul_le_mul_of_nonneg_left ub1 q3]

theorem band_near {s : Int × Int × Int} (hs : Good s) {c : Rgb ℚ} (hc : Unit c) :
    |band s (rounded c) - exactBand s c| ≤ 1 / 10 ^ 6 * exactBand s c := by
  have rg := (exactBand_range hs hc).1
  obtain ⟨⟨p1, n1⟩, ⟨p2, n2⟩, ⟨p3, n3⟩, -, -⟩ := hs
  obtain ⟨⟨r0, r1⟩, ⟨g0, g1⟩, ⟨b0, b1⟩⟩ := hc
  have q1 : (0 : ℚ) ≤ (s.1 : ℚ) / 10 ^ 15 := div_nonneg (by exact_mod_cast p1) (by norm_num)
  have q2 : (0 : ℚ) ≤ (s.2.1 : ℚ) / 10 ^ 15 := div_nonneg (by exact_mod_cast p2) (by norm_num)
  have q3 : (0 : ℚ) ≤ (s.2.2 : ℚ) / 10 ^ 15 := div_nonneg (by exact_mod_cast p3) (by norm_num)
  have u1 := (up_range r0 r1).1
  have u2 := (up_range g0 g1).1
  have u3 := (up_range b0 b1).1
  have m1 := rel_mul q1 (by linarith) (by norm_num) n1 (lift_near r0 r1)
  have m2 := rel_mul q2 (by linarith) (by norm_num) n2 (lift_near g0 g1)
  have m3 := rel_mul q3 (by linarith) (by norm_num) n3 (lift_near b0 b1)
  have z1 : 0 ≤ (s.1 : ℚ) / 10 ^ 15 * up c.r := mul_nonneg q1 (by linarith)
  have z2 : 0 ≤ (s.2.1 : ℚ) / 10 ^ 15 * up c.g := mul_nonneg q2 (by linarith)
  have z3 : 0 ≤ (s.2.2 : ℚ) / 10 ^ 15 * up c.b := mul_nonneg q3 (by linarith)
  unfold band rounded
  unfold exactBand at rg ⊢
  simp only
  generalize (s.1 : ℚ) / 10 ^ 15 * up c.r = A at *
  generalize (s.2.1 : ℚ) / 10 ^ 15 * up c.g = B at *
  generalize (s.2.2 : ℚ) / 10 ^ 15 * up c.b = C at *
  generalize con s.1 * lift (rnd c.r) = a at *
  generalize con s.2.1 * lift (rnd c.g) = b at *
  generalize con s.2.2 * lift (rnd c.b) = d at *
  rw [abs_le] at m1 m2 m3
  have k1 := rnd_rel (x := a) (by linarith)
  have k2 := rnd_rel (x := b) (by linarith)
  have k3 := rnd_rel (x := d) (by linarith)
  generalize rnd a = a' at *
  generalize rnd b = b' at *
  generalize rnd d = d' at *
  rw [abs_le] at k1 k2 k3
  have k4 := rnd_abs (a' + b')
  have k4' : |a' + b'| ≤ (A + B) * (1 + 1 / 10 ^ 6) + 1 / 10 ^ 29 := by rw [abs_le]; constructor <;> linarith
  generalize rnd (a' + b') = ab at *
  rw [abs_le] at k4
  have k5 := rnd_abs (ab + d')
  have k5' : |ab + d'| ≤ (A + B + C) * (1 + 2 / 10 ^ 6) + 1 / 10 ^ 28 := by rw [abs_le]; constructor <;> linarith
  generalize rnd (ab + d') = r at *
  rw [abs_le] at k5 ⊢
  constructor <;> linarith

/-! ## Mixing -/

/-- The exact reflectance of the mixture. -/
noncomputable def exactMix (s : Int × Int × Int) (a b : Rgb ℚ) (f : ℚ) : ℝ :=
  (exactBand s a : ℝ) ^ (f : ℝ) * (exactBand s b : ℝ) ^ (1 - (f : ℝ))

theorem log_close {x X : ℝ} (hX : 0 < X) (h : |x - X| ≤ 1 / 10 ^ 6 * X) : 0 < x ∧ |Real.log x - Real.log X| ≤ 11 / 10 ^ 7 := by
  rw [abs_le] at h
  have x0 : 0 < x := by linarith [h.1]
  refine ⟨x0, ?_⟩
  have a : Real.log x - Real.log X ≤ x / X - 1 := by
    rw [← Real.log_div x0.ne' hX.ne']; exact Real.log_le_sub_one_of_pos (by positivity)
  have b : Real.log X - Real.log x ≤ X / x - 1 := by
    rw [← Real.log_div hX.ne' x0.ne']; exact Real.log_le_sub_one_of_pos (by positivity)
  have a' : x / X ≤ 1 + 1 / 10 ^ 6 := by rw [div_le_iff₀ hX]; linarith [h.2]
  have b' : X / x ≤ 1 + 11 / 10 ^ 7 := by rw [div_le_iff₀ x0]; linarith [h.1]
  rw [abs_le]; constructor <;> linarith

theorem log_bound {X : ℝ} (h0 : 1 / 2000 ≤ X) (h1 : X ≤ 2) : |Real.log X| ≤ 8 := by
  have l2 := Real.log_two_lt_d9
  have l2' := Real.log_two_gt_d9
  norm_num at l2 l2'
  have X0 : 0 < X := by linarith
  have a : Real.log X ≤ Real.log 2 := Real.log_le_log X0 h1
  have b : Real.log (1 / 2 ^ 11) ≤ Real.log X := Real.log_le_log (by norm_num) (le_trans (by norm_num) h0)
  rw [one_div, Real.log_inv, Real.log_pow] at b
  push_cast at b
  rw [abs_le]; constructor <;> linarith

/-- The weights. -/
structure Weights (f fa fb : ℚ) : Prop where
  f0 : 0 ≤ f
  f1 : f ≤ 1
  a0 : 0 ≤ fa
  a1 : fa ≤ 1
  b0 : 0 ≤ fb
  b1 : fb ≤ 1
  na : |fa - f| ≤ 13 / 10 ^ 8
  nb : |fb - (1 - f)| ≤ 2 / 10 ^ 7

theorem isFloat_band (s : Int × Int × Int) (c : Rgb ℚ) : IsFloat 24 (-149) (band s c) := isFloat_round _ _ _

theorem weighted {f fa L l : ℝ} (hL : |L| ≤ 8) (h0 : 0 ≤ fa) (h1 : fa ≤ 1) {α : ℝ} (ha : |fa - f| ≤ α) (hl : |l - L| ≤ 11 / 10 ^ 7) :
    |fa * l - f * L| ≤ 11 / 10 ^ 7 + α * 8 := by
  have e : fa * l - f * L = fa * (l - L) + (fa - f) * L := by ring
  rw [e]
  refine (abs_add_le _ _).trans (add_le_add ?_ ?_)
  · rw [abs_mul, abs_of_nonneg h0]
    calc fa * |l - L| ≤ 1 * |l - L| := mul_le_mul_of_nonneg_right h1 (abs_nonneg _)
      _ ≤ _ := by rw [one_mul]; exact hl
  · rw [abs_mul]
    exact mul_le_mul ha hL (abs_nonneg _) ((abs_nonneg _).trans ha)

theorem mix_near {s : Int × Int × Int} (hs : Good s) {a b : Rgb ℚ} (ha : Unit a) (hb : Unit b) {f fa fb : ℚ} (hw : Weights f fa fb) :
    ∃ r : ℚ, mixBand (band s (rounded a)) (band s (rounded b)) fa fb = .ok r ∧
      |(r : ℝ) - exactMix s a b f| ≤ exactMix s a b f / 1960 := by
  have hsum := hs.2.2.2.2
  obtain ⟨ra0, ra1⟩ := exactBand_range hs ha
  obtain ⟨rb0, rb1⟩ := exactBand_range hs hb
  have na := band_near hs ha
  have nb := band_near hs hb
  have na' := abs_le.1 na
  have nb' := abs_le.1 nb
  obtain ⟨r, hr, near⟩ := mixBand_accurate (isFloat_band s (rounded a)) (by norm_num; linarith) (by linarith)
    (isFloat_band s (rounded b)) (by norm_num; linarith) (by linarith) hw.a0 hw.a1 hw.b0 hw.b1
  refine ⟨r, hr, ?_⟩
  unfold exactMix
  have castBand : ∀ {x X : ℚ}, |x - X| ≤ 1 / 10 ^ 6 * X → |(x : ℝ) - X| ≤ 1 / 10 ^ 6 * X := by
    intro x X h
    have := (Rat.cast_le (K := ℝ)).2 h
    push_cast at this; exact this
  have lo : ∀ {X : ℚ}, 1 / 2000 ≤ X → (1 / 2000 : ℝ) ≤ X := by
    intro X h
    have := (Rat.cast_le (K := ℝ)).2 h
    push_cast at this; exact this
  have hi : ∀ {X : ℚ}, X ≤ 2 → (X : ℝ) ≤ 2 := by intro X h; exact_mod_cast h
  have hA := log_close (by linarith [lo ra0]) (castBand na)
  have hB := log_close (by linarith [lo rb0]) (castBand nb)
  have bA := log_bound (lo ra0) (hi (by linarith))
  have bB := log_bound (lo rb0) (hi (by linarith))
  have XA : (0 : ℝ) < exactBand s a := by linarith [lo ra0]
  have XB : (0 : ℝ) < exactBand s b := by linarith [lo rb0]
  have castAbs : ∀ {x y α : ℚ}, |x - y| ≤ α → |(x : ℝ) - y| ≤ α := by intro x y α h; exact_mod_cast h
  have wa := weighted (f := f) (fa := fa) bA (by exact_mod_cast hw.a0) (by exact_mod_cast hw.a1) (castAbs hw.na) hA.2
  have wb := weighted (f := 1 - f) (fa := fb) bB (by exact_mod_cast hw.b0) (by exact_mod_cast hw.b1)
    (by have := castAbs hw.nb; push_cast at this; exact this) hB.2
  push_cast at wa wb
  have e1 : (band s (rounded a) : ℝ) ^ (fa : ℝ) * (band s (rounded b) : ℝ) ^ (fb : ℝ)
      = Real.exp (fa * Real.log (band s (rounded a)) + fb * Real.log (band s (rounded b))) := by
    rw [Real.rpow_def_of_pos hA.1, Real.rpow_def_of_pos hB.1, ← Real.exp_add]; congr 1; ring
  have e2 : (exactBand s a : ℝ) ^ (f : ℝ) * (exactBand s b : ℝ) ^ (1 - (f : ℝ))
      = Real.exp (f * Real.log (exactBand s a) + (1 - f) * Real.log (exactBand s b)) := by
    rw [Real.rpow_def_of_pos XA, Real.rpow_def_of_pos XB, ← Real.exp_add]; congr 1; ring
  rw [e1] at near
  rw [e2]
  generalize (fa : ℝ) * Real.log (band s (rounded a)) = u1 at *
  generalize (fb : ℝ) * Real.log (band s (rounded b)) = u2 at *
  generalize (f : ℝ) * Real.log (exactBand s a) = v1 at *
  generalize (1 - (f : ℝ)) * Real.log (exactBand s b) = v2 at *
  obtain ⟨d, hd⟩ : ∃ d : ℝ, d = (u1 + u2) - (v1 + v2) := ⟨_, rfl⟩
  have d1 : |d| ≤ 5 / 10 ^ 6 := by
    rw [hd]; rw [abs_le] at wa wb ⊢; constructor <;> linarith [wa.1, wa.2, wb.1, wb.2]
  have k := Real.abs_exp_sub_one_sub_id_le (d1.trans (by norm_num))
  have sq : d ^ 2 ≤ (5 / 10 ^ 6) ^ 2 := by rw [← sq_abs]; exact pow_le_pow_left₀ (abs_nonneg d) d1 2
  have ee : Real.exp (u1 + u2) = Real.exp (v1 + v2) * Real.exp d := by rw [← Real.exp_add, hd]; congr 1; ring
  rw [ee] at near
  have P : 0 < Real.exp (v1 + v2) := Real.exp_pos _
  generalize Real.exp (v1 + v2) = Q at *
  generalize Real.exp d = D at *
  rw [abs_le] at near k d1 ⊢
  have D1 : D ≤ 1 + 6 / 10 ^ 6 := by linarith [k.2, d1.2]
  have D0 : 1 - 6 / 10 ^ 6 ≤ D := by linarith [k.1, d1.1]
  have m1 : Q * D ≤ Q * (1 + 6 / 10 ^ 6) := mul_le_mul_of_nonneg_left D1 P.le
  have m0 : Q * (1 - 6 / 10 ^ 6) ≤ Q * D := mul_le_mul_of_nonneg_left D0 P.le
  constructor <;> linarith [near.1, near.2]

/-- The largest reflectance in a band. -/
def top (s : Int × Int × Int) : ℚ := ((s.1 + s.2.1 + s.2.2 : Int) : ℚ) / 10 ^ 15

theorem exactMix_range {s : Int × Int × Int} (hs : Good s) {a b : Rgb ℚ} (ha : Unit a) (hb : Unit b) {f : ℚ} (h0 : 0 ≤ f) (h1 : f ≤ 1) :
    0 ≤ exactMix s a b f ∧ exactMix s a b f ≤ top s := by
  obtain ⟨ra0, ra1⟩ := exactBand_range hs ha
  obtain ⟨rb0, rb1⟩ := exactBand_range hs hb
  have f0 : (0 : ℝ) ≤ f := by exact_mod_cast h0
  have f1 : (0 : ℝ) ≤ 1 - f := by have : (f : ℝ) ≤ 1 := by exact_mod_cast h1
                                  linarith
  have A0 : (0 : ℝ) < exactBand s a := by exact_mod_cast lt_of_lt_of_le (by norm_num) ra0
  have B0 : (0 : ℝ) < exactBand s b := by exact_mod_cast lt_of_lt_of_le (by norm_num) rb0
  have T0 : (0 : ℝ) < top s := by
    have : (0 : ℚ) < top s := lt_of_lt_of_le (by norm_num) hs.2.2.2.1
    exact_mod_cast this
  unfold exactMix
  constructor
  · exact mul_nonneg (Real.rpow_nonneg A0.le _) (Real.rpow_nonneg B0.le _)
  · calc _ ≤ (top s : ℝ) ^ (f : ℝ) * (top s : ℝ) ^ (1 - (f : ℝ)) :=
          mul_le_mul (Real.rpow_le_rpow A0.le ((Rat.cast_le (K := ℝ)).2 ra1) f0) (Real.rpow_le_rpow B0.le ((Rat.cast_le (K := ℝ)).2 rb1) f1)
            (Real.rpow_nonneg B0.le _) (Real.rpow_nonneg T0.le _)
      _ = top s := by rw [← Real.rpow_add T0, add_sub_cancel, Real.rpow_one]

theorem mixSpectra_near {a b : Rgb ℚ} (ha : Unit a) (hb : Unit b) {f fa fb : ℚ} (hw : Weights f fa fb) :
    ∀ l : List (Int × Int × Int), (∀ s ∈ l, Good s) → ∃ sp : List ℚ,
      mixSpectra (l.map fun s => band s (rounded a)) (l.map fun s => band s (rounded b)) fa fb = .ok sp ∧
      List.Forall₂ (fun s (r : ℚ) => |(r : ℝ) - exactMix s a b f| ≤ exactMix s a b f / 1960) l sp
  | [], _ => ⟨[], rfl, .nil⟩
  | s :: l, h => by
    obtain ⟨r, hr, n⟩ := mix_near (h s (by simp)) ha hb hw
    obtain ⟨sp, hsp, fsp⟩ := mixSpectra_near ha hb hw l fun t ht => h t (by simp [ht])
    exact ⟨r :: sp, by simp only [List.map, mixSpectra, hr, hsp, bind, Except.bind, pure, Except.pure], .cons n fsp⟩

/-! ## From spectra to colours -/

/-- `Σ |T_i| top_i`: the largest sum of the absolute values of the terms. -/
def weight : List Int → List (Int × Int × Int) → ℚ
  | n :: ns, s :: l => |(n : ℚ) / 10 ^ 15| * top s + weight ns l
  | _, _ => 0

theorem weight_nonneg : ∀ (ns : List Int) (l : List (Int × Int × Int)), (∀ s ∈ l, Good s) → 0 ≤ weight ns l
  | [], _, _ => by simp [weight]
  | _ :: _, [], _ => by simp [weight]
  | n :: ns, s :: l, h => by
    have t0 : 0 ≤ top s := le_trans (by norm_num) (h s (by simp)).2.2.2.1
    have := weight_nonneg ns l fun x hx => h x (by simp [hx])
    unfold weight
    positivity

/-- The sum in exact arithmetic, from `t` on. -/
noncomputable def exactDot (t : ℝ) : List Int → List ℝ → ℝ
  | n :: ns, x :: l => exactDot (t + (n : ℝ) / 10 ^ 15 * x) ns l
  | _, _ => t

/-- The sum as computed, from `t` on. -/
def dotFrom (t : ℚ) : List Int → List ℚ → ℚ
  | n :: ns, x :: l => dotFrom (rnd (t + rnd (con n * x))) ns l
  | _, _ => t

theorem dotFrom_near (w : (Int × Int × Int) → ℝ) : ∀ (ns : List Int) (l : List (Int × Int × Int)) (sp : List ℚ) (t : ℚ) (u : ℝ),
    (∀ n ∈ ns, GoodCoefficient n) → (∀ s ∈ l, Good s) → (∀ s ∈ l, 0 ≤ w s ∧ w s ≤ top s) →
    List.Forall₂ (fun s (r : ℚ) => |(r : ℝ) - w s| ≤ w s / 1960) l sp →
    |(t : ℝ)| + 11 / 10 * weight ns l + l.length / 10 ^ 6 ≤ 4 →
    |(dotFrom t ns sp : ℝ) - exactDot u ns (l.map w)| ≤
      |(t : ℝ) - u| + (1 / 1960 + 3 / 10 ^ 7) * weight ns l + 3 / 10 ^ 7 * l.length
  | [], l, sp, t, u, _, _, _, _, _ => by
    simp only [dotFrom, exactDot, weight]; push_cast
    linarith [show (0 : ℝ) ≤ l.length from Nat.cast_nonneg _]
  | n :: ns, [], _, t, u, _, _, _, .nil, _ => by
    simp only [dotFrom, exactDot, weight, List.map]; push_cast; simp
  | n :: ns, s :: l, _, t, u, hn, hg, hw, .cons (b := r) hr hf, hB => by
    have gn := hn n (by simp)
    have wn := weight_nonneg ns l fun x hx => hg x (by simp [hx])
    have wn' : (0 : ℝ) ≤ weight ns l := by exact_mod_cast wn
    obtain ⟨w0, w1⟩ := hw s (by simp)
    unfold GoodCoefficient at gn
    have gn' : |(con n : ℝ) - (n : ℝ) / 10 ^ 15| ≤ 1 / 10 ^ 7 * |(n : ℝ) / 10 ^ 15| := by
      have := (Rat.cast_le (K := ℝ)).2 gn
      push_cast at this; exact this
    simp only [weight, List.length_cons] at hB ⊢
    push_cast at hB ⊢
    simp only [dotFrom, exactDot, List.map]
    have ll : (0 : ℝ) ≤ l.length := Nat.cast_nonneg _
    obtain ⟨T, hT⟩ : ∃ T : ℝ, T = (n : ℝ) / 10 ^ 15 := ⟨_, rfl⟩
    rw [← hT] at gn' hB ⊢
    -- one product
    have pr : |(con n : ℝ) * r - T * w s| ≤ (1 / 1960 + 2 / 10 ^ 7) * (|T| * w s) := by
      have e : (con n : ℝ) * r - T * w s = (con n - T) * (r - w s) + (con n - T) * w s + T * (r - w s) := by ring
      rw [e]
      have a1 : |((con n : ℝ) - T) * (r - w s)| ≤ 1 / 10 ^ 7 * |T| * (w s / 1960) := by
        rw [abs_mul]; exact mul_le_mul gn' hr (abs_nonneg _) (by positivity)
      have a2 : |((con n : ℝ) - T) * w s| ≤ 1 / 10 ^ 7 * |T| * w s := by
        rw [abs_mul, abs_of_nonneg w0]; exact mul_le_mul_of_nonneg_right gn' w0
      have a3 : |T * (r - w s)| ≤ |T| * (w s / 1960) := by
        rw [abs_mul]; exact mul_le_mul_of_nonneg_left hr (abs_nonneg _)
      have q := abs_add_three (((con n : ℝ) - T) * (r - w s)) ((con n - T) * w s) (T * (r - w s))
      have : 0 ≤ |T| * w s := by positivity
      linarith
    have Tw : |T| * w s ≤ |T| * top s := mul_le_mul_of_nonneg_left w1 (abs_nonneg _)
    have Tw0 : 0 ≤ |T| * w s := by positivity
    have Ta : |T * w s| = |T| * w s := by rw [abs_mul, abs_of_nonneg w0]
    have k1 := (Rat.cast_le (K := ℝ)).2 (rnd_abs (con n * r))
    push_cast at k1
    have pa : |(con n : ℝ) * r| ≤ 101 / 100 * (|T| * w s) := by
      have := abs_sub_abs_le_abs_sub ((con n : ℝ) * r) (T * w s)
      rw [Ta] at this
      linarith
    obtain ⟨v, hv⟩ : ∃ v : ℚ, v = rnd (con n * r) := ⟨_, rfl⟩
    rw [← hv] at k1 ⊢
    have va : |(v : ℝ)| ≤ 102 / 100 * (|T| * w s) + 1 / 10 ^ 9 := by
      have := abs_sub_abs_le_abs_sub (v : ℝ) ((con n : ℝ) * r)
      linarith
    have k2 := (Rat.cast_le (K := ℝ)).2 (rnd_abs (t + v))
    push_cast at k2
    have ta : |(t : ℝ) + v| ≤ |(t : ℝ)| + 102 / 100 * (|T| * w s) + 1 / 10 ^ 9 := (abs_add_le _ _).trans (by linarith)
    obtain ⟨t', ht'⟩ : ∃ t' : ℚ, t' = rnd (t + v) := ⟨_, rfl⟩
    rw [← ht'] at k2 ⊢
    have t4 : |(t : ℝ) + v| ≤ 4 := by linarith
    have t'a : |(t' : ℝ)| ≤ |(t : ℝ)| + 102 / 100 * (|T| * w s) + 5 / 10 ^ 7 := by
      have := abs_sub_abs_le_abs_sub (t' : ℝ) (t + v)
      linarith
    have ih := dotFrom_near w ns l _ t' (u + T * w s) (fun x hx => hn x (by simp [hx])) (fun x hx => hg x (by simp [hx]))
      (fun x hx => hw x (by simp [hx])) hf (by linarith)
    have st : |(t' : ℝ) - (u + T * w s)| ≤ |(t : ℝ) - u| + (1 / 1960 + 3 / 10 ^ 7) * (|T| * w s) + 3 / 10 ^ 7 := by
      have e : (t' : ℝ) - (u + T * w s) = (t' - (t + v)) + (v - con n * r) + ((con n : ℝ) * r - T * w s) + (t - u) := by ring
      rw [e]
      have q1 := abs_add_le ((t' : ℝ) - (t + v) + (v - con n * r) + ((con n : ℝ) * r - T * w s)) (t - u)
      have q2 := abs_add_three ((t' : ℝ) - (t + v)) (v - con n * r) ((con n : ℝ) * r - T * w s)
      linarith
    linarith

theorem dot_eq (ns : List Int) (sp : List ℚ) (t : ℚ) :
    ((ns.map con).zip sp).foldl (fun t x => rnd (t + rnd (x.1 * x.2))) t = dotFrom t ns sp := by
  induction ns generalizing sp t with
  | nil => simp [dotFrom]
  | cons n ns ih =>
    cases sp with
    | nil => simp [dotFrom]
    | cons x sp => simp only [List.map, List.zip_cons_cons, List.foldl_cons, dotFrom]; exact ih sp _

/-- The ideal sums, one by one. -/
theorem sums_eq (ts : List (Int × Int × Int)) (S : List ℝ) (u : Rgb ℝ) :
    (ts.zip S).foldl (fun (t : Rgb ℝ) ms =>
      { r := t.r + dec ms.1.1 * ms.2, g := t.g + dec ms.1.2.1 * ms.2, b := t.b + dec ms.1.2.2 * ms.2 }) u =
    ⟨exactDot u.r (ts.map (·.1)) S, exactDot u.g (ts.map (·.2.1)) S, exactDot u.b (ts.map (·.2.2)) S⟩ := by
  induction ts generalizing S u with
  | nil => simp [exactDot]
  | cons n ns ih =>
    cases S with
    | nil => simp [exactDot]
    | cons x S =>
      simp only [List.map, List.zip_cons_cons, List.foldl_cons, exactDot]
      rw [ih S]
      simp only [dec]
      norm_num

theorem clamp_near {x y d : ℝ} (h : |x - y| ≤ d) : |Mask.clampK x 0 1 - Mask.clampK y 0 1| ≤ d := by
  have d0 := (abs_nonneg _).trans h
  unfold Mask.clampK
  rw [abs_le] at h ⊢
  split_ifs <;> constructor <;> linarith [h.1, h.2]

theorem clamp_cast (x : ℚ) : ((Mask.clampK x 0 1 : ℚ) : ℝ) = Mask.clampK (x : ℝ) 0 1 := by
  unfold Mask.clampK
  have a : (x > 1) ↔ ((x : ℝ) > 1) := by exact_mod_cast Iff.rfl
  have b : (x < 0) ↔ ((x : ℝ) < 0) := by exact_mod_cast Iff.rfl
  by_cases h1 : x > 1
  · rw [if_pos h1, if_pos (a.1 h1)]; push_cast; rfl
  · rw [if_neg h1, if_neg (fun q => h1 (a.2 q))]
    by_cases h2 : x < 0
    · rw [if_pos h2, if_pos (b.1 h2)]; push_cast; rfl
    · rw [if_neg h2, if_neg (fun q => h2 (b.2 q))]

theorem clamp_unit {K : Type} [Field K] [LinearOrder K] [IsStrictOrderedRing K] (x : K) :
    0 ≤ Mask.clampK x 0 1 ∧ Mask.clampK x 0 1 ≤ 1 := by
  unfold Mask.clampK
  split_ifs with h1 h2
  · exact ⟨zero_le_one, le_rfl⟩
  · exact ⟨le_rfl, zero_le_one⟩
  · exact ⟨not_lt.1 h2, not_lt.1 h1⟩

theorem unlift_near {t : ℚ} {u d : ℝ} (ht : |t| ≤ 4) (h : |(t : ℝ) - u| ≤ d) :
    |(unlift t : ℝ) - Mask.clampK ((u - 1 / 1000) / (1 - 1 / 1000)) 0 1| ≤ d * (1001002 / 1000000) + 7 / 10 ^ 7 := by
  have he := eps64_near
  unfold unlift
  rw [offset_eq]
  generalize eps64 = e at *
  rw [abs_le] at he ht
  have a1 := rnd64_near (x := t - e) (B := 5) (by rw [abs_le]; constructor <;> linarith) (by norm_num)
  obtain ⟨y, hy⟩ : ∃ y : ℚ, y = rnd64 (t - e) := ⟨_, rfl⟩
  rw [← hy] at a1 ⊢
  rw [abs_le] at a1
  have a2 := rnd64_near (x := y / (16760439 / 16777216)) (B := 6) (by
    rw [abs_le, le_div_iff₀ (by norm_num), div_le_iff₀ (by norm_num)]; constructor <;> linarith) (by norm_num)
  obtain ⟨z, hz⟩ : ∃ z : ℚ, z = rnd64 (y / (16760439 / 16777216)) := ⟨_, rfl⟩
  rw [← hz] at a2 ⊢
  obtain ⟨c0, c1⟩ := clamp_unit z
  have a3 := rnd_near (x := Mask.clampK z 0 1) (B := 1) (by rw [abs_of_nonneg c0]; exact c1) (by norm_num)
  have a3' := (Rat.cast_le (K := ℝ)).2 a3
  push_cast at a3'
  rw [clamp_cast] at a3'
  have zt : |z - (t - 1 / 1000) / (1 - 1 / 1000)| ≤ 5 / 10 ^ 7 := by
    rw [abs_le] at a2 ⊢
    have e1 : y / (16760439 / 16777216) = y * (16777216 / 16760439) := by rw [div_div_eq_mul_div, mul_div_assoc]
    have e2 : (t - 1 / 1000) / (1 - 1 / 1000 : ℚ) = (t - 1 / 1000) * (1000 / 999) := by ring
    rw [e1] at a2
    rw [e2]
    constructor <;> linarith
  have zt' : |(z : ℝ) - (t - 1 / 1000) / (1 - 1 / 1000)| ≤ 5 / 10 ^ 7 := by
    have := (Rat.cast_le (K := ℝ)).2 zt
    push_cast at this; exact this
  have zu : |(z : ℝ) - (u - 1 / 1000) / (1 - 1 / 1000)| ≤ d * (1001002 / 1000000) + 5 / 10 ^ 7 := by
    have e2 : ((t : ℝ) - 1 / 1000) / (1 - 1 / 1000) = (t - 1 / 1000) * (1000 / 999) := by ring
    have e3 : (u - 1 / 1000) / (1 - 1 / 1000 : ℝ) = (u - 1 / 1000) * (1000 / 999) := by ring
    rw [e2] at zt'
    rw [e3]
    have d0 := (abs_nonneg _).trans h
    rw [abs_le] at zt' h ⊢
    constructor <;> linarith [zt'.1, zt'.2, h.1, h.2]
  have cl := clamp_near zu
  rw [abs_le] at cl a3' ⊢
  constructor <;> linarith [cl.1, cl.2, a3'.1, a3'.2]

theorem unlift_range (t : ℚ) : 0 ≤ unlift t ∧ unlift t ≤ 1 := by
  obtain ⟨c0, c1⟩ := clamp_unit (rnd64 (rnd64 (t - eps64) / offset))
  exact ⟨le_round 24 (-149) (by norm_num) ⟨0, 0, by norm_num, by norm_num, by simp⟩ c0,
    round_le 24 (-149) (by norm_num) ⟨1, 0, by norm_num, by norm_num, by simp⟩ c1⟩

theorem toChannel_near {x : ℚ} (h0 : 0 ≤ x) (h1 : x ≤ 1) {a : Nat} (ha : a ≤ 32768) :
    ∃ n, toChannel x a = .ok n ∧ |(n : ℝ) - x * a| ≤ 503 / 1000 ∧ n ≤ a := by
  have aq : (a : ℚ) ≤ 32768 := by exact_mod_cast ha
  have a0 : (0 : ℚ) ≤ a := Nat.cast_nonneg a
  have p0 : 0 ≤ x * a := mul_nonneg h0 a0
  have p1 : x * a ≤ a := by nlinarith
  have fa : IsFloat 24 (-149) (a : ℚ) := ⟨a, 0, by norm_num, by rw [abs_of_nonneg (by positivity)]; exact_mod_cast (by omega : a ≤ 2 ^ 24), by simp⟩
  have y0 : 0 ≤ rnd (x * a) := le_round 24 (-149) (by norm_num) ⟨0, 0, by norm_num, by norm_num, by simp⟩ p0
  have y1 : rnd (x * a) ≤ a := round_le 24 (-149) (by norm_num) fa p1
  have k1 := rnd_near (x := x * a) (B := 32768) (by rw [abs_of_nonneg p0]; linarith) (by norm_num)
  unfold toChannel
  generalize rnd (x * a) = y at *
  have k2 := rnd64_near (x := y + 1 / 2) (B := 32769) (by rw [abs_of_nonneg (by linarith)]; linarith) (by norm_num)
  have z1 : rnd64 (y + 1 / 2) < a + 1 := by
    rw [abs_le] at k2; linarith [k2.2]
  generalize rnd64 (y + 1 / 2) = z at *
  rw [abs_le] at k1 k2
  have z0 : 0 ≤ z := by linarith [k2.1]
  simp only [if_pos (show -1 < z ∧ z < 65536 from ⟨by linarith, by linarith⟩)]
  have f0 : 0 ≤ ⌊z⌋ := Int.floor_nonneg.2 z0
  obtain ⟨n, hn⟩ := Int.eq_ofNat_of_zero_le f0
  refine ⟨_, rfl, ?_, ?_⟩
  · rw [hn]
    have g1 := Int.floor_le z
    have g2 := Int.lt_floor_add_one z
    rw [hn] at g1 g2
    push_cast at g1 g2
    have : |(n : ℚ) - x * a| ≤ 503 / 1000 := by
      rw [abs_le]; constructor <;> linarith [k1.1, k1.2, k2.1, k2.2]
    have := (Rat.cast_le (K := ℝ)).2 this
    push_cast at this
    simpa using this
  · have : ⌊z⌋ < a + 1 := Int.floor_lt.2 (by push_cast; exact z1)
    omega

end Verif.FloatPaint
