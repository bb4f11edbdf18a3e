import Verif.Lemmas.FloatEraser

/-!
# C97, continued: smudging and erasing with pigments in single precision

The mode of brushes that smudge or erase: a transparent pixel is mixed as light, an opaque one as pigment, and in between the two
results are blended. As the machine computes it, alpha is the same as in real numbers, each colour channel differs by at most 34 of
32768, and the pixel stays premultiplied.
-/

namespace Verif.FloatPaint
open Float32 FastPow Blend Spectral

theorem toSum_add (af sf x : ℚ) (l out : Nat) : toSum af sf x (if ¬af = 0 then l else 0) out = toSum af sf x l out := by
  by_cases h : af = 0
  · simp [toSum, h]
  · simp [h]

/-- Without pigment in the machine, there is next to none in real numbers. -/
theorem noPigment {af : ℚ} {SF X : ℝ} (F : Factors 0 af SF) (X0 : 0 ≤ X) (X1 : X ≤ 1) {l out : Nat} (hl : l ≤ out) (ho : out ≤ 32768) :
    u16 (if ¬af = 0 then l else 0) ≤ out ∧ ((u16 (if ¬af = 0 then l else 0) : ℕ) : ℝ) ≤ (1 - SF) * l + SF * X * out + 337 / 10 ∧
      (1 - SF) * l + SF * X * out - 337 / 10 < ((u16 (if ¬af = 0 then l else 0) : ℕ) : ℝ) + 1 := by
  have a1 := F.whole rfl
  have n := F.near
  have S0 := F.S0
  simp only [a1, one_ne_zero, not_false_eq_true, if_true]
  rw [show u16 l = l from Nat.mod_eq_of_lt (by omega)]
  rw [Rat.cast_zero, zero_sub, abs_neg, abs_of_nonneg S0] at n
  have oR : (out : ℝ) ≤ 32768 := by exact_mod_cast ho
  have o0R : (0 : ℝ) ≤ out := Nat.cast_nonneg out
  have l0R : (0 : ℝ) ≤ l := Nat.cast_nonneg l
  have lR : (l : ℝ) ≤ 32768 := by exact_mod_cast hl.trans ho
  have k1 : SF * l ≤ 2 / 10 ^ 6 * 32768 := mul_le_mul n lR l0R (by norm_num)
  have k2 : SF * X ≤ 2 / 10 ^ 6 := by nlinarith
  have k3 : SF * X * out ≤ 2 / 10 ^ 6 * 32768 := mul_le_mul k2 oR o0R (by norm_num)
  have k4 : 0 ≤ SF * X * out := by positivity
  have k5 : 0 ≤ SF * l := by positivity
  refine ⟨hl, ?_, ?_⟩ <;> linarith

/-- One channel in real numbers. -/
theorem exactChannel {SF X : ℝ} (S0 : 0 ≤ SF) (S1 : SF ≤ 1) (X1 : X ≤ 1) {l out : Nat} (hl : l ≤ out) (ho : out ≤ 32768) :
    u16 (toUInt ((1 - SF) * ((if ¬1 - SF = 0 then l else 0 : ℕ) : ℝ) + SF * X * out)) = toUInt ((1 - SF) * l + SF * X * out) := by
  have e : (1 - SF) * ((if ¬1 - SF = 0 then l else 0 : ℕ) : ℝ) = (1 - SF) * l := by
    by_cases h : 1 - SF = 0
    · rw [h]; simp
    · simp [h]
  rw [e]
  refine Nat.mod_eq_of_lt (lt_of_le_of_lt (toUInt_le (a := out) ?_) (by omega))
  have o0R : (0 : ℝ) ≤ out := Nat.cast_nonneg out
  have lR : (l : ℝ) ≤ out := by exact_mod_cast hl
  have k1 := mul_le_mul_of_nonneg_left lR (sub_nonneg.2 S1)
  have k2 := mul_le_mul_of_nonneg_right (mul_le_mul_of_nonneg_left X1 S0) o0R
  linarith

/-- A dab of a brush that smudges or erases, as the machine computes it: it is defined, the pixel stays premultiplied, and the result
is within 34 of 32768 of the result with real numbers. -/
theorem smudged_pigment_accurate {c : Color} {ca o m : Nat} {p : Px} (hm : m ≤ 32768) (ho : o ≤ 32768) (hca : ca ≤ 32768)
    (hc : c.Valid) (hp : p.Valid) :
    ∃ q q', FloatPaint.normalAndEraserPaint c ca o m p = .ok q ∧ Spectral.normalAndEraserPaint power c ca o m p = .ok q' ∧
      q.Valid ∧ Close q q' := by
  obtain ⟨v1, v2, v3, v4⟩ := normalAndEraser_valid (ca := ca) hm ho hca hc hp
  obtain ⟨b1, b2, b3, b4⟩ := hp.bounds
  have hA := topAlpha_le hm ho
  have hB := bottomAlpha_eq hA
  unfold FloatPaint.normalAndEraserPaint Spectral.normalAndEraserPaint
  simp only
  have hna : (normalAndEraser c ca o m p).a =
      u16 (overAlpha (u32 (topAlpha m o * ca) / 32768) (bottomAlpha (topAlpha m o)) p.a) := rfl
  have hnr : (normalAndEraser c ca o m p).r =
      lerpChan (u32 (topAlpha m o * ca) / 32768) (bottomAlpha (topAlpha m o)) c.r p.r := rfl
  have hng : (normalAndEraser c ca o m p).g =
      lerpChan (u32 (topAlpha m o * ca) / 32768) (bottomAlpha (topAlpha m o)) c.g p.g := rfl
  have hnb : (normalAndEraser c ca o m p).b =
      lerpChan (u32 (topAlpha m o * ca) / 32768) (bottomAlpha (topAlpha m o)) c.b p.b := rfl
  rw [hna] at v1 v2 v3 v4
  rw [hnr] at v1
  rw [hng] at v2
  rw [hnb] at v3
  generalize topAlpha m o = A at *
  have hmulca := Nat.mul_le_mul_left A hca
  have hA2 : u32 (A * ca) / 32768 ≤ A := by
    unfold u32
    rw [Nat.mod_eq_of_lt (by omega)]
    omega
  generalize u32 (A * ca) / 32768 = A2 at *
  have hout : overAlpha A2 (bottomAlpha A) p.a < 65536 := by
    have := Nat.mul_le_mul_left (bottomAlpha A) b4
    unfold overAlpha u32
    rw [Nat.mod_eq_of_lt (a := bottomAlpha A * p.a) (by omega), Nat.mod_eq_of_lt (by omega)]
    omega
  have hout' : u16 (overAlpha A2 (bottomAlpha A) p.a) = overAlpha A2 (bottomAlpha A) p.a :=
    Nat.mod_eq_of_lt hout
  have hadd : ∀ col v : Nat, col ≤ 32768 → v ≤ 32768 →
      u32 (u32 (A2 * col) + u32 (bottomAlpha A * v)) / 32768 = lerpChan A2 (bottomAlpha A) col v := by
    intro col v h1 h2
    have e1 := Nat.mul_le_mul_left A2 h1
    have e2 := Nat.mul_le_mul_left (bottomAlpha A) h2
    unfold lerpChan u16 u32
    rw [Nat.mod_eq_of_lt (a := A2 * col) (by omega),
      Nat.mod_eq_of_lt (a := bottomAlpha A * v) (by omega),
      Nat.mod_eq_of_lt (a := A2 * col + _) (by omega),
      Nat.mod_eq_of_lt (a := (_ / _)) (by omega)]
  rw [hadd c.r p.r hc.1 b1, hadd c.g p.g hc.2.1 b2, hadd c.b p.b hc.2.2 b3]
  rw [hout'] at v1 v2 v3 v4 ⊢
  generalize overAlpha A2 (bottomAlpha A) p.a = out at *
  generalize lerpChan A2 (bottomAlpha A) c.r p.r = lr at *
  generalize lerpChan A2 (bottomAlpha A) c.g p.g = lg at *
  generalize lerpChan A2 (bottomAlpha A) c.b p.b = lb at *
  by_cases h0 : p.a = 0
  · -- an empty pixel: no pigment in either
    have e1 : Mask.clampK (blendFactor (rnd ((p.a : ℚ) / 32768))) 0 1 = 0 := by rw [h0]; decide +kernel
    have e2 : Mask.clampK (spectralBlendFactor (frac p.a : ℝ)) 0 1 = 0 := by
      rw [h0]; unfold spectralBlendFactor frac Mask.clampK; norm_num [abs_of_neg, abs_of_nonneg]
    have e3 : rnd (rnd64 1) = 1 := by decide +kernel
    simp only [e1, e2, e3, ne_eq, not_true_eq_false, false_and, if_false, sub_zero, one_ne_zero, not_false_eq_true, if_true]
    have w : ∀ n, n ≤ out → u16 n ≤ out := fun n hn => (Nat.mod_le _ _).trans hn
    exact ⟨_, _, rfl, rfl, ⟨w _ v1, w _ v2, w _ v3, v4⟩, rfl, by simp, by simp, by simp⟩
  have F := factors_ok b4
  generalize Mask.clampK (blendFactor (rnd ((p.a : ℚ) / 32768))) 0 1 = sf at *
  generalize rnd (rnd64 (1 - sf)) = af at *
  generalize Mask.clampK (spectralBlendFactor (frac p.a : ℝ)) 0 1 = SF at *
  have hmul := Nat.mul_le_mul_left (32768 - A) b4
  have e : u32 (A + u32 (bottomAlpha A * p.a) / 32768) = A + (32768 - A) * p.a / 32768 := by
    rw [hB]
    unfold u32
    rw [Nat.mod_eq_of_lt (a := (32768 - A) * p.a) (by omega), Nat.mod_eq_of_lt (a := A + _) (by omega)]
  have hden : A + (32768 - A) * p.a / 32768 ≠ 0 := by
    by_cases hA0 : A = 0
    · subst hA0; simp; omega
    · omega
  rw [e]
  have le : A ≤ A + (32768 - A) * p.a / 32768 := Nat.le_add_right _ _
  generalize A + (32768 - A) * p.a / 32768 = den at *
  simp only [hden, if_false, h0, ne_eq, not_false_eq_true, and_true]
  -- the mixture as pigment
  have uc := brush_unit hc
  have upx : Unit (pixelRgb p) := ⟨unit_div hp.1, unit_div hp.2.1, unit_div hp.2.2.1⟩
  have W := product_weights le hca
  obtain ⟨sp, hsp, near⟩ := mixSpectra_near uc upx W primaries tables_good
  have rng : ∀ s ∈ primaries, 0 ≤ exactMix s (brushRgb c) (pixelRgb p) ((A : ℚ) / den * ((ca : ℚ) / 32768)) ∧
      exactMix s (brushRgb c) (pixelRgb p) ((A : ℚ) / den * ((ca : ℚ) / 32768)) ≤ top s :=
    fun s hs => exactMix_range (tables_good s hs) uc upx W.f0 W.f1
  obtain ⟨c1, c2, c3⟩ := toRgb_near rng near
  have ide := ideal_eq c p ((A : ℚ) / den * ((ca : ℚ) / 32768))
  have wf : (A : ℝ) / den * frac ca = (((A : ℚ) / den * ((ca : ℚ) / 32768) : ℚ) : ℝ) := by unfold frac; push_cast; rfl
  rw [wf]
  obtain ⟨u1, u2, u3⟩ := spectralToRgb_unit (wgm power (brushSpectrum c) (pixelSpectrum p)
    (((A : ℚ) / den * ((ca : ℚ) / 32768) : ℚ) : ℝ) (1 - (((A : ℚ) / den * ((ca : ℚ) / 32768) : ℚ) : ℝ)))
  unfold ideal at ide
  simp only at ide
  rw [ide] at u1 u2 u3 ⊢
  obtain ⟨r1, r2, r3⟩ := toRgb_range sp
  obtain ⟨r, er, kr, nr⟩ := toSum_near F r1.1 r1.2 u1.1 u1.2 c1 v1 v4
  obtain ⟨g, eg, kg, ng⟩ := toSum_near F r2.1 r2.2 u2.1 u2.2 c2 v2 v4
  obtain ⟨b, eb, kb, nb⟩ := toSum_near F r3.1 r3.2 u3.1 u3.2 c3 v3 v4
  generalize Mask.clampK ((exactDot 0 (tMatrix.map (·.1)) _ - 1 / 1000) / (1 - 1 / 1000)) 0 1 = X1 at *
  generalize Mask.clampK ((exactDot 0 (tMatrix.map (·.2.1)) _ - 1 / 1000) / (1 - 1 / 1000)) 0 1 = X2 at *
  generalize Mask.clampK ((exactDot 0 (tMatrix.map (·.2.2)) _ - 1 / 1000) / (1 - 1 / 1000)) 0 1 = X3 at *
  have pos : ∀ {X : ℝ} {l : ℕ}, 0 ≤ X → 0 ≤ (1 - SF) * (l : ℝ) + SF * X * out := fun hX =>
    add_nonneg (mul_nonneg (sub_nonneg.2 F.S1) (Nat.cast_nonneg _)) (mul_nonneg (mul_nonneg F.S0 hX) (Nat.cast_nonneg _))
  have ex : ∃ q' : Px, (if ¬SF = 0 then (.ok
        { r := u16 (toUInt ((1 - SF) * ((if ¬1 - SF = 0 then lr else 0 : ℕ) : ℝ) + SF * X1 * out))
          g := u16 (toUInt ((1 - SF) * ((if ¬1 - SF = 0 then lg else 0 : ℕ) : ℝ) + SF * X2 * out))
          b := u16 (toUInt ((1 - SF) * ((if ¬1 - SF = 0 then lb else 0 : ℕ) : ℝ) + SF * X3 * out)), a := out } : Except Fault Px)
      else .ok { r := u16 (if ¬1 - SF = 0 then lr else 0), g := u16 (if ¬1 - SF = 0 then lg else 0)
                 b := u16 (if ¬1 - SF = 0 then lb else 0), a := out }) = .ok q' ∧
      q' = { r := toUInt ((1 - SF) * lr + SF * X1 * out), g := toUInt ((1 - SF) * lg + SF * X2 * out)
             b := toUInt ((1 - SF) * lb + SF * X3 * out), a := out } := by
    by_cases hS : SF = 0
    · have k : ∀ l ≤ out, u16 l = toUInt (l : ℝ) := fun l hl => by
        rw [show u16 l = l from Nat.mod_eq_of_lt (by omega)]; simp [toUInt]
      simp only [hS, not_true_eq_false, if_false, sub_zero, one_ne_zero, not_false_eq_true, if_true, one_mul, zero_mul, add_zero]
      exact ⟨_, rfl, by rw [k lr v1, k lg v2, k lb v3]⟩
    · rw [if_pos hS]
      exact ⟨_, rfl, by rw [exactChannel F.S0 F.S1 u1.2 v1 v4, exactChannel F.S0 F.S1 u2.2 v2 v4, exactChannel F.S0 F.S1 u3.2 v3 v4]⟩
  obtain ⟨q', eq', hq'⟩ := ex
  by_cases hs : sf = 0
  · subst hs
    obtain ⟨nr1, nr2, nr3⟩ := noPigment F u1.1 u1.2 v1 v4
    obtain ⟨ng1, ng2, ng3⟩ := noPigment F u2.1 u2.2 v2 v4
    obtain ⟨nb1, nb2, nb3⟩ := noPigment F u3.1 u3.2 v3 v4
    simp only [not_true_eq_false, if_false]
    refine ⟨_, q', rfl, eq', ⟨nr1, ng1, nb1, v4⟩, ?_⟩
    rw [hq']
    exact ⟨rfl, closeSum nr2 nr3 (pos u1.1), closeSum ng2 ng3 (pos u2.1), closeSum nb2 nb3 (pos u3.1)⟩
  · simp only [hs, not_false_eq_true, if_true, toSum_add]
    refine ⟨⟨r, g, b, out⟩, q', ?_, eq', ⟨kr, kg, kb, v4⟩, ?_⟩
    · have hsp' : mixSpectra (toSpectrum ⟨rnd ((c.r : ℚ) / 32768), rnd ((c.g : ℚ) / 32768), rnd ((c.b : ℚ) / 32768)⟩)
          (toSpectrum ⟨rnd ((p.r : ℚ) / p.a), rnd ((p.g : ℚ) / p.a), rnd ((p.b : ℚ) / p.a)⟩) _ _ = .ok sp := hsp
      simp only [hsp', bind, Except.bind, er, eg, eb, pure, Except.pure]
    · rw [hq']
      exact ⟨rfl, closeSum nr.1 nr.2 (pos u1.1), closeSum ng.1 ng.2 (pos u2.1), closeSum nb.1 nb.2 (pos u3.1)⟩

/-- A faint smudging dab on a half transparent pixel, where both ways of mixing take part. -/
example : ({ r := 32768, g := 100, b := 3276 } : Color).Valid ∧ ({ r := 2768, g := 10000, b := 12768, a := 16384 } : Px).Valid ∧
    FloatPaint.normalAndEraserPaint { r := 32768, g := 100, b := 3276 } 20000 3277 32768 { r := 2768, g := 10000, b := 12768, a := 16384 } =
      .ok { r := 4041, g := 7695, b := 10665, a := 16745 } :=
  ⟨by decide, by decide, by decide +kernel⟩

/-- Erasing a tenth of white leaves something that is not quite white: the eraser tints what it leaves. -/
theorem erasing_tints : FloatPaint.normalAndEraserPaint white 0 3277 32768 (opaquePixel white) =
    .ok { r := 29491, g := 29486, b := 29485, a := 29491 } := by decide +kernel

end Verif.FloatPaint
