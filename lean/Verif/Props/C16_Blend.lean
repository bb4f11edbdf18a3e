import Verif.Lemmas.Spectral
import Verif.Lemmas.Colorize
import Verif.Spec.Blend
import Mathlib.Tactic.Linarith
import Mathlib.Tactic.Ring
import Mathlib.Tactic.FieldSimp
import Mathlib.Logic.Function.Iterate
import Mathlib.Algebra.Order.Ring.Rat
import Mathlib.Data.Rat.Floor

/-!
# C16-C21: what the blend modes do to a pixel
-/

namespace Verif.Blend
open Verif.Spectral

/-- A valid premultiplied pixel. -/
def Px.Valid (p : Px) : Prop := Spec.Valid p.r p.g p.b p.a

/-- A brush colour in the 15 bit range. -/
def Color.Valid (c : Color) : Prop := c.r ≤ 32768 ∧ c.g ≤ 32768 ∧ c.b ≤ 32768

instance (p : Px) : Decidable p.Valid := by unfold Px.Valid Spec.Valid; infer_instance
instance (c : Color) : Decidable c.Valid := by unfold Color.Valid; infer_instance

theorem Px.Valid.bounds {p : Px} (h : p.Valid) :
    p.r ≤ 32768 ∧ p.g ≤ 32768 ∧ p.b ≤ 32768 ∧ p.a ≤ 32768 := by
  obtain ⟨h1, h2, h3, h4⟩ := h
  unfold Spec.one at h4
  omega

/-! ## C16 Validity is preserved -/

theorem normal_valid {c : Color} {o m : Nat} {p : Px} (hm : m ≤ 32768) (ho : o ≤ 32768)
    (hc : c.Valid) (hp : p.Valid) : (normal c o m p).Valid := by
  obtain ⟨b1, b2, b3, b4⟩ := hp.bounds
  obtain ⟨p1, p2, p3, p4⟩ := hp
  rw [normal_eq hm ho hc.1 hc.2.1 hc.2.2 b1 b2 b3 b4]
  have hA : m * o / 32768 ≤ 32768 := topAlpha_eq hm ho ▸ topAlpha_le hm ho
  refine ⟨lerp_mono hc.1 p1, lerp_mono hc.2.1 p2, lerp_mono hc.2.2 p3, ?_⟩
  exact (lerp_between (c := 32768) (v := p.a) hA).2.trans (max_le le_rfl b4)

theorem normalAndEraser_valid {c : Color} {ca o m : Nat} {p : Px} (hm : m ≤ 32768) (ho : o ≤ 32768)
    (hca : ca ≤ 32768) (hc : c.Valid) (hp : p.Valid) : (normalAndEraser c ca o m p).Valid := by
  obtain ⟨b1, b2, b3, b4⟩ := hp.bounds
  obtain ⟨p1, p2, p3, p4⟩ := hp
  obtain ⟨h1, h2, h3⟩ := normalAndEraser_eq hm ho hca hc.1 hc.2.1 hc.2.2 b1 b2 b3 b4
  rw [h3]
  refine ⟨lerp_mono hc.1 p1, lerp_mono hc.2.1 p2, lerp_mono hc.2.2 p3, ?_⟩
  have h4 := (lerp_between (c := 32768) (v := p.a) h2).2
  have h5 : (m * o / 32768 * ca / 32768 * 32768 + (32768 - m * o / 32768) * p.a) / 32768 ≤
      (m * o / 32768 * 32768 + (32768 - m * o / 32768) * p.a) / 32768 :=
    Nat.div_le_div_right (Nat.add_le_add_right (Nat.mul_le_mul_right _ h1) _)
  exact h5.trans (h4.trans (max_le le_rfl b4))

theorem lockAlpha_valid {c : Color} {o m : Nat} {p : Px} (hm : m ≤ 32768) (ho : o ≤ 32768)
    (hc : c.Valid) (hp : p.Valid) : (lockAlpha c o m p).Valid := by
  obtain ⟨b1, b2, b3, b4⟩ := hp.bounds
  obtain ⟨p1, p2, p3, p4⟩ := hp
  obtain ⟨h1, h2, h3⟩ := lockAlpha_eq hm ho hc.1 hc.2.1 hc.2.2 b1 b2 b3 b4
  rw [h3]
  have h4 : m * o / 32768 * p.a / 32768 * 32768 ≤ m * o / 32768 * p.a := Nat.div_mul_le_self _ _
  exact ⟨lerp_le_alpha h2 h4 hc.1 p1, lerp_le_alpha h2 h4 hc.2.1 p2, lerp_le_alpha h2 h4 hc.2.2 p3, p4⟩

/-- Posterize breaks validity: it quantises the premultiplied channels without looking at alpha. -/
theorem posterize_breaks_validity :
    ∃ (num o m : Nat) (p : Px), 1 ≤ num ∧ num ≤ 128 ∧ o ≤ 32768 ∧ m ≤ 32768 ∧ p.Valid ∧
      ¬ (posterize num o m p).Valid :=
  ⟨1, 32768, 32768, ⟨20000, 20000, 20000, 20000⟩, by decide, by decide, by decide, by decide,
    by decide, by decide⟩

/-- What remains true of posterize: channels stay in the 15 bit range and alpha is unchanged.
Missing from the full property: `r ≤ a` etc. (see `posterize_breaks_validity`). -/
theorem posterize_valid_partial {num o m : Nat} {p : Px} (hn : 1 ≤ num) (hm : m ≤ 32768)
    (ho : o ≤ 32768) (pr : p.r ≤ 32768) (pg : p.g ≤ 32768) (pb : p.b ≤ 32768) :
    (posterize num o m p).r ≤ 32768 ∧ (posterize num o m p).g ≤ 32768 ∧
      (posterize num o m p).b ≤ 32768 ∧ (posterize num o m p).a = p.a := by
  rw [posterize_eq hn hm ho pr pg pb]
  have hA : m * o / 32768 ≤ 32768 := topAlpha_eq hm ho ▸ topAlpha_le hm ho
  have h1 := (lerp_between (c := posterizeLevel num p.r) (v := p.r) hA).2
  have h2 := (lerp_between (c := posterizeLevel num p.g) (v := p.g) hA).2
  have h3 := (lerp_between (c := posterizeLevel num p.b) (v := p.b) hA).2
  have l1 := posterizeLevel_le (v := p.r) hn pr
  have l2 := posterizeLevel_le (v := p.g) hn pg
  have l3 := posterizeLevel_le (v := p.b) hn pb
  refine ⟨?_, ?_, ?_, rfl⟩ <;> simp only <;> omega

/-- On opaque pixels posterize does preserve validity. -/
theorem posterize_valid_on_opaque {num o m : Nat} {p : Px} (hn : 1 ≤ num) (hm : m ≤ 32768)
    (ho : o ≤ 32768) (hp : p.Valid) (ha : p.a = 32768) : (posterize num o m p).Valid := by
  obtain ⟨b1, b2, b3, b4⟩ := hp.bounds
  obtain ⟨h1, h2, h3, h4⟩ := posterize_valid_partial (p := p) hn hm ho b1 b2 b3
  refine ⟨?_, ?_, ?_, ?_⟩ <;> simp only [h4, ha, Spec.one] <;> omega

section
variable {K : Type} [Field K] [LinearOrder K] [IsStrictOrderedRing K] [FloorRing K]

theorem minOpacity_le {o : Nat} (ho : o ≤ 32768) : minOpacity o ≤ 32768 := by
  unfold minOpacity; omega

/-- Pigment painting (`Normal_Paint`) is defined for every pixel and keeps it valid, whatever
values the power function returns. -/
theorem normalPaint_valid (pow : K → K → K) {c : Color} {o m : Nat} {p : Px} (hm : m ≤ 32768)
    (ho : o ≤ 32768) (hc : c.Valid) (hp : p.Valid) :
    ∃ q, normalPaint pow c o m p = .ok q ∧ q.Valid ∧ q.a = (normal c (minOpacity o) m p).a := by
  have hO := minOpacity_le ho
  unfold normalPaint
  simp only
  by_cases h0 : p.a = 0
  · simp only [h0, if_true]
    exact ⟨_, rfl, normal_valid hm hO hc hp, rfl⟩
  simp only [h0, if_false]
  have hA := topAlpha_le hm hO
  have hv := (normal_valid hm hO hc hp).2.2.2
  have hB := bottomAlpha_eq hA
  generalize hAe : topAlpha m (minOpacity o) = A at hA hB ⊢
  obtain ⟨b1, b2, b3, b4⟩ := hp.bounds
  have hmul := Nat.mul_le_mul_left (32768 - A) b4
  have hden : u32 (A + u32 (bottomAlpha A * p.a) / 32768) ≠ 0 := by
    rw [hB]
    unfold u32
    rw [Nat.mod_eq_of_lt (a := (32768 - A) * p.a) (by omega),
      Nat.mod_eq_of_lt (a := A + _) (by omega)]
    by_cases hA0 : A = 0
    · subst hA0; simp; omega
    · omega
  simp only [hden, if_false]
  have hna : (normal c (minOpacity o) m p).a = u16 (overAlpha A (bottomAlpha A) p.a) := by
    unfold normal; simp only [hAe]
  obtain ⟨u1, u2, u3⟩ := spectralToRgb_unit (wgm pow (brushSpectrum c) (pixelSpectrum p)
    ((A : K) / (u32 (A + u32 (bottomAlpha A * p.a) / 32768) : K))
    (1 - (A : K) / (u32 (A + u32 (bottomAlpha A * p.a) / 32768) : K)))
  refine ⟨_, rfl, ⟨?_, ?_, ?_, ?_⟩, hna.symm⟩
  · exact toUInt_round_le _ u1.2
  · exact toUInt_round_le _ u2.2
  · exact toUInt_round_le _ u3.2
  · rw [← hna]; exact hv

/-- Alpha-locked pigment painting divides zero by zero exactly on pixels of alpha 1 (of 32768) at
partial opacity; otherwise the result is valid with unchanged alpha. -/
theorem lockAlphaPaint_outcome (pow : K → K → K) {c : Color} {o m : Nat} {p : Px} (hm : m ≤ 32768)
    (ho : o ≤ 32768) (hc : c.Valid) (hp : p.Valid) :
    if p.a = 1 ∧ 0 < m * max o 150 / 32768 ∧ m * max o 150 / 32768 < 32768 then
      lockAlphaPaint pow c o m p = .error .floatConv
    else ∃ q, lockAlphaPaint pow c o m p = .ok q ∧ q.Valid ∧ q.a = p.a := by
  have hO := minOpacity_le ho
  have hA := topAlpha_le hm hO
  have hAeq := topAlpha_eq hm hO
  have hB := bottomAlpha_eq hA
  change if p.a = 1 ∧ 0 < m * minOpacity o / 32768 ∧ m * minOpacity o / 32768 < 32768 then _ else _
  rw [← hAeq]
  unfold lockAlphaPaint
  simp only
  by_cases h0 : p.a = 0
  · simp only [h0, if_true, show ¬ ((0 : Nat) = 1) by decide, false_and, if_false]
    refine ⟨_, rfl, lockAlpha_valid hm hO hc hp, ?_⟩
    unfold lockAlpha
    exact h0
  simp only [h0, if_false]
  generalize topAlpha m (minOpacity o) = A at hA hB ⊢
  obtain ⟨b1, b2, b3, b4⟩ := hp.bounds
  have hmul := Nat.mul_le_mul_left (32768 - A) b4
  have hmul' := Nat.mul_le_mul_left A b4
  have hA2 : u32 (A * p.a) / 32768 = A * p.a / 32768 := by
    unfold u32
    rw [Nat.mod_eq_of_lt (by omega)]
  have hden : u32 (u32 (A * p.a) / 32768 + u32 (bottomAlpha A * p.a) / 32768) =
      A * p.a / 32768 + (32768 - A) * p.a / 32768 := by
    rw [hA2, hB]
    unfold u32
    rw [Nat.mod_eq_of_lt (a := (32768 - A) * p.a) (by omega), Nat.mod_eq_of_lt (by omega)]
  rw [hden]
  by_cases hbad : p.a = 1 ∧ 0 < A ∧ A < 32768
  · rw [if_pos hbad]
    obtain ⟨e, g1, g2⟩ := hbad
    have : A * p.a / 32768 + (32768 - A) * p.a / 32768 = 0 := by
      rw [e]; omega
    rw [if_pos this]
  · rw [if_neg hbad]
    have hne : A * p.a / 32768 + (32768 - A) * p.a / 32768 ≠ 0 := by
      by_cases h1 : p.a = 1
      · rw [h1]; omega
      · have e : A * p.a + (32768 - A) * p.a = 32768 * p.a := by
          rw [← Nat.add_mul]; congr 1; omega
        omega
    rw [if_neg hne]
    obtain ⟨u1, u2, u3⟩ := spectralToRgb_unit (wgm pow (brushSpectrum c) (pixelSpectrum p)
      (((u32 (A * p.a) / 32768 : Nat) : K) / ((A * p.a / 32768 + (32768 - A) * p.a / 32768 : Nat) : K))
      (1 - ((u32 (A * p.a) / 32768 : Nat) : K) /
        ((A * p.a / 32768 + (32768 - A) * p.a / 32768 : Nat) : K)))
    refine ⟨_, rfl, ⟨?_, ?_, ?_, ?_⟩, rfl⟩
    · exact toUInt_round_le _ u1.2
    · exact toUInt_round_le _ u2.2
    · exact toUInt_round_le _ u3.2
    · exact b4

/-- Witness of the 0/0: half-opaque alpha-locked pigment painting over a pixel with alpha 1. -/
theorem lockAlphaPaint_can_fail (pow : K → K → K) :
    ∃ (c : Color) (o m : Nat) (p : Px), c.Valid ∧ o ≤ 32768 ∧ m ≤ 32768 ∧ p.Valid ∧
      lockAlphaPaint pow c o m p = .error .floatConv :=
  ⟨⟨0, 0, 0⟩, 16384, 32768, ⟨0, 0, 0, 1⟩, by decide, by decide, by decide, by decide, by
    have := lockAlphaPaint_outcome (K := K) pow (c := ⟨0, 0, 0⟩) (o := 16384) (m := 32768)
      (p := ⟨0, 0, 0, 1⟩) (by decide) (by decide) (by decide) (by decide)
    rwa [if_pos (by decide)] at this⟩

/-- Smudging / erasing pigment paint is defined for every pixel and keeps it valid; alpha is that of
the plain mode. -/
theorem normalAndEraserPaint_valid (pow : K → K → K) {c : Color} {ca o m : Nat} {p : Px}
    (hm : m ≤ 32768) (ho : o ≤ 32768) (hca : ca ≤ 32768) (hc : c.Valid) (hp : p.Valid) :
    ∃ q, normalAndEraserPaint pow c ca o m p = .ok q ∧ q.Valid ∧
      q.a = (normalAndEraser c ca o m p).a := by
  obtain ⟨v1, v2, v3, v4⟩ := normalAndEraser_valid (ca := ca) hm ho hca hc hp
  obtain ⟨b1, b2, b3, b4⟩ := hp.bounds
  have hA := topAlpha_le hm ho
  have hB := bottomAlpha_eq hA
  unfold normalAndEraserPaint
  simp only
  have hna : (normalAndEraser c ca o m p).a =
      u16 (overAlpha (u32 (topAlpha m o * ca) / 32768) (bottomAlpha (topAlpha m o)) p.a) := rfl
  have hnr : (normalAndEraser c ca o m p).r =
      lerpChan (u32 (topAlpha m o * ca) / 32768) (bottomAlpha (topAlpha m o)) c.r p.r := rfl
  have hng : (normalAndEraser c ca o m p).g =
      lerpChan (u32 (topAlpha m o * ca) / 32768) (bottomAlpha (topAlpha m o)) c.g p.g := rfl
  have hnb : (normalAndEraser c ca o m p).b =
      lerpChan (u32 (topAlpha m o * ca) / 32768) (bottomAlpha (topAlpha m o)) c.b p.b := rfl
  rw [hna] at v1 v2 v3 v4 ⊢
  rw [hnr] at v1
  rw [hng] at v2
  rw [hnb] at v3
  generalize topAlpha m o = A at *
  have hmulca := Nat.mul_le_mul_left A hca
  have hA2 : u32 (A * ca) / 32768 ≤ A := by
    unfold u32
    rw [Nat.mod_eq_of_lt (by omega)]
    omega
  generalize u32 (A * ca) / 32768 = A2 at *
  have hout : overAlpha A2 (bottomAlpha A) p.a < 65536 := by
    have := Nat.mul_le_mul_left (bottomAlpha A) b4
    unfold overAlpha u32
    rw [Nat.mod_eq_of_lt (a := bottomAlpha A * p.a) (by omega), Nat.mod_eq_of_lt (by omega)]
    omega
  have hout' : u16 (overAlpha A2 (bottomAlpha A) p.a) = overAlpha A2 (bottomAlpha A) p.a :=
    Nat.mod_eq_of_lt hout
  have hadd : ∀ col v : Nat, col ≤ 32768 → v ≤ 32768 →
      u32 (u32 (A2 * col) + u32 (bottomAlpha A * v)) / 32768 = lerpChan A2 (bottomAlpha A) col v := by
    intro col v h1 h2
    have e1 := Nat.mul_le_mul_left A2 h1
    have e2 := Nat.mul_le_mul_left (bottomAlpha A) h2
    unfold lerpChan u16 u32
    rw [Nat.mod_eq_of_lt (a := A2 * col) (by omega),
      Nat.mod_eq_of_lt (a := bottomAlpha A * v) (by omega),
      Nat.mod_eq_of_lt (a := A2 * col + _) (by omega),
      Nat.mod_eq_of_lt (a := (_ / _)) (by omega)]
  rw [hadd c.r p.r hc.1 b1, hadd c.g p.g hc.2.1 b2, hadd c.b p.b hc.2.2 b3]
  rw [hout'] at v1 v2 v3 v4 ⊢
  generalize overAlpha A2 (bottomAlpha A) p.a = out at *
  obtain ⟨s1, s2⟩ := clampK_unit (spectralBlendFactor (frac p.a : K))
  generalize Mask.clampK (spectralBlendFactor (frac p.a : K)) 0 1 = sf at *
  have hbound : ∀ (n : Nat) (sv : K), n ≤ out → sv ≤ 1 →
      u16 (toUInt ((1 - sf) * ((if (1 - sf) ≠ 0 then n else 0 : Nat) : K) + sf * sv * (out : K)))
        ≤ out := by
    intro n sv hn hsv
    refine (Nat.mod_le _ _).trans (toUInt_le ?_)
    have ho' : (0 : K) ≤ (out : K) := Nat.cast_nonneg out
    have hn' : ((if (1 - sf) ≠ 0 then n else 0 : Nat) : K) ≤ (out : K) := by
      split_ifs
      · exact_mod_cast hn
      · exact_mod_cast Nat.zero_le out
    have e1 := mul_le_mul_of_nonneg_left hn' (sub_nonneg.mpr s2)
    have e2 := mul_le_mul_of_nonneg_left hsv s1
    have e3 := mul_le_mul_of_nonneg_right e2 ho'
    linarith
  by_cases hs : sf ≠ 0 ∧ p.a ≠ 0
  · rw [if_pos hs]
    have hden : u32 (A + u32 (bottomAlpha A * p.a) / 32768) ≠ 0 := by
      have := Nat.mul_le_mul_left (bottomAlpha A) b4
      unfold u32
      rw [Nat.mod_eq_of_lt (a := bottomAlpha A * p.a) (by omega), Nat.mod_eq_of_lt (by omega)]
      by_cases hA0 : A = 0
      · subst hA0
        rw [show bottomAlpha 0 = 32768 by decide]
        omega
      · omega
    rw [if_neg hden]
    obtain ⟨u1, u2, u3⟩ := spectralToRgb_unit (wgm pow (brushSpectrum c) (pixelSpectrum p)
      ((A : K) / (u32 (A + u32 (bottomAlpha A * p.a) / 32768) : K) * frac ca)
      (1 - (A : K) / (u32 (A + u32 (bottomAlpha A * p.a) / 32768) : K) * frac ca))
    exact ⟨_, rfl, ⟨hbound _ _ v1 u1.2, hbound _ _ v2 u2.2, hbound _ _ v3 u3.2, v4⟩, rfl⟩
  · rw [if_neg hs]
    have hb : ∀ n, n ≤ out → u16 (if (1 - sf) ≠ 0 then n else 0) ≤ out := by
      intro n hn
      refine (Nat.mod_le _ _).trans ?_
      split_ifs <;> omega
    exact ⟨_, rfl, ⟨hb _ v1, hb _ v2, hb _ v3, v4⟩, rfl⟩

end

/-- Non-trivial cases: a half-transparent pixel painted, erased, alpha-locked. -/
example : (⟨8000, 4000, 100, 16384⟩ : Px).Valid ∧ (⟨32768, 0, 500⟩ : Color).Valid ∧
    normal ⟨32768, 0, 500⟩ 20000 30000 ⟨8000, 4000, 100, 16384⟩ = ⟨21839, 1764, 323, 25539⟩ ∧
    normalAndEraser ⟨32768, 0, 500⟩ 10000 20000 30000 ⟨8000, 4000, 100, 16384⟩ =
      ⟨9116, 1764, 129, 12816⟩ ∧
    lockAlpha ⟨32768, 0, 500⟩ 20000 30000 ⟨8000, 4000, 100, 16384⟩ = ⟨12684, 1764, 183, 16384⟩ := by
  decide +kernel

end Verif.Blend
