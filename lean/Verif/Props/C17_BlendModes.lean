import Verif.Props.C16_Blend
import Mathlib.Tactic.Positivity
import Mathlib.Tactic.LinearCombination

/-!
# C17-C21: over, locked alpha, erasing, colorize, posterize
-/

namespace Verif.Blend
open Verif.Spectral

/-! ## C17 Normal blending is "over" -/

/-- Rounding error of one blended channel against the exact value. -/
theorem lerp_near_over {m o c v : Nat} (hm : m ≤ 32768) (ho : o ≤ 32768) (hc : c ≤ 32768)
    (hv : v ≤ 32768) :
    Spec.over (Spec.alpha m o) c v - 2 <
        (((m * o / 32768 * c + (32768 - m * o / 32768) * v) / 32768 : Nat) : ℚ) ∧
      (((m * o / 32768 * c + (32768 - m * o / 32768) * v) / 32768 : Nat) : ℚ) <
        Spec.over (Spec.alpha m o) c v + 1 := by
  have hA : m * o / 32768 ≤ 32768 := topAlpha_eq hm ho ▸ topAlpha_le hm ho
  have hd := Nat.div_add_mod (m * o) 32768
  have hf := Nat.mod_lt (m * o) (show 32768 > 0 by norm_num)
  generalize m * o / 32768 = A at *
  generalize m * o % 32768 = f at *
  obtain ⟨B, hB⟩ : ∃ B, 32768 - A = B := ⟨_, rfl⟩
  have hAB : A + B = 32768 := by omega
  rw [hB]
  have hd2 := Nat.div_add_mod (A * c + B * v) 32768
  have hf2 := Nat.mod_lt (A * c + B * v) (show 32768 > 0 by norm_num)
  generalize (A * c + B * v) / 32768 = R at *
  generalize (A * c + B * v) % 32768 = e at *
  have q1 : (32768 : ℚ) * A + f = (m : ℚ) * o := by exact_mod_cast hd
  have q2 : (32768 : ℚ) * R + e = (A : ℚ) * c + B * v := by exact_mod_cast hd2
  have q3 : (A : ℚ) + B = 32768 := by exact_mod_cast hAB
  have hex : Spec.over (Spec.alpha m o) c v =
      (R : ℚ) + (e : ℚ) / 32768 + ((c : ℚ) - v) * f / 1073741824 := by
    unfold Spec.over Spec.alpha Spec.one
    have hBq : (B : ℚ) = 32768 - A := by linarith
    rw [hBq] at q2
    have hR : (R : ℚ) = ((A : ℚ) * c + (32768 - A) * v - e) / 32768 := by linarith
    rw [hR]
    have : (m : ℚ) / (32768 : ℕ) * ((o : ℚ) / (32768 : ℕ)) = (32768 * A + f) / 1073741824 := by
      rw [q1]; push_cast; ring
    rw [this]
    ring
  have e0 : (0 : ℚ) ≤ e := Nat.cast_nonneg e
  have e1 : (e : ℚ) < 32768 := by exact_mod_cast hf2
  have f0 : (0 : ℚ) ≤ f := Nat.cast_nonneg f
  have f1 : (f : ℚ) < 32768 := by exact_mod_cast hf
  have c0 : (0 : ℚ) ≤ c := Nat.cast_nonneg c
  have v0 : (0 : ℚ) ≤ v := Nat.cast_nonneg v
  have c1 : (c : ℚ) ≤ 32768 := by exact_mod_cast hc
  have v1 : (v : ℚ) ≤ 32768 := by exact_mod_cast hv
  have g1 : ((c : ℚ) - v) * f < 1073741824 := by nlinarith
  have g2 : -1073741824 < ((c : ℚ) - v) * f := by nlinarith
  rw [hex]
  constructor <;> linarith

/-- Every channel of normal blending is within two units (of 32768) of the exact "over" of the
brush colour with opacity `mask · opacity`. -/
theorem normal_is_over {c : Color} {o m : Nat} {p : Px} (hm : m ≤ 32768) (ho : o ≤ 32768)
    (hc : c.Valid) (hp : p.Valid) :
    |((normal c o m p).r : ℚ) - Spec.over (Spec.alpha m o) c.r p.r| < 2 ∧
    |((normal c o m p).g : ℚ) - Spec.over (Spec.alpha m o) c.g p.g| < 2 ∧
    |((normal c o m p).b : ℚ) - Spec.over (Spec.alpha m o) c.b p.b| < 2 ∧
    |((normal c o m p).a : ℚ) - Spec.over (Spec.alpha m o) Spec.one p.a| < 2 := by
  obtain ⟨b1, b2, b3, b4⟩ := hp.bounds
  rw [normal_eq hm ho hc.1 hc.2.1 hc.2.2 b1 b2 b3 b4]
  have h1 := lerp_near_over hm ho hc.1 b1
  have h2 := lerp_near_over hm ho hc.2.1 b2
  have h3 := lerp_near_over hm ho hc.2.2 b3
  have h4 := lerp_near_over (c := Spec.one) hm ho le_rfl b4
  have e : Spec.one = 32768 := rfl
  refine ⟨?_, ?_, ?_, ?_⟩ <;> rw [abs_lt]
  · exact ⟨by linarith [h1.1], by linarith [h1.2]⟩
  · exact ⟨by linarith [h2.1], by linarith [h2.2]⟩
  · exact ⟨by linarith [h3.1], by linarith [h3.2]⟩
  · rw [e] at h4 ⊢
    exact ⟨by linarith [h4.1], by linarith [h4.2]⟩

/-- The bound cannot be improved to one unit: a black pixel with a nearly full channel and a
product `mask · opacity` just below two units. -/
theorem normal_error_can_exceed_one :
    ∃ (c : Color) (o m : Nat) (p : Px), c.Valid ∧ o ≤ 32768 ∧ m ≤ 32768 ∧ p.Valid ∧
      1 < Spec.over (Spec.alpha m o) c.r p.r - ((normal c o m p).r : ℚ) :=
  ⟨⟨32767, 0, 0⟩, 255, 257, ⟨0, 0, 0, 0⟩, by decide, by decide, by decide, by decide, by
    rw [show (normal ⟨32767, 0, 0⟩ 255 257 ⟨0, 0, 0, 0⟩).r = 0 by decide]
    unfold Spec.over Spec.alpha Spec.one
    norm_num⟩

/-- Nothing happens at opacity zero. -/
theorem normal_zero {c : Color} {o m : Nat} {p : Px} (hm : m ≤ 32768) (ho : o ≤ 32768)
    (hc : c.Valid) (hp : p.Valid) (h0 : m * o < 32768) : normal c o m p = p := by
  obtain ⟨b1, b2, b3, b4⟩ := hp.bounds
  rw [normal_eq hm ho hc.1 hc.2.1 hc.2.2 b1 b2 b3 b4]
  have : m * o / 32768 = 0 := Nat.div_eq_of_lt h0
  simp only [this]
  ext <;> simp only <;> omega

/-- At full opacity the pixel becomes the opaque brush colour. -/
theorem normal_full {c : Color} {p : Px} (hc : c.Valid) (hp : p.Valid) :
    normal c 32768 32768 p = ⟨c.r, c.g, c.b, 32768⟩ := by
  obtain ⟨b1, b2, b3, b4⟩ := hp.bounds
  rw [normal_eq le_rfl le_rfl hc.1 hc.2.1 hc.2.2 b1 b2 b3 b4]
  have : 32768 * 32768 / 32768 = 32768 := by norm_num
  simp only [this]
  ext <;> simp only <;> omega

/-- Every channel ends between its old value and the brush colour; alpha never decreases. -/
theorem normal_between {c : Color} {o m : Nat} {p : Px} (hm : m ≤ 32768) (ho : o ≤ 32768)
    (hc : c.Valid) (hp : p.Valid) :
    (min c.r p.r ≤ (normal c o m p).r ∧ (normal c o m p).r ≤ max c.r p.r) ∧
    (min c.g p.g ≤ (normal c o m p).g ∧ (normal c o m p).g ≤ max c.g p.g) ∧
    (min c.b p.b ≤ (normal c o m p).b ∧ (normal c o m p).b ≤ max c.b p.b) ∧
    (p.a ≤ (normal c o m p).a ∧ (normal c o m p).a ≤ 32768) := by
  obtain ⟨b1, b2, b3, b4⟩ := hp.bounds
  rw [normal_eq hm ho hc.1 hc.2.1 hc.2.2 b1 b2 b3 b4]
  have hA : m * o / 32768 ≤ 32768 := topAlpha_eq hm ho ▸ topAlpha_le hm ho
  have h := lerp_between (c := 32768) (v := p.a) hA
  exact ⟨lerp_between hA, lerp_between hA, lerp_between hA,
    (le_min b4 le_rfl).trans h.1, h.2.trans (max_le le_rfl b4)⟩

/-- More opacity never means less paint: alpha is monotone in the mask value. -/
theorem normal_alpha_mono {c : Color} {o m m' : Nat} {p : Px} (hm : m' ≤ 32768) (ho : o ≤ 32768)
    (hc : c.Valid) (hp : p.Valid) (h : m ≤ m') : (normal c o m p).a ≤ (normal c o m' p).a := by
  obtain ⟨b1, b2, b3, b4⟩ := hp.bounds
  rw [normal_eq (h.trans hm) ho hc.1 hc.2.1 hc.2.2 b1 b2 b3 b4,
    normal_eq hm ho hc.1 hc.2.1 hc.2.2 b1 b2 b3 b4]
  simp only
  have hA : m' * o / 32768 ≤ 32768 := topAlpha_eq hm ho ▸ topAlpha_le hm ho
  have hAA : m * o / 32768 ≤ m' * o / 32768 := Nat.div_le_div_right (Nat.mul_le_mul_right o h)
  generalize m * o / 32768 = A at *
  generalize m' * o / 32768 = A' at *
  obtain ⟨d, rfl⟩ := Nat.exists_eq_add_of_le hAA
  obtain ⟨B, hB⟩ : ∃ B, 32768 - (A + d) = B := ⟨_, rfl⟩
  rw [hB, show 32768 - A = B + d by omega]
  apply Nat.div_le_div_right
  have := Nat.mul_le_mul_left d b4
  rw [Nat.add_mul, Nat.add_mul]
  omega

/-! ## C18 Locked alpha -/

/-- Alpha-locked painting and posterizing leave alpha unchanged, for every pixel. -/
theorem alpha_locked (c : Color) (o m num : Nat) (p : Px) :
    (lockAlpha c o m p).a = p.a ∧ (posterize num o m p).a = p.a := ⟨rfl, rfl⟩

theorem except_bind_ok {α β : Type} {x : Except Fault α} {f : α → Except Fault β} {b : β}
    (h : (x >>= f) = .ok b) : ∃ a, x = .ok a ∧ f a = .ok b := by
  cases x with
  | error e => cases h
  | ok a => exact ⟨a, rfl, h⟩

/-- Colorizing leaves alpha unchanged whenever it is defined. -/
theorem colorize_alpha (c : Color) (o m : Nat) (p q : Px) (h : colorize c o m p = .ok q) :
    q.a = p.a := by
  unfold colorize at h
  obtain ⟨rgb, -, h⟩ := except_bind_ok h
  obtain ⟨v, -, h⟩ := except_bind_ok h
  injection h with h
  rw [← h]
  rfl

theorem colorize_eq {c : Color} {o m : Nat} {p : Px} {rgb : Int × Int × Int} (hm : m ≤ 32768)
    (ho : o ≤ 32768) (h : setLum c (dep p.a p.r) (dep p.a p.g) (dep p.a p.b) = .ok rgb) :
    colorize c o m p = .ok (colorizeMix (m * o / 32768) rgb p) := by
  have hmo := mul_le_2_30 hm ho
  have hchk : chk ((m * o : Nat) : Int) = .ok ((m * o : Nat) : Int) := by
    unfold chk intMin intMax
    rw [if_pos (by constructor <;> omega)]
  unfold colorize
  rw [h, hchk]
  rfl

/-- Transparent pixels stay transparent black under locked alpha, with or without pigment mixing,
colorizing and posterizing. -/
theorem transparent_stays {K : Type} [Field K] [LinearOrder K] [IsStrictOrderedRing K] [FloorRing K]
    (pow : K → K → K) {c : Color} {o m num : Nat} (hm : m ≤ 32768) (ho : o ≤ 32768)
    (hn : 1 ≤ num ∧ num ≤ 128) (hc : c.Valid) :
    lockAlpha c o m ⟨0, 0, 0, 0⟩ = ⟨0, 0, 0, 0⟩ ∧
    lockAlphaPaint pow c o m ⟨0, 0, 0, 0⟩ = .ok ⟨0, 0, 0, 0⟩ ∧
    posterize num o m ⟨0, 0, 0, 0⟩ = ⟨0, 0, 0, 0⟩ ∧
    colorize c o m ⟨0, 0, 0, 0⟩ = .ok ⟨0, 0, 0, 0⟩ := by
  have hz : ∀ o, o ≤ 32768 → lockAlpha c o m ⟨0, 0, 0, 0⟩ = ⟨0, 0, 0, 0⟩ := by
    intro o ho
    obtain ⟨_, _, h3⟩ := lockAlpha_eq (p := ⟨0, 0, 0, 0⟩) hm ho hc.1 hc.2.1 hc.2.2 (by simp)
      (by simp) (by simp) (by simp)
    rw [h3]
    simp
  refine ⟨hz o ho, ?_, ?_, ?_⟩
  · unfold lockAlphaPaint
    simp only [if_true]
    rw [hz _ (minOpacity_le ho)]
  · rw [posterize_eq hn.1 hm ho (by simp) (by simp) (by simp)]
    have : posterizeLevel num 0 = 0 := by
      unfold posterizeLevel
      simp
    simp [this]
  · obtain ⟨r, g, b, hs, _⟩ := setLum_ok c hc.1 hc.2.1 hc.2.2 0 0 0 (by simp) (by simp) (by simp)
      (by simp)
    have hd : dep 0 0 = 0 := rfl
    rw [colorize_eq hm ho (p := ⟨0, 0, 0, 0⟩) (rgb := (r, g, b)) (by simp only [hd]; exact hs)]
    have hr : ∀ v, rep 0 v = 0 := by
      intro v
      simp [rep, u16, u32]
    simp [colorizeMix, hr, lerpChan, u16, u32]

/-! ## C19 Erasing -/

/-- One erasing dab (colour alpha 0) at one pixel. -/
def erase (c : Color) (o m : Nat) (p : Px) : Px := normalAndEraser c 0 o m p

theorem erase_eq {c : Color} {o m : Nat} {p : Px} (hm : m ≤ 32768) (ho : o ≤ 32768)
    (hc : c.Valid) (hp : p.Valid) :
    erase c o m p = ⟨(32768 - m * o / 32768) * p.r / 32768, (32768 - m * o / 32768) * p.g / 32768,
      (32768 - m * o / 32768) * p.b / 32768, (32768 - m * o / 32768) * p.a / 32768⟩ := by
  obtain ⟨b1, b2, b3, b4⟩ := hp.bounds
  obtain ⟨_, _, h3⟩ := normalAndEraser_eq (ca := 0) hm ho (by simp) hc.1 hc.2.1 hc.2.2 b1 b2 b3 b4
  unfold erase
  rw [h3]
  simp

theorem scale_le (B v : Nat) (hB : B ≤ 32768) : B * v / 32768 ≤ v := by
  have := Nat.mul_le_mul_right v hB
  omega

theorem scale_lt (B v : Nat) (hB : B < 32768) (hv : 0 < v) : B * v / 32768 < v := by
  have : B * v < 32768 * v := Nat.mul_lt_mul_of_pos_right hB hv
  omega

/-- Erasing never increases any channel and does not depend on the brush colour. -/
theorem erase_only_removes {c : Color} {o m : Nat} {p : Px} (hm : m ≤ 32768) (ho : o ≤ 32768)
    (hc : c.Valid) (hp : p.Valid) :
    (erase c o m p).r ≤ p.r ∧ (erase c o m p).g ≤ p.g ∧ (erase c o m p).b ≤ p.b ∧
      (erase c o m p).a ≤ p.a ∧ erase c o m p = erase ⟨0, 0, 0⟩ o m p := by
  have h2 := erase_eq (c := ⟨0, 0, 0⟩) hm ho (by decide) hp
  rw [erase_eq hm ho hc hp]
  exact ⟨scale_le _ _ (by omega), scale_le _ _ (by omega), scale_le _ _ (by omega),
    scale_le _ _ (by omega), h2.symm⟩

/-- A full-opacity erase leaves nothing. -/
theorem erase_full {c : Color} {p : Px} (hc : c.Valid) (hp : p.Valid) :
    erase c 32768 32768 p = ⟨0, 0, 0, 0⟩ := by
  rw [erase_eq le_rfl le_rfl hc hp]
  simp

/-- Erasing with an opacity below one unit does nothing, however often it is repeated. -/
theorem erase_too_weak {c : Color} {o m : Nat} {p : Px} (hm : m ≤ 32768) (ho : o ≤ 32768)
    (hc : c.Valid) (hp : p.Valid) (h : m * o < 32768) (n : Nat) : (erase c o m)^[n] p = p := by
  have h1 : erase c o m p = p := by
    rw [erase_eq hm ho hc hp, Nat.div_eq_of_lt h]
    ext <;> simp
  exact Function.iterate_fixed h1 n

theorem erase_valid {c : Color} {o m : Nat} {p : Px} (hm : m ≤ 32768) (ho : o ≤ 32768)
    (hc : c.Valid) (hp : p.Valid) : (erase c o m p).Valid :=
  normalAndEraser_valid hm ho (by simp) hc hp

/-- Any stronger erasing, repeated, reaches complete transparency: 32768 repetitions always
suffice, and `a` repetitions suffice for a pixel of alpha `a`. -/
theorem erase_reaches_zero {c : Color} {o m : Nat} {p : Px} (hm : m ≤ 32768) (ho : o ≤ 32768)
    (hc : c.Valid) (hp : p.Valid) (h : 32768 ≤ m * o) (n : Nat) (hn : p.a ≤ n) :
    (erase c o m)^[n] p = ⟨0, 0, 0, 0⟩ := by
  have key : ∀ n (q : Px), q.Valid → ((erase c o m)^[n] q).Valid ∧
      ((erase c o m)^[n] q).a ≤ q.a - n := by
    intro n
    induction n with
    | zero => intro q hq; exact ⟨hq, by simp⟩
    | succ n ih =>
      intro q hq
      rw [Function.iterate_succ_apply]
      obtain ⟨h1, h2⟩ := ih _ (erase_valid hm ho hc hq)
      refine ⟨h1, h2.trans ?_⟩
      rw [erase_eq hm ho hc hq]
      simp only
      have hA : 0 < m * o / 32768 := Nat.div_pos h (by norm_num)
      by_cases hq0 : 0 < q.a
      · have := scale_lt (32768 - m * o / 32768) q.a (by omega) hq0
        omega
      · have : q.a = 0 := by omega
        rw [this]
        omega
  obtain ⟨⟨v1, v2, v3, v4⟩, h2⟩ := key n p hp
  ext <;> simp only <;> omega

/-- Partial erasing (0 < colour alpha) never raises alpha above what painting would give, and
smudging alpha towards zero lowers it. -/
theorem eraser_alpha_le_normal {c : Color} {ca o m : Nat} {p : Px} (hm : m ≤ 32768)
    (ho : o ≤ 32768) (hca : ca ≤ 32768) (hc : c.Valid) (hp : p.Valid) :
    (normalAndEraser c ca o m p).a ≤ (normal c o m p).a := by
  obtain ⟨b1, b2, b3, b4⟩ := hp.bounds
  obtain ⟨h1, _, h3⟩ := normalAndEraser_eq hm ho hca hc.1 hc.2.1 hc.2.2 b1 b2 b3 b4
  rw [h3, normal_eq hm ho hc.1 hc.2.1 hc.2.2 b1 b2 b3 b4]
  exact Nat.div_le_div_right (Nat.add_le_add_right (Nat.mul_le_mul_right _ h1) _)

/-- Colour alpha 1 makes the eraser mode the same as normal painting. -/
theorem eraser_full_alpha_is_normal {c : Color} {o m : Nat} {p : Px} (hm : m ≤ 32768)
    (ho : o ≤ 32768) : normalAndEraser c 32768 o m p = normal c o m p := by
  have hA := topAlpha_le hm ho
  have : u32 (topAlpha m o * 32768) / 32768 = topAlpha m o := by
    unfold u32
    rw [Nat.mod_eq_of_lt (by omega)]
    omega
  unfold normalAndEraser normal
  simp only [this]

/-! ## C20 Colorize -/

/-- Colorizing a fully white pixel, of any alpha, with black divides by zero. -/
theorem colorize_white_black_faults (a : Nat) (ha : 0 < a) (ha' : a ≤ 32768) (o m : Nat) :
    colorize ⟨0, 0, 0⟩ o m ⟨a, a, a, a⟩ = .error .divByZero := by
  have hd : dep a a = 32768 := by
    unfold dep u16 u32
    rw [if_pos (by omega), Nat.mod_eq_of_lt (a := 32768 * a) (by omega), Nat.mul_div_cancel _ ha]
  have hs : setLum ⟨0, 0, 0⟩ 32768 32768 32768 = .error .divByZero := by decide +kernel
  unfold colorize
  simp only [hd]
  rw [hs]
  rfl

/-- So "colorizing any valid pixel is defined" is false. -/
theorem colorize_not_always_defined :
    ¬ ∀ (c : Color) (o m : Nat) (p : Px), c.Valid → o ≤ 32768 → m ≤ 32768 → p.Valid →
      ∃ q, colorize c o m p = .ok q := by
  intro h
  obtain ⟨q, hq⟩ := h ⟨0, 0, 0⟩ 32768 32768 ⟨100, 100, 100, 100⟩ (by decide) (by decide) (by decide)
    (by decide)
  rw [colorize_white_black_faults 100 (by decide) (by decide)] at hq
  cases hq

/-- What holds: unless the pixel is fully white (all channels equal to alpha), colorizing is
defined for every brush colour, opacity and mask value, and the result is valid. Missing from the
full property: fully white pixels (see `colorize_white_black_faults`). -/
theorem colorize_defined_partial {c : Color} {o m : Nat} {p : Px} (hm : m ≤ 32768) (ho : o ≤ 32768)
    (hc : c.Valid) (hp : p.Valid) (hw : p.a = 0 ∨ ¬ (p.r = p.a ∧ p.g = p.a ∧ p.b = p.a)) :
    ∃ q, colorize c o m p = .ok q ∧ q.Valid ∧ q.a = p.a := by
  obtain ⟨b1, b2, b3, b4⟩ := hp.bounds
  obtain ⟨p1, p2, p3, p4⟩ := hp
  have hdep : ∀ v, v ≤ p.a → dep p.a v ≤ 32768 ∧
      (p.a ≠ 0 → v ≠ p.a → dep p.a v < 32768) := by
    intro v hv
    unfold dep
    by_cases ha : p.a = 0
    · simp [ha]
    · rw [if_pos ha]
      unfold u32
      rw [Nat.mod_eq_of_lt (by omega)]
      have h1 : 32768 * v / p.a ≤ 32768 := Nat.div_le_of_le_mul (by
        rw [Nat.mul_comm p.a]
        exact Nat.mul_le_mul_left _ hv)
      have h2 : u16 (32768 * v / p.a) = 32768 * v / p.a := Nat.mod_eq_of_lt (by omega)
      rw [h2]
      refine ⟨h1, fun _ hne => ?_⟩
      rw [Nat.div_lt_iff_lt_mul (by omega)]
      omega
  obtain ⟨r, g, b, hs, r0, r1, g0, g1, c0, c1⟩ := setLum_ok c hc.1 hc.2.1 hc.2.2 _ _ _
    (hdep p.r p1).1 (hdep p.g p2).1 (hdep p.b p3).1 (by
      rintro ⟨e1, e2, e3⟩
      rcases hw with h0 | hw
      · unfold dep at e1; rw [h0] at e1; simp at e1
      · by_cases ha : p.a = 0
        · unfold dep at e1; rw [ha] at e1; simp at e1
        · apply hw
          refine ⟨?_, ?_, ?_⟩
          · by_contra hne
            have := (hdep p.r p1).2 ha hne
            omega
          · by_contra hne
            have := (hdep p.g p2).2 ha hne
            omega
          · by_contra hne
            have := (hdep p.b p3).2 ha hne
            omega)
  have hmo := mul_le_2_30 hm ho
  have hre : ∀ v : Int, 0 ≤ v → v ≤ 32768 → rep p.a v ≤ p.a := by
    intro v h0 h1
    unfold rep
    have e : (v % 65536).toNat = v.toNat := by omega
    have h2 : v.toNat ≤ 32768 := by omega
    rw [e]
    have := Nat.mul_le_mul_right p.a h2
    unfold u32 u16
    rw [Nat.mod_eq_of_lt (a := v.toNat * p.a) (by omega), Nat.mod_eq_of_lt (by omega)]
    omega
  have hA : m * o / 32768 ≤ 32768 := by omega
  have hB := bottomAlpha_eq hA
  have hl : ∀ c v, c ≤ p.a → v ≤ p.a →
      lerpChan (m * o / 32768) (bottomAlpha (m * o / 32768)) c v ≤ p.a := by
    intro c v h1 h2
    rw [hB, lerpChan_eq (by omega) (by omega) (by omega)]
    exact (lerp_between hA).2.trans (max_le h1 h2)
  rw [colorize_eq hm ho hs]
  exact ⟨_, rfl, ⟨hl _ _ (hre _ r0 r1) p1, hl _ _ (hre _ g0 g1) p2, hl _ _ (hre _ c0 c1) p3, p4⟩, rfl⟩

/-- A colorized pixel. -/
example : colorize ⟨32768, 0, 0⟩ 32768 32768 ⟨8000, 8000, 8000, 16384⟩ =
    .ok ⟨16384, 5736, 5736, 16384⟩ := by decide +kernel

/-! ## C21 Posterize -/

/-- `|x - y|` on naturals. -/
def dist (x y : Nat) : Nat := (x - y) + (y - x)

/-- At full opacity posterizing replaces each channel by one of the `num + 1` equally spaced
levels, and none of the other levels is nearer (distances compared after multiplication with
`num`, where levels are exact). -/
theorem posterize_nearest {num : Nat} {p : Px} (hn : 1 ≤ num) (hp : p.Valid) :
    ∃ kr kg kb, kr ≤ num ∧ kg ≤ num ∧ kb ≤ num ∧
      posterize num 32768 32768 p =
        ⟨Spec.level num kr, Spec.level num kg, Spec.level num kb, p.a⟩ ∧
      ∀ k, dist (p.r * num) (Spec.one * kr) ≤ dist (p.r * num) (Spec.one * k) ∧
        dist (p.g * num) (Spec.one * kg) ≤ dist (p.g * num) (Spec.one * k) ∧
        dist (p.b * num) (Spec.one * kb) ≤ dist (p.b * num) (Spec.one * k) := by
  obtain ⟨b1, b2, b3, b4⟩ := hp.bounds
  refine ⟨(2 * p.r * num + 32768) / 65536, (2 * p.g * num + 32768) / 65536,
    (2 * p.b * num + 32768) / 65536, posterize_round_le b1, posterize_round_le b2,
    posterize_round_le b3, ?_, ?_⟩
  · rw [posterize_eq hn le_rfl le_rfl b1 b2 b3]
    have hone : 32768 * 32768 / 32768 = 32768 := by norm_num
    simp only [hone]
    have e : ∀ v, 32768 * ((2 * v * num + 32768) / 65536) / num = posterizeLevel num v := fun _ => rfl
    unfold Spec.level Spec.one
    ext <;> simp only [e] <;> omega
  · intro k
    have key : ∀ v k, dist (v * num) (Spec.one * ((2 * v * num + 32768) / 65536)) ≤
        dist (v * num) (Spec.one * k) := by
      intro v k
      unfold dist Spec.one
      rw [Nat.mul_assoc 2]
      generalize v * num = w
      omega
    exact ⟨key _ _, key _ _, key _ _⟩

theorem posterizeLevel_idem {num v : Nat} (hn : 1 ≤ num) (hn' : num ≤ 128) :
    posterizeLevel num (posterizeLevel num v) = posterizeLevel num v := by
  unfold posterizeLevel
  generalize (2 * v * num + 32768) / 65536 = k
  have h1 := Nat.div_add_mod (32768 * k) num
  have h2 := Nat.mod_lt (32768 * k) (show num > 0 by omega)
  have h3 : 2 * (32768 * k / num) * num = 2 * (num * (32768 * k / num)) := by ring
  have h4 : (2 * (32768 * k / num) * num + 32768) / 65536 = k := by
    rw [h3]
    generalize num * (32768 * k / num) = w at h1
    omega
  rw [h4]

/-- Posterizing twice at full opacity is the same as once. -/
theorem posterize_idempotent {num : Nat} {p : Px} (hn : 1 ≤ num) (hn' : num ≤ 128) (hp : p.Valid) :
    posterize num 32768 32768 (posterize num 32768 32768 p) = posterize num 32768 32768 p := by
  obtain ⟨b1, b2, b3, b4⟩ := hp.bounds
  have hone : 32768 * 32768 / 32768 = 32768 := by norm_num
  have full : ∀ q : Px, q.r ≤ 32768 → q.g ≤ 32768 → q.b ≤ 32768 →
      posterize num 32768 32768 q =
        ⟨posterizeLevel num q.r, posterizeLevel num q.g, posterizeLevel num q.b, q.a⟩ := by
    intro q h1 h2 h3
    rw [posterize_eq hn le_rfl le_rfl h1 h2 h3]
    simp only [hone]
    ext <;> simp only <;> omega
  rw [full p b1 b2 b3, full _ (posterizeLevel_le hn b1) (posterizeLevel_le hn b2)
    (posterizeLevel_le hn b3)]
  simp only [posterizeLevel_idem hn hn']

/-- Five levels (0, 8192, …) of a mixed pixel. -/
example : posterize 4 32768 32768 ⟨5000, 11000, 30000, 32768⟩ = ⟨8192, 8192, 32768, 32768⟩ := by
  decide +kernel

end Verif.Blend
