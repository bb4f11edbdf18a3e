import Verif.Props.C58_PlainColour
import Verif.Props.C36_Hcy
import Verif.Props.C38_Buckets

/-!
# C61: smudging never invents colours outside of the colour cube
-/

namespace Verif.Engine
open Verif.Mask Verif.Color Verif.Spectral Verif.Map

section
variable {K R σ : Type} [Field K] [LinearOrder K] [IsStrictOrderedRing K] [FloorRing K]

/-! ### Colour spaces -/

omit [FloorRing K] in
theorem hslValue_between {n1 n2 u : K} (h : n1 ≤ n2) (hu : -6 ≤ u) (hu2 : u ≤ 12) :
    n1 ≤ hslValue n1 n2 u ∧ hslValue n1 n2 u ≤ n2 := by
  unfold hslValue
  dsimp only
  obtain ⟨v, hv⟩ : ∃ v, v = (if u > 6 then u - 6 else if u < 0 then u + 6 else u) := ⟨_, rfl⟩
  have hv0 : 0 ≤ v := by
    rw [hv]
    by_cases q : u > 6
    · rw [if_pos q]; linarith
    · rw [if_neg q]
      by_cases q2 : u < 0
      · rw [if_pos q2]; linarith
      · rw [if_neg q2]; exact not_lt.mp q2
  rw [← hv]
  have hd := sub_nonneg.mpr h
  split_ifs with h1 h2 h3
  · have k1 := mul_nonneg hd hv0
    have k2 := mul_nonneg hd (sub_nonneg.mpr h1.le)
    constructor <;> linarith
  · exact ⟨h, le_refl _⟩
  · have k1 := mul_nonneg hd (sub_nonneg.mpr h3.le)
    have k2 := mul_nonneg hd (show 0 ≤ v - 3 by linarith)
    constructor <;> linarith
  · exact ⟨le_refl _, h⟩

theorem hslToRgb_cube (c : Hue K) : InCube (hslToRgb c) := by
  unfold hslToRgb
  dsimp only
  have s1 := clampK_mem c.s
  have l1 := clampK_mem c.v
  have f0 : 0 ≤ c.h - ⌊c.h⌋ := Int.fract_nonneg c.h
  have f1 : c.h - ⌊c.h⌋ < 1 := Int.fract_lt_one c.h
  generalize clampK c.s 0 1 = s at *
  generalize clampK c.v 0 1 = l at *
  generalize c.h - ⌊c.h⌋ = f at *
  by_cases hs : s = 0
  · rw [if_pos hs]; exact ⟨l1, l1, l1⟩
  · rw [if_neg hs]
    obtain ⟨m, hm⟩ : ∃ m, m = (if l ≤ 1 / 2 then l * (1 + s) else l + s - l * s) := ⟨_, rfl⟩
    rw [← hm]
    have k1 := mul_nonneg l1.1 s1.1
    have k2 := mul_nonneg (sub_nonneg.mpr l1.2) s1.1
    have k3 := mul_nonneg l1.1 (sub_nonneg.mpr s1.2)
    have k4 := mul_nonneg (sub_nonneg.mpr l1.2) (sub_nonneg.mpr s1.2)
    have hm1 : l ≤ m ∧ m ≤ 1 ∧ 0 ≤ 2 * l - m := by
      rw [hm]
      split_ifs with q
      · refine ⟨?_, ?_, ?_⟩ <;> nlinarith
      · refine ⟨?_, ?_, ?_⟩ <;> nlinarith
    have h2 : 2 * l - m ≤ m := by linarith [hm1.1]
    have g := fun u h0 h1 => hslValue_between h2 (u := u) h0 h1
    refine ⟨?_, ?_, ?_⟩
    · have := g (f * 6 + 2) (by linarith) (by linarith)
      constructor <;> linarith [hm1.2.1, hm1.2.2, this.1, this.2]
    · have := g (f * 6) (by linarith) (by linarith)
      constructor <;> linarith [hm1.2.1, hm1.2.2, this.1, this.2]
    · have := g (f * 6 - 2) (by linarith) (by linarith)
      constructor <;> linarith [hm1.2.1, hm1.2.2, this.1, this.2]

theorem colorDynamics_cube {e : Env K R σ} (hp : ∀ a b, 0 ≤ a → a ≤ 1 → 0 ≤ b → 0 ≤ e.pow a b ∧ e.pow a b ≤ 1)
    (b : Brush K R) (lin : Bool) {c : Rgb K} (hc : InCube c) : InCube (colorDynamics e b lin c) := by
  have g : ∀ (q : Prop) [Decidable q] (x : K) (c : Rgb K), 0 ≤ x → InCube c →
      InCube (if q then (⟨e.pow c.r x, e.pow c.g x, e.pow c.b x⟩ : Rgb K) else c) := by
    intro q _ x c hx hc
    split_ifs
    · exact ⟨hp _ _ hc.1.1 hc.1.2 hx, hp _ _ hc.2.1.1 hc.2.1.2 hx, hp _ _ hc.2.2.1 hc.2.2.2 hx⟩
    · exact hc
  have g2 : ∀ (q : Prop) [Decidable q] (c d : Rgb K), InCube c → InCube d → InCube (if q then c else d) := by
    intro q _ c d hc hd
    split_ifs <;> assumption
  unfold colorDynamics
  dsimp only
  refine g _ _ _ (by norm_num) (g2 _ _ _ (hslToRgb_cube _) (g2 _ _ _ (hsvToRgb_cube _) (g _ _ _ (by norm_num) hc)))

/-! ### The smudge memory -/

/-- A brush of the old kind: its paint mode is off and cannot change. -/
def OldSmudge (s : Load.Brush K) : Prop := (s sPaintMode).base ≤ 0 ∧ isConstant (s sPaintMode) = true

/-- What the smudge memory holds: the last sample as a colour; the mixture, of the old kind multiplied with its alpha
and of the new kind not. -/
structure Fits (old : Prop) (v : Bucket K) : Prop where
  prevR : 0 ≤ v.prevR ∧ v.prevR ≤ 1
  prevG : 0 ≤ v.prevG ∧ v.prevG ≤ 1
  prevB : 0 ≤ v.prevB ∧ v.prevB ≤ 1
  prevA : 0 ≤ v.prevA ∧ v.prevA ≤ 1
  r : 0 ≤ v.r ∧ v.r ≤ 1
  g : 0 ≤ v.g ∧ v.g ≤ 1
  b : 0 ≤ v.b ∧ v.b ≤ 1
  a : 0 ≤ v.a ∧ v.a ≤ 1
  recent : 0 ≤ v.recentness ∧ v.recentness ≤ 1
  premultiplied : old → v.r ≤ v.a ∧ v.g ≤ v.a ∧ v.b ≤ v.a

/-- The settings: pigment mixing from 0 to 1 unless it is off for good, eraser from 0 to 1. -/
structure SmudgeSettings (s : Load.Brush K) : Prop where
  paint : ¬ OldSmudge s → ∀ i, 0 ≤ calculate (s sPaintMode) i ∧ calculate (s sPaintMode) i ≤ 1
  eraser : ∀ i, 0 ≤ calculate (s sEraser) i ∧ calculate (s sEraser) i ≤ 1

theorem calculate_constant {m : Mapping K} (h : isConstant m = true) (i : Nat → K) : calculate m i = m.base := by
  unfold calculate
  rw [if_pos (by simpa [isConstant] using h)]

theorem legacy_iff {b : Brush K R} {i : Nat → K} (hv : b.vals = fun id => calculate (b.settings id) i) :
    legacySmudge b = true ↔ OldSmudge b.settings := by
  unfold legacySmudge OldSmudge
  rw [hv]
  simp only [Bool.decide_and, Bool.and_eq_true, decide_eq_true_eq]
  constructor
  · rintro ⟨h1, h2⟩
    rw [calculate_constant h2] at h1
    exact ⟨h1, h2⟩
  · rintro ⟨h1, h2⟩
    rw [calculate_constant h2]
    exact ⟨h1, h2⟩

theorem lerp_range {u x y : K} (u0 : 0 ≤ u) (u1 : u ≤ 1) (hx : 0 ≤ x ∧ x ≤ 1) (hy : 0 ≤ y ∧ y ≤ 1) :
    0 ≤ u * x + (1 - u) * y ∧ u * x + (1 - u) * y ≤ 1 := by
  have k1 := mul_nonneg u0 hx.1
  have k2 := mul_nonneg (sub_nonneg.mpr u1) hy.1
  have k3 := mul_nonneg u0 (sub_nonneg.mpr hx.2)
  have k4 := mul_nonneg (sub_nonneg.mpr u1) (sub_nonneg.mpr hy.2)
  constructor <;> linarith

/-- The end of `update_smudge_color`: mixing the last sample into the memory. -/
def mixIn (e : Env K R σ) (b : Brush K R) (update : K) (v : Bucket K) : Bucket K :=
  if legacySmudge b then
    { v with
      r := update * v.r + (1 - update) * v.prevA * v.prevR
      g := update * v.g + (1 - update) * v.prevA * v.prevG
      b := update * v.b + (1 - update) * v.prevA * v.prevB
      a := clampK (update * v.a + (1 - update) * v.prevA) 0 1 }
  else if v.prevA > 1 / 1000 * 10 then
    let m := mixColors e.pow b.mix ⟨v.r, v.g, v.b, v.a⟩ ⟨v.prevR, v.prevG, v.prevB, v.prevA⟩ update (b.vals sPaintMode)
    { v with r := m.r, g := m.g, b := m.b, a := m.a }
  else { v with a := (v.a + v.prevA) / 2 }

theorem mixIn_fits {e : Env K R σ} {b : Brush K R} {i : Nat → K}
    (hv : b.vals = fun id => calculate (b.settings id) i) (hs : SmudgeSettings b.settings) {u : K} (u0 : 0 ≤ u)
    (u1 : u ≤ 1) {v : Bucket K} (h : Fits (OldSmudge b.settings) v) : Fits (OldSmudge b.settings) (mixIn e b u v) := by
  unfold mixIn
  by_cases hl : legacySmudge b = true
  · rw [if_pos hl]
    have ho := (legacy_iff hv).mp hl
    have hp := h.premultiplied ho
    have ha := lerp_range u0 u1 h.a h.prevA
    rw [clampK_id ha.1 ha.2]
    have key : ∀ {x y : K}, 0 ≤ x ∧ x ≤ 1 → x ≤ v.a → 0 ≤ y ∧ y ≤ 1 →
        0 ≤ u * x + (1 - u) * v.prevA * y ∧ u * x + (1 - u) * v.prevA * y ≤ u * v.a + (1 - u) * v.prevA := by
      intro x y hx hxa hy
      have w := mul_nonneg (sub_nonneg.mpr u1) h.prevA.1
      have k1 := mul_nonneg u0 hx.1
      have k2 := mul_nonneg w hy.1
      have k3 := mul_le_mul_of_nonneg_left hxa u0
      have k4 := mul_le_mul_of_nonneg_left hy.2 w
      constructor <;> linarith
    have kr := key h.r hp.1 h.prevR
    have kg := key h.g hp.2.1 h.prevG
    have kb := key h.b hp.2.2 h.prevB
    exact ⟨h.prevR, h.prevG, h.prevB, h.prevA, ⟨kr.1, kr.2.trans ha.2⟩, ⟨kg.1, kg.2.trans ha.2⟩, ⟨kb.1, kb.2.trans ha.2⟩,
      ha, h.recent, fun _ => ⟨kr.2, kg.2, kb.2⟩⟩
  · rw [if_neg hl]
    have ho : ¬ OldSmudge b.settings := fun hc => hl ((legacy_iff hv).mpr hc)
    have hp : 0 ≤ b.vals sPaintMode ∧ b.vals sPaintMode ≤ 1 := by rw [hv]; exact hs.paint ho i
    by_cases hq : v.prevA > 1 / 1000 * 10
    · rw [if_pos hq]
      have k := (mix_ok e.pow b.mix ⟨v.r, v.g, v.b, v.a⟩ ⟨v.prevR, v.prevG, v.prevB, v.prevA⟩ u (b.vals sPaintMode)
        u0 u1 hp.1 hp.2 ⟨h.r, h.g, h.b, h.a⟩ ⟨h.prevR, h.prevG, h.prevB, h.prevA⟩).1
      exact ⟨h.prevR, h.prevG, h.prevB, h.prevA, k.1, k.2.1, k.2.2.1, k.2.2.2, h.recent, fun hc => absurd hc ho⟩
    · rw [if_neg hq]
      refine ⟨h.prevR, h.prevG, h.prevB, h.prevA, h.r, h.g, h.b, ?_, h.recent, fun hc => absurd hc ho⟩
      have a1 := h.a
      have a2 := h.prevA
      constructor
      · show 0 ≤ (v.a + v.prevA) / 2
        linarith [a1.1, a2.1]
      · show (v.a + v.prevA) / 2 ≤ 1
        linarith [a1.2, a2.2]

/-- The bucket after `update_smudge_color`: as before, or with the last sample mixed in, which is the one remembered or a
new one. -/
theorem updateSmudge_bucket (e : Env K R σ) (b : Brush K R) (surf : σ) (v : Bucket K) (px py : Int) (r : K) :
    ∃ c g u, (c = 1 ∨ c = v.recentness * maxC (1 / 100) (b.vals sSmudgeLength)) ∧
      (g = (⟨v.prevR, v.prevG, v.prevB, v.prevA⟩ : Rgba K) ∨ ∃ rr pp, g = (e.getColor surf px py rr pp).1) ∧
      (u = 0 ∨ u = maxC (1 / 100) (b.vals sSmudgeLength)) ∧
      ((updateSmudge e b surf v px py r).2.1 = { v with recentness := c } ∨
       (updateSmudge e b surf v px py r).2.1 =
        mixIn e b u { v with recentness := c, prevR := g.r, prevG := g.g, prevB := g.b, prevA := g.a }) := by
  unfold updateSmudge mixIn
  dsimp only
  by_cases hQ : v.recentness * maxC (1 / 100) (b.vals sSmudgeLength) <
    minC 1 (e.pow (1 / 2 * maxC (1 / 100) (b.vals sSmudgeLength)) (b.vals sSmudgeLengthLog) + 1 / 10 ^ 16)
  · simp only [hQ, if_true, true_and]
    have hgc : ∃ rr pp, (e.getColor surf px py (clampK (r * e.exp (b.vals sSmudgeRadiusLog)) (1 / 5) 1000)
      (if legacySmudge b then -1 else b.vals sPaintMode)).1 = (e.getColor surf px py rr pp).1 := ⟨_, _, rfl⟩
    generalize e.getColor surf px py (clampK (r * e.exp (b.vals sSmudgeRadiusLog)) (1 / 5) 1000)
      (if legacySmudge b then -1 else b.vals sPaintMode) = got at hgc ⊢
    obtain ⟨u, hu⟩ : ∃ u, u = (if v.recentness * maxC (1 / 100) (b.vals sSmudgeLength) = 0 then 0
      else maxC (1 / 100) (b.vals sSmudgeLength)) := ⟨_, rfl⟩
    have hu2 : u = 0 ∨ u = maxC (1 / 100) (b.vals sSmudgeLength) := by
      rw [hu]
      split_ifs
      · exact .inl rfl
      · exact .inr rfl
    refine ⟨1, got.1, u, .inl rfl, .inr hgc, hu2, ?_⟩
    rw [← hu]
    by_cases h1 : (b.vals sSmudgeTransparency > 0 ∧ got.1.a < b.vals sSmudgeTransparency) ∨
      (b.vals sSmudgeTransparency < 0 ∧ got.1.a > -b.vals sSmudgeTransparency)
    · rw [if_pos h1]; exact .inl rfl
    · rw [if_neg h1]
      right
      split_ifs <;> rfl
  · simp only [hQ, if_false, false_and]
    refine ⟨_, _, _, .inr rfl, .inl rfl, .inr rfl, .inr ?_⟩
    split_ifs <;> rfl

theorem updateSmudge_fits {e : Env K R σ} (hS : ∀ s x y r p, (e.getColor s x y r p).1.Ok) {b : Brush K R}
    {i : Nat → K} (hv : b.vals = fun id => calculate (b.settings id) i) (hs : SmudgeSettings b.settings)
    (hl : b.vals sSmudgeLength < 1) {v : Bucket K} (h : Fits (OldSmudge b.settings) v) (surf : σ) (px py : Int) (r : K) :
    Fits (OldSmudge b.settings) (updateSmudge e b surf v px py r).2.1 := by
  have m : (0 : K) ≤ maxC (1 / 100) (b.vals sSmudgeLength) ∧ maxC (1 / 100) (b.vals sSmudgeLength) ≤ 1 := by
    rw [Color.maxC_eq]
    exact ⟨le_max_of_le_left (by norm_num), max_le (by norm_num) hl.le⟩
  obtain ⟨c, g, u, hc, hg, hu, k⟩ := updateSmudge_bucket e b surf v px py r
  have c1 : 0 ≤ c ∧ c ≤ 1 := by
    rcases hc with hc | hc <;> rw [hc]
    · exact ⟨zero_le_one, le_refl _⟩
    · exact ⟨mul_nonneg h.recent.1 m.1, mul_le_one₀ h.recent.2 m.1 m.2⟩
  have g1 : g.Ok := by
    rcases hg with hg | ⟨rr, pp, hg⟩ <;> rw [hg]
    · exact ⟨h.prevR, h.prevG, h.prevB, h.prevA⟩
    · exact hS _ _ _ _ _
  have u1 : 0 ≤ u ∧ u ≤ 1 := by
    rcases hu with hu | hu <;> rw [hu]
    · exact ⟨le_refl _, zero_le_one⟩
    · exact m
  rcases k with k | k <;> rw [k]
  · exact ⟨h.prevR, h.prevG, h.prevB, h.prevA, h.r, h.g, h.b, h.a, c1, h.premultiplied⟩
  · exact mixIn_fits hv hs u1.1 u1.2 ⟨g1.1, g1.2.1, g1.2.2.1, g1.2.2.2, h.r, h.g, h.b, h.a, c1, h.premultiplied⟩

/-- Mixing the smudge colour into the brush colour. -/
theorem applySmudge_ok {e : Env K R σ} {b : Brush K R} {i : Nat → K}
    (hv : b.vals = fun id => calculate (b.settings id) i) (hs : SmudgeSettings b.settings) (hp : 0 < b.vals sSmudge)
    {v : Bucket K} (h : Fits (OldSmudge b.settings) v) {c : Rgb K} (hc : InCube c) :
    (0 ≤ (applySmudge e b v c).1 ∧ (applySmudge e b v c).1 ≤ 1) ∧ InCube (applySmudge e b v c).2.1 := by
  unfold applySmudge
  dsimp only
  have f1 : 0 ≤ minC 1 (b.vals sSmudge) ∧ minC 1 (b.vals sSmudge) ≤ 1 := by
    rw [Color.minC_eq]
    exact ⟨le_min zero_le_one hp.le, min_le_left _ _⟩
  generalize minC 1 (b.vals sSmudge) = f at f1 ⊢
  have t := clampK_mem ((1 - f) + f * v.a)
  have tk : clampK ((1 - f) + f * v.a) 0 1 = (1 - f) + f * v.a := by
    have k1 := mul_nonneg f1.1 h.a.1
    have k2 := mul_le_mul_of_nonneg_left h.a.2 f1.1
    exact clampK_id (by linarith [f1.2]) (by linarith)
  generalize clampK ((1 - f) + f * v.a) 0 1 = tt at t tk ⊢
  by_cases h0 : tt > 0
  · rw [if_pos h0]
    by_cases hl : legacySmudge b = true
    · rw [if_pos hl]
      refine ⟨t, ?_⟩
      have hpm := h.premultiplied ((legacy_iff hv).mp hl)
      have key : ∀ {x y : K}, 0 ≤ x ∧ x ≤ 1 → x ≤ v.a → 0 ≤ y ∧ y ≤ 1 →
          0 ≤ (f * x + (1 - f) * y) / tt ∧ (f * x + (1 - f) * y) / tt ≤ 1 := by
        intro x y hx hxa hy
        have k1 := mul_nonneg f1.1 hx.1
        have k2 := mul_nonneg (sub_nonneg.mpr f1.2) hy.1
        have k3 := mul_le_mul_of_nonneg_left hxa f1.1
        have k4 := mul_le_mul_of_nonneg_left hy.2 (sub_nonneg.mpr f1.2)
        refine ⟨div_nonneg (by linarith) h0.le, ?_⟩
        rw [div_le_one h0, tk]
        linarith
      exact ⟨key h.r hpm.1 hc.1, key h.g hpm.2.1 hc.2.1, key h.b hpm.2.2 hc.2.2⟩
    · rw [if_neg hl]
      refine ⟨t, ?_⟩
      have ho : ¬ OldSmudge b.settings := fun q => hl ((legacy_iff hv).mpr q)
      have hp : 0 ≤ b.vals sPaintMode ∧ b.vals sPaintMode ≤ 1 := by rw [hv]; exact hs.paint ho i
      have k := (mix_ok e.pow b.mix ⟨v.r, v.g, v.b, v.a⟩ ⟨c.r, c.g, c.b, 1⟩ f (b.vals sPaintMode)
        f1.1 f1.2 hp.1 hp.2 ⟨h.r, h.g, h.b, h.a⟩ ⟨hc.1, hc.2.1, hc.2.2, zero_le_one, le_refl _⟩).1
      exact ⟨k.1, k.2.1, k.2.2.1⟩
  · rw [if_neg h0]
    exact ⟨t, ⟨zero_le_one, le_refl _⟩, ⟨le_refl _, zero_le_one⟩, ⟨le_refl _, zero_le_one⟩⟩

/-! ### Buckets -/

/-- The smudge memory of a brush: that of the states and that of the buckets. A brush of the old kind has no buckets. -/
structure Memory (b : Brush K R) : Prop where
  states : Fits (OldSmudge b.settings) b.st.smudge
  cells : ∀ x ∈ b.buckets.mem, 0 ≤ x ∧ x ≤ 1
  old : OldSmudge b.settings → b.buckets.mem = []

theorem rd_mem {V : Type} {l : List V} {i : Int} {v : V} (h : Rng.rd l i = .ok v) : v ∈ l := by
  unfold Rng.rd at h
  split_ifs at h
  split at h
  · rename_i w hw
    rw [← Except.ok.inj h]
    exact List.mem_of_getElem? hw
  · cases h

theorem wr_mem {V : Type} {P : V → Prop} {l l' : List V} {i : Int} {v : V} (h : Rng.wr l i v = .ok l') (hl : ∀ x ∈ l, P x)
    (hv : P v) : ∀ x ∈ l', P x := by
  unfold Rng.wr at h
  split_ifs at h
  rw [← Except.ok.inj h]
  intro x hx
  rcases List.mem_or_eq_of_mem_set hx with q | q
  · exact hl x q
  · rw [q]; exact hv

theorem zeroFill_mem {n : Nat} : ∀ {s : Int} {l l' : List K}, zeroFill s n l = .ok l' → (∀ x ∈ l, 0 ≤ x ∧ x ≤ 1) →
    ∀ x ∈ l', 0 ≤ x ∧ x ≤ 1 := by
  induction n with
  | zero =>
    intro s l l' h hl
    rw [← Except.ok.inj h]; exact hl
  | succ n ih =>
    intro s l l' h hl
    unfold zeroFill at h
    obtain ⟨l1, h1, h⟩ := bind_ok h
    exact ih h (wr_mem h1 hl ⟨le_refl _, zero_le_one⟩)

theorem zeroFill_nil {n : Nat} {s : Int} {l' : List K} (h : zeroFill s n ([] : List K) = .ok l') : l' = [] := by
  cases n with
  | zero => exact (Except.ok.inj h).symm
  | succ n =>
    unfold zeroFill at h
    obtain ⟨l1, h1, h⟩ := bind_ok h
    unfold Rng.wr at h1
    split_ifs at h1 with q1 q2
    simp at q2

theorem resetBuckets_cells {bk bk' : Buckets K} (h : resetBuckets bk = .ok bk') (hb : ∀ x ∈ bk.mem, 0 ≤ x ∧ x ≤ 1) :
    (∀ x ∈ bk'.mem, 0 ≤ x ∧ x ≤ 1) ∧ (bk.mem = [] → bk'.mem = []) := by
  unfold resetBuckets at h
  split_ifs at h with h1 h2
  · rw [← Except.ok.inj h]; exact ⟨hb, id⟩
  · obtain ⟨m, hm, h⟩ := bind_ok h
    rw [← Except.ok.inj h]
    refine ⟨zeroFill_mem hm hb, fun q => ?_⟩
    rw [q] at hm
    exact zeroFill_nil hm
  · rw [← Except.ok.inj h]; exact ⟨hb, id⟩

theorem writeBucket_cells {l l' : List K} {o : Int} {v : Bucket K} {old : Prop} (h : writeBucket l o v = .ok l')
    (hv : Fits old v) (hl : ∀ x ∈ l, 0 ≤ x ∧ x ≤ 1) : ∀ x ∈ l', 0 ≤ x ∧ x ≤ 1 := by
  unfold writeBucket at h
  obtain ⟨l1, h1, h⟩ := bind_ok h
  obtain ⟨l2, h2, h⟩ := bind_ok h
  obtain ⟨l3, h3, h⟩ := bind_ok h
  obtain ⟨l4, h4, h⟩ := bind_ok h
  obtain ⟨l5, h5, h⟩ := bind_ok h
  obtain ⟨l6, h6, h⟩ := bind_ok h
  obtain ⟨l7, h7, h⟩ := bind_ok h
  obtain ⟨l8, h8, h⟩ := bind_ok h
  exact wr_mem h (wr_mem h8 (wr_mem h7 (wr_mem h6 (wr_mem h5 (wr_mem h4 (wr_mem h3 (wr_mem h2 (wr_mem h1 hl hv.r) hv.g)
    hv.b) hv.a) hv.prevR) hv.prevG) hv.prevB) hv.prevA) hv.recent

theorem readBucket_fits {l : List K} {o : Int} {v : Bucket K} {old : Prop} (h : readBucket l o = .ok v) (ho : ¬ old)
    (hl : ∀ x ∈ l, 0 ≤ x ∧ x ≤ 1) : Fits old v := by
  unfold readBucket at h
  obtain ⟨x1, h1, h⟩ := bind_ok h
  obtain ⟨x2, h2, h⟩ := bind_ok h
  obtain ⟨x3, h3, h⟩ := bind_ok h
  obtain ⟨x4, h4, h⟩ := bind_ok h
  obtain ⟨x5, h5, h⟩ := bind_ok h
  obtain ⟨x6, h6, h⟩ := bind_ok h
  obtain ⟨x7, h7, h⟩ := bind_ok h
  obtain ⟨x8, h8, h⟩ := bind_ok h
  obtain ⟨x9, h9, h⟩ := bind_ok h
  rw [← Except.ok.inj h]
  exact ⟨hl _ (rd_mem h5), hl _ (rd_mem h6), hl _ (rd_mem h7), hl _ (rd_mem h8), hl _ (rd_mem h1), hl _ (rd_mem h2),
    hl _ (rd_mem h3), hl _ (rd_mem h4), hl _ (rd_mem h9), fun q => absurd q ho⟩

theorem fetchSmudge_memory {b : Brush K R} (hm : Memory b) : Memory (fetchSmudge b).2 ∧
    ∀ v, loadSmudge (fetchSmudge b).2 (fetchSmudge b).1 = .ok v → Fits (OldSmudge b.settings) v := by
  unfold fetchSmudge
  by_cases h : b.buckets.mem.isEmpty ∨ b.buckets.num = 0
  · rw [if_pos h]
    exact ⟨hm, fun v q => by rw [← Except.ok.inj q]; exact hm.states⟩
  · rw [if_neg h]
    have hmem : (fetchBucket b.buckets (roundHalf (b.vals sSmudgeBucket))).2.mem = b.buckets.mem := by
      unfold fetchBucket
      dsimp only
      split_ifs <;> rfl
    have ho : ¬ OldSmudge b.settings := fun q => h (.inl (by rw [hm.old q]; rfl))
    refine ⟨⟨hm.states, ?_, fun q => absurd q ho⟩, fun v q => ?_⟩
    · show ∀ x ∈ (fetchBucket b.buckets (roundHalf (b.vals sSmudgeBucket))).2.mem, _
      rw [hmem]; exact hm.cells
    · have q' : readBucket (fetchBucket b.buckets (roundHalf (b.vals sSmudgeBucket))).2.mem
        (fetchBucket b.buckets (roundHalf (b.vals sSmudgeBucket))).1 = .ok v := q
      rw [hmem] at q'
      exact readBucket_fits q' ho hm.cells

theorem storeSmudge_memory {b b' : Brush K R} (hm : Memory b) {v : Bucket K} (hv : Fits (OldSmudge b.settings) v)
    {o : Option Int} (h : storeSmudge b v o = .ok b') : Memory b' := by
  cases o with
  | none =>
    rw [← Except.ok.inj h]
    exact ⟨hv, hm.cells, hm.old⟩
  | some o =>
    obtain ⟨m, h1, h⟩ := bind_ok h
    rw [← Except.ok.inj h]
    refine ⟨hm.states, writeBucket_cells h1 hv hm.cells, fun q => ?_⟩
    have e1 := hm.old q
    rw [e1] at h1
    unfold writeBucket at h1
    obtain ⟨l1, h2, -⟩ := bind_ok h1
    unfold Rng.wr at h2
    split_ifs at h2 with q1 q2
    simp at q2

theorem smudgeStage_memory {e : Env K R σ} (hS : ∀ s x y r p, (e.getColor s x y r p).1.Ok) {b : Brush K R}
    {i : Nat → K} (hv : b.vals = fun id => calculate (b.settings id) i) (hs : SmudgeSettings b.settings) (hm : Memory b)
    {surf : σ} {x y r : K} {sm : Bool × Brush K R × σ} (h : smudgeStage e b surf x y r = .ok sm) : Memory sm.2.1 := by
  unfold smudgeStage at h
  split_ifs at h with hq
  · dsimp only at h
    obtain ⟨v, h1, h⟩ := bind_ok h
    obtain ⟨px, -, h⟩ := bind_ok h
    obtain ⟨py, -, h⟩ := bind_ok h
    obtain ⟨b2, h2, h⟩ := bind_ok h
    rw [← Except.ok.inj h]
    have fr := fetchSmudge_frame b
    have k := fetchSmudge_memory hm
    have es : (fetchSmudge b).2.settings = b.settings := fr.settings
    have ev : (fetchSmudge b).2.vals = b.vals := fr.vals
    have k2 := updateSmudge_fits hS (b := (fetchSmudge b).2) (i := i) (by rw [es, ev]; exact hv) (by rw [es]; exact hs)
      (by rw [ev]; exact hq.1) (by rw [es]; exact k.2 v h1) surf px py r
    have k3 := storeSmudge_memory k.1 k2 h2
    exact ⟨k3.states, k3.cells, k3.old⟩
  · rw [← Except.ok.inj h]; exact hm

theorem smudgeColor_ok {e : Env K R σ} {b : Brush K R} {i : Nat → K}
    (hv : b.vals = fun id => calculate (b.settings id) i) (hs : SmudgeSettings b.settings) (hm : Memory b)
    {c : Rgb K} (hc : InCube c) {col : K × Rgb K × Brush K R} (h : smudgeColor e b c = .ok col) :
    Memory col.2.2 ∧ (0 ≤ col.1 ∧ col.1 ≤ 1) ∧ InCube col.2.1 := by
  unfold smudgeColor at h
  split_ifs at h with hq
  · dsimp only at h
    obtain ⟨v, h1, h⟩ := bind_ok h
    rw [← Except.ok.inj h]
    have fr := fetchSmudge_frame b
    have k := fetchSmudge_memory hm
    have es : (fetchSmudge b).2.settings = b.settings := fr.settings
    have ev : (fetchSmudge b).2.vals = b.vals := fr.vals
    have k2 := applySmudge_ok (e := e) (b := (fetchSmudge b).2) (i := i) (by rw [es, ev]; exact hv) (by rw [es]; exact hs)
      (by rw [ev]; exact hq) (by rw [es]; exact k.2 v h1) hc
    exact ⟨⟨k.1.states, k.1.cells, k.1.old⟩, k2⟩
  · rw [← Except.ok.inj h]; exact ⟨hm, ⟨zero_le_one, le_refl _⟩, hc⟩

/-- The colour and the alpha of a dab are in range. -/
def ColourOk (a : Dab.Args K) : Prop :=
  (0 ≤ a.colorR ∧ a.colorR ≤ 1) ∧ (0 ≤ a.colorG ∧ a.colorG ≤ 1) ∧ (0 ≤ a.colorB ∧ a.colorB ≤ 1) ∧
    0 ≤ a.colorA ∧ a.colorA ≤ 1

omit [IsStrictOrderedRing K] [FloorRing K] in
theorem Memory.of {b b' : Brush K R} (h : Memory b) (h1 : b'.settings = b.settings) (h2 : b'.buckets = b.buckets)
    (h3 : b'.st.smudge = b.st.smudge) : Memory b' :=
  ⟨by rw [h1, h3]; exact h.states, by rw [h2]; exact h.cells, by rw [h1, h2]; exact h.old⟩

theorem moved_smudge (e : Env K R σ) (b : Brush K R) (s : Step K) (v : Nat → K) :
    (followStates e b (moveStates e b s) v s).smudge = b.st.smudge := by
  unfold followStates moveStates
  dsimp only

theorem smudge_invariant {e : Env K R σ} (hp : ∀ a b, 0 ≤ a → a ≤ 1 → 0 ≤ b → 0 ≤ e.pow a b ∧ e.pow a b ≤ 1)
    (hS : ∀ s x y r p, (e.getColor s x y r p).1.Ok) :
    Invariant (recordDabs e) (fun _ => True) (fun _ _ => True)
      (fun b s => SmudgeSettings b.settings ∧ Memory b ∧ ∀ a ∈ s.2, ColourOk a)
      (fun b s => (∃ i, b.vals = fun id => calculate (b.settings id) i) ∧ SmudgeSettings b.settings ∧ Memory b ∧
        ∀ a ∈ s.2, ColourOk a) where
  skip b s ev _ h := by rw [skipStage_eq]; exact ⟨h.1, ⟨h.2.1.states, h.2.1.cells, h.2.1.old⟩, h.2.2⟩
  pull b s ev _ _ h := by rw [cursor_eq, skipStage_eq]; exact ⟨h.1, ⟨h.2.1.states, h.2.1.cells, h.2.1.old⟩, h.2.2⟩
  target _ _ _ _ _ _ := trivial
  start b s ev x y b' _ _ h _ hs := by
    obtain ⟨bk, hk, e1⟩ := startOver_eq hs
    rw [e1]
    have k := resetBuckets_cells hk h.2.1.cells
    have z : (0 : K) ≤ 0 ∧ (0 : K) ≤ 1 := ⟨le_refl _, zero_le_one⟩
    exact ⟨h.1, ⟨⟨z, z, z, z, z, z, z, z, z, fun _ => ⟨le_refl _, le_refl _, le_refl _⟩⟩, k.1, fun q => k.2 (h.2.1.old q)⟩,
      h.2.2⟩
  count b s x y dt h := by rw [countDabs_st]; exact ⟨h.1, ⟨h.2.1.states, h.2.1.cells, h.2.1.old⟩, h.2.2⟩
  step b s ev x y d f t b' _ _ _ _ _ _ h hu := by
    rw [update_eq hu]
    exact ⟨⟨_, rfl⟩, h.1, h.2.1.of rfl rfl (moved_smudge _ _ _ _), h.2.2⟩
  draw b s lin p h hd := by
    obtain ⟨⟨i, hv⟩, hs, hm, hl⟩ := h
    have hS' : ∀ s x y r p, ((recordDabs e).getColor s x y r p).1.Ok := fun s x y r p => hS s.1 x y r p
    obtain ⟨o, pos, sm, -, h2, h3, fr, hcase⟩ := drawDab_cases hd
    have hm1 : Memory (dabRadius (recordDabs e) pos.2.2 o).2.2 := by
      have k1 : pos.2.2.settings = b.settings ∧ pos.2.2.buckets = b.buckets ∧ pos.2.2.st.smudge = b.st.smudge := by
        unfold dabPosition at h2
        dsimp only at h2
        split_ifs at h2 <;> first | (cases h2; done) | (rw [← Except.ok.inj h2]; exact ⟨rfl, rfl, rfl⟩)
      have k2 : ∀ c : Brush K R, (dabRadius (recordDabs e) c o).2.2.settings = c.settings ∧
          (dabRadius (recordDabs e) c o).2.2.buckets = c.buckets ∧
          (dabRadius (recordDabs e) c o).2.2.st.smudge = c.st.smudge := by
        intro c
        unfold dabRadius
        dsimp only
        split_ifs <;> exact ⟨rfl, rfl, rfl⟩
      have k3 := k2 pos.2.2
      exact hm.of (k3.1.trans k1.1) (k3.2.1.trans k1.2.1) (k3.2.2.trans k1.2.2)
    have fr0 := (dabPosition_frame h2).trans (dabRadius_frame (recordDabs e) pos.2.2 o)
    have es0 : (dabRadius (recordDabs e) pos.2.2 o).2.2.settings = b.settings := fr0.settings
    have ev0 : (dabRadius (recordDabs e) pos.2.2 o).2.2.vals = b.vals := fr0.vals
    have hm2 := smudgeStage_memory hS' (i := i) (by rw [es0, ev0]; exact hv) (by rw [es0]; exact hs) hm1 h3
    have es1 : sm.2.1.settings = b.settings := fr.settings
    have ev1 : sm.2.1.vals = b.vals := fr.vals
    have hlog := smudgeStage_noDabs h3
    rcases hcase with ⟨-, hc⟩ | ⟨-, col, hc, fr2, hpe⟩
    · rw [hc]
      refine ⟨?_, ?_, ?_⟩
      · show SmudgeSettings sm.2.1.settings
        rw [es1]; exact hs
      · exact ⟨hm2.states, hm2.cells, hm2.old⟩
      · show ∀ a ∈ sm.2.2.2, _
        rw [hlog]; exact hl
    · have k := smudgeColor_ok (i := i) (by rw [es1, ev1]; exact hv) (by rw [es1]; exact hs) hm2 (hsvToRgb_cube _) hc
      have es2 : col.2.2.settings = b.settings := fr2.settings
      have ev2 : col.2.2.vals = b.vals := fr2.vals
      rw [hpe]
      refine ⟨?_, ?_, ?_⟩
      · show SmudgeSettings col.2.2.settings
        rw [es2]; exact hs
      · exact ⟨k.1.states, k.1.cells, k.1.old⟩
      · intro a ha
        have ha' : a ∈ sm.2.2.2 ++ [dabArgs (recordDabs e) col.2.2 lin pos.1 pos.2.1 (dabRadius (recordDabs e) pos.2.2 o).1
            (dabRadius (recordDabs e) pos.2.2 o).2.1 col.1 col.2.1] := ha
        rcases List.mem_append.mp ha' with q | q
        · rw [hlog] at q; exact hl a q
        · rw [List.mem_singleton.mp q]
          have kc := colorDynamics_cube (e := recordDabs e) hp col.2.2 lin k.2.2
          refine ⟨kc.1, kc.2.1, kc.2.2, ?_⟩
          show 0 ≤ (if col.2.2.vals sEraser ≠ 0 then col.1 * (1 - col.2.2.vals sEraser) else col.1) ∧
            (if col.2.2.vals sEraser ≠ 0 then col.1 * (1 - col.2.2.vals sEraser) else col.1) ≤ 1
          have he : 0 ≤ col.2.2.vals sEraser ∧ col.2.2.vals sEraser ≤ 1 := by rw [ev2, hv]; exact hs.eraser i
          split_ifs
          · exact ⟨mul_nonneg k.2.1.1 (sub_nonneg.mpr he.2),
              mul_le_one₀ k.2.1.2 (sub_nonneg.mpr he.2) (by linarith [he.1])⟩
          · exact k.2.1
  finish b s n total idle h := ⟨h.2.1, ⟨h.2.2.1.states, h.2.2.1.cells, h.2.2.1.old⟩, h.2.2.2⟩

/-- **C61**: whatever the settings and the events, a brush that smudges asks for dabs with a colour and an alpha from 0 to 1,
if the canvas gives colours and alphas from 0 to 1 when it is asked. The brush starts with a smudge memory in range, such as
an empty one, and is either without buckets or of the new kind. -/
theorem smudge_stays_in_cube_partial {e : Env K R σ}
    (hp : ∀ a b, 0 ≤ a → a ≤ 1 → 0 ≤ b → 0 ≤ e.pow a b ∧ e.pow a b ≤ 1)
    (hS : ∀ s x y r p, (e.getColor s x y r p).1.Ok) {fuel : Nat} (ms : List (Motion K)) {b : Brush K R} (hb : Underway b)
    (hs : SmudgeSettings b.settings) (hm : Memory b) (surf : σ) {r : Brush K R × (σ × List (Dab.Args K))}
    (h : strokes (recordDabs e) fuel b (surf, []) ms = .ok r) : ∀ a ∈ r.2.2, ColourOk a :=
  (session_keeps (smudge_invariant hp hS) (fun _ => True) (fun _ _ _ _ => trivial) (fun _ _ _ _ => trivial)
    (fun _ _ => trivial) ms (fun _ _ => trivial) hb ⟨hs, hm, by simp⟩ h).1.2.2

/-- A new brush, with whatever settings it is then given, has such a memory. -/
theorem newBrush_memory {junk b : Brush K R} {fresh : List K} {num : Int} {mem : Nat → Nat → Points K} {rng : R}
    (hf : 0 < num → (fresh.length : Int) = 9 * num) (h : newBrush junk fresh num mem rng = .ok b) (s : Load.Brush K)
    (ho : OldSmudge s → num ≤ 0) : Memory { b with settings := s } := by
  unfold newBrush at h
  dsimp only at h
  obtain ⟨b1, h1, h⟩ := bind_ok h
  unfold brushReset at h1
  obtain ⟨bk, hk, h1⟩ := bind_ok h1
  rw [← Except.ok.inj h, ← Except.ok.inj h1]
  have z : (0 : K) ≤ 0 ∧ (0 : K) ≤ 1 := ⟨le_refl _, zero_le_one⟩
  dsimp only at hk
  by_cases hn : 0 < num
  · have hv := new_valid fresh num (junk.buckets.minUsed, junk.buckets.maxUsed) hf
    have e0 : newBuckets fresh num (junk.buckets.minUsed, junk.buckets.maxUsed) =
      { mem := fresh, num := num, minUsed := 0, maxUsed := num - 1 } := by unfold newBuckets; rw [if_pos hn]
    obtain ⟨m, q1, q2, q3⟩ := reset_buckets_ok hv (by rw [e0]; exact hn) (by rw [e0])
    rw [hk] at q1
    refine ⟨⟨z, z, z, z, z, z, z, z, z, fun _ => ⟨le_refl _, le_refl _, le_refl _⟩⟩, ?_, fun q => absurd (ho q) (by omega)⟩
    rw [e0] at q2 q3
    show ∀ x ∈ bk.mem, _
    rw [Except.ok.inj q1]
    intro x hx
    have hx' : x ∈ m := hx
    obtain ⟨j, hj, hx⟩ := List.mem_iff_getElem.mp hx'
    have k := q3 j
    have hj' : (j : Int) < 9 * num := by
      have e1 : m.length = fresh.length := q2
      have e2 := hf hn
      have e3 : j < m.length := hj
      omega
    rw [if_pos (by dsimp only; omega)] at k
    have k2 : m[j]? = some x := by rw [List.getElem?_eq_getElem hj, hx]
    rw [k2] at k
    rw [Option.some.inj k]
    exact z
  · have e0 : newBuckets fresh num (junk.buckets.minUsed, junk.buckets.maxUsed) =
      { mem := [], num := 0, minUsed := junk.buckets.minUsed, maxUsed := junk.buckets.maxUsed } := by
      unfold newBuckets; rw [if_neg hn]
    rw [e0] at hk
    have k := resetBuckets_cells hk (by simp)
    exact ⟨⟨z, z, z, z, z, z, z, z, z, fun _ => ⟨le_refl _, le_refl _, le_refl _⟩⟩, k.1, fun _ => k.2 rfl⟩

end

/-! ### A session that meets the hypotheses, and one that leaves the colour cube -/

/-- A canvas that is red, half transparent. -/
def redEnv : Env ℚ Nat (List (Dab.Args ℚ)) :=
  { Demo.env with getColor := fun s _ _ _ _ => (⟨1, 0, 0, 1 / 2⟩, s) }

/-- A white brush that smudges by a half, of the old kind: pigment off. -/
def demoSmudge : Brush ℚ Nat :=
  Demo.set (Demo.set (Demo.set Demo.brush sColorV 1) sSmudge (1 / 2)) sPaintMode 0

theorem demoSmudge_ok : SmudgeSettings demoSmudge.settings ∧ Memory demoSmudge ∧ Underway demoSmudge := by
  refine ⟨⟨fun h => absurd ?_ h, fun i => ?_⟩, ⟨?_, ?_, fun _ => rfl⟩, ⟨le_refl _, zero_lt_one⟩, le_refl _⟩
  · exact ⟨le_refl _, by rfl⟩
  · have e1 : calculate (demoSmudge.settings sEraser) i = 0 := demo_constant _ i
    rw [e1]; norm_num
  · have z : (0 : ℚ) ≤ 0 ∧ (0 : ℚ) ≤ 1 := ⟨le_refl _, zero_le_one⟩
    exact ⟨z, z, z, z, z, z, z, z, z, fun _ => ⟨le_refl _, le_refl _, le_refl _⟩⟩
  · intro x hx; cases hx

/-- It draws dabs that mix white with the red of the canvas. -/
example : Demo.look (fun r => r.2.2.map fun a => (a.colorR, a.colorG, a.colorB, a.colorA))
    (strokes (recordDabs redEnv) 100 demoSmudge ([], [])
      [Demo.motion 0 0 (1 / 2) (1 / 10), Demo.motion 1 0 (1 / 2) (1 / 10), Demo.motion 4 0 (1 / 2) (1 / 10)]) =
    some [(1, 2 / 3, 2 / 3, 3 / 4), (1, 2 / 3, 2 / 3, 3 / 4)] := by decide +kernel

example {r : Brush ℚ Nat × (List (Dab.Args ℚ) × List (Dab.Args ℚ))} (ms : List (Motion ℚ))
    (h : strokes (recordDabs redEnv) 100 demoSmudge ([], []) ms = .ok r) : ∀ a ∈ r.2.2, ColourOk a :=
  smudge_stays_in_cube_partial (e := redEnv) (fun a b h0 h1 _ => ⟨h0, h1⟩)
    (fun _ _ _ _ _ => by refine ⟨?_, ?_, ?_, ?_⟩ <;> norm_num [redEnv]) ms demoSmudge_ok.2.2 demoSmudge_ok.1
    demoSmudge_ok.2.1 [] h

/-- The same brush with the pigment amount as a function of the pressure that is 0 everywhere: of the new kind. -/
def demoNewKind : Brush ℚ Nat :=
  { demoSmudge with settings := fun i => if i = sPaintMode then
      { base := 0, inputs := 18, used := 1
        pts := fun j => if j = 0 then ⟨fun k => k, fun _ => 0, 2⟩ else ⟨fun _ => 0, fun _ => 0, 0⟩ }
    else demoSmudge.settings i }

/-- A stroke with the new kind, then, without a reset, the settings of the old kind and one more event. -/
def changeOfKind : Except Fault ((Brush ℚ Nat × (List (Dab.Args ℚ) × List (Dab.Args ℚ))) ×
    (Brush ℚ Nat × (List (Dab.Args ℚ) × List (Dab.Args ℚ)))) := do
  let r ← strokes (recordDabs redEnv) 100 demoNewKind ([], [])
    [Demo.motion 0 0 (1 / 2) (1 / 10), Demo.motion 1 0 (1 / 2) (1 / 10), Demo.motion 4 0 (1 / 2) (1 / 10)]
  let s ← strokes (recordDabs redEnv) 100 { r.1 with settings := demoSmudge.settings } ([], [])
    [Demo.motion 6 0 (1 / 2) (1 / 10)]
  return (r, s)

/-- **C61 fails** for a brush whose kind is changed without a reset: the memory of the new kind is not multiplied with its
alpha, the old kind takes it for multiplied, and asks for a dab with more red than there is. -/
theorem change_of_kind_leaves_cube :
    Demo.look (fun p => (p.1.2.2.map fun a => a.colorR, p.2.2.2.map fun a => a.colorR)) changeOfKind =
      some ([1, 1], [7 / 6]) := by decide +kernel

/-- A canvas that is green. -/
def greenEnv : Env ℚ Nat (List (Dab.Args ℚ)) :=
  { Demo.env with getColor := fun s _ _ _ _ => (⟨0, 1, 0, 1⟩, s) }

/-- The brush of the old kind with twelve empty buckets. -/
def bucketBrush : Brush ℚ Nat := { demoSmudge with buckets := ⟨List.replicate 108 0, 12, -1, -1⟩ }

/-- Choose a bucket and a smudge length, reset the brush and paint a stroke. -/
def resetStroke (bucket length : ℚ) (b : Brush ℚ Nat) : Except Fault (Brush ℚ Nat × (List (Dab.Args ℚ) × List (Dab.Args ℚ))) :=
  strokes (recordDabs greenEnv) 100 (requestReset (Demo.set (Demo.set b sSmudgeBucket bucket) sSmudgeLength length)) ([], [])
    [Demo.motion 0 0 (1 / 2) (1 / 10), Demo.motion 1 0 (1 / 2) (1 / 10), Demo.motion 4 0 (1 / 2) (1 / 10)]

/-- A stroke with bucket 1, one with bucket 11, and one with bucket 1 that does not take up colour. -/
def threeStrokes : Except Fault (Brush ℚ Nat × (List (Dab.Args ℚ) × List (Dab.Args ℚ))) := do
  let r ← resetStroke 1 (1 / 2) bucketBrush
  let s ← resetStroke 11 (1 / 2) r.1
  resetStroke 1 1 s.1

/-- **C61 fails** for brushes of the old kind with buckets: a reset clears the wrong places (C39), of bucket 1 all but the green.
Although the brush was reset before each stroke it asks for dabs with twice as much green as there is. -/
theorem reset_of_buckets_leaves_cube :
    Demo.look (fun p => p.2.2.map fun a => (a.colorR, a.colorG, a.colorB, a.colorA)) threeStrokes =
      some [(1, 2, 1, 1 / 2), (1, 2, 1, 1 / 2)] := by decide +kernel

end Verif.Engine
