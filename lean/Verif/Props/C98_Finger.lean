import Verif.Lemmas.OpaquePicture
import Verif.Props.C61_Smudge
import Verif.Props.C88_Colourless

/-!
# C98: smudging over an opaque picture

A brush that smudges the old way, and neither erases nor changes the colour, on a picture without transparent places: the
picture stays opaque and nothing appears that is brighter, in any of the three channels, than everything that was there and
the brush colour. Where a channel is at its maximum everywhere it stays there; so smudging leaves a picture of one pure colour
exactly as it was. Other pictures of one colour get darker.
-/

namespace Verif.Painting
open Verif.Full Verif.Dab Verif.Engine Verif.Blend Verif.Map Verif.Mask Verif.Color

section
variable {K R σ : Type} [Field K] [LinearOrder K] [IsStrictOrderedRing K] [FloorRing K]

/-- A brush that smudges the old way and paints, whatever the inputs: it takes up colour all the time and not only where the
picture is transparent, does not erase, colorize or posterize, and does not change the colour. Its own colour is between the
bounds, or it smudges with full strength. -/
structure Smudges (lo hi : Blend.Color) (s : Load.Brush K) : Prop where
  old : OldSmudge s
  length : ∀ i, calculate (s sSmudgeLength) i < 1
  transparency : ∀ i, 0 ≤ calculate (s sSmudgeTransparency) i ∧ calculate (s sSmudgeTransparency) i ≤ 1
  eraser : ∀ i, calculate (s sEraser) i = 0
  h : ∀ i, calculate (s sChangeColorH) i = 0
  v : ∀ i, calculate (s sChangeColorV) i = 0
  hsvS : ∀ i, calculate (s sChangeColorHsvS) i = 0
  l : ∀ i, calculate (s sChangeColorL) i = 0
  hslS : ∀ i, calculate (s sChangeColorHslS) i = 0
  colorize : ∀ i, calculate (s sColorize) i ≤ 0
  posterize : ∀ i, calculate (s sPosterize) i ≤ 0
  own : (∀ i, 1 ≤ calculate (s sSmudge) i) ∨
    Between lo hi (chosenColour s).r (chosenColour s).g (chosenColour s).b

/-- What the brush took up: an opaque colour between the bounds, as the last sample. -/
structure Taken (lo hi : Blend.Color) (v : Bucket K) : Prop where
  a : v.a = 1
  prevA : v.prevA = 1
  colour : Between lo hi v.r v.g v.b
  prev : Between lo hi v.prevR v.prevG v.prevB

/-- The memory of the brush: nothing yet, or an opaque colour between the bounds. There are no buckets. -/
structure Remembers (lo hi : Blend.Color) (b : Brush K R) : Prop where
  states : b.st.smudge.recentness = 0 ∨ Taken lo hi b.st.smudge
  buckets : b.buckets.mem = []

/-! ### Taking up colour -/

theorem mix_between {lo hi : Blend.Color} {u r g b r' g' b' : K} (u0 : 0 ≤ u) (u1 : u ≤ 1) (h : Between lo hi r g b)
    (h' : Between lo hi r' g' b') : Between lo hi (u * r + (1 - u) * r') (u * g + (1 - u) * g') (u * b + (1 - u) * b') := by
  have key : ∀ {x y l m : K}, l ≤ x ∧ x ≤ m → l ≤ y ∧ y ≤ m → l ≤ u * x + (1 - u) * y ∧ u * x + (1 - u) * y ≤ m := by
    intro x y l m hx hy
    have k1 := mul_le_mul_of_nonneg_left hx.1 u0
    have k2 := mul_le_mul_of_nonneg_left hx.2 u0
    have k3 := mul_le_mul_of_nonneg_left hy.1 (sub_nonneg.mpr u1)
    have k4 := mul_le_mul_of_nonneg_left hy.2 (sub_nonneg.mpr u1)
    constructor <;> linarith
  exact ⟨key h.1 h'.1, key h.2.1 h'.2.1, key h.2.2 h'.2.2⟩

/-- Asking for the colour gives an opaque one between the bounds. -/
def GivesSolid (lo hi : Blend.Color) (e : Engine.Env K R σ) (surf : σ) : Prop :=
  ∀ x y : Int, intMin ≤ x ∧ x ≤ intMax → intMin ≤ y ∧ y ≤ intMax → ∀ r : K, r ≤ 1000 →
    (e.getColor surf x y r (-1)).1.a = 1 ∧
    Between lo hi (e.getColor surf x y r (-1)).1.r (e.getColor surf x y r (-1)).1.g (e.getColor surf x y r (-1)).1.b

theorem updateSmudge_taken {lo hi : Blend.Color} {e : Engine.Env K R σ} (hp : ∀ a b, 0 ≤ a → 0 ≤ e.pow a b) {surf : σ}
    (hg : GivesSolid lo hi e surf) {b : Brush K R} {i : Nat → K} (hv : b.vals = fun id => calculate (b.settings id) i)
    (hs : Smudges lo hi b.settings) {v : Bucket K} (h : v.recentness = 0 ∨ Taken lo hi v) {px py : Int}
    (hx : intMin ≤ px ∧ px ≤ intMax) (hy : intMin ≤ py ∧ py ≤ intMax) (r : K) :
    (updateSmudge e b surf v px py r).1 = false ∧ Taken lo hi (updateSmudge e b surf v px py r).2.1 := by
  have hl : legacySmudge b = true := (legacy_iff hv).mpr hs.old
  have v1 : b.vals sSmudgeLength < 1 := by rw [hv]; exact hs.length i
  have v2 : 0 ≤ b.vals sSmudgeTransparency ∧ b.vals sSmudgeTransparency ≤ 1 := by rw [hv]; exact hs.transparency i
  have m : (0 : K) < maxC (1 / 100) (b.vals sSmudgeLength) ∧ maxC (1 / 100) (b.vals sSmudgeLength) ≤ 1 := by
    rw [Color.maxC_eq]
    exact ⟨lt_max_of_lt_left (by norm_num), max_le (by norm_num) v1.le⟩
  unfold updateSmudge
  dsimp only
  simp only [hl, if_true]
  generalize maxC (1 / 100) (b.vals sSmudgeLength) = u at m ⊢
  have hr : clampK (r * e.exp (b.vals sSmudgeRadiusLog)) (1 / 5) 1000 ≤ 1000 := by
    unfold clampK
    split_ifs with q1 q2
    · exact le_refl _
    · norm_num
    · exact not_lt.mp q1
  have k := hg px py hx hy _ hr
  generalize e.getColor surf px py (clampK (r * e.exp (b.vals sSmudgeRadiusLog)) (1 / 5) 1000) (-1) = got at k ⊢
  obtain ⟨ka, kc⟩ := k
  have hlim : ¬ ((b.vals sSmudgeTransparency > 0 ∧ got.1.a < b.vals sSmudgeTransparency) ∨
      (b.vals sSmudgeTransparency < 0 ∧ got.1.a > -b.vals sSmudgeTransparency)) := by
    rw [ka]
    rintro (q | q)
    · linarith [q.2, v2.2]
    · linarith [q.1, v2.1]
  by_cases hQ : v.recentness * u < minC 1 (e.pow (1 / 2 * u) (b.vals sSmudgeLengthLog) + 1 / 10 ^ 16)
  · simp only [hQ, true_and, if_true, hlim, if_false]
    rw [ka]
    by_cases hz : v.recentness * u = 0
    · simp only [hz, if_true]
      simp only [zero_mul, zero_add, sub_zero, one_mul]
      exact ⟨clampK_of_mem zero_le_one le_rfl, rfl, kc, kc⟩
    · simp only [hz, if_false]
      have ht : Taken lo hi v := h.resolve_left fun q => hz (by rw [q, zero_mul])
      refine ⟨?_, rfl, ?_, kc⟩
      · show clampK (u * v.a + (1 - u) * 1) 0 1 = 1
        rw [ht.a, show u * 1 + (1 - u) * 1 = (1 : K) by ring]
        exact clampK_of_mem zero_le_one le_rfl
      · have := mix_between m.1.le m.2 ht.colour kc
        simpa only [mul_one] using this
  · simp only [hQ, false_and, if_false]
    have ht : Taken lo hi v := by
      refine h.resolve_left fun q => hQ ?_
      rw [q, zero_mul, Color.minC_eq]
      have := hp (1 / 2 * u) (b.vals sSmudgeLengthLog) (by linarith [m.1])
      exact lt_min zero_lt_one (by positivity)
    refine ⟨trivial, ⟨?_, ht.prevA, ?_, ht.prev⟩⟩
    · show clampK (u * v.a + (1 - u) * v.prevA) 0 1 = 1
      rw [ht.a, ht.prevA, show u * 1 + (1 - u) * 1 = (1 : K) by ring]
      exact clampK_of_mem zero_le_one le_rfl
    · have := mix_between m.1.le m.2 ht.colour ht.prev
      show Between lo hi (u * v.r + (1 - u) * v.prevA * v.prevR) (u * v.g + (1 - u) * v.prevA * v.prevG)
        (u * v.b + (1 - u) * v.prevA * v.prevB)
      rw [ht.prevA]
      simpa only [mul_one] using this

theorem toInt_range {v : K} {n : Int} (h : toInt v = .ok n) : intMin ≤ n ∧ n ≤ intMax := by
  unfold toInt at h
  dsimp only at h
  generalize (if 0 ≤ v then ⌊v⌋ else ⌈v⌉) = t at h
  by_cases q : intMin ≤ t ∧ t ≤ intMax
  · rw [if_pos q] at h
    rw [← Except.ok.inj h]; exact q
  · rw [if_neg q] at h; cases h

theorem fetch_none {b : Brush K R} (h : b.buckets.mem = []) : fetchSmudge b = (none, b) := by
  unfold fetchSmudge
  rw [if_pos (.inl (by rw [h]; rfl))]

/-- After the sampling stage there is something in the memory, if it is going to be used. -/
theorem smudgeStage_taken {lo hi : Blend.Color} {e : Engine.Env K R σ} (hp : ∀ a b, 0 ≤ a → 0 ≤ e.pow a b) {surf : σ}
    (hg : GivesSolid lo hi e surf) {b : Brush K R} {i : Nat → K} (hv : b.vals = fun id => calculate (b.settings id) i)
    (hs : Smudges lo hi b.settings) (hm : Remembers lo hi b) {x y r : K} {sm : Bool × Brush K R × σ}
    (h : smudgeStage e b surf x y r = .ok sm) :
    sm.1 = false ∧ Remembers lo hi sm.2.1 ∧ (b.vals sSmudge > 0 → Taken lo hi sm.2.1.st.smudge) := by
  unfold smudgeStage at h
  have v1 : b.vals sSmudgeLength < 1 := by rw [hv]; exact hs.length i
  by_cases hq : b.vals sSmudgeLength < 1 ∧ (b.vals sSmudge ≠ 0 ∨ isConstant (b.settings sSmudge) = false)
  · rw [if_pos hq, fetch_none hm.buckets] at h
    dsimp only at h
    obtain ⟨v, h1, h⟩ := bind_ok h
    obtain ⟨px, hx, h⟩ := bind_ok h
    obtain ⟨py, hy, h⟩ := bind_ok h
    obtain ⟨b2, h2, h⟩ := bind_ok h
    rw [← Except.ok.inj h]
    have e1 : b.st.smudge = v := Except.ok.inj h1
    subst e1
    obtain ⟨k1, k2⟩ := updateSmudge_taken hp hg hv hs hm.states (toInt_range hx) (toInt_range hy) r
    have e2 := Except.ok.inj h2
    refine ⟨k1, ⟨.inr ?_, ?_⟩, fun _ => ?_⟩
    · show Taken lo hi b2.st.smudge
      rw [← e2]; exact k2
    · show b2.buckets.mem = []
      rw [← e2]; exact hm.buckets
    · show Taken lo hi b2.st.smudge
      rw [← e2]; exact k2
  · rw [if_neg hq] at h
    rw [← Except.ok.inj h]
    refine ⟨rfl, hm, fun q => absurd ⟨v1, .inl q.ne'⟩ hq⟩

theorem smudgeColor_between {lo hi : Blend.Color} {e : Engine.Env K R σ} {b : Brush K R} {i : Nat → K}
    (hv : b.vals = fun id => calculate (b.settings id) i) (hs : Smudges lo hi b.settings) (hm : Remembers lo hi b)
    (ht : b.vals sSmudge > 0 → Taken lo hi b.st.smudge) {col : K × Spectral.Rgb K × Brush K R}
    (h : smudgeColor e b (chosenColour b.settings) = .ok col) :
    Remembers lo hi col.2.2 ∧ col.1 = 1 ∧ Between lo hi col.2.1.r col.2.1.g col.2.1.b := by
  unfold smudgeColor at h
  by_cases hq : b.vals sSmudge > 0
  · rw [if_pos hq, fetch_none hm.buckets] at h
    dsimp only at h
    obtain ⟨v, h1, h⟩ := bind_ok h
    have e1 : b.st.smudge = v := Except.ok.inj h1
    subst e1
    have t := ht hq
    rw [← Except.ok.inj h]
    refine ⟨⟨hm.states, hm.buckets⟩, ?_⟩
    have hl : legacySmudge b = true := (legacy_iff hv).mpr hs.old
    unfold applySmudge
    dsimp only
    have f1 : 0 ≤ minC 1 (b.vals sSmudge) ∧ minC 1 (b.vals sSmudge) ≤ 1 := by
      rw [Color.minC_eq]
      exact ⟨le_min zero_le_one hq.le, min_le_left _ _⟩
    have f2 : minC 1 (b.vals sSmudge) = 1 ∨
        Between lo hi (chosenColour b.settings).r (chosenColour b.settings).g (chosenColour b.settings).b := by
      rcases hs.own with q | q
      · left
        rw [Color.minC_eq, hv]
        exact min_eq_left (q i)
      · exact .inr q
    generalize minC 1 (b.vals sSmudge) = f at f1 f2 ⊢
    rw [t.a, show 1 - f + f * 1 = (1 : K) by ring, clampK_of_mem zero_le_one le_rfl, if_pos (show (1 : K) > 0 from zero_lt_one),
      if_pos hl]
    refine ⟨rfl, ?_⟩
    simp only [div_one]
    rcases f2 with q | q
    · rw [q]; simp only [one_mul, sub_self, zero_mul, add_zero]; exact t.colour
    · exact mix_between f1.1 f1.2 t.colour q
  · rw [if_neg hq] at h
    rw [← Except.ok.inj h]
    refine ⟨hm, rfl, hs.own.resolve_left fun q => hq ?_⟩
    rw [hv]
    exact lt_of_lt_of_le zero_lt_one (q i)

/-! ### Whole sessions -/

theorem getColor_gives {env : Dab.Env K} (he : Sample.EnvOk env) {sch : Schedule} (ho : ∀ n l, (sch.order n l).Perm l)
    {lo hi : Blend.Color} (hh : hi.Valid)
    (hl : (lo.r = 0 ∨ lo.r = 32768) ∧ (lo.g = 0 ∨ lo.g = 32768) ∧ (lo.b = 0 ∨ lo.b = 32768)) (e : Engine.Env K R σ)
    (d : Symm.Data K) {v : Spec.Now.Picture} (hc : Solid lo hi v.canvas) :
    GivesSolid lo hi (e.on (Spec.Now.draw env d) (Spec.Now.getColor env sch)) v := by
  intro x y hx hy r hr
  have far : ∀ {z : Int}, intMin ≤ z ∧ z ≤ intMax → |(z : K)| ≤ 68719476736 - 2 := by
    intro z hz
    have : |z| ≤ 68719476736 - 2 := by unfold intMin intMax at hz; rw [abs_le]; omega
    rw [← Int.cast_abs]
    exact_mod_cast this
  obtain ⟨c, h1, h2, h3⟩ := look_solid he hh hl hc (x := (x : K)) (y := (y : K)) (radius := r)
    ⟨⟨far hx, far hy⟩, by linarith⟩ (ho v.samples) (sch.coin v.samples)
  show (Spec.Now.getColor env sch v x y r (-1)).1.a = 1 ∧ Between lo hi (Spec.Now.getColor env sch v x y r (-1)).1.r
    (Spec.Now.getColor env sch v x y r (-1)).1.g (Spec.Now.getColor env sch v x y r (-1)).1.b
  unfold Spec.Now.getColor
  rw [h1]
  exact ⟨h2, h3⟩

theorem Remembers.of {lo hi : Blend.Color} {b b' : Brush K R} (h : Remembers lo hi b) (h1 : b'.buckets = b.buckets)
    (h2 : b'.st.smudge = b.st.smudge) : Remembers lo hi b' := ⟨by rw [h2]; exact h.states, by rw [h1]; exact h.buckets⟩

theorem solid_invariant {e : Engine.Env K R σ} (hp : ∀ a b, 0 ≤ a → 0 ≤ e.pow a b) {env : Dab.Env K} (he : Sample.EnvOk env)
    {sch : Schedule} (ho : ∀ n l, (sch.order n l).Perm l) {lo hi : Blend.Color} (hh : hi.Valid)
    (hl : (lo.r = 0 ∨ lo.r = 32768) ∧ (lo.g = 0 ∨ lo.g = 32768) ∧ (lo.b = 0 ∨ lo.b = 32768)) (d : Symm.Data K) :
    Invariant (e.on (Spec.Now.draw env d) (Spec.Now.getColor env sch)) (fun _ => True) (fun _ _ => True)
      (fun b v => Smudges lo hi b.settings ∧ Remembers lo hi b ∧ Solid lo hi v.canvas)
      (fun b v => (∃ i, b.vals = fun id => calculate (b.settings id) i) ∧ Smudges lo hi b.settings ∧ Remembers lo hi b ∧
        Solid lo hi v.canvas) where
  skip b s ev _ h := by rw [skipStage_eq]; exact ⟨h.1, h.2.1.of rfl rfl, h.2.2⟩
  pull b s ev _ _ h := by rw [cursor_eq, skipStage_eq]; exact ⟨h.1, h.2.1.of rfl rfl, h.2.2⟩
  target _ _ _ _ _ _ := trivial
  start b s ev x y b' _ _ h _ hs := by
    obtain ⟨bk, hk, e1⟩ := startOver_eq hs
    rw [e1]
    have k := resetBuckets_cells hk (by rw [h.2.1.buckets]; simp)
    exact ⟨h.1, ⟨.inl rfl, k.2 h.2.1.buckets⟩, h.2.2⟩
  count b s x y dt h := by rw [countDabs_st]; exact ⟨h.1, h.2.1.of rfl rfl, h.2.2⟩
  step b s ev x y d f t b' _ _ _ _ _ _ h hu := by
    rw [update_eq hu]
    exact ⟨⟨_, rfl⟩, h.1, h.2.1.of rfl (moved_smudge _ _ _ _), h.2.2⟩
  draw b s lin p h hd := by
    obtain ⟨⟨i, hv⟩, hs, hm, hc⟩ := h
    set e' := e.on (Spec.Now.draw env d) (Spec.Now.getColor env sch) with he'
    have hp' : ∀ a b, 0 ≤ a → 0 ≤ e'.pow a b := hp
    have hg : GivesSolid lo hi e' s := getColor_gives he ho hh hl e d hc
    obtain ⟨o, pos, sm, -, h2, h3, fr, hcase⟩ := drawDab_cases hd
    have hm1 : Remembers lo hi (dabRadius e' pos.2.2 o).2.2 := by
      have k1 : pos.2.2.buckets = b.buckets ∧ pos.2.2.st.smudge = b.st.smudge := by
        unfold dabPosition at h2
        dsimp only at h2
        split_ifs at h2 <;> first | (cases h2; done) | (rw [← Except.ok.inj h2]; exact ⟨rfl, rfl⟩)
      have k2 : ∀ c : Brush K R, (dabRadius e' c o).2.2.buckets = c.buckets ∧
          (dabRadius e' c o).2.2.st.smudge = c.st.smudge := by
        intro c
        unfold dabRadius
        dsimp only
        split_ifs <;> exact ⟨rfl, rfl⟩
      have k3 := k2 pos.2.2
      exact hm.of (k3.1.trans k1.1) (k3.2.trans k1.2)
    have fr0 := (dabPosition_frame h2).trans (dabRadius_frame e' pos.2.2 o)
    have es0 : (dabRadius e' pos.2.2 o).2.2.settings = b.settings := fr0.settings
    have ev0 : (dabRadius e' pos.2.2 o).2.2.vals = b.vals := fr0.vals
    obtain ⟨t1, t2, t3⟩ := smudgeStage_taken hp' hg (i := i) (by rw [es0, ev0]; exact hv) (by rw [es0]; exact hs) hm1 h3
    have es1 : sm.2.1.settings = b.settings := fr.settings
    have ev1 : sm.2.1.vals = b.vals := fr.vals
    have hcan : sm.2.2.canvas = s.canvas := by
      rcases smudgeStage_surf h3 with q | ⟨px, py, r', p', q⟩
      · rw [q]
      · rw [q]
        show (Spec.Now.getColor env sch s px py r' p').2.canvas = _
        unfold Spec.Now.getColor
        split <;> rfl
    rcases hcase with ⟨q, -⟩ | ⟨-, col, hcol, fr2, hpe⟩
    · rw [t1] at q; cases q
    · have hcol' : smudgeColor e' sm.2.1 (chosenColour sm.2.1.settings) = .ok col := by
        rw [es1]; exact hcol
      obtain ⟨k1, k2, k3⟩ := smudgeColor_between (i := i) (by rw [es1, ev1]; exact hv) (by rw [es1]; exact hs) t2
        (by rw [ev1]; rw [ev0] at t3; exact t3) hcol'
      have es2 : col.2.2.settings = b.settings := fr2.settings
      have ev2 : col.2.2.vals = b.vals := fr2.vals
      rw [hpe]
      refine ⟨?_, k1.of rfl rfl, ?_⟩
      · show Smudges lo hi col.2.2.settings
        rw [es2]; exact hs
      · refine draw_solid he.valid hh (by rw [hcan]; exact hc) ⟨?_, ?_, ?_, ?_, ?_⟩ d
        · show (if col.2.2.vals sEraser ≠ 0 then col.1 * (1 - col.2.2.vals sEraser) else col.1) = 1
          rw [if_neg (by rw [ev2, hv]; simpa using hs.eraser i), k2]
        · show col.2.2.vals sColorize ≤ 0
          rw [ev2, hv]; exact hs.colorize i
        · show col.2.2.vals sPosterize ≤ 0
          rw [ev2, hv]; exact hs.posterize i
        · show col.2.2.vals sPaintMode ≤ 0
          rw [ev2, hv]
          show calculate (b.settings sPaintMode) i ≤ 0
          rw [calculate_constant hs.old.2]; exact hs.old.1
        · show Between lo hi (colorDynamics e' col.2.2 lin col.2.1).r (colorDynamics e' col.2.2 lin col.2.1).g
            (colorDynamics e' col.2.2 lin col.2.1).b
          rw [colorDynamics_plain (by rw [ev2, hv]; exact hs.h i) (by rw [ev2, hv]; exact hs.v i) (by rw [ev2, hv]; exact hs.hsvS i)
            (by rw [ev2, hv]; exact hs.l i) (by rw [ev2, hv]; exact hs.hslS i)]
          exact k3
  finish b s n total idle h := ⟨h.2.1, h.2.2.1.of rfl rfl, h.2.2.2⟩

/-- **C98**. An opaque picture stays opaque while it is smudged, and its channels stay between the bounds: the upper bound is
any, the lower one of each channel is 0 or the maximum. -/
theorem smudging_stays_between {e : Engine.Env K R σ} (hp : ∀ a b, 0 ≤ a → 0 ≤ e.pow a b) {b : Build} {env : Dab.Env K}
    (he : Sample.EnvOk env) {trig : Symm.Trig K} {sch : Schedule} (ho : ∀ n l, (sch.order n l).Perm l) {fuel : Nat}
    (bls : List (Block K)) {s s' : Studio K R} (hs : s.Fine b env trig) (hd : InForce s.surf.symm) (hq : Unswerving bls)
    {lo hi : Blend.Color} (hh : hi.Valid)
    (hl : (lo.r = 0 ∨ lo.r = 32768) ∧ (lo.g = 0 ∨ lo.g = 32768) ∧ (lo.b = 0 ∨ lo.b = 32768))
    (hb : Smudges lo hi s.brush.settings) (hm : Remembers lo hi s.brush) (hc : Solid lo hi s.surf.surf.canvas)
    (h : paint e b env trig sch fuel s bls = .ok s') : Solid lo hi s'.surf.surf.canvas := by
  have hn := paint_now bls hs.surf hd.agree hq h
  unfold Spec.Now.paint at hn
  exact (session_keeps (solid_invariant hp he ho hh hl s.surf.symm) (fun _ => True) (fun _ _ _ _ => trivial)
    (fun _ _ _ _ => trivial) (fun _ _ => trivial) _ (fun _ _ => trivial) hs.brush ⟨hb, hm, hc⟩ hn).1.2.2

/-- A brush that only smudges never makes anything brighter than the brightest place, in any channel, and leaves no hole. -/
theorem smudging_never_brightens {e : Engine.Env K R σ} (hp : ∀ a b, 0 ≤ a → 0 ≤ e.pow a b) {b : Build} {env : Dab.Env K}
    (he : Sample.EnvOk env) {trig : Symm.Trig K} {sch : Schedule} (ho : ∀ n l, (sch.order n l).Perm l) {fuel : Nat}
    (bls : List (Block K)) {s s' : Studio K R} (hs : s.Fine b env trig) (hd : InForce s.surf.symm) (hq : Unswerving bls)
    {hi : Blend.Color} (hh : hi.Valid) (hb : Smudges ⟨0, 0, 0⟩ hi s.brush.settings) (hm : Remembers ⟨0, 0, 0⟩ hi s.brush)
    (hc : ∀ X Y, ∃ p, pixel s.surf.surf.canvas X Y = .ok p ∧ p.a = 32768 ∧ p.r ≤ hi.r ∧ p.g ≤ hi.g ∧ p.b ≤ hi.b)
    (h : paint e b env trig sch fuel s bls = .ok s') :
    ∀ X Y, ∃ p, pixel s'.surf.surf.canvas X Y = .ok p ∧ p.a = 32768 ∧ p.r ≤ hi.r ∧ p.g ≤ hi.g ∧ p.b ≤ hi.b := by
  intro X Y
  obtain ⟨p, h1, h2, h3, h4, h5⟩ := smudging_stays_between hp he ho bls hs hd hq hh ⟨.inl rfl, .inl rfl, .inl rfl⟩ hb hm
    (fun X Y => by
      obtain ⟨p, h1, h2, h3, h4, h5⟩ := hc X Y
      exact ⟨p, h1, h2, ⟨Nat.zero_le _, h3⟩, ⟨Nat.zero_le _, h4⟩, ⟨Nat.zero_le _, h5⟩⟩) h X Y
  exact ⟨p, h1, h2, h3.2, h4.2, h5.2⟩

/-- A picture of one pure colour, each channel either nothing or full, is not changed by a brush that only smudges. -/
theorem smudging_keeps_pure_colour {e : Engine.Env K R σ} (hp : ∀ a b, 0 ≤ a → 0 ≤ e.pow a b) {b : Build} {env : Dab.Env K}
    (he : Sample.EnvOk env) {trig : Symm.Trig K} {sch : Schedule} (ho : ∀ n l, (sch.order n l).Perm l) {fuel : Nat}
    (bls : List (Block K)) {s s' : Studio K R} (hs : s.Fine b env trig) (hd : InForce s.surf.symm) (hq : Unswerving bls)
    {c : Blend.Color} (hl : (c.r = 0 ∨ c.r = 32768) ∧ (c.g = 0 ∨ c.g = 32768) ∧ (c.b = 0 ∨ c.b = 32768))
    (hb : Smudges c c s.brush.settings) (hm : Remembers c c s.brush)
    (hc : ∀ X Y, pixel s.surf.surf.canvas X Y = .ok ⟨c.r, c.g, c.b, 32768⟩)
    (h : paint e b env trig sch fuel s bls = .ok s') :
    ∀ X Y, pixel s'.surf.surf.canvas X Y = .ok ⟨c.r, c.g, c.b, 32768⟩ := by
  have hh : c.Valid := by
    refine ⟨?_, ?_, ?_⟩
    · rcases hl.1 with q | q <;> rw [q] <;> norm_num
    · rcases hl.2.1 with q | q <;> rw [q] <;> norm_num
    · rcases hl.2.2 with q | q <;> rw [q] <;> norm_num
  intro X Y
  obtain ⟨⟨r, g, b', a⟩, h1, h2, h3, h4, h5⟩ := smudging_stays_between hp he ho bls hs hd hq hh hl hb hm
    (fun X Y => ⟨_, hc X Y, rfl, ⟨le_refl _, le_refl _⟩, ⟨le_refl _, le_refl _⟩, ⟨le_refl _, le_refl _⟩⟩) h X Y
  dsimp only at h2 h3 h4 h5
  rw [h1, h2, le_antisymm h3.2 h3.1, le_antisymm h4.2 h4.1, le_antisymm h5.2 h5.1]

end

/-! ### Examples -/

namespace Demo

example : ∀ a b : ℚ, 0 ≤ a → 0 ≤ Engine.Demo.env.pow a b := fun _ _ h => h

theorem finger_smudges (lo hi : Blend.Color) : Smudges lo hi finger.settings := by
  have v : ∀ id i, calculate (finger.settings id) i = (finger.settings id).base := by
    intro id i
    show calculate (if id = sSmudge then Engine.Demo.constant 1 else if id = sSmudgeLengthLog then Engine.Demo.constant 0 else
      if id = sSmudge then Engine.Demo.constant (1 / 2) else red.settings id) i =
      (if id = sSmudge then Engine.Demo.constant 1 else if id = sSmudgeLengthLog then Engine.Demo.constant 0 else
      if id = sSmudge then Engine.Demo.constant (1 / 2) else red.settings id).base
    split_ifs
    · rfl
    · rfl
    · exact red_value id i
  refine ⟨⟨by decide +kernel, by decide +kernel⟩, ?_, ?_, ?_, ?_, ?_, ?_, ?_, ?_, ?_, ?_, .inl ?_⟩
  all_goals
    intro i
    rw [v]
    decide +kernel

theorem finger_remembers (lo hi : Blend.Color) : Remembers lo hi finger := ⟨.inl rfl, rfl⟩

/-- Smudging over a picture that is pink all over leaves it as it is. -/
example : (observe finger ⟨32768, 0, 32768, 32768⟩ events [(61, 10), (64, 10), (66, 10)]).map Prod.snd =
    some [some ⟨32768, 0, 32768, 32768⟩, some ⟨32768, 0, 32768, 32768⟩, some ⟨32768, 0, 32768, 32768⟩] := by
  decide +kernel

/-- But not every picture of one colour stays as it is: this one gets darker where it is smudged. -/
theorem smudging_darkens :
    (observe finger ⟨20000, 10000, 5000, 32768⟩ events [(61, 10), (64, 10), (66, 10), (66, 30)]).map Prod.snd =
    some [some ⟨19997, 9996, 4997, 32768⟩, some ⟨19996, 9996, 4996, 32768⟩, some ⟨19996, 9996, 4996, 32768⟩,
      some ⟨20000, 10000, 5000, 32768⟩] := by
  decide +kernel

end Demo

end Verif.Painting
