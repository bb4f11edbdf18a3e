import Verif.Lemmas.SurfMute
import Mathlib.Tactic.Ring

/-!
# A brush whose colour does not matter

Two runs of the engine that differ only in the colour of the brush, on surfaces that may tell the difference only for dabs
that use their colour.
-/

namespace Verif.Engine
open Verif.Mask Verif.Color Verif.Spectral Verif.Map Verif.Dab

section
variable {K R σ : Type} [Field K] [LinearOrder K] [IsStrictOrderedRing K] [FloorRing K]

/-- Another colour, other values for it, another buffer. -/
structure Hues (K : Type) where
  h : K
  s : K
  v : K
  w : Nat → K
  m : Rgba K

def tint (w v : Nat → K) : Nat → K := fun id =>
  if id = sColorH then w id else if id = sColorS then w id else if id = sColorV then w id else v id

def hueBrush (p : Hues K) (b : Brush K R) : Brush K R :=
  { b with settings := recolour p.h p.s p.v b.settings, vals := tint p.w b.vals, mix := p.m }

/-- The brush ignores its colour; one that only smudges has the same buffer. -/
def Bland (p : Hues K) (b : Brush K R) : Prop := (OnlySmudges b.settings ∧ p.m = b.mix) ∨ Erases b.settings

/-- Between steps. -/
def Hued (b b' : Brush K R) : Prop := ∃ p, Bland p b ∧ b' = hueBrush p b

/-- After a step. -/
def HuedOn (b b' : Brush K R) : Prop := Hued b b' ∧ ∃ i, b.vals = fun id => calculate (b.settings id) i

/-- The surface cannot tell. -/
structure Blind (e : Env K R σ) (Q : σ → σ → Prop) : Prop where
  pow : PowZero e.pow
  draw : ∀ s s' a a', Q s s' → SameDab a a' → (e.draw s' a').1 = (e.draw s a).1 ∧ Q (e.draw s a).2 (e.draw s' a').2
  get : ∀ s s' x y r p, Q s s' → (e.getColor s' x y r p).1 = (e.getColor s x y r p).1 ∧
    Q (e.getColor s x y r p).2 (e.getColor s' x y r p).2

omit [IsStrictOrderedRing K] [FloorRing K] in
theorem settingValues_hue (p : Hues K) (s : Load.Brush K) (i : Inputs K) :
    settingValues (recolour p.h p.s p.v s) i = tint (settingValues (recolour p.h p.s p.v s) i) (settingValues s i) := by
  funext id
  unfold tint
  by_cases h1 : id = sColorH
  · rw [if_pos h1]
  rw [if_neg h1]
  by_cases h2 : id = sColorS
  · rw [if_pos h2]
  rw [if_neg h2]
  by_cases h3 : id = sColorV
  · rw [if_pos h3]
  rw [if_neg h3]
  show calculate (recolour p.h p.s p.v s id) _ = calculate (s id) _
  have : recolour p.h p.s p.v s id = s id := by
    unfold recolour
    rw [if_neg h1, if_neg h2, if_neg h3]
  rw [this]

omit [IsStrictOrderedRing K] in
theorem update_hue {e : Env K R σ} {b b' : Brush K R} (h : Hued b b') (s : Step K) :
    Alike HuedOn (update e b s) (update e b' s) := by
  obtain ⟨p, m, rfl⟩ := h
  have hu : usesInput (hueBrush p b).settings iViewzoom = usesInput b.settings iViewzoom := rfl
  have hm : moveStates e (hueBrush p b) s = moveStates e b s := rfl
  have hi : inputsOf e (hueBrush p b) (moveStates e b s) = inputsOf e b (moveStates e b s) := rfl
  unfold update
  dsimp only
  rw [hu, hm, hi]
  by_cases hz : s.viewzoom ≤ 0 ∧ usesInput b.settings iViewzoom = true
  · rw [if_pos hz, if_pos hz]
    exact .error _
  · rw [if_neg hz, if_neg hz]
    have key := settingValues_hue p b.settings (inputsOf e b (moveStates e b s))
    rw [show (hueBrush p b).settings = recolour p.h p.s p.v b.settings from rfl]
    obtain ⟨w, hw⟩ : ∃ w, settingValues (recolour p.h p.s p.v b.settings) (inputsOf e b (moveStates e b s)) =
        tint w (settingValues b.settings (inputsOf e b (moveStates e b s))) := ⟨_, key⟩
    rw [hw]
    exact .ok ⟨⟨{ p with w := w }, m, rfl⟩, _, rfl⟩

theorem dabPosition_hue {e : Env K R σ} {b b' : Brush K R} (h : HuedOn b b') :
    Alike (fun r r' => r'.1 = r.1 ∧ r'.2.1 = r.2.1 ∧ HuedOn r.2.2 r'.2.2) (dabPosition e b) (dabPosition e b') := by
  obtain ⟨⟨p, m, rfl⟩, i, hi⟩ := h
  have hd : ∀ r f, directionalOffsets e (hueBrush p b) r f = directionalOffsets e b r f := fun r f => rfl
  unfold dabPosition
  dsimp only
  rw [hd]
  by_cases hz : b.vals sOffsetBySpeed ≠ 0 ∧ b.st.viewzoom = 0
  · rw [if_pos hz, if_pos (show (hueBrush p b).vals sOffsetBySpeed ≠ 0 ∧ (hueBrush p b).st.viewzoom = 0 from hz)]
    exact .error _
  · rw [if_neg hz, if_neg (show ¬ ((hueBrush p b).vals sOffsetBySpeed ≠ 0 ∧ (hueBrush p b).st.viewzoom = 0) from hz)]
    by_cases hr : b.vals sOffsetByRandom ≠ 0
    · rw [if_pos hr, if_pos (show (hueBrush p b).vals sOffsetByRandom ≠ 0 from hr)]
      exact .ok ⟨rfl, rfl, ⟨p, m, rfl⟩, i, hi⟩
    · rw [if_neg hr, if_neg (show ¬ (hueBrush p b).vals sOffsetByRandom ≠ 0 from hr)]
      exact .ok ⟨rfl, rfl, ⟨p, m, rfl⟩, i, hi⟩

omit [IsStrictOrderedRing K] [FloorRing K] in
theorem dabRadius_hue {e : Env K R σ} {b b' : Brush K R} (h : HuedOn b b') (o : K) :
    (dabRadius e b' o).1 = (dabRadius e b o).1 ∧ (dabRadius e b' o).2.1 = (dabRadius e b o).2.1 ∧
      HuedOn (dabRadius e b o).2.2 (dabRadius e b' o).2.2 := by
  obtain ⟨⟨p, m, rfl⟩, i, hi⟩ := h
  unfold dabRadius
  dsimp only
  by_cases hr : b.vals sRadiusByRandom ≠ 0
  · rw [if_pos hr, if_pos (show (hueBrush p b).vals sRadiusByRandom ≠ 0 from hr)]
    exact ⟨rfl, rfl, ⟨p, m, rfl⟩, i, hi⟩
  · rw [if_neg hr, if_neg (show ¬ (hueBrush p b).vals sRadiusByRandom ≠ 0 from hr)]
    exact ⟨rfl, rfl, ⟨p, m, rfl⟩, i, hi⟩

omit [IsStrictOrderedRing K] in
theorem fetchSmudge_hue (p : Hues K) (b : Brush K R) :
    fetchSmudge (hueBrush p b) = ((fetchSmudge b).1, hueBrush p (fetchSmudge b).2) := by
  unfold fetchSmudge
  by_cases h : b.buckets.mem.isEmpty = true ∨ b.buckets.num = 0
  · rw [if_pos h, if_pos (show (hueBrush p b).buckets.mem.isEmpty = true ∨ (hueBrush p b).buckets.num = 0 from h)]
  · rw [if_neg h, if_neg (show ¬ ((hueBrush p b).buckets.mem.isEmpty = true ∨ (hueBrush p b).buckets.num = 0) from h)]
    rfl

omit [IsStrictOrderedRing K] [FloorRing K] in
theorem loadSmudge_hue (p : Hues K) (b : Brush K R) (o : Option Int) : loadSmudge (hueBrush p b) o = loadSmudge b o := by
  cases o <;> rfl

/-- The results of sampling into the bucket. -/
structure Sampled {σ : Type} (c : Prop) (Q : σ → σ → Prop) (u u' : Bool × Bucket K × σ × Rgba K) : Prop where
  stop : u'.1 = u.1
  bucket : u'.2.1 = u.2.1
  surf : Q u.2.2.1 u'.2.2.1
  mix : c → u'.2.2.2 = u.2.2.2

/-- Sampling into the bucket, with equal buffers or non-negative pigment mixing. -/
theorem updateSmudge_hue {e : Env K R σ} {Q : σ → σ → Prop} (he : Blind e Q) {p : Hues K} {b : Brush K R} (hb : Bland p b)
    {i : Nat → K} (hi : b.vals = fun id => calculate (b.settings id) i) {s s' : σ} (hs : Q s s') (v : Bucket K) (px py : Int)
    (radius : K) : Sampled (p.m = b.mix) Q (updateSmudge e b s v px py radius)
      (updateSmudge e (hueBrush p b) s' v px py radius) := by
  have hl : legacySmudge (hueBrush p b) = legacySmudge b := rfl
  have hm : legacySmudge b = false → ∀ x y f, mixColors e.pow p.m x y f (b.vals sPaintMode) =
      mixColors e.pow b.mix x y f (b.vals sPaintMode) := by
    intro q x y f
    rcases hb with ⟨h1, h2⟩ | h1
    · rw [h2]
    · exact mixColors_buffer e.pow _ _ x y f (paint_nonneg h1.paint hi q)
  unfold updateSmudge
  dsimp only
  rw [hl]
  have e1 : ∀ id, id ≠ sColorH → id ≠ sColorS → id ≠ sColorV → (hueBrush p b).vals id = b.vals id := by
    intro id h1 h2 h3
    show tint p.w b.vals id = b.vals id
    unfold tint
    rw [if_neg h1, if_neg h2, if_neg h3]
  rw [e1 sSmudgeLength (by decide) (by decide) (by decide), e1 sPaintMode (by decide) (by decide) (by decide),
    e1 sSmudgeLengthLog (by decide) (by decide) (by decide), e1 sSmudgeRadiusLog (by decide) (by decide) (by decide),
    e1 sSmudgeTransparency (by decide) (by decide) (by decide), show (hueBrush p b).mix = p.m from rfl]
  obtain ⟨g1, g2⟩ := he.get s s' px py (clampK (radius * e.exp (b.vals sSmudgeRadiusLog)) (1 / 5) 1000)
    (if legacySmudge b = true then -1 else b.vals sPaintMode) hs
  generalize e.getColor s px py _ _ = got at g1 g2 ⊢
  generalize e.getColor s' px py _ _ = got' at g1 g2 ⊢
  rw [g1]
  generalize legacySmudge b = leg at hm ⊢
  by_cases hr : v.recentness * maxC (1 / 100) (b.vals sSmudgeLength) <
      minC 1 (e.pow (1 / 2 * maxC (1 / 100) (b.vals sSmudgeLength)) (b.vals sSmudgeLengthLog) + 1 / 10 ^ 16)
  · simp only [hr, if_true, true_and]
    by_cases h1 : b.vals sSmudgeTransparency > 0 ∧ got.1.a < b.vals sSmudgeTransparency ∨
      b.vals sSmudgeTransparency < 0 ∧ got.1.a > -b.vals sSmudgeTransparency
    · simp only [h1, if_true]
      exact ⟨rfl, rfl, g2, id⟩
    · simp only [h1, if_false]
      cases leg with
      | true => simp only [if_true]; exact ⟨rfl, rfl, g2, id⟩
      | false =>
        simp only [Bool.false_eq_true, if_false, hm rfl]
        by_cases h2 : got.1.a > 1 / 1000 * 10
        · simp only [h2, if_true]; exact ⟨rfl, rfl, g2, fun _ => rfl⟩
        · simp only [h2, if_false]; exact ⟨rfl, rfl, g2, id⟩
  · simp only [hr, if_false, false_and]
    cases leg with
    | true => simp only [if_true]; exact ⟨rfl, rfl, hs, id⟩
    | false =>
      simp only [Bool.false_eq_true, if_false, hm rfl]
      by_cases h2 : v.prevA > 1 / 1000 * 10
      · simp only [h2, if_true]; exact ⟨rfl, rfl, hs, fun _ => rfl⟩
      · simp only [h2, if_false]; exact ⟨rfl, rfl, hs, id⟩

theorem smudgeStage_hue {e : Env K R σ} {Q : σ → σ → Prop} (he : Blind e Q) {b b' : Brush K R} (h : HuedOn b b') {s s' : σ}
    (hs : Q s s') (x y radius : K) :
    Alike (fun r r' => r'.1 = r.1 ∧ Q r.2.2 r'.2.2 ∧ HuedOn r.2.1 r'.2.1) (smudgeStage e b s x y radius)
      (smudgeStage e b' s' x y radius) := by
  obtain ⟨⟨p, m, rfl⟩, i, hi⟩ := h
  unfold smudgeStage
  by_cases hc : b.vals sSmudgeLength < 1 ∧ (b.vals sSmudge ≠ 0 ∨ isConstant (b.settings sSmudge) = false)
  · rw [if_pos hc, if_pos (show (hueBrush p b).vals sSmudgeLength < 1 ∧
      ((hueBrush p b).vals sSmudge ≠ 0 ∨ isConstant ((hueBrush p b).settings sSmudge) = false) from hc)]
    dsimp only
    rw [fetchSmudge_hue]
    dsimp only
    rw [loadSmudge_hue]
    have hf := fetchSmudge_same b
    generalize fetchSmudge b = f at hf ⊢
    obtain ⟨o, fb⟩ := f
    dsimp only at hf ⊢
    have m' : Bland p fb := by rw [hf]; exact m
    have hi' : fb.vals = fun id => calculate (fb.settings id) i := by rw [hf]; exact hi
    refine Alike.bind (Alike.same (P := Eq) _ fun _ _ => rfl) ?_
    rintro v _ rfl
    refine Alike.bind (Alike.same (P := Eq) _ fun _ _ => rfl) ?_
    rintro px _ rfl
    refine Alike.bind (Alike.same (P := Eq) _ fun _ _ => rfl) ?_
    rintro py _ rfl
    obtain ⟨k0, k2, k3, k4⟩ := updateSmudge_hue he m' hi' hs v px py radius
    generalize updateSmudge e fb s v px py radius = u at k0 k2 k3 k4 ⊢
    generalize updateSmudge e (hueBrush p fb) s' v px py radius = u' at k0 k2 k3 k4 ⊢
    obtain ⟨u1, u2, u3, u4⟩ := u'
    dsimp only at k0 k2 k3 k4
    subst k0 k2
    have k1 : ∀ bk, Bland { p with m := u4 } { fb with buckets := bk, mix := u.2.2.2 } := by
      intro bk
      rcases m' with ⟨h1, h2⟩ | h1
      · exact .inl ⟨h1, k4 h2⟩
      · exact .inr h1
    have k1' : ∀ st, Bland { p with m := u4 } { fb with st := st, mix := u.2.2.2 } := fun st => k1 fb.buckets
    cases o with
    | none => exact .ok ⟨rfl, k3, ⟨{ p with m := u4 }, k1' _, rfl⟩, i, hi'⟩
    | some o =>
      unfold storeSmudge
      dsimp only
      rw [show (hueBrush p fb).buckets = fb.buckets from rfl]
      cases writeBucket fb.buckets.mem o u.2.1 with
      | error f => exact .error f
      | ok mem => exact .ok ⟨rfl, k3, ⟨{ p with m := u4 }, k1 _, rfl⟩, i, hi'⟩
  · rw [if_neg hc, if_neg (show ¬ ((hueBrush p b).vals sSmudgeLength < 1 ∧
      ((hueBrush p b).vals sSmudge ≠ 0 ∨ isConstant ((hueBrush p b).settings sSmudge) = false)) from hc)]
    exact .ok ⟨rfl, hs, ⟨p, m, rfl⟩, i, hi⟩

omit [IsStrictOrderedRing K] [FloorRing K] in
theorem zipWith_right {α β γ : Type} {g : α → β → γ} (h : ∀ x y y', g x y = g x y') : ∀ (l : List α) (m m' : List β),
    m.length = m'.length → List.zipWith g l m = List.zipWith g l m'
  | [], _, _, _ => rfl
  | _ :: _, [], [], _ => rfl
  | x :: l, y :: m, y' :: m', hl => by
    rw [List.zipWith_cons_cons, List.zipWith_cons_cons, h x y y', zipWith_right h l m m' (by simpa using hl)]

theorem mixColors_hue {pow : K → K → K} (hp : PowZero pow) (old a : Rgba K) (ha : a.a ≠ 0) (c c' : Rgb K) (paint : K) :
    mixColors pow old a ⟨c.r, c.g, c.b, 1⟩ 1 paint = mixColors pow old a ⟨c'.r, c'.g, c'.b, 1⟩ 1 paint := by
  have hw : ∀ f : K, ∀ q q' : Rgb K, wgm pow (rgbToSpectral a.rgb) (rgbToSpectral q) f 0 =
      wgm pow (rgbToSpectral a.rgb) (rgbToSpectral q') f 0 := by
    intro f q q'
    unfold wgm
    refine zipWith_right (fun x y y' => ?_) _ _ _ (spectral_length _ _)
    rw [hp y y']
  unfold mixColors
  have h1 : (1 : K) * a.a / (a.a + 0) = 1 := by
    rw [add_zero, one_mul, div_self ha]
  simp only [ha, if_false, sub_self, mul_zero, h1]
  rw [hw _ (Rgba.rgb ⟨c.r, c.g, c.b, 1⟩) (Rgba.rgb ⟨c'.r, c'.g, c'.b, 1⟩)]

/-- A brush that only smudges. -/
theorem applySmudge_only {e : Env K R σ} (hp : PowZero e.pow) {p : Hues K} {b : Brush K R} (hm : p.m = b.mix)
    (h1 : 1 ≤ b.vals sSmudge) (v : Bucket K) (c c' : Rgb K) :
    applySmudge e (hueBrush p b) v c' = applySmudge e b v c := by
  have hl : legacySmudge (hueBrush p b) = legacySmudge b := rfl
  have hf : minC 1 (b.vals sSmudge) = 1 := by
    unfold minC
    split_ifs with q
    · rfl
    · exact le_antisymm (not_lt.mp q) h1
  unfold applySmudge
  dsimp only
  rw [hl, show (hueBrush p b).vals sSmudge = b.vals sSmudge from rfl, hf,
    show (hueBrush p b).vals sPaintMode = b.vals sPaintMode from rfl, show (hueBrush p b).mix = b.mix from hm]
  by_cases ht : clampK ((1 - 1) + 1 * v.a) 0 1 > 0
  · rw [if_pos ht, if_pos ht]
    cases legacySmudge b with
    | true => simp only [if_true, sub_self, zero_mul]
    | false =>
      simp only [Bool.false_eq_true, if_false]
      rw [mixColors_hue hp b.mix ⟨v.r, v.g, v.b, v.a⟩ _ c' c]
      intro h0
      dsimp only at h0
      rw [h0] at ht
      unfold clampK at ht
      rw [sub_self, mul_zero, add_zero, if_neg (not_lt.mpr zero_le_one), if_neg (lt_irrefl _)] at ht
      exact lt_irrefl _ ht
  · rw [if_neg ht, if_neg ht]

/-- An eraser: the target alpha does not depend on the colour. -/
theorem applySmudge_target {e : Env K R σ} {p : Hues K} {b : Brush K R} (v : Bucket K) (c c' : Rgb K) :
    (applySmudge e (hueBrush p b) v c').1 = (applySmudge e b v c).1 := by
  have hl : legacySmudge (hueBrush p b) = legacySmudge b := rfl
  unfold applySmudge
  dsimp only
  rw [hl, show (hueBrush p b).vals sSmudge = b.vals sSmudge from rfl]
  split_ifs <;> rfl

theorem smudgeColor_hue {e : Env K R σ} (hp : PowZero e.pow) {b b' : Brush K R} (h : HuedOn b b') (c c' : Rgb K) :
    Alike (fun r r' => r'.1 = r.1 ∧ (r'.2.1 = r.2.1 ∨ Erases b.settings) ∧ HuedOn r.2.2 r'.2.2 ∧
      r.2.2.vals = b.vals) (smudgeColor e b c) (smudgeColor e b' c') := by
  obtain ⟨⟨p, m, rfl⟩, i, hi⟩ := h
  unfold smudgeColor
  by_cases hc : b.vals sSmudge > 0
  · rw [if_pos hc, if_pos (show (hueBrush p b).vals sSmudge > 0 from hc)]
    dsimp only
    rw [fetchSmudge_hue]
    dsimp only
    rw [loadSmudge_hue]
    have hf := fetchSmudge_same b
    generalize fetchSmudge b = f at hf ⊢
    obtain ⟨o, fb⟩ := f
    dsimp only at hf ⊢
    have m' : Bland p fb := by rw [hf]; exact m
    have hi' : fb.vals = fun id => calculate (fb.settings id) i := by rw [hf]; exact hi
    have hv : fb.vals = b.vals := by rw [hf]
    have hse : fb.settings = b.settings := by rw [hf]
    refine Alike.bind (Alike.same (P := Eq) _ fun _ _ => rfl) ?_
    rintro v _ rfl
    rcases m' with ⟨m1, m2⟩ | m1
    · rw [applySmudge_only hp m2 (by rw [hi']; exact m1 i) v c c']
      exact .ok ⟨rfl, .inl rfl, ⟨⟨{ p with m := (applySmudge e fb v c).2.2 }, .inl ⟨m1, rfl⟩, rfl⟩, i, hi'⟩, hv⟩
    · exact .ok ⟨applySmudge_target v c c', .inr (hse ▸ m1), ⟨⟨{ p with m := (applySmudge e (hueBrush p fb) v c').2.2 }, .inr m1, rfl⟩, i, hi'⟩, hv⟩
  · rw [if_neg hc, if_neg (show ¬ (hueBrush p b).vals sSmudge > 0 from hc)]
    refine .ok ⟨rfl, .inr ?_, ⟨⟨p, m, rfl⟩, i, hi⟩, rfl⟩
    rcases m with ⟨m1, m2⟩ | m1
    · refine absurd ?_ hc
      rw [hi]
      exact lt_of_lt_of_le one_pos (m1 i)
    · exact m1

theorem drawDab_hue {e : Env K R σ} {Q : σ → σ → Prop} (he : Blind e Q) {b b' : Brush K R} (h : HuedOn b b') {s s' : σ}
    (hs : Q s s') (lin : Bool) :
    Alike (fun r r' => r'.1 = r.1 ∧ Q r.2.2 r'.2.2 ∧ HuedOn r.2.1 r'.2.1) (drawDab e b s lin) (drawDab e b' s' lin) := by
  have ho : dabOpacity e b' = dabOpacity e b := by
    obtain ⟨⟨p, -, rfl⟩, -⟩ := h
    rfl
  unfold drawDab
  rw [ho]
  refine Alike.bind (Alike.same (P := Eq) _ fun _ _ => rfl) ?_
  rintro o _ rfl
  refine Alike.bind (dabPosition_hue h) ?_
  rintro ⟨x, y, b1⟩ ⟨x', y', b1'⟩ ⟨h1, h2, h3⟩
  dsimp only at h1 h2 h3 ⊢
  subst h1 h2
  obtain ⟨r1, r2, r3⟩ := dabRadius_hue (e := e) h3 o
  rw [r1, r2]
  refine Alike.bind (smudgeStage_hue he r3 hs _ _ _) ?_
  rintro ⟨st, b2, s2⟩ ⟨st', b2', s2'⟩ ⟨h4, h5, h6⟩
  dsimp only at h4 h5 h6 ⊢
  subst h4
  by_cases hst : st' = true
  · rw [if_pos hst, if_pos hst]
    exact .ok ⟨rfl, h5, h6⟩
  rw [if_neg hst, if_neg hst]
  refine Alike.bind (smudgeColor_hue he.pow h6 _ _) ?_
  rintro ⟨t, c, b3⟩ ⟨t', c', b3'⟩ ⟨h7, h8, h9, h10⟩
  dsimp only at h7 h8 h9 h10 ⊢
  subst h7
  have ha : ∀ x y r o t c, dabArgs e b3' lin x y r o t c = dabArgs e b3 lin x y r o t c := by
    obtain ⟨⟨p, -, rfl⟩, -⟩ := h9
    intros; rfl
  rw [ha]
  have hd : SameDab (dabArgs e b3 lin x' y' (dabRadius e b1 o).1 (dabRadius e b1 o).2.1 t' c)
      (dabArgs e b3 lin x' y' (dabRadius e b1 o).1 (dabRadius e b1 o).2.1 t' c') := by
    rcases h8 with rfl | h8
    · exact .inl rfl
    · obtain ⟨-, i, hi⟩ := h6
      have v1 : b3.vals sEraser = 1 := by rw [h10, hi]; exact h8.eraser i
      have v2 : b3.vals sColorize ≤ 0 := by rw [h10, hi]; exact h8.colorize i
      refine .inr ⟨?_, v2, _, _, _, rfl⟩
      unfold dabArgs
      dsimp only
      rw [v1, if_pos one_ne_zero, sub_self, mul_zero]
  obtain ⟨d1, d2⟩ := he.draw _ _ _ _ h5 hd
  exact .ok ⟨d1, d2, h9⟩

/-! ### Sessions -/

omit [FloorRing K] in
theorem countDabs_hue {e : Env K R σ} {b b' : Brush K R} (h : Hued b b') (x y dt : K) :
    (countDabs e b' x y dt).1 = (countDabs e b x y dt).1 ∧ Hued (countDabs e b x y dt).2 (countDabs e b' x y dt).2 := by
  obtain ⟨p, m, rfl⟩ := h
  have key : countDabs e (hueBrush p b) x y dt = ((countDabs e b x y dt).1, hueBrush p (countDabs e b x y dt).2) := by
    unfold countDabs
    dsimp only
    by_cases q : b.st.actualRadius = 0
    · rw [if_pos q, if_pos (show (hueBrush p b).st.actualRadius = 0 from q)]
      rfl
    · rw [if_neg q, if_neg (show ¬ (hueBrush p b).st.actualRadius = 0 from q)]
      rfl
  rw [key]
  obtain ⟨r, hr⟩ := countDabs_same e b x y dt
  rw [hr]
  exact ⟨rfl, p, m, rfl⟩

structure LoopHued (Q : σ → σ → Prop) (l l' : Loop K R σ) : Prop where
  b : Hued l.b l'.b
  surf : Q l.surf l'.surf
  moved : l'.moved = l.moved
  todo : l'.todo = l.todo
  left : l'.dtimeLeft = l.dtimeLeft
  painted : l'.painted = l.painted

omit [FloorRing K] in
theorem HuedOn.flip {b b' : Brush K R} (h : HuedOn b b') :
    HuedOn { b with st := { b.st with flip := b.st.flip * -1 } } { b' with st := { b'.st with flip := b'.st.flip * -1 } } := by
  obtain ⟨⟨p, m, rfl⟩, i, hi⟩ := h
  exact ⟨⟨p, m, rfl⟩, i, hi⟩

omit [FloorRing K] in
theorem HuedOn.next {e : Env K R σ} {b b' : Brush K R} (h : HuedOn b b') :
    Hued { b with random := (e.next b.rng).1, rng := (e.next b.rng).2 }
      { b' with random := (e.next b'.rng).1, rng := (e.next b'.rng).2 } := by
  obtain ⟨⟨p, m, rfl⟩, i, hi⟩ := h
  exact ⟨p, m, rfl⟩

theorem Hued.step {b b' : Brush K R} (h : Hued b b') (ev : Event K) (x y d f t : K) :
    stepTo b'.st ev x y d f t = stepTo b.st ev x y d f t := by
  obtain ⟨p, -, rfl⟩ := h
  rfl

theorem dabStep_hue {e : Env K R σ} {Q : σ → σ → Prop} (he : Blind e Q) {l l' : Loop K R σ} (h : LoopHued Q l l')
    (ev : Event K) (x y : K) : Alike (LoopHued Q) (dabStep e ev x y l) (dabStep e ev x y l') := by
  obtain ⟨b, surf, moved, todo, left, painted⟩ := l
  obtain ⟨b', surf', moved', todo', left', painted'⟩ := l'
  obtain ⟨hb, h1, h2, h3, h4, h5⟩ := h
  dsimp only at hb h1 h2 h3 h4 h5
  subst h2 h3 h4 h5
  unfold dabStep
  dsimp only
  by_cases hz : todo' = 0
  · rw [if_pos hz, if_pos hz]; exact .error _
  · rw [if_neg hz, if_neg hz]
    rw [hb.step ev x y (if moved' > 0 then 1 - moved' else 1) ((if moved' > 0 then 1 - moved' else 1) / todo') left']
    refine Alike.bind (update_hue hb _) ?_
    intro b1 b1' hc
    refine Alike.bind (drawDab_hue he hc.flip h1 _) ?_
    rintro ⟨d, b2, s2⟩ ⟨d', b2', s2'⟩ ⟨g1, g2, g3⟩
    dsimp only at g1 g2 g3 ⊢
    subst g1
    obtain ⟨k1, k2⟩ := countDabs_hue (e := e) (g3.next (e := e)) x y
      (left' - (stepTo b.st ev x y (if moved' > 0 then 1 - moved' else 1)
        ((if moved' > 0 then 1 - moved' else 1) / todo') left').dtime)
    exact .ok ⟨k2, g2, rfl, k1, rfl, rfl⟩

theorem dabLoop_hue {e : Env K R σ} {Q : σ → σ → Prop} (he : Blind e Q) (ev : Event K) (x y : K) (fuel : Nat) :
    ∀ {l l' : Loop K R σ}, LoopHued Q l l' →
      Alike (LoopHued Q) (dabLoop e ev x y fuel l) (dabLoop e ev x y fuel l') := by
  induction fuel with
  | zero =>
    intro l l' h
    unfold dabLoop
    rw [h.moved, h.todo]
    by_cases hc : l.moved + l.todo ≥ 1
    · rw [if_pos hc, if_pos hc]; exact .error _
    · rw [if_neg hc, if_neg hc]; exact .ok h
  | succ fuel ih =>
    intro l l' h
    unfold dabLoop
    rw [h.moved, h.todo]
    by_cases hc : l.moved + l.todo ≥ 1
    · rw [if_pos hc, if_pos hc]
      exact Alike.bind (dabStep_hue he h ev x y) fun a a' ha => ih ha
    · rw [if_neg hc, if_neg hc]; exact .ok h

/-- The results of an event. -/
def ResHued (Q : σ → σ → Prop) (r r' : Bool × Brush K R × σ) : Prop := r'.1 = r.1 ∧ Q r.2.2 r'.2.2 ∧ Hued r.2.1 r'.2.1

omit [FloorRing K] in
theorem splitStroke_hue {b b' : Brush K R} (h : Hued b b') (p : Painted) (dt pr dp : K) :
    Hued (splitStroke b p dt pr dp).2 (splitStroke b' p dt pr dp).2 ∧
      (splitStroke b' p dt pr dp).1 = (splitStroke b p dt pr dp).1 := by
  obtain ⟨q, m, rfl⟩ := h
  have e2 : splitStroke (hueBrush q b) p dt pr dp =
      ((splitStroke b p dt pr dp).1, hueBrush q (splitStroke b p dt pr dp).2) := by
    unfold splitStroke
    dsimp only
    by_cases hp : (if p = .unknown then (if b.idle > 0 ∨ b.total = 0 then Painted.no else .yes) else p) = .yes
    · rw [if_pos hp, if_pos (show (if p = .unknown then (if (hueBrush q b).idle > 0 ∨
        (hueBrush q b).total = 0 then Painted.no else .yes) else p) = .yes from hp)]
      rfl
    · rw [if_neg hp, if_neg (show ¬ (if p = .unknown then (if (hueBrush q b).idle > 0 ∨
        (hueBrush q b).total = 0 then Painted.no else .yes) else p) = .yes from hp)]
      by_cases hz : b.total = 0
      · rw [if_pos hz, if_pos (show (hueBrush q b).total = 0 from hz)]
        rfl
      · rw [if_neg hz, if_neg (show ¬ (hueBrush q b).total = 0 from hz)]
        rfl
  rw [e2]
  obtain ⟨t, i, ht⟩ := splitStroke_same b p dt pr dp
  rw [ht]
  exact ⟨⟨q, m, rfl⟩, rfl⟩

theorem moveTo_hue {e : Env K R σ} {Q : σ → σ → Prop} (he : Blind e Q) {b b' : Brush K R} (h : Hued b b') (fuel : Nat)
    {s s' : σ} (hs : Q s s') (ev : Event K) (x y dt : K) :
    Alike (ResHued Q) (moveTo e fuel b s ev x y dt) (moveTo e fuel b' s' ev x y dt) := by
  unfold moveTo
  dsimp only
  obtain ⟨k1, k2⟩ := countDabs_hue (e := e) h x y dt
  have k3 : b'.st.partialDabs = b.st.partialDabs := by
    obtain ⟨p, -, rfl⟩ := h
    rfl
  rw [k1, k3]
  refine Alike.bind (dabLoop_hue (e := e) he ev x y fuel ⟨k2, hs, rfl, rfl, rfl, rfl⟩) ?_
  rintro ⟨b, surf, moved, todo, left, painted⟩ ⟨b', surf', moved', todo', left', painted'⟩ ⟨hb, h1, h2, h3, h4, h5⟩
  dsimp only at hb h1 h2 h3 h4 h5 ⊢
  subst h2 h3 h4 h5
  rw [hb.step ev x y todo' 1 left']
  refine Alike.bind (update_hue hb _) ?_
  intro b1 b1' hc
  have hc' : Hued { b1 with st := { b1.st with partialDabs := moved' + todo' } }
      { b1' with st := { b1'.st with partialDabs := moved' + todo' } } := by
    obtain ⟨⟨p, m, rfl⟩, i, hi⟩ := hc
    exact ⟨p, m, rfl⟩
  obtain ⟨s1, s2⟩ := splitStroke_hue hc' painted' dt ev.pressure (stepTo b.st ev x y todo' 1 left').dpressure
  exact .ok ⟨s2, h1, s1⟩

omit [FloorRing K] in
theorem skipStage_hue {e : Env K R σ} {b b' : Brush K R} (h : Hued b b') (x y dt : K) :
    (skipStage e b' x y dt).2 = (skipStage e b x y dt).2 ∧ Hued (skipStage e b x y dt).1 (skipStage e b' x y dt).1 := by
  have h' := h
  obtain ⟨p, m, rfl⟩ := h
  unfold skipStage
  dsimp only
  by_cases h1 : b.skip > 1 / 1000
  · rw [if_pos h1, if_pos (show (hueBrush p b).skip > 1 / 1000 from h1)]
    by_cases h2 : b.skip - hypot e (b.skipX - x) (b.skipY - y) > 1 / 1000 ∧
        ¬ (b.skippedTime + dt > 5 ∨ b.resetRequested = true)
    · rw [if_pos h2, if_pos (show (hueBrush p b).skip -
        hypot e ((hueBrush p b).skipX - x) ((hueBrush p b).skipY - y) > 1 / 1000 ∧
        ¬ ((hueBrush p b).skippedTime + dt > 5 ∨ (hueBrush p b).resetRequested = true) from h2)]
      exact ⟨rfl, p, m, rfl⟩
    · rw [if_neg h2, if_neg (show ¬ ((hueBrush p b).skip -
        hypot e ((hueBrush p b).skipX - x) ((hueBrush p b).skipY - y) > 1 / 1000 ∧
        ¬ ((hueBrush p b).skippedTime + dt > 5 ∨ (hueBrush p b).resetRequested = true)) from h2)]
      exact ⟨rfl, p, m, rfl⟩
  · rw [if_neg h1, if_neg (show ¬ (hueBrush p b).skip > 1 / 1000 from h1)]
    exact ⟨rfl, h'⟩

omit [FloorRing K] in
theorem cursor_hue {e : Env K R σ} {b b' : Brush K R} (h : Hued b b') (x y dt : K) :
    (cursor e b' x y dt).1 = (cursor e b x y dt).1 ∧ (cursor e b' x y dt).2.1 = (cursor e b x y dt).2.1 ∧
      Hued (cursor e b x y dt).2.2 (cursor e b' x y dt).2.2 := by
  have h' := h
  obtain ⟨p, m, rfl⟩ := h
  unfold cursor
  dsimp only
  by_cases z : b.baseval sTrackingNoise ≠ 0 ∧ e.exp (b.baseval sRadiusLogarithmic) * b.baseval sTrackingNoise > 1 / 1000
  · rw [if_pos z, if_pos (show (hueBrush p b).baseval sTrackingNoise ≠ 0 ∧
      e.exp ((hueBrush p b).baseval sRadiusLogarithmic) * (hueBrush p b).baseval sTrackingNoise > 1 / 1000 from z)]
    exact ⟨rfl, rfl, p, m, rfl⟩
  · rw [if_neg z, if_neg (show ¬ ((hueBrush p b).baseval sTrackingNoise ≠ 0 ∧
      e.exp ((hueBrush p b).baseval sRadiusLogarithmic) * (hueBrush p b).baseval sTrackingNoise > 1 / 1000) from z)]
    exact ⟨rfl, rfl, h'⟩

omit [FloorRing K] in
theorem startOver_hue {e : Env K R σ} {b b' : Brush K R} (h : Hued b b') (x y p : K) :
    Alike Hued (startOver e b x y p) (startOver e b' x y p) := by
  obtain ⟨q, m, rfl⟩ := h
  unfold startOver brushReset
  simp only [bind_assoc]
  refine Alike.bind (P := Eq) (Alike.same (P := Eq) (resetBuckets b.buckets) fun _ _ => rfl) ?_
  rintro bk _ rfl
  exact .ok ⟨q, m, rfl⟩

theorem strokeEvent_hue {e : Env K R σ} {Q : σ → σ → Prop} (he : Blind e Q) {b b' : Brush K R} (h : Hued b b') (fuel : Nat)
    {s s' : σ} (hs : Q s s') (ev : Event K) :
    Alike (ResHued Q) (strokeEvent e fuel b s ev) (strokeEvent e fuel b' s' ev) := by
  unfold strokeEvent
  dsimp only
  obtain ⟨k1, k2⟩ := skipStage_hue (e := e) h ev.x ev.y ev.dtime
  have hr : b'.resetRequested = b.resetRequested := by
    obtain ⟨p, -, rfl⟩ := h
    rfl
  rw [k1, hr]
  generalize skipStage e b ev.x ev.y ev.dtime = sk at k2 ⊢
  generalize (skipStage e b' ev.x ev.y ev.dtime).1 = sb' at k2 ⊢
  by_cases hk : sk.2.2 = true
  · rw [if_pos hk, if_pos hk]
    exact .ok ⟨rfl, hs, k2⟩
  · rw [if_neg hk, if_neg hk]
    obtain ⟨c1, c2, c3⟩ := cursor_hue (e := e) k2 ev.x ev.y sk.2.1
    rw [c1, c2]
    by_cases hz : sk.2.1 > 5 ∨ b.resetRequested = true
    · rw [if_pos hz, if_pos hz]
      refine Alike.bind (startOver_hue c3 _ _ _) ?_
      intro b1 b1' h1
      exact .ok ⟨rfl, hs, h1⟩
    · rw [if_neg hz, if_neg hz]
      exact moveTo_hue he c3 fuel hs ev _ _ _

theorem strokeTo_hue {e : Env K R σ} {Q : σ → σ → Prop} (he : Blind e Q) {b b' : Brush K R} (h : Hued b b') (fuel : Nat)
    {s s' : σ} (hs : Q s s') (m : Motion K) : Alike (ResHued Q) (strokeTo e fuel b s m) (strokeTo e fuel b' s' m) := by
  unfold strokeTo
  have hp : b'.st.pressure = b.st.pressure := by
    obtain ⟨p, -, rfl⟩ := h
    rfl
  refine Alike.bind (Alike.same (P := Eq) _ fun _ _ => rfl) ?_
  rintro ev _ rfl
  rw [hp]
  by_cases hc : ev.dtime > 1 / 10 ∧ ev.pressure ≠ 0 ∧ b.st.pressure = 0
  · rw [if_pos hc, if_pos hc]
    refine Alike.bind (Alike.same (P := Eq) _ fun _ _ => rfl) ?_
    rintro i _ rfl
    refine Alike.bind (strokeEvent_hue he h fuel hs i) ?_
    rintro r r' ⟨-, r1, r2⟩
    exact strokeEvent_hue he r2 fuel r1 _
  · rw [if_neg hc, if_neg hc]
    exact strokeEvent_hue he h fuel hs ev

theorem strokes_hue {e : Env K R σ} {Q : σ → σ → Prop} (he : Blind e Q) (fuel : Nat) (ms : List (Motion K)) :
    ∀ {b b' : Brush K R} {s s' : σ}, Q s s' → Hued b b' →
      Alike (fun r r' => Q r.2 r'.2 ∧ Hued r.1 r'.1) (strokes e fuel b s ms) (strokes e fuel b' s' ms) := by
  induction ms with
  | nil => intro b b' s s' hs h; exact .ok ⟨hs, h⟩
  | cons m ms ih =>
    intro b b' s s' hs h
    unfold strokes
    refine Alike.bind (strokeTo_hue he h fuel hs m) ?_
    rintro r r' ⟨-, r1, r2⟩
    exact ih r1 r2

end
end Verif.Engine
