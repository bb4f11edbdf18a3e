import Verif.Props.C127_Picture

/-!
# C128: a brush with a harder edge never paints less

Two brushes that differ in opacity, hardness and softness only, the second more opaque, harder and less soft: it gives the same dabs in the same
places, and every pixel gets no less of each. So no pixel is more transparent, or, with an eraser, keeps more. Anti-aliasing makes
hard dabs bigger; dabs with a radius of at least three pixels paint no less then either.
-/

namespace Verif.Engine
open Verif.Mask Verif.Color Verif.Spectral Verif.Map

section
variable {K R σ : Type} [Field K] [LinearOrder K] [IsStrictOrderedRing K] [FloorRing K]

/-! ### Specification -/

/-- The settings for how strong a dab is. -/
def strengthOnly : List Nat := [sOpaque, sOpaqueMultiply, sHardness, sSoftness]

/-- The second brush differs from the first in opacity, hardness and softness only. For all inputs it is no less opaque, no less hard and no
softer. Neither smudges. -/
structure Stronger (s s' : Load.Brush K) : Prop where
  only : ∀ id, id ∉ strengthOnly → s' id = s id
  more : ∀ id, id = sOpaque ∨ id = sOpaqueMultiply → ∀ i, calculate (s id) i ≤ calculate (s' id) i
  hard : ∀ i, calculate (s sHardness) i ≤ calculate (s' sHardness) i
  soft : ∀ i, calculate (s' sSoftness) i ≤ calculate (s sSoftness) i
  smudge : (∀ i, calculate (s sSmudge) i = 0) ∧ isConstant (s sSmudge) = true
  linearize : 0 ≤ (s sOpaqueLinearize).base

/-- Anti-aliasing treats the dabs of the two brushes alike: the hardness is the same or there is no anti-aliasing. -/
def Sharp (s s' : Load.Brush K) : Prop := s' sHardness = s sHardness ∨ ∀ i, calculate (s sAntiAliasing) i ≤ 0

/-- The brush does not snap dabs to pixels. -/
def Unsnapped (s : Load.Brush K) : Prop := ∀ i, calculate (s sSnapToPixel) i ≤ 0

/-- Dabs with a radius of at least three pixels: for all inputs, not random and not snapped to pixels. -/
structure LargeDabs (e : Env K R σ) (s : Load.Brush K) : Prop where
  radius : ∀ i, 3 ≤ e.exp (calculate (s sRadiusLogarithmic) i)
  random : ∀ i, calculate (s sRadiusByRandom) i = 0
  snap : Unsnapped s

/-- The same dab, no less opaque, no less hard and no softer. -/
def NoWeaker (a a' : Dab.Args K) : Prop :=
  a.opaque' ≤ a'.opaque' ∧ a.hardness ≤ a'.hardness ∧ a'.softness ≤ a.softness ∧
    a' = { a with opaque' := a'.opaque', hardness := a'.hardness, softness := a'.softness }

/-- The same with a radius no smaller. -/
def NoSmaller (a a' : Dab.Args K) : Prop :=
  a.opaque' ≤ a'.opaque' ∧ a.hardness ≤ a'.hardness ∧ a'.softness ≤ a.softness ∧ a.radius ≤ a'.radius ∧
    a' = { a with opaque' := a'.opaque', hardness := a'.hardness, softness := a'.softness, radius := a'.radius }

/-- Drawing such dabs keeps a relation between the surfaces. -/
def DrawnStronger (e : Env K R σ) (s s' : Load.Brush K) (P : σ → σ → Prop) : Prop :=
  ∀ surf surf' a a', P surf surf' → (Sharp s s' → NoWeaker a a') → (Unsnapped s → NoSmaller a a') → (LargeDabs e s → 3 ≤ a.radius) →
    (PlainColour s → OwnColour s a) → LooksOf s a → P (e.draw surf a).2 (e.draw surf' a').2

/-! ### Two brushes side by side -/

/-- The second brush is the stronger one. -/
structure StrongTwin (s s' : Load.Brush K) (b b' : Brush K R) : Prop where
  settings : b.settings = s
  settings' : b'.settings = s'
  st : b'.st = b.st
  vals : ∀ id, id ∉ strengthOnly → b'.vals id = b.vals id
  skip : b'.skip = b.skip
  skipX : b'.skipX = b.skipX
  skipY : b'.skipY = b.skipY
  skippedTime : b'.skippedTime = b.skippedTime
  reset : b'.resetRequested = b.resetRequested
  rng : b'.rng = b.rng
  random : b'.random = b.random

/-- After a step. -/
structure StrongTwinOn (e : Env K R σ) (s s' : Load.Brush K) (b b' : Brush K R) : Prop extends StrongTwin s s' b b' where
  on : ∃ i, b.vals = fun id => calculate (s id) i
  opaque' : b.vals sOpaque ≤ b'.vals sOpaque
  multiply : b.vals sOpaqueMultiply ≤ b'.vals sOpaqueMultiply
  hard : b.vals sHardness ≤ b'.vals sHardness
  edge : s' sHardness = s sHardness → b'.vals sHardness = b.vals sHardness
  soft : b'.vals sSoftness ≤ b.vals sSoftness
  radius : 0 ≤ b.st.actualRadius
  size : b.st.actualRadius = finalRadius e (b.vals sRadiusLogarithmic)

variable {s s' : Load.Brush K} {b b' : Brush K R}

omit [IsStrictOrderedRing K] [FloorRing K] in
theorem StrongTwin.base (hs : Stronger s s') (h : StrongTwin s s' b b') (id : Nat) (h1 : id ∉ strengthOnly) :
    b'.baseval id = b.baseval id := by
  unfold Brush.baseval
  rw [h.settings, h.settings', hs.only id h1]

theorem update_strong {e : Env K R σ} (hs : Stronger s s') (h : StrongTwin s s' b b') {t : Step K} {c c' : Brush K R}
    (hu : update e b t = .ok c) (hu' : update e b' t = .ok c') : StrongTwinOn e s s' c c' := by
  have hm : moveStates e b' t = moveStates e b t := by
    unfold moveStates
    rw [h.st, h.base hs sStrokeThreshold (by decide), h.vals sGridmapScale (by decide),
      h.vals sGridmapScaleX (by decide), h.vals sGridmapScaleY (by decide)]
  have hi : inputsOf e b' (moveStates e b' t) = inputsOf e b (moveStates e b t) := by
    rw [hm]
    unfold inputsOf
    rw [h.base hs sRadiusLogarithmic (by decide), h.base hs sPressureGainLog (by decide),
      h.base hs sSpeed1Gamma (by decide), h.base hs sSpeed2Gamma (by decide), h.random]
  have hv : ∀ id, id ∉ strengthOnly → settingValues b'.settings (inputsOf e b' (moveStates e b' t)) id =
      settingValues b.settings (inputsOf e b (moveStates e b t)) id := by
    intro id h1
    unfold settingValues
    rw [h.settings, h.settings', hs.only id h1, hi]
  have hmore : ∀ id, id = sOpaque ∨ id = sOpaqueMultiply → settingValues b.settings (inputsOf e b (moveStates e b t)) id ≤
      settingValues b'.settings (inputsOf e b' (moveStates e b' t)) id := by
    intro id h1
    unfold settingValues
    rw [h.settings, h.settings', hi]
    exact hs.more id h1 _
  have hf : followStates e b' (moveStates e b' t) (settingValues b'.settings (inputsOf e b' (moveStates e b' t))) t =
      followStates e b (moveStates e b t) (settingValues b.settings (inputsOf e b (moveStates e b t))) t := by
    generalize settingValues b'.settings (inputsOf e b' (moveStates e b' t)) = v' at hv ⊢
    generalize settingValues b.settings (inputsOf e b (moveStates e b t)) = v at hv ⊢
    rw [hm]
    unfold followStates strokeLength
    rw [h.base hs sRadiusLogarithmic (by decide), hv sSlowTrackingPerDab (by decide),
      hv sSpeed1Slowness (by decide), hv sSpeed2Slowness (by decide),
      hv sOffsetBySpeedSlowness (by decide), hv sDirectionFilter (by decide),
      hv sCustomInputSlowness (by decide), hv sDabsPerBasicRadius (by decide),
      hv sDabsPerActualRadius (by decide), hv sDabsPerSecond (by decide),
      hv sCustomInput (by decide), hv sRadiusLogarithmic (by decide),
      hv sEllipticalDabRatio (by decide), hv sEllipticalDabAngle (by decide),
      hv sStrokeDurationLogarithmic (by decide), hv sStrokeHoldtime (by decide)]
  have e1 := update_eq hu
  have e2 := update_eq hu'
  refine { settings := ?_, settings' := ?_, st := ?_, vals := ?_, skip := ?_, skipX := ?_, skipY := ?_, skippedTime := ?_,
           reset := ?_, rng := ?_, random := ?_, on := ?_, opaque' := ?_, multiply := ?_, hard := ?_, edge := ?_, soft := ?_, radius := ?_, size := ?_ }
  · rw [e1]; exact h.settings
  · rw [e2]; exact h.settings'
  · rw [e1, e2]; exact hf
  · rw [e1, e2]; exact hv
  · rw [e1, e2]; exact h.skip
  · rw [e1, e2]; exact h.skipX
  · rw [e1, e2]; exact h.skipY
  · rw [e1, e2]; exact h.skippedTime
  · rw [e1, e2]; exact h.reset
  · rw [e1, e2]; exact h.rng
  · rw [e1, e2]; exact h.random
  · rw [e1]; dsimp only; rw [h.settings]; exact ⟨_, rfl⟩
  · rw [e1, e2]; exact hmore _ (.inl rfl)
  · rw [e1, e2]; exact hmore _ (.inr rfl)
  · rw [e1, e2]
    dsimp only
    unfold settingValues
    rw [h.settings, h.settings', hi]
    exact hs.hard _
  · intro q
    rw [e1, e2]
    dsimp only
    unfold settingValues
    rw [h.settings, h.settings', hi, q]
  · rw [e1, e2]
    dsimp only
    unfold settingValues
    rw [h.settings, h.settings', hi]
    exact hs.soft _
  · rw [e1]
    show (0 : K) ≤ finalRadius e _
    unfold finalRadius
    dsimp only
    split_ifs <;> linarith
  · rw [e1]
    rfl

/-! ### The dab -/

omit [FloorRing K] in
theorem dabOpacity_strong {e : Env K R σ} (hg : GrowingLaws e) (hs : Stronger s s') (h : StrongTwinOn e s s' b b') {o o' : K}
    (ho : dabOpacity e b = .ok o) (ho' : dabOpacity e b' = .ok o') : o ≤ o' := by
  have hm := product_mono h.opaque' h.multiply
  have e1 : b'.st.dabsPerActualRadius = b.st.dabsPerActualRadius := by rw [h.st]
  have e2 : b'.st.dabsPerBasicRadius = b.st.dabsPerBasicRadius := by rw [h.st]
  have hl : 0 ≤ b.baseval sOpaqueLinearize := by
    unfold Brush.baseval
    rw [h.settings]
    exact hs.linearize
  have h1 : clampK (maxC 0 (b'.vals sOpaque) * b'.vals sOpaqueMultiply) 0 1 ≤ 1 := by
    unfold clampK
    split_ifs <;> linarith
  unfold dabOpacity at ho ho'
  rw [h.base hs sOpaqueLinearize (by decide), e1, e2] at ho'
  dsimp only at ho ho'
  generalize clampK (maxC 0 (b.vals sOpaque) * b.vals sOpaqueMultiply) 0 1 = p at *
  generalize clampK (maxC 0 (b'.vals sOpaque) * b'.vals sOpaqueMultiply) 0 1 = p' at *
  generalize b.baseval sOpaqueLinearize = l at *
  by_cases hz : l = 0
  · rw [if_pos hz] at ho ho'
    rw [← Except.ok.inj ho, ← Except.ok.inj ho']
    exact hm
  rw [if_neg hz] at ho ho'
  generalize (b.st.dabsPerActualRadius + b.st.dabsPerBasicRadius) * 2 = d at *
  have hd : (1 : K) ≤ if d < 1 then 1 else d := by
    split_ifs with q
    · exact le_refl _
    · exact not_lt.mp q
  generalize (if d < 1 then 1 else d) = d at *
  have hd0 : 0 < 1 + l * (d - 1) := by
    have := mul_nonneg hl (sub_nonneg.mpr hd)
    linarith
  rw [if_neg hd0.ne'] at ho ho'
  rw [← Except.ok.inj ho, ← Except.ok.inj ho']
  have := hg.pow (1 - p') (1 - p) (1 / (1 + l * (d - 1))) (sub_nonneg.mpr h1) (by linarith) (one_div_pos.mpr hd0)
  linarith

omit [IsStrictOrderedRing K] in
theorem dabPosition_strong {e : Env K R σ} (hs : Stronger s s') (h : StrongTwin s s' b b') {p p' : K × K × Brush K R}
    (hp : dabPosition e b = .ok p) (hp' : dabPosition e b' = .ok p') :
    p'.1 = p.1 ∧ p'.2.1 = p.2.1 ∧ p.2.2 = { b with rng := p.2.2.rng } ∧ p'.2.2 = { b' with rng := p.2.2.rng } := by
  have hst := h.st
  have ho : ∀ r f, directionalOffsets e b' r f = directionalOffsets e b r f := by
    intro r f
    unfold directionalOffsets
    rw [hst]
    dsimp only
    rw [h.vals sOffsetAngleAdj (by decide), h.vals sOffsetAngle2 (by decide),
      h.vals sOffsetAngle2Asc (by decide), h.vals sOffsetAngle2View (by decide),
      h.vals sOffsetX (by decide), h.vals sOffsetY (by decide),
      h.vals sOffsetAngle (by decide), h.vals sOffsetAngleAsc (by decide),
      h.vals sOffsetAngleView (by decide), h.vals sOffsetMultiplier (by decide)]
  have e1 : b'.st.flip = b.st.flip := by rw [hst]
  have e2 : b'.st.actualX = b.st.actualX := by rw [hst]
  have e3 : b'.st.actualY = b.st.actualY := by rw [hst]
  have e4 : b'.st.viewzoom = b.st.viewzoom := by rw [hst]
  have e5 : b'.st.normDxSlow = b.st.normDxSlow := by rw [hst]
  have e6 : b'.st.normDySlow = b.st.normDySlow := by rw [hst]
  unfold dabPosition at hp hp'
  dsimp only at hp hp'
  rw [ho, e1, e2, e3, e4, e5, e6, h.base hs sRadiusLogarithmic (by decide), h.vals sOffsetBySpeed (by decide),
    h.vals sOffsetByRandom (by decide), h.rng] at hp'
  by_cases hz : b.vals sOffsetBySpeed ≠ 0 ∧ b.st.viewzoom = 0
  · rw [if_pos hz] at hp
    cases hp
  rw [if_neg hz] at hp hp'
  by_cases hr : b.vals sOffsetByRandom ≠ 0
  · rw [if_pos hr] at hp hp'
    rw [← Except.ok.inj hp, ← Except.ok.inj hp']
    exact ⟨rfl, rfl, rfl, rfl⟩
  · rw [if_neg hr] at hp hp'
    rw [← Except.ok.inj hp, ← Except.ok.inj hp']
    refine ⟨rfl, rfl, rfl, ?_⟩
    dsimp only
    rw [← h.rng]

omit [FloorRing K] in
theorem dabRadius_strong {e : Env K R σ} (h : StrongTwin s s' b b') {o o' : K} (ho : o ≤ o') :
    (dabRadius e b' o').1 = (dabRadius e b o).1 ∧ (dabRadius e b o).2.1 ≤ (dabRadius e b' o').2.1 ∧
      (dabRadius e b o).2.2 = { b with rng := (dabRadius e b o).2.2.rng } ∧
      (dabRadius e b' o').2.2 = { b' with rng := (dabRadius e b o).2.2.rng } := by
  have e1 : b'.st.actualRadius = b.st.actualRadius := by rw [h.st]
  unfold dabRadius
  dsimp only
  rw [h.vals sRadiusByRandom (by decide), h.vals sRadiusLogarithmic (by decide), h.rng, e1]
  by_cases q : b.vals sRadiusByRandom ≠ 0
  · simp only [if_pos q]
    refine ⟨trivial, ?_, trivial, trivial⟩
    split_ifs
    · exact mul_le_mul_of_nonneg_right ho (mul_self_nonneg _)
    · exact ho
  · simp only [if_neg q]
    refine ⟨trivial, ho, trivial, ?_⟩
    rw [← h.rng]

omit [FloorRing K] in
theorem antiAlias_off {b : Brush K R} (hb : b.vals sAntiAliasing ≤ 0) {h r : K} (h1 : h ≤ 1) (r0 : 0 ≤ r) : antiAlias b h r = (h, r) := by
  unfold antiAlias
  dsimp only
  rw [if_neg]
  have := mul_nonneg r0 (sub_nonneg.mpr h1)
  linarith

omit [FloorRing K] in
/-- **Anti-aliasing keeps the order**: harder dabs stay harder and get no smaller; no dab gets smaller. -/
theorem antiAlias_mono {b : Brush K R} {h h' r : K} (h0 : 0 ≤ h) (hh : h ≤ h') (h1 : h' ≤ 1) (r0 : 0 ≤ r) :
    (antiAlias b h r).1 ≤ (antiAlias b h' r).1 ∧ (antiAlias b h r).2 ≤ (antiAlias b h' r).2 ∧ r ≤ (antiAlias b h r).2 := by
  have key : ∀ k, 0 ≤ k → k ≤ 1 → r * (1 - k) < b.vals sAntiAliasing →
      0 < r * (1 + k) / 2 + b.vals sAntiAliasing / 2 ∧
      antiAlias b k r = ((r * (1 + k) / 2 - b.vals sAntiAliasing / 2) / (r * (1 + k) / 2 + b.vals sAntiAliasing / 2), r * (1 + k) / 2 + b.vals sAntiAliasing / 2) := by
    intro k k0 k1 hk
    have hm : 0 < b.vals sAntiAliasing := (mul_nonneg r0 (sub_nonneg.mpr k1)).trans_lt hk
    have ho : 0 ≤ r * (1 + k) / 2 := by positivity
    have hp : 0 < r * (1 + k) / 2 + b.vals sAntiAliasing / 2 := by linarith
    refine ⟨hp, ?_⟩
    unfold antiAlias
    dsimp only
    rw [if_pos hk, show r - (1 - k) * r / 2 = r * (1 + k) / 2 by ring]
    refine Prod.ext rfl ?_
    dsimp only
    rw [div_eq_iff]
    · field_simp
      ring
    · rw [sub_ne_zero]
      intro q
      rw [eq_div_iff hp.ne'] at q
      linarith
  have hs : r * (1 - h') ≤ r * (1 - h) := mul_le_mul_of_nonneg_left (by linarith) r0
  have hs' : r * (1 + h) / 2 ≤ r * (1 + h') / 2 := by
    have := mul_le_mul_of_nonneg_left (show 1 + h ≤ 1 + h' by linarith) r0
    linarith
  by_cases q : r * (1 - h) < b.vals sAntiAliasing
  · obtain ⟨k1, k2⟩ := key h h0 (hh.trans h1) q
    obtain ⟨k1', k2'⟩ := key h' (h0.trans hh) h1 (hs.trans_lt q)
    have hm : 0 < b.vals sAntiAliasing := (mul_nonneg r0 (sub_nonneg.mpr (hh.trans h1))).trans_lt q
    rw [k2, k2']
    refine ⟨?_, by dsimp only; linarith, by dsimp only; linarith⟩
    dsimp only
    rw [div_le_div_iff₀ k1 k1']
    nlinarith [mul_nonneg hm.le (sub_nonneg.mpr hs')]
  · have e1 : antiAlias b h r = (h, r) := by
      unfold antiAlias
      dsimp only
      rw [if_neg q]
    rw [e1]
    by_cases q' : r * (1 - h') < b.vals sAntiAliasing
    · obtain ⟨k1', k2'⟩ := key h' (h0.trans hh) h1 q'
      rw [k2']
      rw [not_lt] at q
      refine ⟨?_, by dsimp only; linarith, le_refl _⟩
      dsimp only
      rw [le_div_iff₀ k1']
      nlinarith [mul_nonneg h0 (sub_nonneg.mpr hs'), mul_nonneg h0 (sub_nonneg.mpr q)]
    · have e2 : antiAlias b h' r = (h', r) := by
        unfold antiAlias
        dsimp only
        rw [if_neg q']
      rw [e2]
      exact ⟨hh, le_refl _, le_refl _⟩

omit [IsStrictOrderedRing K] in
theorem snap_off {b : Brush K R} (hb : b.vals sSnapToPixel ≤ 0) (x y r : K) : snap b x y r = (x, y, r) := by
  unfold snap
  dsimp only
  rw [if_neg (not_lt.mpr hb)]

theorem drawDab_strong {e : Env K R σ} (hg : GrowingLaws e) (hs : Stronger s s') {P : σ → σ → Prop} (hP : DrawnStronger e s s' P) (h : StrongTwinOn e s s' b b')
    {surf surf' : σ} (hl : P surf surf') {lin : Bool} {p p' : Bool × Brush K R × (σ)}
    (hp : drawDab e b surf lin = .ok p) (hp' : drawDab e b' surf' lin = .ok p') :
    StrongTwin s s' p.2.1 p'.2.1 ∧ P p.2.2 p'.2.2 := by
  obtain ⟨i, hi⟩ := h.on
  have hv : b.vals sSmudge = 0 := by rw [hi]; exact hs.smudge.1 i
  have hv' : b'.vals sSmudge = 0 := by rw [h.vals _ (by decide)]; exact hv
  have hk : isConstant (b.settings sSmudge) = true := by rw [h.settings]; exact hs.smudge.2
  have hk' : isConstant (b'.settings sSmudge) = true := by rw [h.settings', hs.only _ (by decide)]; exact hs.smudge.2
  unfold drawDab at hp hp'
  obtain ⟨o, ho, hp⟩ := bind_ok hp
  obtain ⟨o', ho', hp'⟩ := bind_ok hp'
  obtain ⟨pos, h2, hp⟩ := bind_ok hp
  obtain ⟨pos', h2', hp'⟩ := bind_ok hp'
  have k1 := dabOpacity_strong hg hs h ho ho'
  obtain ⟨x1, x2, x3, x4⟩ := dabPosition_strong hs h.toStrongTwin h2 h2'
  have hpos : StrongTwin s s' pos.2.2 pos'.2.2 := by
    rw [x4, x3]
    exact { h.toStrongTwin with rng := rfl }
  obtain ⟨y1, y2, y3, y4⟩ := dabRadius_strong (e := e) hpos k1
  have hr0 : 0 ≤ (dabRadius e pos.2.2 o).1 := by
    have hra : 0 ≤ pos.2.2.st.actualRadius := by rw [x3]; exact h.radius
    unfold dabRadius
    dsimp only
    by_cases q : pos.2.2.vals sRadiusByRandom ≠ 0
    · rw [if_pos q]
      dsimp only
      unfold clampK
      split_ifs <;> linarith
    · rw [if_neg q]
      exact hra
  have hr3 : LargeDabs e s → 3 ≤ (dabRadius e pos.2.2 o).1 := by
    intro hL
    have q : b.vals sRadiusByRandom = 0 := by rw [hi]; exact hL.random i
    have q3 : 3 ≤ e.exp (b.vals sRadiusLogarithmic) := by rw [hi]; exact hL.radius i
    unfold dabRadius
    rw [x3]
    dsimp only
    rw [if_neg (not_not.mpr q)]
    dsimp only
    rw [h.size]
    unfold finalRadius
    dsimp only
    split_ifs <;> linarith
  generalize dabRadius e pos.2.2 o = rad at *
  generalize dabRadius e pos'.2.2 o' = rad' at *
  have z1 : rad.2.2 = { b with rng := rad.2.2.rng } := by
    rw [y3, x3]
  have z2 : rad'.2.2 = { b' with rng := rad.2.2.rng } := by
    rw [y4, x4]
  dsimp only at hp hp'
  rw [(smudge_never (e := e) (b := rad.2.2) (by rw [z1]; exact hk) (by rw [z1]; exact hv) surf _ _ _ ⟨0, 0, 0⟩).1] at hp
  rw [(smudge_never (e := e) (b := rad'.2.2) (by rw [z2]; exact hk') (by rw [z2]; exact hv') surf' _ _ _ ⟨0, 0, 0⟩).1] at hp'
  obtain ⟨sm, hsm, hp⟩ := bind_ok hp
  obtain ⟨sm', hsm', hp'⟩ := bind_ok hp'
  rw [← Except.ok.inj hsm] at hp
  rw [← Except.ok.inj hsm'] at hp'
  simp only [Bool.false_eq_true, if_false] at hp hp'
  rw [(smudge_never (e := e) (b := rad.2.2) (by rw [z1]; exact hk) (by rw [z1]; exact hv) surf 0 0 0 _).2] at hp
  rw [(smudge_never (e := e) (b := rad'.2.2) (by rw [z2]; exact hk') (by rw [z2]; exact hv') surf' 0 0 0 _).2] at hp'
  obtain ⟨col, hcol, hp⟩ := bind_ok hp
  obtain ⟨col', hcol', hp'⟩ := bind_ok hp'
  rw [← Except.ok.inj hcol] at hp
  rw [← Except.ok.inj hcol'] at hp'
  rw [← Except.ok.inj hp, ← Except.ok.inj hp']
  dsimp only
  have q0 : ∀ v : K, 0 ≤ clampK v 0 1 := by
    intro v
    unfold clampK
    split_ifs <;> linarith
  have q1 : ∀ v : K, clampK v 0 1 ≤ 1 := by
    intro v
    unfold clampK
    split_ifs <;> linarith
  have q2 : ∀ u v : K, u ≤ v → clampK u 0 1 ≤ clampK v 0 1 := by
    intro u v huv
    unfold clampK
    split_ifs <;> linarith
  have hst := h.st
  have w1 : b'.st.ratio = b.st.ratio := by rw [hst]
  have w2 : b'.st.angle = b.st.angle := by rw [hst]
  have hc : ∀ c, colorDynamics e { b' with rng := rad.2.2.rng } lin c = colorDynamics e { b with rng := rad.2.2.rng } lin c := by
    intro c
    unfold colorDynamics
    dsimp only
    rw [h.vals sChangeColorH (by decide), h.vals sChangeColorHsvS (by decide),
      h.vals sChangeColorV (by decide), h.vals sChangeColorL (by decide),
      h.vals sChangeColorHslS (by decide)]
  have hal : ∀ k r, antiAlias { b' with rng := rad.2.2.rng } k r = antiAlias { b with rng := rad.2.2.rng } k r := by
    intro k r
    unfold antiAlias
    dsimp only
    rw [h.vals sAntiAliasing (by decide)]
  have hmo := antiAlias_mono (b := { b with rng := rad.2.2.rng }) (q0 (b.vals sHardness)) (q2 _ _ h.hard) (q1 (b'.vals sHardness)) hr0
  refine ⟨?_, hP _ _ _ _ hl ?_ ?_ ?_ ?_ ?_⟩
  · rw [z2, z1]
    exact { h.toStrongTwin with rng := rfl }
  · intro hsh
    have hA : (antiAlias { b' with rng := rad.2.2.rng } (clampK (b'.vals sHardness) 0 1) rad.1).2 =
          (antiAlias { b with rng := rad.2.2.rng } (clampK (b.vals sHardness) 0 1) rad.1).2 ∧
        (antiAlias { b with rng := rad.2.2.rng } (clampK (b.vals sHardness) 0 1) rad.1).1 ≤
          (antiAlias { b' with rng := rad.2.2.rng } (clampK (b'.vals sHardness) 0 1) rad.1).1 := by
      rcases hsh with hsh | hsh
      · rw [h.edge hsh, hal]
        exact ⟨rfl, le_refl _⟩
      · have hs0 : b.vals sAntiAliasing ≤ 0 := by rw [hi]; exact hsh i
        rw [antiAlias_off (b := { b with rng := rad.2.2.rng }) hs0 (q1 _) hr0,
          antiAlias_off (b := { b' with rng := rad.2.2.rng }) (by show b'.vals sAntiAliasing ≤ 0; rw [h.vals sAntiAliasing (by decide)]; exact hs0) (q1 _) hr0]
        exact ⟨rfl, q2 _ _ h.hard⟩
    have hn : ∀ x y r, snap { b' with rng := rad.2.2.rng } x y r = snap { b with rng := rad.2.2.rng } x y r := by
      intro x y r
      unfold snap
      dsimp only
      rw [h.vals sSnapToPixel (by decide)]
    rw [z2, z1]
    unfold NoWeaker dabArgs
    dsimp only
    rw [y1]
    refine ⟨y2, hA.2, q2 _ _ h.soft, ?_⟩
    rw [hA.1, hc, hn, x1, x2, w1, w2, h.base hs sColorH (by decide), h.base hs sColorS (by decide), h.base hs sColorV (by decide), h.vals sEraser (by decide),
      h.vals sLockAlpha (by decide),
      h.vals sColorize (by decide), h.vals sPosterize (by decide),
      h.vals sPosterizeNum (by decide), h.vals sPaintMode (by decide)]
  · intro hu
    have hn : b.vals sSnapToPixel ≤ 0 := by rw [hi]; exact hu i
    have hn' : b'.vals sSnapToPixel ≤ 0 := by rw [h.vals sSnapToPixel (by decide)]; exact hn
    rw [z2, z1]
    unfold NoSmaller dabArgs
    dsimp only
    rw [y1, hal]
    simp only [snap_off (b := { b with rng := rad.2.2.rng }) hn, snap_off (b := { b' with rng := rad.2.2.rng }) hn']
    refine ⟨y2, hmo.1, q2 _ _ h.soft, hmo.2.1, ?_⟩
    rw [hc, x1, x2, w1, w2, h.base hs sColorH (by decide), h.base hs sColorS (by decide), h.base hs sColorV (by decide), h.vals sEraser (by decide),
      h.vals sLockAlpha (by decide),
      h.vals sColorize (by decide), h.vals sPosterize (by decide),
      h.vals sPosterizeNum (by decide), h.vals sPaintMode (by decide)]
  · intro hL
    have hn : b.vals sSnapToPixel ≤ 0 := by rw [hi]; exact hL.snap i
    rw [z1]
    unfold dabArgs
    dsimp only
    simp only [snap_off (b := { b with rng := rad.2.2.rng }) hn]
    exact (hr3 hL).trans (antiAlias_mono (b := { b with rng := rad.2.2.rng }) (q0 (b.vals sHardness)) (le_refl _) (q1 _) hr0).2.2
  · intro hpc
    have hie : b.vals sEraser = calculate (s sEraser) i := congrFun hi _
    rw [z1]
    refine ⟨?_, i, ?_⟩
    · show colorDynamics _ _ lin _ = _
      rw [colorDynamics_plain (by rw [hi]; exact hpc.h i) (by rw [hi]; exact hpc.v i) (by rw [hi]; exact hpc.hsvS i)
        (by rw [hi]; exact hpc.l i) (by rw [hi]; exact hpc.hslS i)]
      unfold chosenColour Brush.baseval
      rw [h.settings]
    · unfold dabArgs
      dsimp only
      rw [hie]
      split_ifs with q
      · rw [one_mul]
      · rw [not_not] at q
        rw [q, sub_zero]
  · refine ⟨i, ?_, ?_, ?_, ?_, ?_⟩
    · rw [z1]; exact congrFun hi _
    · rw [z1]; exact congrFun hi _
    · rw [z1]; exact congrFun hi _
    · rw [z1]; exact congrFun hi _
    · have hie : b.vals sEraser = calculate (s sEraser) i := congrFun hi _
      rw [z1]
      unfold dabArgs
      dsimp only
      rw [hie]
      split_ifs with q
      · rw [one_mul]
      · rw [not_not] at q
        rw [q, sub_zero]

/-! ### Sessions -/

omit [IsStrictOrderedRing K] [FloorRing K] in
theorem countDabs_strong {e : Env K R σ} (hs : Stronger s s') (h : StrongTwin s s' b b') (x y dt : K) :
    (countDabs e b' x y dt).1 = (countDabs e b x y dt).1 ∧ StrongTwin s s' (countDabs e b x y dt).2 (countDabs e b' x y dt).2 := by
  have hb := h.base hs sRadiusLogarithmic (by decide)
  have key : (countDabs e b' x y dt).1 = (countDabs e b x y dt).1 ∧ (countDabs e b' x y dt).2.st = (countDabs e b x y dt).2.st := by
    unfold countDabs
    rw [hb, h.st]
    exact ⟨rfl, rfl⟩
  exact ⟨key.1, { settings := h.settings, settings' := h.settings', st := key.2, vals := h.vals, skip := h.skip, skipX := h.skipX,
                  skipY := h.skipY, skippedTime := h.skippedTime, reset := h.reset, rng := h.rng, random := h.random }⟩

/-- Two loops side by side. -/
structure LoopStrong (s s' : Load.Brush K) (P : σ → σ → Prop) (l l' : Loop K R σ) : Prop where
  b : StrongTwin s s' l.b l'.b
  moved : l'.moved = l.moved
  todo : l'.todo = l.todo
  time : l'.dtimeLeft = l.dtimeLeft
  dabs : P l.surf l'.surf

theorem dabStep_strong {e : Env K R σ} (hg : GrowingLaws e) (hs : Stronger s s') {P : σ → σ → Prop} (hP : DrawnStronger e s s' P) {ev : Event K}
    {x y : K} {l l' m m' : Loop K R σ} (h : LoopStrong s s' P l l')
    (hm : dabStep e ev x y l = .ok m) (hm' : dabStep e ev x y l' = .ok m') : LoopStrong s s' P m m' := by
  obtain ⟨-, b1, p, b2, hu, hp, e1, e2⟩ := dabStep_eq hm
  obtain ⟨-, b1', p', b2', hu', hp', e1', e2'⟩ := dabStep_eq hm'
  rw [h.moved, h.todo, h.time, h.b.st] at hu'
  have k1 := update_strong hs h.b hu hu'
  have k2 : StrongTwinOn e s s' { b1 with st := { b1.st with flip := b1.st.flip * -1 } } { b1' with st := { b1'.st with flip := b1'.st.flip * -1 } } := by
    refine { k1 with st := ?_ }
    show { b1'.st with flip := b1'.st.flip * -1 } = { b1.st with flip := b1.st.flip * -1 }
    rw [k1.st]
  obtain ⟨k3, k6⟩ := drawDab_strong hg hs hP k2 h.dabs hp hp'
  have k4 : StrongTwin s s' b2 b2' := by
    rw [e1, e1']
    refine { k3 with rng := ?_, random := ?_ }
    · dsimp only; rw [k3.rng]
    · dsimp only; rw [k3.rng]
  have k5 := countDabs_strong (e := e) hs k4 x y
    (l.dtimeLeft - (if l.moved > 0 then 1 - l.moved else 1) / l.todo * l.dtimeLeft)
  rw [e2, e2']
  refine ⟨?_, ?_, ?_, ?_, ?_⟩
  · dsimp only; rw [h.moved, h.todo, h.time]; exact k5.2
  · dsimp only; rw [h.moved]
  · dsimp only; rw [h.moved, h.todo, h.time]; exact k5.1
  · dsimp only; rw [h.moved, h.todo, h.time]
  · exact k6

theorem dabLoop_strong {e : Env K R σ} (hg : GrowingLaws e) (hs : Stronger s s') {P : σ → σ → Prop} (hP : DrawnStronger e s s' P) {ev : Event K}
    {x y : K} (fuel : Nat) {l l' m m' : Loop K R σ} (h : LoopStrong s s' P l l')
    (hm : dabLoop e ev x y fuel l = .ok m) (hm' : dabLoop e ev x y fuel l' = .ok m') : LoopStrong s s' P m m' := by
  induction fuel generalizing l l' with
  | zero =>
    unfold dabLoop at hm hm'
    rw [h.moved, h.todo] at hm'
    split_ifs at hm hm'
    rw [← Except.ok.inj hm, ← Except.ok.inj hm']
    exact h
  | succ n ih =>
    unfold dabLoop at hm hm'
    rw [h.moved, h.todo] at hm'
    split_ifs at hm hm' with hc
    · obtain ⟨l1, h1, hm⟩ := bind_ok hm
      obtain ⟨l1', h1', hm'⟩ := bind_ok hm'
      exact ih (dabStep_strong hg hs hP h h1 h1') hm hm'
    · rw [← Except.ok.inj hm, ← Except.ok.inj hm']
      exact h

theorem moveTo_strong {e : Env K R σ} (hg : GrowingLaws e) (hs : Stronger s s') {P : σ → σ → Prop} (hP : DrawnStronger e s s' P) {ev : Event K}
    {x y dt : K} {fuel : Nat} (h : StrongTwin s s' b b') {surf surf' : σ} (hl : P surf surf')
    {r r' : Bool × Brush K R × σ} (hr : moveTo e fuel b surf ev x y dt = .ok r)
    (hr' : moveTo e fuel b' surf' ev x y dt = .ok r') :
    StrongTwin s s' r.2.1 r'.2.1 ∧ P r.2.2 r'.2.2 := by
  obtain ⟨l, b1, h1, h2, -, h3, h4⟩ := moveTo_eq hr
  obtain ⟨l', b1', h1', h2', -, h3', h4'⟩ := moveTo_eq hr'
  obtain ⟨c1, c2⟩ := countDabs_strong (e := e) hs h x y dt
  have hl0 : ∀ p p' : Painted, LoopStrong s s' P
      { b := (countDabs e b x y dt).2, surf := surf, moved := b.st.partialDabs,
        todo := (countDabs e b x y dt).1, dtimeLeft := dt, painted := p }
      { b := (countDabs e b' x y dt).2, surf := surf', moved := b'.st.partialDabs,
        todo := (countDabs e b' x y dt).1, dtimeLeft := dt, painted := p' } :=
    fun p p' => ⟨c2, by dsimp only; rw [h.st], c1, rfl, hl⟩
  have k := dabLoop_strong hg hs hP fuel (hl0 _ _) h1 h1'
  rw [k.todo, k.time, k.b.st] at h2'
  have k1 := (update_strong hs k.b h2 h2').toStrongTwin
  rw [h3, h3', h4, h4', splitStroke_eq, splitStroke_eq { b1' with st := { b1'.st with partialDabs := l'.moved + l'.todo } }]
  refine ⟨{ settings := k1.settings, settings' := k1.settings', st := ?_, vals := k1.vals, skip := k1.skip, skipX := k1.skipX,
            skipY := k1.skipY, skippedTime := k1.skippedTime, reset := k1.reset, rng := k1.rng, random := k1.random }, k.dabs⟩
  show ({ b1'.st with partialDabs := l'.moved + l'.todo } : State K) = { b1.st with partialDabs := l.moved + l.todo }
  rw [k.moved, k.todo, k1.st]

omit [IsStrictOrderedRing K] [FloorRing K] in
theorem skipStage_strong (e : Env K R σ) (h : StrongTwin s s' b b') (x y dt : K) :
    StrongTwin s s' (skipStage e b x y dt).1 (skipStage e b' x y dt).1 ∧ (skipStage e b' x y dt).2 = (skipStage e b x y dt).2 := by
  unfold skipStage
  rw [h.skip, h.skipX, h.skipY, h.skippedTime, h.reset]
  dsimp only
  by_cases q : b.skip > 1 / 1000
  · rw [if_pos q, if_pos q]
    by_cases q' : b.skip - hypot e (b.skipX - x) (b.skipY - y) > 1 / 1000 ∧ ¬ (b.skippedTime + dt > 5 ∨ b.resetRequested = true)
    · rw [if_pos q', if_pos q']
      exact ⟨{ h with skip := rfl, skipX := rfl, skipY := rfl, skippedTime := rfl, reset := rfl }, rfl⟩
    · rw [if_neg q', if_neg q']
      exact ⟨{ h with skip := rfl, skipX := rfl, skipY := rfl, skippedTime := rfl, reset := rfl }, rfl⟩
  · rw [if_neg q, if_neg q]
    exact ⟨h, rfl⟩

omit [IsStrictOrderedRing K] in
theorem cursor_strong (e : Env K R σ) (hs : Stronger s s') (h : StrongTwin s s' b b') (x y dt : K) :
    (cursor e b' x y dt).1 = (cursor e b x y dt).1 ∧ (cursor e b' x y dt).2.1 = (cursor e b x y dt).2.1 ∧
      StrongTwin s s' (cursor e b x y dt).2.2 (cursor e b' x y dt).2.2 := by
  have e1 : b'.st.x = b.st.x := by rw [h.st]
  have e2 : b'.st.y = b.st.y := by rw [h.st]
  unfold cursor
  rw [h.base hs sRadiusLogarithmic (by decide), h.base hs sTrackingNoise (by decide), h.base hs sSlowTracking (by decide), e1, e2, h.rng]
  dsimp only
  by_cases q : b.baseval sTrackingNoise ≠ 0 ∧ e.exp (b.baseval sRadiusLogarithmic) * b.baseval sTrackingNoise > 1 / 1000
  · rw [if_pos q, if_pos q]
    exact ⟨rfl, rfl, { h with skip := rfl, skipX := rfl, skipY := rfl, rng := rfl }⟩
  · rw [if_neg q, if_neg q]
    exact ⟨rfl, rfl, h⟩

theorem strokeEvent_strong {e : Env K R σ} (hg : GrowingLaws e) (hs : Stronger s s') {P : σ → σ → Prop} (hP : DrawnStronger e s s' P) {ev : Event K}
    {fuel : Nat} (h : StrongTwin s s' b b') {surf surf' : σ} (hl : P surf surf')
    {r r' : Bool × Brush K R × σ} (hr : strokeEvent e fuel b surf ev = .ok r)
    (hr' : strokeEvent e fuel b' surf' ev = .ok r') :
    StrongTwin s s' r.2.1 r'.2.1 ∧ P r.2.2 r'.2.2 := by
  obtain ⟨k1, k2⟩ := skipStage_strong e h ev.x ev.y ev.dtime
  obtain ⟨c1, c2, c3⟩ := cursor_strong e hs k1 ev.x ev.y (skipStage e b ev.x ev.y ev.dtime).2.1
  have hc := strokeEvent_cases hr
  have hc' := strokeEvent_cases hr'
  rw [k2, h.reset, c1, c2] at hc'
  rcases hc with ⟨q1, rfl⟩ | ⟨q1, q2, b1, q3, rfl⟩ | ⟨q1, q2, q3⟩
  · rcases hc' with ⟨-, rfl⟩ | ⟨w, -⟩ | ⟨w, -⟩
    · exact ⟨k1, hl⟩
    · rw [q1] at w; cases w
    · rw [q1] at w; cases w
  · rcases hc' with ⟨w, -⟩ | ⟨-, -, b1', w, rfl⟩ | ⟨-, w, -⟩
    · rw [q1] at w; cases w
    · obtain ⟨bk, -, e1⟩ := startOver_eq q3
      obtain ⟨bk', -, e1'⟩ := startOver_eq w
      refine ⟨?_, hl⟩
      dsimp only
      rw [e1, e1']
      refine { settings := c3.settings, settings' := c3.settings', st := rfl, vals := c3.vals, skip := rfl, skipX := rfl,
               skipY := rfl, skippedTime := rfl, reset := rfl, rng := ?_, random := ?_ }
      · dsimp only; rw [c3.rng]
      · dsimp only; rw [c3.rng]
    · exact absurd q2 w
  · rcases hc' with ⟨w, -⟩ | ⟨-, w, -⟩ | ⟨-, -, w⟩
    · rw [q1] at w; cases w
    · exact absurd w q2
    · exact moveTo_strong hg hs hP c3 hl q3 w

theorem strokeTo_strong {e : Env K R σ} (hg : GrowingLaws e) (hs : Stronger s s') {P : σ → σ → Prop} (hP : DrawnStronger e s s' P) {m : Motion K}
    {fuel : Nat} (h : StrongTwin s s' b b') {surf surf' : σ} (hl : P surf surf')
    {r r' : Bool × Brush K R × σ} (hr : strokeTo e fuel b surf m = .ok r)
    (hr' : strokeTo e fuel b' surf' m = .ok r') :
    StrongTwin s s' r.2.1 r'.2.1 ∧ P r.2.2 r'.2.2 := by
  have hw : ∀ ev, Workaround b' ev ↔ Workaround b ev := by
    intro ev
    unfold Workaround
    rw [h.st]
  obtain ⟨ev, he, hc⟩ := strokeTo_cases hr
  obtain ⟨ev', he', hc'⟩ := strokeTo_cases hr'
  rw [he] at he'
  cases he'
  rw [hw] at hc'
  rcases hc with ⟨w, q⟩ | ⟨w, i, r1, h1, h2, h3⟩
  · rcases hc' with ⟨-, q'⟩ | ⟨w', -⟩
    · exact strokeEvent_strong hg hs hP h hl q q'
    · exact absurd w' w
  · rcases hc' with ⟨w', -⟩ | ⟨-, i', r1', h1', h2', h3'⟩
    · exact absurd w w'
    · rw [h1] at h1'
      cases h1'
      obtain ⟨k1, k2⟩ := strokeEvent_strong hg hs hP h hl h2 h2'
      exact strokeEvent_strong hg hs hP k1 k2 h3 h3'

theorem strokes_strong {e : Env K R σ} (hg : GrowingLaws e) (hs : Stronger s s') {P : σ → σ → Prop} (hP : DrawnStronger e s s' P) {fuel : Nat}
    (ms : List (Motion K)) (h : StrongTwin s s' b b') {surf surf' : σ} (hl : P surf surf')
    {r r' : Brush K R × σ} (hr : strokes e fuel b surf ms = .ok r) (hr' : strokes e fuel b' surf' ms = .ok r') : P r.2 r'.2 := by
  induction ms generalizing b b' surf surf' with
  | nil =>
    rw [← Except.ok.inj hr, ← Except.ok.inj hr']
    exact hl
  | cons m ms ih =>
    obtain ⟨r1, h1, hr⟩ := bind_ok hr
    obtain ⟨r1', h1', hr'⟩ := bind_ok hr'
    obtain ⟨k1, k2⟩ := strokeTo_strong hg hs hP h hl h1 h1'
    exact ih k1 k2 hr hr'

/-! ### The theorems -/

/-- **A stronger brush gives no weaker dabs**: the same events give the same dabs, each no less opaque, no less hard and no softer. -/
theorem stronger_dabs {e : Env K R σ} (hg : GrowingLaws e) {b : Brush K R} {s' : Load.Brush K} (hs : Stronger b.settings s')
    (hsh : Sharp b.settings s') {fuel : Nat} {ms : List (Motion K)} {surf surf' : σ} {r r' : Brush K R × (σ × List (Dab.Args K))}
    (h : strokes (recordDabs e) fuel b (surf, []) ms = .ok r)
    (h' : strokes (recordDabs e) fuel { b with settings := s' } (surf', []) ms = .ok r') : List.Forall₂ NoWeaker r.2.2 r'.2.2 :=
  strokes_strong (e := recordDabs e) (b' := { b with settings := s' }) (P := fun x x' => List.Forall₂ NoWeaker x.2 x'.2) ⟨hg.exp, hg.pow⟩ hs
    (fun _ _ _ _ hl ha _ _ _ _ => List.rel_append hl (.cons (ha hsh) .nil)) ms
    ⟨rfl, rfl, rfl, fun _ _ => rfl, rfl, rfl, rfl, rfl, rfl, rfl, rfl⟩ .nil h h'

/-- **With anti-aliasing too**: the dabs are no less opaque, no less hard, no softer and no smaller. -/
theorem stronger_dabs_antialiased {e : Env K R σ} (hg : GrowingLaws e) {b : Brush K R} {s' : Load.Brush K} (hs : Stronger b.settings s')
    (hn : Unsnapped b.settings) {fuel : Nat} {ms : List (Motion K)} {surf surf' : σ} {r r' : Brush K R × (σ × List (Dab.Args K))}
    (h : strokes (recordDabs e) fuel b (surf, []) ms = .ok r)
    (h' : strokes (recordDabs e) fuel { b with settings := s' } (surf', []) ms = .ok r') : List.Forall₂ NoSmaller r.2.2 r'.2.2 :=
  strokes_strong (e := recordDabs e) (b' := { b with settings := s' }) (P := fun x x' => List.Forall₂ NoSmaller x.2 x'.2) ⟨hg.exp, hg.pow⟩ hs
    (fun _ _ _ _ hl _ ha _ _ _ => List.rel_append hl (.cons (ha hn) .nil)) ms
    ⟨rfl, rfl, rfl, fun _ _ => rfl, rfl, rfl, rfl, rfl, rfl, rfl, rfl⟩ .nil h h'

end

namespace Demo

/-- Round dabs with a hardness and a softness. -/
def edged (h s : ℚ) : Brush ℚ Nat :=
  { pressing sOpaque with
    settings := fun k => if k = sHardness then setBase ((pressing sOpaque).settings k) h else if k = sSoftness then constant s else
      if k = sAntiAliasing then constant 0 else (pressing sOpaque).settings k }

/-- The first dabs of a stroke. -/
example : look (fun r => (r.2.take 2).map fun a => (a.x, a.opaque', a.hardness, a.softness)) (strokes env 100 (edged (1 / 2) (1 / 4)) []
    [motion 0 0 (1 / 2) (1 / 10), motion 6 0 (1 / 4) (3 / 40)]) =
    some [(3 / 2, 7 / 16, 1 / 2, 1 / 4), (3, 3 / 8, 1 / 2, 1 / 4)] := by decide +kernel

/-- The same dabs, harder and less soft. -/
example : look (fun r => (r.2.take 2).map fun a => (a.x, a.opaque', a.hardness, a.softness)) (strokes env 100 (edged (3 / 4) 0) []
    [motion 0 0 (1 / 2) (1 / 10), motion 6 0 (1 / 4) (3 / 40)]) =
    some [(3 / 2, 7 / 16, 3 / 4, 0), (3, 3 / 8, 3 / 4, 0)] := by decide +kernel

end Demo
end Verif.Engine
