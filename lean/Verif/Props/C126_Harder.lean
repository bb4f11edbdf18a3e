import Verif.Props.C120_Looks
import Verif.Props.C118_Custom
import Verif.Props.C44_Sampling
import Verif.Props.C30_Mapping

/-!
# C126: pressing harder never paints less

With a brush whose opacity grows with the pressure, and nothing else depends on the pressure, the same movement of the pen with
more pressure gives the same dabs in the same places, each at least as opaque.
-/

namespace Verif.Engine
open Verif.Mask Verif.Color Verif.Spectral Verif.Map

section
variable {K R σ : Type} [Field K] [LinearOrder K] [IsStrictOrderedRing K] [FloorRing K]

/-! ### Specification -/

/-- Two settings of the inputs that differ in the pressure and the phase of the stroke at most. The engine takes a stroke to begin when the
pressure passes a threshold. -/
def ButForPressure (i j : Nat → K) : Prop := ∀ k, k ≠ iPressure → k ≠ iStroke → i k = j k

/-- The pressure makes the brush more opaque and does nothing else. The brush does not smudge. -/
structure PressedForOpacity (s : Load.Brush K) : Prop where
  only : ∀ id, id ≠ sOpaque → id ≠ sOpaqueMultiply → ∀ i j, ButForPressure i j → calculate (s id) i = calculate (s id) j
  more : ∀ id, id = sOpaque ∨ id = sOpaqueMultiply → ∀ i j, ButForPressure i j → i iPressure ≤ j iPressure →
    calculate (s id) i ≤ calculate (s id) j
  smudge : (∀ i, calculate (s sSmudge) i = 0) ∧ isConstant (s sSmudge) = true
  linearize : 0 ≤ (s sOpaqueLinearize).base

/-- The same event with at least the pressure, reported within a tenth of a second. -/
def PressedHarder (m m' : Motion K) : Prop := m.pressure ≤ m'.pressure ∧ m' = { m with pressure := m'.pressure } ∧ m.dtime ≤ 1 / 10

/-- The same dab, at least as opaque. -/
def AtLeastAsOpaque (a a' : Dab.Args K) : Prop := a.opaque' ≤ a'.opaque' ∧ a' = { a with opaque' := a'.opaque' }

/-- What is needed of `exp` and `pow`. -/
structure GrowingLaws (e : Env K R σ) : Prop where
  exp : ∀ x, 0 ≤ e.exp x
  pow : ∀ a c t, 0 ≤ a → a ≤ c → 0 < t → e.pow a t ≤ e.pow c t

/-- What else the settings say about a dab. -/
def LooksOf (s : Load.Brush K) (a : Dab.Args K) : Prop :=
  ∃ i, a.lockAlpha = calculate (s sLockAlpha) i ∧ a.colorize = calculate (s sColorize) i ∧ a.posterize = calculate (s sPosterize) i ∧
    a.paint = calculate (s sPaintMode) i ∧ a.colorA = 1 - calculate (s sEraser) i

/-- Drawing dabs that are at least as opaque keeps a relation between the surfaces. -/
def DrawnHarder (e : Env K R σ) (s : Load.Brush K) (P : σ → σ → Prop) : Prop :=
  ∀ surf surf' a a', P surf surf' → AtLeastAsOpaque a a' → LooksOf s a → P (e.draw surf a).2 (e.draw surf' a').2

/-! ### Two brushes side by side -/

/-- The second brush is pressed harder. -/
structure MorePressed (s : Load.Brush K) (b b' : Brush K R) : Prop where
  settings : b.settings = s
  settings' : b'.settings = s
  st : b'.st = { b.st with pressure := b'.st.pressure, stroke := b'.st.stroke, strokeStarted := b'.st.strokeStarted }
  press : b.st.pressure ≤ b'.st.pressure
  vals : ∀ id, id ≠ sOpaque → id ≠ sOpaqueMultiply → b'.vals id = b.vals id
  skip : b'.skip = b.skip
  skipX : b'.skipX = b.skipX
  skipY : b'.skipY = b.skipY
  skippedTime : b'.skippedTime = b.skippedTime
  reset : b'.resetRequested = b.resetRequested
  rng : b'.rng = b.rng
  random : b'.random = b.random

/-- After a step. -/
structure PressedOn (s : Load.Brush K) (b b' : Brush K R) : Prop extends MorePressed s b b' where
  on : ∃ i, b.vals = fun id => calculate (s id) i
  opaque' : b.vals sOpaque ≤ b'.vals sOpaque
  multiply : b.vals sOpaqueMultiply ≤ b'.vals sOpaqueMultiply

variable {s : Load.Brush K} {b b' : Brush K R}

omit [IsStrictOrderedRing K] [FloorRing K] in
theorem MorePressed.base (h : MorePressed s b b') (id : Nat) : b'.baseval id = b.baseval id := by
  unfold Brush.baseval
  rw [h.settings, h.settings']

omit [IsStrictOrderedRing K] in
theorem moveStates_pressed (e : Env K R σ) (h : MorePressed s b b') {t t' : Step K} (ht : t' = { t with dpressure := t'.dpressure }) :
    moveStates e b' t' = { moveStates e b t with pressure := (moveStates e b' t').pressure, stroke := (moveStates e b' t').stroke,
                                                 strokeStarted := (moveStates e b' t').strokeStarted } := by
  have hst := h.st
  have hv := h.vals
  unfold moveStates
  dsimp only
  rw [hv sGridmapScale (by decide) (by decide), hv sGridmapScaleX (by decide) (by decide), hv sGridmapScaleY (by decide) (by decide)]
  rw [ht]
  dsimp only
  generalize b'.st.pressure = p at *
  generalize b'.st.stroke = q at *
  generalize b'.st.strokeStarted = r at *
  rw [hst]

omit [FloorRing K] [IsStrictOrderedRing K] in
theorem cut_mono {p q : K} (h : p ≤ q) : (if p ≤ 0 then 0 else p : K) ≤ if q ≤ 0 then 0 else q := by
  split_ifs with h1 h2 h2
  · exact le_refl _
  · exact (not_le.mp h2).le
  · exact absurd (h.trans h2) h1
  · exact h

theorem update_pressed {e : Env K R σ} (hg : GrowingLaws e) (hs : PressedForOpacity s) (h : MorePressed s b b') {t t' : Step K}
    (ht : t' = { t with dpressure := t'.dpressure }) (hp : b.st.pressure + t.dpressure ≤ b'.st.pressure + t'.dpressure) {c c' : Brush K R}
    (hu : update e b t = .ok c) (hu' : update e b' t' = .ok c') : PressedOn s c c' := by
  have hm := moveStates_pressed e h ht
  have hpm : (moveStates e b t).pressure ≤ (moveStates e b' t').pressure := by
    unfold moveStates
    exact cut_mono hp
  have hbut : ButForPressure (inputsOf e b (moveStates e b t)).get (inputsOf e b' (moveStates e b' t')).get := by
    intro k hk hk'
    rw [hm]
    unfold Inputs.get inputsOf
    dsimp only
    rw [h.base sRadiusLogarithmic, h.base sSpeed1Gamma, h.base sSpeed2Gamma, h.random]
    simp only [hk, hk', if_false]
  have hpr : (inputsOf e b (moveStates e b t)).get iPressure ≤ (inputsOf e b' (moveStates e b' t')).get iPressure := by
    show (moveStates e b t).pressure * e.exp (b.baseval sPressureGainLog) ≤ (moveStates e b' t').pressure * e.exp (b'.baseval sPressureGainLog)
    rw [h.base]
    exact mul_le_mul_of_nonneg_right hpm (hg.exp _)
  have hv : ∀ id, id ≠ sOpaque → id ≠ sOpaqueMultiply → settingValues b'.settings (inputsOf e b' (moveStates e b' t')) id =
      settingValues b.settings (inputsOf e b (moveStates e b t)) id := by
    intro id h1 h2
    unfold settingValues
    rw [h.settings, h.settings']
    exact (hs.only id h1 h2 _ _ hbut).symm
  have hmore : ∀ id, id = sOpaque ∨ id = sOpaqueMultiply → settingValues b.settings (inputsOf e b (moveStates e b t)) id ≤
      settingValues b'.settings (inputsOf e b' (moveStates e b' t')) id := by
    intro id h1
    unfold settingValues
    rw [h.settings, h.settings']
    exact hs.more id h1 _ _ hbut hpr
  have e1 := update_eq hu
  have e2 := update_eq hu'
  have hf : c'.st = { c.st with pressure := c'.st.pressure, stroke := c'.st.stroke, strokeStarted := c'.st.strokeStarted } ∧
      c.st.pressure = (moveStates e b t).pressure ∧ c'.st.pressure = (moveStates e b' t').pressure := by
    rw [e1, e2]
    dsimp only
    generalize settingValues b'.settings (inputsOf e b' (moveStates e b' t')) = v' at hv ⊢
    generalize settingValues b.settings (inputsOf e b (moveStates e b t)) = v at hv ⊢
    generalize moveStates e b' t' = u' at hm ⊢
    generalize moveStates e b t = u at hm ⊢
    unfold followStates
    dsimp only
    rw [h.base sRadiusLogarithmic, hv sSlowTrackingPerDab (by decide) (by decide), hv sSpeed1Slowness (by decide) (by decide),
      hv sSpeed2Slowness (by decide) (by decide), hv sOffsetBySpeedSlowness (by decide) (by decide),
      hv sDirectionFilter (by decide) (by decide), hv sCustomInputSlowness (by decide) (by decide),
      hv sDabsPerBasicRadius (by decide) (by decide), hv sDabsPerActualRadius (by decide) (by decide),
      hv sDabsPerSecond (by decide) (by decide), hv sCustomInput (by decide) (by decide),
      hv sRadiusLogarithmic (by decide) (by decide), hv sEllipticalDabRatio (by decide) (by decide),
      hv sEllipticalDabAngle (by decide) (by decide)]
    rw [ht]
    dsimp only
    refine ⟨?_, rfl, rfl⟩
    generalize strokeLength e v' u'.stroke _ = q
    generalize u'.pressure = p at *
    generalize u'.strokeStarted = r at *
    rw [hm]
  obtain ⟨hf1, hf2, hf3⟩ := hf
  refine { settings := ?_, settings' := ?_, st := hf1, press := ?_, vals := ?_, skip := ?_, skipX := ?_, skipY := ?_, skippedTime := ?_,
           reset := ?_, rng := ?_, random := ?_, on := ?_, opaque' := ?_, multiply := ?_ }
  · rw [e1]; exact h.settings
  · rw [e2]; exact h.settings'
  · rw [hf2, hf3]; exact hpm
  · rw [e1, e2]; exact hv
  · rw [e1, e2]; exact h.skip
  · rw [e1, e2]; exact h.skipX
  · rw [e1, e2]; exact h.skipY
  · rw [e1, e2]; exact h.skippedTime
  · rw [e1, e2]; exact h.reset
  · rw [e1, e2]; exact h.rng
  · rw [e1, e2]; exact h.random
  · rw [e1]; dsimp only; rw [h.settings]; exact ⟨_, rfl⟩
  · rw [e1, e2]; exact hmore _ (.inl rfl)
  · rw [e1, e2]; exact hmore _ (.inr rfl)

/-! ### The dab -/

omit [FloorRing K] in
theorem product_mono {o o' m m' : K} (h : o ≤ o') (hm : m ≤ m') :
    clampK (maxC 0 o * m) 0 1 ≤ clampK (maxC 0 o' * m') 0 1 := by
  have hr : ∀ a : K, 0 ≤ clampK a 0 1 := by
    intro a
    unfold clampK
    split_ifs <;> linarith
  have hc : ∀ a c : K, a ≤ c → clampK a 0 1 ≤ clampK c 0 1 := by
    intro a c hac
    unfold clampK
    split_ifs <;> linarith
  have h0 : ∀ a : K, 0 ≤ maxC 0 a ∧ (∀ c, a ≤ c → maxC 0 a ≤ maxC 0 c) := by
    intro a
    unfold maxC
    refine ⟨by split_ifs <;> linarith, fun c hc => by split_ifs <;> linarith⟩
  rcases le_total 0 m' with q | q
  · refine hc _ _ ?_
    calc maxC 0 o * m ≤ maxC 0 o * m' := mul_le_mul_of_nonneg_left hm (h0 o).1
      _ ≤ maxC 0 o' * m' := mul_le_mul_of_nonneg_right ((h0 o).2 _ h) q
  · have : maxC 0 o * m ≤ 0 := mul_nonpos_of_nonneg_of_nonpos (h0 o).1 (hm.trans q)
    have : clampK (maxC 0 o * m) 0 1 ≤ clampK 0 0 1 := hc _ _ this
    refine this.trans ?_
    have e0 : clampK (0 : K) 0 1 = 0 := by
      unfold clampK
      split_ifs <;> linarith
    rw [e0]
    exact hr _

omit [FloorRing K] in
theorem dabOpacity_pressed {e : Env K R σ} (hg : GrowingLaws e) (hs : PressedForOpacity s) (h : PressedOn s b b') {o o' : K}
    (ho : dabOpacity e b = .ok o) (ho' : dabOpacity e b' = .ok o') : o ≤ o' := by
  have hm := product_mono h.opaque' h.multiply
  have e1 : b'.st.dabsPerActualRadius = b.st.dabsPerActualRadius := by rw [h.st]
  have e2 : b'.st.dabsPerBasicRadius = b.st.dabsPerBasicRadius := by rw [h.st]
  have hl : 0 ≤ b.baseval sOpaqueLinearize := by
    unfold Brush.baseval
    rw [h.settings]
    exact hs.linearize
  have h1 : clampK (maxC 0 (b'.vals sOpaque) * b'.vals sOpaqueMultiply) 0 1 ≤ 1 := by
    unfold clampK
    split_ifs <;> linarith
  unfold dabOpacity at ho ho'
  rw [h.base, e1, e2] at ho'
  dsimp only at ho ho'
  generalize clampK (maxC 0 (b.vals sOpaque) * b.vals sOpaqueMultiply) 0 1 = p at *
  generalize clampK (maxC 0 (b'.vals sOpaque) * b'.vals sOpaqueMultiply) 0 1 = p' at *
  generalize b.baseval sOpaqueLinearize = l at *
  by_cases hz : l = 0
  · rw [if_pos hz] at ho ho'
    rw [← Except.ok.inj ho, ← Except.ok.inj ho']
    exact hm
  rw [if_neg hz] at ho ho'
  generalize (b.st.dabsPerActualRadius + b.st.dabsPerBasicRadius) * 2 = d at *
  have hd : (1 : K) ≤ if d < 1 then 1 else d := by
    split_ifs with q
    · exact le_refl _
    · exact not_lt.mp q
  generalize (if d < 1 then 1 else d) = d at *
  have hd0 : 0 < 1 + l * (d - 1) := by
    have := mul_nonneg hl (sub_nonneg.mpr hd)
    linarith
  rw [if_neg hd0.ne'] at ho ho'
  rw [← Except.ok.inj ho, ← Except.ok.inj ho']
  have := hg.pow (1 - p') (1 - p) (1 / (1 + l * (d - 1))) (sub_nonneg.mpr h1) (by linarith) (one_div_pos.mpr hd0)
  linarith

omit [IsStrictOrderedRing K] in
theorem dabPosition_pressed {e : Env K R σ} (h : MorePressed s b b') {p p' : K × K × Brush K R}
    (hp : dabPosition e b = .ok p) (hp' : dabPosition e b' = .ok p') :
    p'.1 = p.1 ∧ p'.2.1 = p.2.1 ∧ p.2.2 = { b with rng := p.2.2.rng } ∧ p'.2.2 = { b' with rng := p.2.2.rng } := by
  have hst := h.st
  have ho : ∀ r f, directionalOffsets e b' r f = directionalOffsets e b r f := by
    intro r f
    unfold directionalOffsets
    rw [hst]
    dsimp only
    rw [h.vals sOffsetAngleAdj (by decide) (by decide), h.vals sOffsetAngle2 (by decide) (by decide),
      h.vals sOffsetAngle2Asc (by decide) (by decide), h.vals sOffsetAngle2View (by decide) (by decide),
      h.vals sOffsetX (by decide) (by decide), h.vals sOffsetY (by decide) (by decide),
      h.vals sOffsetAngle (by decide) (by decide), h.vals sOffsetAngleAsc (by decide) (by decide),
      h.vals sOffsetAngleView (by decide) (by decide), h.vals sOffsetMultiplier (by decide) (by decide)]
  have e1 : b'.st.flip = b.st.flip := by rw [hst]
  have e2 : b'.st.actualX = b.st.actualX := by rw [hst]
  have e3 : b'.st.actualY = b.st.actualY := by rw [hst]
  have e4 : b'.st.viewzoom = b.st.viewzoom := by rw [hst]
  have e5 : b'.st.normDxSlow = b.st.normDxSlow := by rw [hst]
  have e6 : b'.st.normDySlow = b.st.normDySlow := by rw [hst]
  unfold dabPosition at hp hp'
  dsimp only at hp hp'
  rw [ho, e1, e2, e3, e4, e5, e6, h.base sRadiusLogarithmic, h.vals sOffsetBySpeed (by decide) (by decide),
    h.vals sOffsetByRandom (by decide) (by decide), h.rng] at hp'
  by_cases hz : b.vals sOffsetBySpeed ≠ 0 ∧ b.st.viewzoom = 0
  · rw [if_pos hz] at hp
    cases hp
  rw [if_neg hz] at hp hp'
  by_cases hr : b.vals sOffsetByRandom ≠ 0
  · rw [if_pos hr] at hp hp'
    rw [← Except.ok.inj hp, ← Except.ok.inj hp']
    exact ⟨rfl, rfl, rfl, rfl⟩
  · rw [if_neg hr] at hp hp'
    rw [← Except.ok.inj hp, ← Except.ok.inj hp']
    refine ⟨rfl, rfl, rfl, ?_⟩
    dsimp only
    rw [← h.rng]

omit [FloorRing K] in
theorem dabRadius_pressed {e : Env K R σ} (h : MorePressed s b b') {o o' : K} (ho : o ≤ o') :
    (dabRadius e b' o').1 = (dabRadius e b o).1 ∧ (dabRadius e b o).2.1 ≤ (dabRadius e b' o').2.1 ∧
      (dabRadius e b o).2.2 = { b with rng := (dabRadius e b o).2.2.rng } ∧
      (dabRadius e b' o').2.2 = { b' with rng := (dabRadius e b o).2.2.rng } := by
  have e1 : b'.st.actualRadius = b.st.actualRadius := by rw [h.st]
  unfold dabRadius
  dsimp only
  rw [h.vals sRadiusByRandom (by decide) (by decide), h.vals sRadiusLogarithmic (by decide) (by decide), h.rng, e1]
  by_cases q : b.vals sRadiusByRandom ≠ 0
  · simp only [if_pos q]
    refine ⟨trivial, ?_, trivial, trivial⟩
    split_ifs
    · exact mul_le_mul_of_nonneg_right ho (mul_self_nonneg _)
    · exact ho
  · simp only [if_neg q]
    refine ⟨trivial, ho, trivial, ?_⟩
    rw [← h.rng]

omit [IsStrictOrderedRing K] in
theorem smudge_none {e : Env K R σ} (hs : PressedForOpacity s) {b : Brush K R} (hb : b.settings = s) (hv : b.vals sSmudge = 0) (surf : σ)
    (x y r : K) (c : Rgb K) : smudgeStage e b surf x y r = .ok (false, b, surf) ∧ smudgeColor e b c = .ok (1, c, b) := by
  constructor
  · unfold smudgeStage
    rw [if_neg]
    · rfl
    · rintro ⟨-, q | q⟩
      · exact q hv
      · rw [hb, hs.smudge.2] at q
        cases q
  · unfold smudgeColor
    rw [hv, if_neg (lt_irrefl _)]
    rfl

theorem drawDab_pressed {e : Env K R σ} (hg : GrowingLaws e) (hs : PressedForOpacity s) {P : σ → σ → Prop} (hP : DrawnHarder e s P) (h : PressedOn s b b')
    {surf surf' : σ} (hl : P surf surf') {lin : Bool} {p p' : Bool × Brush K R × (σ)}
    (hp : drawDab e b surf lin = .ok p) (hp' : drawDab e b' surf' lin = .ok p') :
    MorePressed s p.2.1 p'.2.1 ∧ P p.2.2 p'.2.2 := by
  obtain ⟨i, hi⟩ := h.on
  have hv : b.vals sSmudge = 0 := by rw [hi]; exact hs.smudge.1 i
  have hv' : b'.vals sSmudge = 0 := by rw [h.vals _ (by decide) (by decide)]; exact hv
  unfold drawDab at hp hp'
  obtain ⟨o, ho, hp⟩ := bind_ok hp
  obtain ⟨o', ho', hp'⟩ := bind_ok hp'
  obtain ⟨pos, h2, hp⟩ := bind_ok hp
  obtain ⟨pos', h2', hp'⟩ := bind_ok hp'
  have k1 := dabOpacity_pressed hg hs h ho ho'
  obtain ⟨x1, x2, x3, x4⟩ := dabPosition_pressed h.toMorePressed h2 h2'
  have hpos : MorePressed s pos.2.2 pos'.2.2 := by
    rw [x4, x3]
    exact { h.toMorePressed with rng := rfl }
  obtain ⟨y1, y2, y3, y4⟩ := dabRadius_pressed (e := e) hpos k1
  generalize dabRadius e pos.2.2 o = rad at *
  generalize dabRadius e pos'.2.2 o' = rad' at *
  have z1 : rad.2.2 = { b with rng := rad.2.2.rng } := by
    rw [y3, x3]
  have z2 : rad'.2.2 = { b' with rng := rad.2.2.rng } := by
    rw [y4, x4]
  dsimp only at hp hp'
  rw [(smudge_none (e := e) hs (b := rad.2.2) (by rw [z1]; exact h.settings) (by rw [z1]; exact hv) surf _ _ _ ⟨0, 0, 0⟩).1] at hp
  rw [(smudge_none (e := e) hs (b := rad'.2.2) (by rw [z2]; exact h.settings') (by rw [z2]; exact hv') surf' _ _ _ ⟨0, 0, 0⟩).1] at hp'
  obtain ⟨sm, hsm, hp⟩ := bind_ok hp
  obtain ⟨sm', hsm', hp'⟩ := bind_ok hp'
  rw [← Except.ok.inj hsm] at hp
  rw [← Except.ok.inj hsm'] at hp'
  simp only [Bool.false_eq_true, if_false] at hp hp'
  rw [(smudge_none (e := e) hs (b := rad.2.2) (by rw [z1]; exact h.settings) (by rw [z1]; exact hv) surf 0 0 0 _).2] at hp
  rw [(smudge_none (e := e) hs (b := rad'.2.2) (by rw [z2]; exact h.settings') (by rw [z2]; exact hv') surf' 0 0 0 _).2] at hp'
  obtain ⟨col, hcol, hp⟩ := bind_ok hp
  obtain ⟨col', hcol', hp'⟩ := bind_ok hp'
  rw [← Except.ok.inj hcol] at hp
  rw [← Except.ok.inj hcol'] at hp'
  rw [← Except.ok.inj hp, ← Except.ok.inj hp']
  dsimp only
  refine ⟨?_, hP _ _ _ _ hl ?_ ?_⟩
  · rw [z2, z1]
    exact { h.toMorePressed with rng := rfl }
  · have hst := h.st
    have w1 : b'.st.ratio = b.st.ratio := by rw [hst]
    have w2 : b'.st.angle = b.st.angle := by rw [hst]
    have hc : ∀ c, colorDynamics e { b' with rng := rad.2.2.rng } lin c = colorDynamics e { b with rng := rad.2.2.rng } lin c := by
      intro c
      unfold colorDynamics
      dsimp only
      rw [h.vals sChangeColorH (by decide) (by decide), h.vals sChangeColorHsvS (by decide) (by decide),
        h.vals sChangeColorV (by decide) (by decide), h.vals sChangeColorL (by decide) (by decide),
        h.vals sChangeColorHslS (by decide) (by decide)]
    have ha : ∀ x r, antiAlias { b' with rng := rad.2.2.rng } x r = antiAlias { b with rng := rad.2.2.rng } x r := by
      intro x r
      unfold antiAlias
      dsimp only
      rw [h.vals sAntiAliasing (by decide) (by decide)]
    have hn : ∀ x y r, snap { b' with rng := rad.2.2.rng } x y r = snap { b with rng := rad.2.2.rng } x y r := by
      intro x y r
      unfold snap
      dsimp only
      rw [h.vals sSnapToPixel (by decide) (by decide)]
    rw [z2, z1]
    unfold AtLeastAsOpaque dabArgs
    dsimp only
    refine ⟨y2, ?_⟩
    rw [hc, ha, hn, x1, x2, y1, w1, w2, h.base sColorH, h.base sColorS, h.base sColorV, h.vals sEraser (by decide) (by decide),
      h.vals sHardness (by decide) (by decide), h.vals sSoftness (by decide) (by decide), h.vals sLockAlpha (by decide) (by decide),
      h.vals sColorize (by decide) (by decide), h.vals sPosterize (by decide) (by decide),
      h.vals sPosterizeNum (by decide) (by decide), h.vals sPaintMode (by decide) (by decide)]
  · refine ⟨i, ?_, ?_, ?_, ?_, ?_⟩
    · rw [z1]; exact congrFun hi _
    · rw [z1]; exact congrFun hi _
    · rw [z1]; exact congrFun hi _
    · rw [z1]; exact congrFun hi _
    · have hie : b.vals sEraser = calculate (s sEraser) i := congrFun hi _
      rw [z1]
      unfold dabArgs
      dsimp only
      rw [hie]
      split_ifs with q
      · rw [one_mul]
      · rw [not_not] at q
        rw [q, sub_zero]

/-! ### Sessions -/

omit [IsStrictOrderedRing K] [FloorRing K] in
theorem countDabs_pressed {e : Env K R σ} (h : MorePressed s b b') (x y dt : K) :
    (countDabs e b' x y dt).1 = (countDabs e b x y dt).1 ∧ MorePressed s (countDabs e b x y dt).2 (countDabs e b' x y dt).2 := by
  have hb := h.base sRadiusLogarithmic
  have key : ∀ p q r, { b.st with pressure := p, stroke := q, strokeStarted := r } = b'.st →
      (countDabs e b' x y dt).1 = (countDabs e b x y dt).1 ∧
      (countDabs e b' x y dt).2.st = { (countDabs e b x y dt).2.st with pressure := p, stroke := q, strokeStarted := r } ∧
      (countDabs e b x y dt).2.st.pressure = b.st.pressure := by
    intro p q r hw
    unfold countDabs
    rw [hb, ← hw]
    dsimp only
    by_cases q : b.st.actualRadius = 0
    · simp only [if_pos q, and_self]
    · simp only [if_neg q, and_self]
  obtain ⟨k1, k2, k3⟩ := key _ _ _ h.st.symm
  refine ⟨k1, { settings := h.settings, settings' := h.settings', st := ?_, press := ?_, vals := h.vals, skip := h.skip, skipX := h.skipX,
                skipY := h.skipY, skippedTime := h.skippedTime, reset := h.reset, rng := h.rng, random := h.random }⟩
  · rw [k2]
  · rw [k3, k2]; exact h.press

/-- Two loops side by side. -/
structure LoopPressed (s : Load.Brush K) (P : σ → σ → Prop) (l l' : Loop K R (σ)) : Prop where
  b : MorePressed s l.b l'.b
  moved : l'.moved = l.moved
  todo : l'.todo = l.todo
  time : l'.dtimeLeft = l.dtimeLeft
  dabs : P l.surf l'.surf
  moved0 : 0 ≤ l.moved
  moved1 : l.moved < 1
  todo0 : 0 ≤ l.todo

/-- The same event, pressed harder. -/
def EventPressed (ev ev' : Event K) : Prop := ev.pressure ≤ ev'.pressure ∧ ev' = { ev with pressure := ev'.pressure }

omit [IsStrictOrderedRing K] in
theorem stepTo_pressed (h : MorePressed s b b') {ev ev' : Event K} (he : EventPressed ev ev') (x y d f t : K) :
    stepTo b'.st ev' x y d f t = { stepTo b.st ev x y d f t with dpressure := (stepTo b'.st ev' x y d f t).dpressure } := by
  have hst := h.st
  have hev := he.2
  unfold stepTo
  dsimp only
  generalize b'.st.pressure = p at *
  generalize ev'.pressure = q at *
  rw [hst, hev]

theorem press_between (h : MorePressed s b b') {ev ev' : Event K} (he : EventPressed ev ev') (x y d t : K) {f : K} (f0 : 0 ≤ f) (f1 : f ≤ 1) :
    b.st.pressure + (stepTo b.st ev x y d f t).dpressure ≤ b'.st.pressure + (stepTo b'.st ev' x y d f t).dpressure := by
  show b.st.pressure + f * (ev.pressure - b.st.pressure) ≤ b'.st.pressure + f * (ev'.pressure - b'.st.pressure)
  have h1 := mul_nonneg f0 (sub_nonneg.mpr he.1)
  have h2 := mul_nonneg (sub_nonneg.mpr f1) (sub_nonneg.mpr h.press)
  nlinarith

theorem dabStep_pressed {e : Env K R σ} (hg : GrowingLaws e) (hs : PressedForOpacity s) {P : σ → σ → Prop} (hP : DrawnHarder e s P) {ev ev' : Event K} (he : EventPressed ev ev')
    {x y : K} {l l' m m' : Loop K R (σ)} (hc : l.moved + l.todo ≥ 1) (h : LoopPressed s P l l')
    (hm : dabStep e ev x y l = .ok m) (hm' : dabStep e ev' x y l' = .ok m') : LoopPressed s P m m' := by
  obtain ⟨hz, b1, p, b2, hu, hp, e1, e2⟩ := dabStep_eq hm
  obtain ⟨-, b1', p', b2', hu', hp', e1', e2'⟩ := dabStep_eq hm'
  obtain ⟨-, f0, f1, -⟩ := fraction_range h.moved0 h.moved1 hz h.todo0 hc
  rw [h.moved, h.todo, h.time] at hu'
  have k1 := update_pressed hg hs h.b (stepTo_pressed h.b he _ _ _ _ _) (press_between h.b he _ _ _ _ f0 f1) hu hu'
  have k2 : PressedOn s { b1 with st := { b1.st with flip := b1.st.flip * -1 } } { b1' with st := { b1'.st with flip := b1'.st.flip * -1 } } := by
    refine { k1 with st := ?_ }
    show { b1'.st with flip := b1'.st.flip * -1 } = { b1.st with flip := b1.st.flip * -1, pressure := b1'.st.pressure, stroke := b1'.st.stroke,
                                                                  strokeStarted := b1'.st.strokeStarted }
    have := k1.st
    generalize b1'.st.pressure = p at *
    generalize b1'.st.stroke = q at *
    generalize b1'.st.strokeStarted = r at *
    rw [this]
  have hlin : ev'.linear = ev.linear := by rw [he.2]
  rw [hlin] at hp'
  obtain ⟨k3, k6⟩ := drawDab_pressed hg hs hP k2 h.dabs hp hp'
  have k4 : MorePressed s b2 b2' := by
    rw [e1, e1']
    refine { k3 with rng := ?_, random := ?_ }
    · dsimp only; rw [k3.rng]
    · dsimp only; rw [k3.rng]
  have k5 := countDabs_pressed (e := e) k4 x y
    (l.dtimeLeft - (if l.moved > 0 then 1 - l.moved else 1) / l.todo * l.dtimeLeft)
  rw [e2, e2']
  refine ⟨?_, ?_, ?_, ?_, ?_, ?_, ?_, ?_⟩
  · dsimp only; rw [h.moved, h.todo, h.time]; exact k5.2
  · dsimp only; rw [h.moved]
  · dsimp only; rw [h.moved, h.todo, h.time]; exact k5.1
  · dsimp only; rw [h.moved, h.todo, h.time]
  · exact k6
  · dsimp only
    split_ifs
    · exact le_refl _
    · exact h.moved0
  · dsimp only
    split_ifs
    · exact zero_lt_one
    · exact h.moved1
  · exact countDabs_nonneg _ _ _ _ _

theorem dabLoop_pressed {e : Env K R σ} (hg : GrowingLaws e) (hs : PressedForOpacity s) {P : σ → σ → Prop} (hP : DrawnHarder e s P) {ev ev' : Event K} (he : EventPressed ev ev')
    {x y : K} (fuel : Nat) {l l' m m' : Loop K R (σ)} (h : LoopPressed s P l l')
    (hm : dabLoop e ev x y fuel l = .ok m) (hm' : dabLoop e ev' x y fuel l' = .ok m') : LoopPressed s P m m' := by
  induction fuel generalizing l l' with
  | zero =>
    unfold dabLoop at hm hm'
    rw [h.moved, h.todo] at hm'
    split_ifs at hm hm'
    rw [← Except.ok.inj hm, ← Except.ok.inj hm']
    exact h
  | succ n ih =>
    unfold dabLoop at hm hm'
    rw [h.moved, h.todo] at hm'
    split_ifs at hm hm' with hc
    · obtain ⟨l1, h1, hm⟩ := bind_ok hm
      obtain ⟨l1', h1', hm'⟩ := bind_ok hm'
      exact ih (dabStep_pressed hg hs hP he hc h h1 h1') hm hm'
    · rw [← Except.ok.inj hm, ← Except.ok.inj hm']
      exact h

theorem moveTo_pressed {e : Env K R σ} (hg : GrowingLaws e) (hs : PressedForOpacity s) {P : σ → σ → Prop} (hP : DrawnHarder e s P) {ev ev' : Event K} (he : EventPressed ev ev')
    {x y dt : K} {fuel : Nat} (h : MorePressed s b b') (hb : PendingOk b) {surf surf' : σ}
    (hl : P surf surf')
    {r r' : Bool × Brush K R × (σ)} (hr : moveTo e fuel b surf ev x y dt = .ok r)
    (hr' : moveTo e fuel b' surf' ev' x y dt = .ok r') :
    MorePressed s r.2.1 r'.2.1 ∧ P r.2.2 r'.2.2 := by
  obtain ⟨l, b1, h1, h2, -, h3, h4⟩ := moveTo_eq hr
  obtain ⟨l', b1', h1', h2', -, h3', h4'⟩ := moveTo_eq hr'
  obtain ⟨c1, c2⟩ := countDabs_pressed (e := e) h x y dt
  have hl0 : ∀ p p' : Painted, LoopPressed s P
      { b := (countDabs e b x y dt).2, surf := surf, moved := b.st.partialDabs,
        todo := (countDabs e b x y dt).1, dtimeLeft := dt, painted := p }
      { b := (countDabs e b' x y dt).2, surf := surf', moved := b'.st.partialDabs,
        todo := (countDabs e b' x y dt).1, dtimeLeft := dt, painted := p' } :=
    fun p p' => ⟨c2, by dsimp only; rw [h.st], c1, rfl, hl, hb.1, hb.2, countDabs_nonneg _ _ _ _ _⟩
  have k := dabLoop_pressed hg hs hP he fuel (hl0 _ _) h1 h1'
  rw [k.todo, k.time] at h2'
  have k1 := (update_pressed hg hs k.b (stepTo_pressed k.b he _ _ _ _ _) (press_between k.b he _ _ _ _ zero_le_one (le_refl _)) h2 h2').toMorePressed
  rw [h3, h3', h4, h4', splitStroke_eq, splitStroke_eq { b1' with st := { b1'.st with partialDabs := l'.moved + l'.todo } }]
  refine ⟨{ settings := k1.settings, settings' := k1.settings', st := ?_, press := k1.press, vals := k1.vals, skip := k1.skip, skipX := k1.skipX,
            skipY := k1.skipY, skippedTime := k1.skippedTime, reset := k1.reset, rng := k1.rng, random := k1.random }, k.dabs⟩
  have := k1.st
  show ({ b1'.st with partialDabs := l'.moved + l'.todo } : State K) = { b1.st with partialDabs := l.moved + l.todo, pressure := b1'.st.pressure, stroke := b1'.st.stroke, strokeStarted := b1'.st.strokeStarted }
  rw [k.moved, k.todo]
  generalize b1'.st.pressure = p at *
  generalize b1'.st.stroke = q at *
  generalize b1'.st.strokeStarted = r at *
  rw [this]

omit [IsStrictOrderedRing K] [FloorRing K] in
theorem skipStage_pressed (e : Env K R σ) (h : MorePressed s b b') (x y dt : K) :
    MorePressed s (skipStage e b x y dt).1 (skipStage e b' x y dt).1 ∧ (skipStage e b' x y dt).2 = (skipStage e b x y dt).2 := by
  unfold skipStage
  rw [h.skip, h.skipX, h.skipY, h.skippedTime, h.reset]
  dsimp only
  by_cases q : b.skip > 1 / 1000
  · rw [if_pos q, if_pos q]
    by_cases q' : b.skip - hypot e (b.skipX - x) (b.skipY - y) > 1 / 1000 ∧ ¬ (b.skippedTime + dt > 5 ∨ b.resetRequested = true)
    · rw [if_pos q', if_pos q']
      exact ⟨{ h with skip := rfl, skipX := rfl, skipY := rfl, skippedTime := rfl, reset := rfl }, rfl⟩
    · rw [if_neg q', if_neg q']
      exact ⟨{ h with skip := rfl, skipX := rfl, skipY := rfl, skippedTime := rfl, reset := rfl }, rfl⟩
  · rw [if_neg q, if_neg q]
    exact ⟨h, rfl⟩

omit [IsStrictOrderedRing K] in
theorem cursor_pressed (e : Env K R σ) (h : MorePressed s b b') (x y dt : K) :
    (cursor e b' x y dt).1 = (cursor e b x y dt).1 ∧ (cursor e b' x y dt).2.1 = (cursor e b x y dt).2.1 ∧
      MorePressed s (cursor e b x y dt).2.2 (cursor e b' x y dt).2.2 := by
  have e1 : b'.st.x = b.st.x := by rw [h.st]
  have e2 : b'.st.y = b.st.y := by rw [h.st]
  unfold cursor
  rw [h.base sRadiusLogarithmic, h.base sTrackingNoise, h.base sSlowTracking, e1, e2, h.rng]
  dsimp only
  by_cases q : b.baseval sTrackingNoise ≠ 0 ∧ e.exp (b.baseval sRadiusLogarithmic) * b.baseval sTrackingNoise > 1 / 1000
  · rw [if_pos q, if_pos q]
    exact ⟨rfl, rfl, { h with skip := rfl, skipX := rfl, skipY := rfl, rng := rfl }⟩
  · rw [if_neg q, if_neg q]
    exact ⟨rfl, rfl, h⟩

theorem strokeEvent_pressed {e : Env K R σ} (hg : GrowingLaws e) (hs : PressedForOpacity s) {P : σ → σ → Prop} (hP : DrawnHarder e s P) {ev ev' : Event K} (he : EventPressed ev ev')
    {fuel : Nat} (h : MorePressed s b b') (hb : PendingOk b) {surf surf' : σ}
    (hl : P surf surf')
    {r r' : Bool × Brush K R × (σ)} (hr : strokeEvent e fuel b surf ev = .ok r)
    (hr' : strokeEvent e fuel b' surf' ev' = .ok r') :
    MorePressed s r.2.1 r'.2.1 ∧ P r.2.2 r'.2.2 := by
  have a1 : ev'.x = ev.x := by rw [he.2]
  have a2 : ev'.y = ev.y := by rw [he.2]
  have a3 : ev'.dtime = ev.dtime := by rw [he.2]
  obtain ⟨k1, k2⟩ := skipStage_pressed e h ev.x ev.y ev.dtime
  obtain ⟨c1, c2, c3⟩ := cursor_pressed e k1 ev.x ev.y (skipStage e b ev.x ev.y ev.dtime).2.1
  have hc := strokeEvent_cases hr
  have hc' := strokeEvent_cases hr'
  rw [a1, a2, a3, k2, h.reset, c1, c2] at hc'
  rcases hc with ⟨q1, rfl⟩ | ⟨q1, q2, b1, q3, rfl⟩ | ⟨q1, q2, q3⟩
  · rcases hc' with ⟨-, rfl⟩ | ⟨w, -⟩ | ⟨w, -⟩
    · exact ⟨k1, hl⟩
    · rw [q1] at w; cases w
    · rw [q1] at w; cases w
  · rcases hc' with ⟨w, -⟩ | ⟨-, -, b1', w, rfl⟩ | ⟨-, w, -⟩
    · rw [q1] at w; cases w
    · obtain ⟨bk, -, e1⟩ := startOver_eq q3
      obtain ⟨bk', -, e1'⟩ := startOver_eq w
      refine ⟨?_, hl⟩
      dsimp only
      rw [e1, e1']
      refine { settings := c3.settings, settings' := c3.settings', st := rfl, press := he.1, vals := c3.vals, skip := rfl, skipX := rfl,
               skipY := rfl, skippedTime := rfl, reset := rfl, rng := ?_, random := ?_ }
      · dsimp only; rw [c3.rng]
      · dsimp only; rw [c3.rng]
    · exact absurd q2 w
  · rcases hc' with ⟨w, -⟩ | ⟨-, w, -⟩ | ⟨-, -, w⟩
    · rw [q1] at w; cases w
    · exact absurd w q2
    · refine moveTo_pressed hg hs hP he c3 ?_ hl q3 w
      have : (cursor e (skipStage e b ev.x ev.y ev.dtime).1 ev.x ev.y
          (skipStage e b ev.x ev.y ev.dtime).2.1).2.2.st = b.st := by
        rw [cursor_st, skipStage_st]
      unfold PendingOk
      rw [this]
      exact hb

omit [FloorRing K] in
theorem sanitise_harder {e : Env K R σ} {m m' : Motion K} (hm : PressedHarder m m') {ev ev' : Event K} (h : sanitise e m = .ok ev)
    (h' : sanitise e m' = .ok ev') : EventPressed ev ev' ∧ ev.dtime ≤ 1 / 10 := by
  obtain ⟨h1, h2, h3⟩ := hm
  have ht : ev.dtime ≤ 1 / 10 := by
    rw [sanitise_dtime h]
    split_ifs
    · norm_num
    · exact h3
  refine ⟨?_, ht⟩
  have hq := cut_mono h1
  rw [h2] at h'
  generalize m'.pressure = q at *
  unfold sanitise at h h'
  dsimp only at h'
  obtain ⟨t, ht, h⟩ := bind_ok h
  obtain ⟨t', ht', h'⟩ := bind_ok h'
  rw [ht] at ht'
  rw [← Except.ok.inj ht'] at h'
  dsimp only at h h'
  generalize (if m.dtime ≤ 0 then 1 / 10000 else m.dtime : K) = d at *
  generalize (if m.pressure ≤ 0 then 0 else m.pressure : K) = p at *
  generalize (if q ≤ 0 then 0 else q : K) = p' at *
  cases hx : sane m.x with
  | none =>
    rw [hx] at h h'
    rw [← Except.ok.inj h, ← Except.ok.inj h']
    exact ⟨le_refl _, rfl⟩
  | some x =>
    cases hy : sane m.y with
    | none =>
      rw [hx, hy] at h h'
      rw [← Except.ok.inj h, ← Except.ok.inj h']
      exact ⟨le_refl _, rfl⟩
    | some y =>
      rw [hx, hy] at h h'
      dsimp only at h h'
      split_ifs at h h'
      rw [← Except.ok.inj h, ← Except.ok.inj h']
      exact ⟨hq, rfl⟩

theorem strokeTo_pressed {e : Env K R σ} (hg : GrowingLaws e) (hs : PressedForOpacity s) {P : σ → σ → Prop} (hP : DrawnHarder e s P) {m m' : Motion K} (hm : PressedHarder m m')
    {fuel : Nat} (h : MorePressed s b b') (hb : PendingOk b) {surf surf' : σ}
    (hl : P surf surf')
    {r r' : Bool × Brush K R × (σ)} (hr : strokeTo e fuel b surf m = .ok r)
    (hr' : strokeTo e fuel b' surf' m' = .ok r') :
    MorePressed s r.2.1 r'.2.1 ∧ P r.2.2 r'.2.2 := by
  obtain ⟨ev, he, hc⟩ := strokeTo_cases hr
  obtain ⟨ev', he', hc'⟩ := strokeTo_cases hr'
  obtain ⟨k1, k2⟩ := sanitise_harder hm he he'
  have k3 : ev'.dtime ≤ 1 / 10 := by rw [k1.2]; exact k2
  rcases hc with ⟨-, q⟩ | ⟨w, -⟩
  · rcases hc' with ⟨-, q'⟩ | ⟨w', -⟩
    · exact strokeEvent_pressed hg hs hP k1 h hb hl q q'
    · exact absurd w'.1 (not_lt.mpr k3)
  · exact absurd w.1 (not_lt.mpr k2)

/-! ### The theorems -/

theorem strokes_pressed {e : Env K R σ} (hg : GrowingLaws e) (hs : PressedForOpacity s) {P : σ → σ → Prop} (hP : DrawnHarder e s P) {fuel : Nat}
    {ms ms' : List (Motion K)} (hms : List.Forall₂ PressedHarder ms ms') (h : MorePressed s b b') (hb : PendingOk b)
    {surf surf' : σ} (hl : P surf surf')
    {r r' : Brush K R × (σ)} (hr : strokes e fuel b surf ms = .ok r)
    (hr' : strokes e fuel b' surf' ms' = .ok r') : P r.2 r'.2 := by
  induction hms generalizing b b' surf surf' with
  | nil =>
    rw [← Except.ok.inj hr, ← Except.ok.inj hr']
    exact hl
  | cons hm _ ih =>
    obtain ⟨r1, h1, hr⟩ := bind_ok hr
    obtain ⟨r1', h1', hr'⟩ := bind_ok hr'
    obtain ⟨k1, k2⟩ := strokeTo_pressed hg hs hP hm h hb hl h1 h1'
    exact ih k1 (strokeTo_pending h1 hb) k2 hr hr'

/-- **Pressing harder never paints less**: the same movement with more pressure gives the same dabs, each at least as opaque. -/
theorem harder_paints_no_less {e : Env K R σ} (hg : GrowingLaws e) {b : Brush K R} (hs : PressedForOpacity b.settings) (hb : PendingOk b)
    {fuel : Nat} {ms ms' : List (Motion K)} (hms : List.Forall₂ PressedHarder ms ms') {surf surf' : σ}
    {r r' : Brush K R × (σ × List (Dab.Args K))} (h : strokes (recordDabs e) fuel b (surf, []) ms = .ok r)
    (h' : strokes (recordDabs e) fuel b (surf', []) ms' = .ok r') : List.Forall₂ AtLeastAsOpaque r.2.2 r'.2.2 :=
  strokes_pressed (e := recordDabs e) (P := fun x x' => List.Forall₂ AtLeastAsOpaque x.2 x'.2) ⟨hg.exp, hg.pow⟩ hs
    (fun _ _ _ _ hl ha _ => List.rel_append hl (.cons ha .nil)) hms
    ⟨rfl, rfl, rfl, le_refl _, fun _ _ _ => rfl, rfl, rfl, rfl, rfl, rfl, rfl, rfl⟩ hb .nil h h'

/-! ### Rising curves -/

/-- A curve whose points rise; equal abscissas are allowed. No points: no curve. -/
def Rising (p : Points K) : Prop := p.n = 0 ∨ (2 ≤ p.n ∧ p.Sorted ∧ ∀ i j, i ≤ j → j < p.n → p.ys i ≤ p.ys j)

omit [FloorRing K] in
/-- **A curve with rising points rises**, on both sides of them too. -/
theorem rising_curve_rises {p : Points K} (hn : 2 ≤ p.n) (hs : p.Sorted) (hy : ∀ i j, i ≤ j → j < p.n → p.ys i ≤ p.ys j) {x x' : K}
    (hx : x ≤ x') : evaluate p x ≤ evaluate p x' := by
  obtain ⟨r1, r2, r3, r4⟩ := findSegment_spec p x hn p.n 2 (le_refl _) hn (by omega) (by omega)
  obtain ⟨q1, q2, q3, q4⟩ := findSegment_spec p x' hn p.n 2 (le_refl _) hn (by omega) (by omega)
  unfold evaluate
  dsimp only
  generalize findSegment p x p.n 2 = r at *
  generalize findSegment p x' p.n 2 = q at *
  have hrq : r ≤ q := by
    by_contra hc
    have h1 := r3 q q1 (by omega)
    have h2 := q4 (by omega)
    exact absurd hx (not_le.mpr (lt_of_le_of_lt h2 h1))
  have hxs : p.xs (r - 1) ≤ p.xs r := hs _ _ (by omega) r2
  have hys : p.ys (r - 1) ≤ p.ys r := hy _ _ (by omega) r2
  have hxs' : p.xs (q - 1) ≤ p.xs q := hs _ _ (by omega) q2
  have hys' : p.ys (q - 1) ≤ p.ys q := hy _ _ (by omega) q2
  rcases Nat.eq_or_lt_of_le hrq with h | h
  · subst h
    split_ifs with hc
    · exact le_refl _
    · have hd : 0 < p.xs r - p.xs (r - 1) := sub_pos.mpr (lt_of_le_of_ne hxs fun h => hc (.inl h))
      rw [div_le_div_iff_of_pos_right hd]
      nlinarith [mul_nonneg (sub_nonneg.mpr hx) (sub_nonneg.mpr hys)]
  · have a1 : x ≤ p.xs r := r4 (by omega)
    have a2 : p.xs (q - 1) < x' := q3 (q - 1) (by omega) (by omega)
    have a3 : p.ys r ≤ p.ys (q - 1) := hy _ _ (by omega) (by omega)
    refine le_trans (b := p.ys r) ?_ (a3.trans ?_)
    · split_ifs with hc
      · exact hys
      · have hd : 0 < p.xs r - p.xs (r - 1) := sub_pos.mpr (lt_of_le_of_ne hxs fun h => hc (.inl h))
        rw [div_le_iff₀ hd]
        nlinarith [mul_nonneg (sub_nonneg.mpr a1) (sub_nonneg.mpr hys)]
    · split_ifs with hc
      · exact le_refl _
      · have hd : 0 < p.xs q - p.xs (q - 1) := sub_pos.mpr (lt_of_le_of_ne hxs' fun h => hc (.inl h))
        rw [le_div_iff₀ hd]
        nlinarith [mul_nonneg (sub_nonneg.mpr a2.le) (sub_nonneg.mpr hys')]

omit [FloorRing K] in
theorem calculate_rises {m : Mapping K} (hp : Rising (m.pts iPressure)) (hq : (m.pts iStroke).n = 0) {i j : Nat → K} (h : ButForPressure i j)
    (hij : i iPressure ≤ j iPressure) : calculate m i ≤ calculate m j := by
  unfold calculate
  split_ifs with hu
  · exact le_refl _
  have key : ∀ (l : List Nat) (a c : K), a ≤ c →
      l.foldl (fun result k => if (m.pts k).n ≠ 0 then result + evaluate (m.pts k) (i k) else result) a ≤
      l.foldl (fun result k => if (m.pts k).n ≠ 0 then result + evaluate (m.pts k) (j k) else result) c := by
    intro l
    induction l with
    | nil => intro a c hac; exact hac
    | cons k l ih =>
      intro a c hac
      rw [List.foldl_cons, List.foldl_cons]
      refine ih _ _ ?_
      by_cases hk : (m.pts k).n ≠ 0
      · rw [if_pos hk, if_pos hk]
        refine add_le_add hac ?_
        by_cases k1 : k = iPressure
        · subst k1
          rcases hp with hp | ⟨p1, p2, p3⟩
          · exact absurd hp hk
          · exact rising_curve_rises p1 p2 p3 hij
        · by_cases k2 : k = iStroke
          · subst k2
            exact absurd hq hk
          · rw [h k k1 k2]
      · rw [if_neg hk, if_neg hk]
        exact hac
  exact key _ _ _ (le_refl _)

/-- The curves of such a brush: curves for the pressure with the two opacities only, and rising; no curve for the stroke; no smudging. -/
structure PressureCurves (s : Load.Brush K) : Prop where
  stroke : ∀ id, ((s id).pts iStroke).n = 0
  others : ∀ id, id ≠ sOpaque → id ≠ sOpaqueMultiply → ((s id).pts iPressure).n = 0
  opaque' : Rising ((s sOpaque).pts iPressure)
  multiply : Rising ((s sOpaqueMultiply).pts iPressure)
  smudge : isConstant (s sSmudge) = true ∧ (s sSmudge).base = 0
  linearize : 0 ≤ (s sOpaqueLinearize).base

omit [FloorRing K] in
theorem PressureCurves.pressed {s : Load.Brush K} (h : PressureCurves s) : PressedForOpacity s := by
  refine ⟨fun id h1 h2 i j hij => ?_, fun id hid i j hij hp => ?_, ⟨fun i => ?_, h.smudge.1⟩, h.linearize⟩
  · have hm : calculate (s id) i = calculate (s id) (fun k => if k = iPressure then j k else i k) := by
      unfold calculate
      congr 1
      congr 1
      funext r k
      by_cases hk : ((s id).pts k).n ≠ 0
      · have hk' : k ≠ iPressure := by
          rintro rfl
          exact hk (h.others id h1 h2)
        simp only [if_neg hk']
      · rw [if_neg hk, if_neg hk]
    rw [hm]
    have hb : ButForPressure (fun k => if k = iPressure then j k else i k) j := by
      intro k k1 k2
      simp only [if_neg k1]
      exact hij k k1 k2
    refine le_antisymm (calculate_rises (.inl (h.others id h1 h2)) (h.stroke id) hb ?_)
      (calculate_rises (.inl (h.others id h1 h2)) (h.stroke id) (fun k k1 k2 => (hb k k1 k2).symm) ?_)
    · simp only [if_true, le_refl]
    · simp only [if_true, le_refl]
  · rcases hid with rfl | rfl
    · exact calculate_rises h.opaque' (h.stroke _) hij hp
    · exact calculate_rises h.multiply (h.stroke _) hij hp
  · unfold calculate
    have := h.smudge.1
    unfold isConstant at this
    rw [if_pos (by simpa using this)]
    exact h.smudge.2

/-- **C126** A brush whose curves for the pressure rise and are for the opacity only: the same movement with more pressure gives as many dabs,
in the same places, with the same size, colour and shape, each at least as opaque. -/
theorem harder_with_rising_curves {e : Env K R σ} (hg : GrowingLaws e) {b : Brush K R} (hs : PressureCurves b.settings) (hb : PendingOk b)
    {fuel : Nat} {ms ms' : List (Motion K)} (hms : List.Forall₂ PressedHarder ms ms') {surf surf' : σ}
    {r r' : Brush K R × (σ × List (Dab.Args K))} (h : strokes (recordDabs e) fuel b (surf, []) ms = .ok r)
    (h' : strokes (recordDabs e) fuel b (surf', []) ms' = .ok r') : List.Forall₂ AtLeastAsOpaque r.2.2 r'.2.2 :=
  harder_paints_no_less hg hs.pressed hb hms h h'

end

/-- The real functions. -/
theorem realEnv_growing {R σ : Type} (next gauss : R → ℝ × R) (draw : σ → Dab.Args ℝ → Bool × σ)
    (getColor : σ → Int → Int → ℝ → ℝ → Color.Rgba ℝ × σ) : GrowingLaws (realEnv next gauss draw getColor) :=
  ⟨fun x => (Real.exp_pos x).le, fun _ _ _ h0 h1 ht => Real.rpow_le_rpow h0 h1 ht.le⟩

namespace Demo

theorem env_growing : GrowingLaws env := by
  refine ⟨fun x => ?_, fun a c t _ h _ => h⟩
  show (0 : ℚ) ≤ if 0 ≤ x then 1 + x else 1 / (1 - x)
  split_ifs with h
  · linarith
  · have : 0 < 1 - x := by linarith
    exact (one_div_pos.mpr this).le

/-- The curve `(0, 0), (1, 1)` for the pressure. -/
def pressureCurve : Mapping ℚ :=
  { base := 0, inputs := 18, used := 1,
    pts := fun i => if i = iPressure then ⟨fun k => k, fun k => k, 2⟩ else ⟨fun _ => 0, fun _ => 0, 0⟩ }

/-- A setting that follows the pressure. -/
def pressing (id : Nat) : Brush ℚ Nat :=
  { brush with settings := fun i => if i = id then pressureCurve else brush.settings i, resetRequested := false }

theorem pressing_curves : PressureCurves (pressing sOpaqueMultiply).settings := by
  refine ⟨fun id => ?_, fun id _ h2 => ?_, .inl rfl, .inr ⟨le_refl _, ?_, ?_⟩, ⟨rfl, ?_⟩, ?_⟩
  · by_cases h : id = sOpaqueMultiply
    · subst h; rfl
    · simp only [pressing, if_neg h]; rfl
  · simp only [pressing, if_neg h2]; rfl
  · intro i j hij _
    show ((i : ℕ) : ℚ) ≤ j
    exact_mod_cast hij
  · intro i j hij _
    show ((i : ℕ) : ℚ) ≤ j
    exact_mod_cast hij
  · show (settings sSmudge).base = 0
    decide +kernel
  · show (0 : ℚ) ≤ (settings sOpaqueLinearize).base
    decide +kernel

/-- Four dabs, fainter as the pressure falls from 1/2 to 1/4. -/
example : look (fun r => r.2.map fun a => (a.x, a.opaque')) (strokes env 100 (pressing sOpaqueMultiply) []
    [motion 0 0 (1 / 2) (1 / 10), motion 6 0 (1 / 4) (3 / 40)]) =
    some [(3 / 2, 7 / 16), (3, 3 / 8), (9 / 2, 5 / 16), (6, 1 / 4)] := by decide +kernel

/-- The same with more pressure. -/
example : look (fun r => r.2.map fun a => (a.x, a.opaque')) (strokes env 100 (pressing sOpaqueMultiply) []
    [motion 0 0 (3 / 4) (1 / 10), motion 6 0 (1 / 2) (3 / 40)]) =
    some [(3 / 2, 11 / 16), (3, 5 / 8), (9 / 2, 9 / 16), (6, 1 / 2)] := by decide +kernel

/-- The hypotheses hold for the two. -/
example {fuel : Nat} {r r' : Brush ℚ Nat × (List (Dab.Args ℚ) × List (Dab.Args ℚ))}
    (h : strokes (recordDabs env) fuel (pressing sOpaqueMultiply) ([], []) [motion 0 0 (1 / 2) (1 / 10), motion 6 0 (1 / 4) (3 / 40)] = .ok r)
    (h' : strokes (recordDabs env) fuel (pressing sOpaqueMultiply) ([], []) [motion 0 0 (3 / 4) (1 / 10), motion 6 0 (1 / 2) (3 / 40)] = .ok r') :
    List.Forall₂ AtLeastAsOpaque r.2.2 r'.2.2 :=
  harder_with_rising_curves env_growing pressing_curves ⟨le_refl (0 : ℚ), zero_lt_one⟩
    (.cons ⟨by simp only [motion]; norm_num, rfl, by simp only [motion]; norm_num⟩
      (.cons ⟨by simp only [motion]; norm_num, rfl, by simp only [motion]; norm_num⟩ .nil)) h h'

/-- **C126** (why the opacity only). With a radius that grows with the pressure, more pressure gives larger dabs but fewer of them. -/
theorem harder_may_draw_fewer :
    (look (fun r => r.2.length) (strokes env 100 (pressing sRadiusLogarithmic) []
        [motion 0 0 0 (1 / 10), motion 6 0 0 (3 / 40)]) = some 12) ∧
      (look (fun r => r.2.length) (strokes env 100 (pressing sRadiusLogarithmic) []
        [motion 0 0 1 (1 / 10), motion 6 0 1 (3 / 40)]) = some 6) := by constructor <;> decide +kernel

end Demo
end Verif.Engine
