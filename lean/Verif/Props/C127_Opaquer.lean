import Verif.Props.C126_Picture

/-!
# C127: a more opaque brush never paints less

Two brushes that differ in the opacity only: the more opaque one gives the same dabs in the same places, each at least as opaque. If the
brush paints plainly, no pixel is more transparent; if it erases, no pixel keeps more paint.
-/

namespace Verif.Engine
open Verif.Mask Verif.Color Verif.Spectral Verif.Map

section
variable {K R σ : Type} [Field K] [LinearOrder K] [IsStrictOrderedRing K] [FloorRing K]

/-! ### Specification -/

/-- The second brush differs from the first in the two opacities only and has no less of them for any inputs. Neither smudges. -/
structure MoreOpaque (s s' : Load.Brush K) : Prop where
  only : ∀ id, id ≠ sOpaque → id ≠ sOpaqueMultiply → s' id = s id
  more : ∀ id, id = sOpaque ∨ id = sOpaqueMultiply → ∀ i, calculate (s id) i ≤ calculate (s' id) i
  smudge : (∀ i, calculate (s sSmudge) i = 0) ∧ isConstant (s sSmudge) = true
  linearize : 0 ≤ (s sOpaqueLinearize).base

/-! ### Two brushes side by side -/

/-- The second brush is the more opaque one. -/
structure OpaqueTwin (s s' : Load.Brush K) (b b' : Brush K R) : Prop where
  settings : b.settings = s
  settings' : b'.settings = s'
  st : b'.st = b.st
  vals : ∀ id, id ≠ sOpaque → id ≠ sOpaqueMultiply → b'.vals id = b.vals id
  skip : b'.skip = b.skip
  skipX : b'.skipX = b.skipX
  skipY : b'.skipY = b.skipY
  skippedTime : b'.skippedTime = b.skippedTime
  reset : b'.resetRequested = b.resetRequested
  rng : b'.rng = b.rng
  random : b'.random = b.random

/-- After a step. -/
structure OpaqueTwinOn (s s' : Load.Brush K) (b b' : Brush K R) : Prop extends OpaqueTwin s s' b b' where
  on : ∃ i, b.vals = fun id => calculate (s id) i
  opaque' : b.vals sOpaque ≤ b'.vals sOpaque
  multiply : b.vals sOpaqueMultiply ≤ b'.vals sOpaqueMultiply

variable {s s' : Load.Brush K} {b b' : Brush K R}

omit [IsStrictOrderedRing K] [FloorRing K] in
theorem OpaqueTwin.base (hs : MoreOpaque s s') (h : OpaqueTwin s s' b b') (id : Nat) (h1 : id ≠ sOpaque) (h2 : id ≠ sOpaqueMultiply) :
    b'.baseval id = b.baseval id := by
  unfold Brush.baseval
  rw [h.settings, h.settings', hs.only id h1 h2]

theorem update_more {e : Env K R σ} (hs : MoreOpaque s s') (h : OpaqueTwin s s' b b') {t : Step K} {c c' : Brush K R}
    (hu : update e b t = .ok c) (hu' : update e b' t = .ok c') : OpaqueTwinOn s s' c c' := by
  have hm : moveStates e b' t = moveStates e b t := by
    unfold moveStates
    rw [h.st, h.base hs sStrokeThreshold (by decide) (by decide), h.vals sGridmapScale (by decide) (by decide),
      h.vals sGridmapScaleX (by decide) (by decide), h.vals sGridmapScaleY (by decide) (by decide)]
  have hi : inputsOf e b' (moveStates e b' t) = inputsOf e b (moveStates e b t) := by
    rw [hm]
    unfold inputsOf
    rw [h.base hs sRadiusLogarithmic (by decide) (by decide), h.base hs sPressureGainLog (by decide) (by decide),
      h.base hs sSpeed1Gamma (by decide) (by decide), h.base hs sSpeed2Gamma (by decide) (by decide), h.random]
  have hv : ∀ id, id ≠ sOpaque → id ≠ sOpaqueMultiply → settingValues b'.settings (inputsOf e b' (moveStates e b' t)) id =
      settingValues b.settings (inputsOf e b (moveStates e b t)) id := by
    intro id h1 h2
    unfold settingValues
    rw [h.settings, h.settings', hs.only id h1 h2, hi]
  have hmore : ∀ id, id = sOpaque ∨ id = sOpaqueMultiply → settingValues b.settings (inputsOf e b (moveStates e b t)) id ≤
      settingValues b'.settings (inputsOf e b' (moveStates e b' t)) id := by
    intro id h1
    unfold settingValues
    rw [h.settings, h.settings', hi]
    exact hs.more id h1 _
  have hf : followStates e b' (moveStates e b' t) (settingValues b'.settings (inputsOf e b' (moveStates e b' t))) t =
      followStates e b (moveStates e b t) (settingValues b.settings (inputsOf e b (moveStates e b t))) t := by
    generalize settingValues b'.settings (inputsOf e b' (moveStates e b' t)) = v' at hv ⊢
    generalize settingValues b.settings (inputsOf e b (moveStates e b t)) = v at hv ⊢
    rw [hm]
    unfold followStates strokeLength
    rw [h.base hs sRadiusLogarithmic (by decide) (by decide), hv sSlowTrackingPerDab (by decide) (by decide),
      hv sSpeed1Slowness (by decide) (by decide), hv sSpeed2Slowness (by decide) (by decide),
      hv sOffsetBySpeedSlowness (by decide) (by decide), hv sDirectionFilter (by decide) (by decide),
      hv sCustomInputSlowness (by decide) (by decide), hv sDabsPerBasicRadius (by decide) (by decide),
      hv sDabsPerActualRadius (by decide) (by decide), hv sDabsPerSecond (by decide) (by decide),
      hv sCustomInput (by decide) (by decide), hv sRadiusLogarithmic (by decide) (by decide),
      hv sEllipticalDabRatio (by decide) (by decide), hv sEllipticalDabAngle (by decide) (by decide),
      hv sStrokeDurationLogarithmic (by decide) (by decide), hv sStrokeHoldtime (by decide) (by decide)]
  have e1 := update_eq hu
  have e2 := update_eq hu'
  refine { settings := ?_, settings' := ?_, st := ?_, vals := ?_, skip := ?_, skipX := ?_, skipY := ?_, skippedTime := ?_,
           reset := ?_, rng := ?_, random := ?_, on := ?_, opaque' := ?_, multiply := ?_ }
  · rw [e1]; exact h.settings
  · rw [e2]; exact h.settings'
  · rw [e1, e2]; exact hf
  · rw [e1, e2]; exact hv
  · rw [e1, e2]; exact h.skip
  · rw [e1, e2]; exact h.skipX
  · rw [e1, e2]; exact h.skipY
  · rw [e1, e2]; exact h.skippedTime
  · rw [e1, e2]; exact h.reset
  · rw [e1, e2]; exact h.rng
  · rw [e1, e2]; exact h.random
  · rw [e1]; dsimp only; rw [h.settings]; exact ⟨_, rfl⟩
  · rw [e1, e2]; exact hmore _ (.inl rfl)
  · rw [e1, e2]; exact hmore _ (.inr rfl)

/-! ### The dab -/

omit [FloorRing K] in
theorem dabOpacity_more {e : Env K R σ} (hg : GrowingLaws e) (hs : MoreOpaque s s') (h : OpaqueTwinOn s s' b b') {o o' : K}
    (ho : dabOpacity e b = .ok o) (ho' : dabOpacity e b' = .ok o') : o ≤ o' := by
  have hm := product_mono h.opaque' h.multiply
  have e1 : b'.st.dabsPerActualRadius = b.st.dabsPerActualRadius := by rw [h.st]
  have e2 : b'.st.dabsPerBasicRadius = b.st.dabsPerBasicRadius := by rw [h.st]
  have hl : 0 ≤ b.baseval sOpaqueLinearize := by
    unfold Brush.baseval
    rw [h.settings]
    exact hs.linearize
  have h1 : clampK (maxC 0 (b'.vals sOpaque) * b'.vals sOpaqueMultiply) 0 1 ≤ 1 := by
    unfold clampK
    split_ifs <;> linarith
  unfold dabOpacity at ho ho'
  rw [h.base hs sOpaqueLinearize (by decide) (by decide), e1, e2] at ho'
  dsimp only at ho ho'
  generalize clampK (maxC 0 (b.vals sOpaque) * b.vals sOpaqueMultiply) 0 1 = p at *
  generalize clampK (maxC 0 (b'.vals sOpaque) * b'.vals sOpaqueMultiply) 0 1 = p' at *
  generalize b.baseval sOpaqueLinearize = l at *
  by_cases hz : l = 0
  · rw [if_pos hz] at ho ho'
    rw [← Except.ok.inj ho, ← Except.ok.inj ho']
    exact hm
  rw [if_neg hz] at ho ho'
  generalize (b.st.dabsPerActualRadius + b.st.dabsPerBasicRadius) * 2 = d at *
  have hd : (1 : K) ≤ if d < 1 then 1 else d := by
    split_ifs with q
    · exact le_refl _
    · exact not_lt.mp q
  generalize (if d < 1 then 1 else d) = d at *
  have hd0 : 0 < 1 + l * (d - 1) := by
    have := mul_nonneg hl (sub_nonneg.mpr hd)
    linarith
  rw [if_neg hd0.ne'] at ho ho'
  rw [← Except.ok.inj ho, ← Except.ok.inj ho']
  have := hg.pow (1 - p') (1 - p) (1 / (1 + l * (d - 1))) (sub_nonneg.mpr h1) (by linarith) (one_div_pos.mpr hd0)
  linarith

omit [IsStrictOrderedRing K] in
theorem dabPosition_more {e : Env K R σ} (hs : MoreOpaque s s') (h : OpaqueTwin s s' b b') {p p' : K × K × Brush K R}
    (hp : dabPosition e b = .ok p) (hp' : dabPosition e b' = .ok p') :
    p'.1 = p.1 ∧ p'.2.1 = p.2.1 ∧ p.2.2 = { b with rng := p.2.2.rng } ∧ p'.2.2 = { b' with rng := p.2.2.rng } := by
  have hst := h.st
  have ho : ∀ r f, directionalOffsets e b' r f = directionalOffsets e b r f := by
    intro r f
    unfold directionalOffsets
    rw [hst]
    dsimp only
    rw [h.vals sOffsetAngleAdj (by decide) (by decide), h.vals sOffsetAngle2 (by decide) (by decide),
      h.vals sOffsetAngle2Asc (by decide) (by decide), h.vals sOffsetAngle2View (by decide) (by decide),
      h.vals sOffsetX (by decide) (by decide), h.vals sOffsetY (by decide) (by decide),
      h.vals sOffsetAngle (by decide) (by decide), h.vals sOffsetAngleAsc (by decide) (by decide),
      h.vals sOffsetAngleView (by decide) (by decide), h.vals sOffsetMultiplier (by decide) (by decide)]
  have e1 : b'.st.flip = b.st.flip := by rw [hst]
  have e2 : b'.st.actualX = b.st.actualX := by rw [hst]
  have e3 : b'.st.actualY = b.st.actualY := by rw [hst]
  have e4 : b'.st.viewzoom = b.st.viewzoom := by rw [hst]
  have e5 : b'.st.normDxSlow = b.st.normDxSlow := by rw [hst]
  have e6 : b'.st.normDySlow = b.st.normDySlow := by rw [hst]
  unfold dabPosition at hp hp'
  dsimp only at hp hp'
  rw [ho, e1, e2, e3, e4, e5, e6, h.base hs sRadiusLogarithmic (by decide) (by decide), h.vals sOffsetBySpeed (by decide) (by decide),
    h.vals sOffsetByRandom (by decide) (by decide), h.rng] at hp'
  by_cases hz : b.vals sOffsetBySpeed ≠ 0 ∧ b.st.viewzoom = 0
  · rw [if_pos hz] at hp
    cases hp
  rw [if_neg hz] at hp hp'
  by_cases hr : b.vals sOffsetByRandom ≠ 0
  · rw [if_pos hr] at hp hp'
    rw [← Except.ok.inj hp, ← Except.ok.inj hp']
    exact ⟨rfl, rfl, rfl, rfl⟩
  · rw [if_neg hr] at hp hp'
    rw [← Except.ok.inj hp, ← Except.ok.inj hp']
    refine ⟨rfl, rfl, rfl, ?_⟩
    dsimp only
    rw [← h.rng]

omit [FloorRing K] in
theorem dabRadius_more {e : Env K R σ} (h : OpaqueTwin s s' b b') {o o' : K} (ho : o ≤ o') :
    (dabRadius e b' o').1 = (dabRadius e b o).1 ∧ (dabRadius e b o).2.1 ≤ (dabRadius e b' o').2.1 ∧
      (dabRadius e b o).2.2 = { b with rng := (dabRadius e b o).2.2.rng } ∧
      (dabRadius e b' o').2.2 = { b' with rng := (dabRadius e b o).2.2.rng } := by
  have e1 : b'.st.actualRadius = b.st.actualRadius := by rw [h.st]
  unfold dabRadius
  dsimp only
  rw [h.vals sRadiusByRandom (by decide) (by decide), h.vals sRadiusLogarithmic (by decide) (by decide), h.rng, e1]
  by_cases q : b.vals sRadiusByRandom ≠ 0
  · simp only [if_pos q]
    refine ⟨trivial, ?_, trivial, trivial⟩
    split_ifs
    · exact mul_le_mul_of_nonneg_right ho (mul_self_nonneg _)
    · exact ho
  · simp only [if_neg q]
    refine ⟨trivial, ho, trivial, ?_⟩
    rw [← h.rng]

omit [IsStrictOrderedRing K] in
theorem smudge_never {e : Env K R σ} {b : Brush K R} (hb : isConstant (b.settings sSmudge) = true) (hv : b.vals sSmudge = 0) (surf : σ)
    (x y r : K) (c : Rgb K) : smudgeStage e b surf x y r = .ok (false, b, surf) ∧ smudgeColor e b c = .ok (1, c, b) := by
  constructor
  · unfold smudgeStage
    rw [if_neg]
    · rfl
    · rintro ⟨-, q | q⟩
      · exact q hv
      · rw [hb] at q
        cases q
  · unfold smudgeColor
    rw [hv, if_neg (lt_irrefl _)]
    rfl

theorem drawDab_more {e : Env K R σ} (hg : GrowingLaws e) (hs : MoreOpaque s s') {P : σ → σ → Prop} (hP : DrawnHarder e s P) (h : OpaqueTwinOn s s' b b')
    {surf surf' : σ} (hl : P surf surf') {lin : Bool} {p p' : Bool × Brush K R × (σ)}
    (hp : drawDab e b surf lin = .ok p) (hp' : drawDab e b' surf' lin = .ok p') :
    OpaqueTwin s s' p.2.1 p'.2.1 ∧ P p.2.2 p'.2.2 := by
  obtain ⟨i, hi⟩ := h.on
  have hv : b.vals sSmudge = 0 := by rw [hi]; exact hs.smudge.1 i
  have hv' : b'.vals sSmudge = 0 := by rw [h.vals _ (by decide) (by decide)]; exact hv
  have hk : isConstant (b.settings sSmudge) = true := by rw [h.settings]; exact hs.smudge.2
  have hk' : isConstant (b'.settings sSmudge) = true := by rw [h.settings', hs.only _ (by decide) (by decide)]; exact hs.smudge.2
  unfold drawDab at hp hp'
  obtain ⟨o, ho, hp⟩ := bind_ok hp
  obtain ⟨o', ho', hp'⟩ := bind_ok hp'
  obtain ⟨pos, h2, hp⟩ := bind_ok hp
  obtain ⟨pos', h2', hp'⟩ := bind_ok hp'
  have k1 := dabOpacity_more hg hs h ho ho'
  obtain ⟨x1, x2, x3, x4⟩ := dabPosition_more hs h.toOpaqueTwin h2 h2'
  have hpos : OpaqueTwin s s' pos.2.2 pos'.2.2 := by
    rw [x4, x3]
    exact { h.toOpaqueTwin with rng := rfl }
  obtain ⟨y1, y2, y3, y4⟩ := dabRadius_more (e := e) hpos k1
  generalize dabRadius e pos.2.2 o = rad at *
  generalize dabRadius e pos'.2.2 o' = rad' at *
  have z1 : rad.2.2 = { b with rng := rad.2.2.rng } := by
    rw [y3, x3]
  have z2 : rad'.2.2 = { b' with rng := rad.2.2.rng } := by
    rw [y4, x4]
  dsimp only at hp hp'
  rw [(smudge_never (e := e) (b := rad.2.2) (by rw [z1]; exact hk) (by rw [z1]; exact hv) surf _ _ _ ⟨0, 0, 0⟩).1] at hp
  rw [(smudge_never (e := e) (b := rad'.2.2) (by rw [z2]; exact hk') (by rw [z2]; exact hv') surf' _ _ _ ⟨0, 0, 0⟩).1] at hp'
  obtain ⟨sm, hsm, hp⟩ := bind_ok hp
  obtain ⟨sm', hsm', hp'⟩ := bind_ok hp'
  rw [← Except.ok.inj hsm] at hp
  rw [← Except.ok.inj hsm'] at hp'
  simp only [Bool.false_eq_true, if_false] at hp hp'
  rw [(smudge_never (e := e) (b := rad.2.2) (by rw [z1]; exact hk) (by rw [z1]; exact hv) surf 0 0 0 _).2] at hp
  rw [(smudge_never (e := e) (b := rad'.2.2) (by rw [z2]; exact hk') (by rw [z2]; exact hv') surf' 0 0 0 _).2] at hp'
  obtain ⟨col, hcol, hp⟩ := bind_ok hp
  obtain ⟨col', hcol', hp'⟩ := bind_ok hp'
  rw [← Except.ok.inj hcol] at hp
  rw [← Except.ok.inj hcol'] at hp'
  rw [← Except.ok.inj hp, ← Except.ok.inj hp']
  dsimp only
  refine ⟨?_, hP _ _ _ _ hl ?_ ?_⟩
  · rw [z2, z1]
    exact { h.toOpaqueTwin with rng := rfl }
  · have hst := h.st
    have w1 : b'.st.ratio = b.st.ratio := by rw [hst]
    have w2 : b'.st.angle = b.st.angle := by rw [hst]
    have hc : ∀ c, colorDynamics e { b' with rng := rad.2.2.rng } lin c = colorDynamics e { b with rng := rad.2.2.rng } lin c := by
      intro c
      unfold colorDynamics
      dsimp only
      rw [h.vals sChangeColorH (by decide) (by decide), h.vals sChangeColorHsvS (by decide) (by decide),
        h.vals sChangeColorV (by decide) (by decide), h.vals sChangeColorL (by decide) (by decide),
        h.vals sChangeColorHslS (by decide) (by decide)]
    have ha : ∀ x r, antiAlias { b' with rng := rad.2.2.rng } x r = antiAlias { b with rng := rad.2.2.rng } x r := by
      intro x r
      unfold antiAlias
      dsimp only
      rw [h.vals sAntiAliasing (by decide) (by decide)]
    have hn : ∀ x y r, snap { b' with rng := rad.2.2.rng } x y r = snap { b with rng := rad.2.2.rng } x y r := by
      intro x y r
      unfold snap
      dsimp only
      rw [h.vals sSnapToPixel (by decide) (by decide)]
    rw [z2, z1]
    unfold AtLeastAsOpaque dabArgs
    dsimp only
    refine ⟨y2, ?_⟩
    rw [hc, ha, hn, x1, x2, y1, w1, w2, h.base hs sColorH (by decide) (by decide), h.base hs sColorS (by decide) (by decide), h.base hs sColorV (by decide) (by decide), h.vals sEraser (by decide) (by decide),
      h.vals sHardness (by decide) (by decide), h.vals sSoftness (by decide) (by decide), h.vals sLockAlpha (by decide) (by decide),
      h.vals sColorize (by decide) (by decide), h.vals sPosterize (by decide) (by decide),
      h.vals sPosterizeNum (by decide) (by decide), h.vals sPaintMode (by decide) (by decide)]
  · refine ⟨i, ?_, ?_, ?_, ?_, ?_⟩
    · rw [z1]; exact congrFun hi _
    · rw [z1]; exact congrFun hi _
    · rw [z1]; exact congrFun hi _
    · rw [z1]; exact congrFun hi _
    · have hie : b.vals sEraser = calculate (s sEraser) i := congrFun hi _
      rw [z1]
      unfold dabArgs
      dsimp only
      rw [hie]
      split_ifs with q
      · rw [one_mul]
      · rw [not_not] at q
        rw [q, sub_zero]

/-! ### Sessions -/

omit [IsStrictOrderedRing K] [FloorRing K] in
theorem countDabs_more {e : Env K R σ} (hs : MoreOpaque s s') (h : OpaqueTwin s s' b b') (x y dt : K) :
    (countDabs e b' x y dt).1 = (countDabs e b x y dt).1 ∧ OpaqueTwin s s' (countDabs e b x y dt).2 (countDabs e b' x y dt).2 := by
  have hb := h.base hs sRadiusLogarithmic (by decide) (by decide)
  have key : (countDabs e b' x y dt).1 = (countDabs e b x y dt).1 ∧ (countDabs e b' x y dt).2.st = (countDabs e b x y dt).2.st := by
    unfold countDabs
    rw [hb, h.st]
    exact ⟨rfl, rfl⟩
  exact ⟨key.1, { settings := h.settings, settings' := h.settings', st := key.2, vals := h.vals, skip := h.skip, skipX := h.skipX,
                  skipY := h.skipY, skippedTime := h.skippedTime, reset := h.reset, rng := h.rng, random := h.random }⟩

/-- Two loops side by side. -/
structure LoopOpaque (s s' : Load.Brush K) (P : σ → σ → Prop) (l l' : Loop K R σ) : Prop where
  b : OpaqueTwin s s' l.b l'.b
  moved : l'.moved = l.moved
  todo : l'.todo = l.todo
  time : l'.dtimeLeft = l.dtimeLeft
  dabs : P l.surf l'.surf

theorem dabStep_more {e : Env K R σ} (hg : GrowingLaws e) (hs : MoreOpaque s s') {P : σ → σ → Prop} (hP : DrawnHarder e s P) {ev : Event K}
    {x y : K} {l l' m m' : Loop K R σ} (h : LoopOpaque s s' P l l')
    (hm : dabStep e ev x y l = .ok m) (hm' : dabStep e ev x y l' = .ok m') : LoopOpaque s s' P m m' := by
  obtain ⟨-, b1, p, b2, hu, hp, e1, e2⟩ := dabStep_eq hm
  obtain ⟨-, b1', p', b2', hu', hp', e1', e2'⟩ := dabStep_eq hm'
  rw [h.moved, h.todo, h.time, h.b.st] at hu'
  have k1 := update_more hs h.b hu hu'
  have k2 : OpaqueTwinOn s s' { b1 with st := { b1.st with flip := b1.st.flip * -1 } } { b1' with st := { b1'.st with flip := b1'.st.flip * -1 } } := by
    refine { k1 with st := ?_ }
    show { b1'.st with flip := b1'.st.flip * -1 } = { b1.st with flip := b1.st.flip * -1 }
    rw [k1.st]
  obtain ⟨k3, k6⟩ := drawDab_more hg hs hP k2 h.dabs hp hp'
  have k4 : OpaqueTwin s s' b2 b2' := by
    rw [e1, e1']
    refine { k3 with rng := ?_, random := ?_ }
    · dsimp only; rw [k3.rng]
    · dsimp only; rw [k3.rng]
  have k5 := countDabs_more (e := e) hs k4 x y
    (l.dtimeLeft - (if l.moved > 0 then 1 - l.moved else 1) / l.todo * l.dtimeLeft)
  rw [e2, e2']
  refine ⟨?_, ?_, ?_, ?_, ?_⟩
  · dsimp only; rw [h.moved, h.todo, h.time]; exact k5.2
  · dsimp only; rw [h.moved]
  · dsimp only; rw [h.moved, h.todo, h.time]; exact k5.1
  · dsimp only; rw [h.moved, h.todo, h.time]
  · exact k6

theorem dabLoop_more {e : Env K R σ} (hg : GrowingLaws e) (hs : MoreOpaque s s') {P : σ → σ → Prop} (hP : DrawnHarder e s P) {ev : Event K}
    {x y : K} (fuel : Nat) {l l' m m' : Loop K R σ} (h : LoopOpaque s s' P l l')
    (hm : dabLoop e ev x y fuel l = .ok m) (hm' : dabLoop e ev x y fuel l' = .ok m') : LoopOpaque s s' P m m' := by
  induction fuel generalizing l l' with
  | zero =>
    unfold dabLoop at hm hm'
    rw [h.moved, h.todo] at hm'
    split_ifs at hm hm'
    rw [← Except.ok.inj hm, ← Except.ok.inj hm']
    exact h
  | succ n ih =>
    unfold dabLoop at hm hm'
    rw [h.moved, h.todo] at hm'
    split_ifs at hm hm' with hc
    · obtain ⟨l1, h1, hm⟩ := bind_ok hm
      obtain ⟨l1', h1', hm'⟩ := bind_ok hm'
      exact ih (dabStep_more hg hs hP h h1 h1') hm hm'
    · rw [← Except.ok.inj hm, ← Except.ok.inj hm']
      exact h

theorem moveTo_more {e : Env K R σ} (hg : GrowingLaws e) (hs : MoreOpaque s s') {P : σ → σ → Prop} (hP : DrawnHarder e s P) {ev : Event K}
    {x y dt : K} {fuel : Nat} (h : OpaqueTwin s s' b b') {surf surf' : σ} (hl : P surf surf')
    {r r' : Bool × Brush K R × σ} (hr : moveTo e fuel b surf ev x y dt = .ok r)
    (hr' : moveTo e fuel b' surf' ev x y dt = .ok r') :
    OpaqueTwin s s' r.2.1 r'.2.1 ∧ P r.2.2 r'.2.2 := by
  obtain ⟨l, b1, h1, h2, -, h3, h4⟩ := moveTo_eq hr
  obtain ⟨l', b1', h1', h2', -, h3', h4'⟩ := moveTo_eq hr'
  obtain ⟨c1, c2⟩ := countDabs_more (e := e) hs h x y dt
  have hl0 : ∀ p p' : Painted, LoopOpaque s s' P
      { b := (countDabs e b x y dt).2, surf := surf, moved := b.st.partialDabs,
        todo := (countDabs e b x y dt).1, dtimeLeft := dt, painted := p }
      { b := (countDabs e b' x y dt).2, surf := surf', moved := b'.st.partialDabs,
        todo := (countDabs e b' x y dt).1, dtimeLeft := dt, painted := p' } :=
    fun p p' => ⟨c2, by dsimp only; rw [h.st], c1, rfl, hl⟩
  have k := dabLoop_more hg hs hP fuel (hl0 _ _) h1 h1'
  rw [k.todo, k.time, k.b.st] at h2'
  have k1 := (update_more hs k.b h2 h2').toOpaqueTwin
  rw [h3, h3', h4, h4', splitStroke_eq, splitStroke_eq { b1' with st := { b1'.st with partialDabs := l'.moved + l'.todo } }]
  refine ⟨{ settings := k1.settings, settings' := k1.settings', st := ?_, vals := k1.vals, skip := k1.skip, skipX := k1.skipX,
            skipY := k1.skipY, skippedTime := k1.skippedTime, reset := k1.reset, rng := k1.rng, random := k1.random }, k.dabs⟩
  show ({ b1'.st with partialDabs := l'.moved + l'.todo } : State K) = { b1.st with partialDabs := l.moved + l.todo }
  rw [k.moved, k.todo, k1.st]

omit [IsStrictOrderedRing K] [FloorRing K] in
theorem skipStage_more (e : Env K R σ) (h : OpaqueTwin s s' b b') (x y dt : K) :
    OpaqueTwin s s' (skipStage e b x y dt).1 (skipStage e b' x y dt).1 ∧ (skipStage e b' x y dt).2 = (skipStage e b x y dt).2 := by
  unfold skipStage
  rw [h.skip, h.skipX, h.skipY, h.skippedTime, h.reset]
  dsimp only
  by_cases q : b.skip > 1 / 1000
  · rw [if_pos q, if_pos q]
    by_cases q' : b.skip - hypot e (b.skipX - x) (b.skipY - y) > 1 / 1000 ∧ ¬ (b.skippedTime + dt > 5 ∨ b.resetRequested = true)
    · rw [if_pos q', if_pos q']
      exact ⟨{ h with skip := rfl, skipX := rfl, skipY := rfl, skippedTime := rfl, reset := rfl }, rfl⟩
    · rw [if_neg q', if_neg q']
      exact ⟨{ h with skip := rfl, skipX := rfl, skipY := rfl, skippedTime := rfl, reset := rfl }, rfl⟩
  · rw [if_neg q, if_neg q]
    exact ⟨h, rfl⟩

omit [IsStrictOrderedRing K] in
theorem cursor_more (e : Env K R σ) (hs : MoreOpaque s s') (h : OpaqueTwin s s' b b') (x y dt : K) :
    (cursor e b' x y dt).1 = (cursor e b x y dt).1 ∧ (cursor e b' x y dt).2.1 = (cursor e b x y dt).2.1 ∧
      OpaqueTwin s s' (cursor e b x y dt).2.2 (cursor e b' x y dt).2.2 := by
  have e1 : b'.st.x = b.st.x := by rw [h.st]
  have e2 : b'.st.y = b.st.y := by rw [h.st]
  unfold cursor
  rw [h.base hs sRadiusLogarithmic (by decide) (by decide), h.base hs sTrackingNoise (by decide) (by decide), h.base hs sSlowTracking (by decide) (by decide), e1, e2, h.rng]
  dsimp only
  by_cases q : b.baseval sTrackingNoise ≠ 0 ∧ e.exp (b.baseval sRadiusLogarithmic) * b.baseval sTrackingNoise > 1 / 1000
  · rw [if_pos q, if_pos q]
    exact ⟨rfl, rfl, { h with skip := rfl, skipX := rfl, skipY := rfl, rng := rfl }⟩
  · rw [if_neg q, if_neg q]
    exact ⟨rfl, rfl, h⟩

theorem strokeEvent_more {e : Env K R σ} (hg : GrowingLaws e) (hs : MoreOpaque s s') {P : σ → σ → Prop} (hP : DrawnHarder e s P) {ev : Event K}
    {fuel : Nat} (h : OpaqueTwin s s' b b') {surf surf' : σ} (hl : P surf surf')
    {r r' : Bool × Brush K R × σ} (hr : strokeEvent e fuel b surf ev = .ok r)
    (hr' : strokeEvent e fuel b' surf' ev = .ok r') :
    OpaqueTwin s s' r.2.1 r'.2.1 ∧ P r.2.2 r'.2.2 := by
  obtain ⟨k1, k2⟩ := skipStage_more e h ev.x ev.y ev.dtime
  obtain ⟨c1, c2, c3⟩ := cursor_more e hs k1 ev.x ev.y (skipStage e b ev.x ev.y ev.dtime).2.1
  have hc := strokeEvent_cases hr
  have hc' := strokeEvent_cases hr'
  rw [k2, h.reset, c1, c2] at hc'
  rcases hc with ⟨q1, rfl⟩ | ⟨q1, q2, b1, q3, rfl⟩ | ⟨q1, q2, q3⟩
  · rcases hc' with ⟨-, rfl⟩ | ⟨w, -⟩ | ⟨w, -⟩
    · exact ⟨k1, hl⟩
    · rw [q1] at w; cases w
    · rw [q1] at w; cases w
  · rcases hc' with ⟨w, -⟩ | ⟨-, -, b1', w, rfl⟩ | ⟨-, w, -⟩
    · rw [q1] at w; cases w
    · obtain ⟨bk, -, e1⟩ := startOver_eq q3
      obtain ⟨bk', -, e1'⟩ := startOver_eq w
      refine ⟨?_, hl⟩
      dsimp only
      rw [e1, e1']
      refine { settings := c3.settings, settings' := c3.settings', st := rfl, vals := c3.vals, skip := rfl, skipX := rfl,
               skipY := rfl, skippedTime := rfl, reset := rfl, rng := ?_, random := ?_ }
      · dsimp only; rw [c3.rng]
      · dsimp only; rw [c3.rng]
    · exact absurd q2 w
  · rcases hc' with ⟨w, -⟩ | ⟨-, w, -⟩ | ⟨-, -, w⟩
    · rw [q1] at w; cases w
    · exact absurd w q2
    · exact moveTo_more hg hs hP c3 hl q3 w

theorem strokeTo_more {e : Env K R σ} (hg : GrowingLaws e) (hs : MoreOpaque s s') {P : σ → σ → Prop} (hP : DrawnHarder e s P) {m : Motion K}
    {fuel : Nat} (h : OpaqueTwin s s' b b') {surf surf' : σ} (hl : P surf surf')
    {r r' : Bool × Brush K R × σ} (hr : strokeTo e fuel b surf m = .ok r)
    (hr' : strokeTo e fuel b' surf' m = .ok r') :
    OpaqueTwin s s' r.2.1 r'.2.1 ∧ P r.2.2 r'.2.2 := by
  have hw : ∀ ev, Workaround b' ev ↔ Workaround b ev := by
    intro ev
    unfold Workaround
    rw [h.st]
  obtain ⟨ev, he, hc⟩ := strokeTo_cases hr
  obtain ⟨ev', he', hc'⟩ := strokeTo_cases hr'
  rw [he] at he'
  cases he'
  rw [hw] at hc'
  rcases hc with ⟨w, q⟩ | ⟨w, i, r1, h1, h2, h3⟩
  · rcases hc' with ⟨-, q'⟩ | ⟨w', -⟩
    · exact strokeEvent_more hg hs hP h hl q q'
    · exact absurd w' w
  · rcases hc' with ⟨w', -⟩ | ⟨-, i', r1', h1', h2', h3'⟩
    · exact absurd w w'
    · rw [h1] at h1'
      cases h1'
      obtain ⟨k1, k2⟩ := strokeEvent_more hg hs hP h hl h2 h2'
      exact strokeEvent_more hg hs hP k1 k2 h3 h3'

theorem strokes_more {e : Env K R σ} (hg : GrowingLaws e) (hs : MoreOpaque s s') {P : σ → σ → Prop} (hP : DrawnHarder e s P) {fuel : Nat}
    (ms : List (Motion K)) (h : OpaqueTwin s s' b b') {surf surf' : σ} (hl : P surf surf')
    {r r' : Brush K R × σ} (hr : strokes e fuel b surf ms = .ok r) (hr' : strokes e fuel b' surf' ms = .ok r') : P r.2 r'.2 := by
  induction ms generalizing b b' surf surf' with
  | nil =>
    rw [← Except.ok.inj hr, ← Except.ok.inj hr']
    exact hl
  | cons m ms ih =>
    obtain ⟨r1, h1, hr⟩ := bind_ok hr
    obtain ⟨r1', h1', hr'⟩ := bind_ok hr'
    obtain ⟨k1, k2⟩ := strokeTo_more hg hs hP h hl h1 h1'
    exact ih k1 k2 hr hr'

/-! ### The theorems -/

/-- **A more opaque brush never paints less**: the same events give the same dabs, each at least as opaque. -/
theorem more_opaque_paints_no_less {e : Env K R σ} (hg : GrowingLaws e) {b : Brush K R} {s' : Load.Brush K} (hs : MoreOpaque b.settings s')
    {fuel : Nat} {ms : List (Motion K)} {surf surf' : σ} {r r' : Brush K R × (σ × List (Dab.Args K))}
    (h : strokes (recordDabs e) fuel b (surf, []) ms = .ok r)
    (h' : strokes (recordDabs e) fuel { b with settings := s' } (surf', []) ms = .ok r') : List.Forall₂ AtLeastAsOpaque r.2.2 r'.2.2 :=
  strokes_more (e := recordDabs e) (b' := { b with settings := s' }) (P := fun x x' => List.Forall₂ AtLeastAsOpaque x.2 x'.2) ⟨hg.exp, hg.pow⟩ hs
    (fun _ _ _ _ hl ha _ => List.rel_append hl (.cons ha .nil)) ms
    ⟨rfl, rfl, rfl, fun _ _ _ => rfl, rfl, rfl, rfl, rfl, rfl, rfl, rfl⟩ .nil h h'

omit [IsStrictOrderedRing K] [FloorRing K] in
/-- The value of a setting grows with its base value by as much. -/
theorem calculate_base [IsStrictOrderedRing K] {m : Mapping K} {v : K} (i : Nat → K) : calculate (setBase m v) i = calculate m i + (v - m.base) := by
  unfold calculate setBase
  dsimp only
  split_ifs
  · ring
  · have key : ∀ (l : List Nat) (a d : K),
        l.foldl (fun result k => if (m.pts k).n ≠ 0 then result + evaluate (m.pts k) (i k) else result) (a + d) =
        l.foldl (fun result k => if (m.pts k).n ≠ 0 then result + evaluate (m.pts k) (i k) else result) a + d := by
      intro l
      induction l with
      | nil => intro a d; rfl
      | cons k l ih =>
        intro a d
        rw [List.foldl_cons, List.foldl_cons]
        by_cases hk : (m.pts k).n ≠ 0
        · rw [if_pos hk, if_pos hk, ← ih, add_right_comm]
        · rw [if_neg hk, if_neg hk, ih]
    rw [← key, add_sub_cancel]

/-- A setting is one of the two opacities. -/
def IsOpacity (id : Nat) : Prop := id = sOpaque ∨ id = sOpaqueMultiply

omit [FloorRing K] in
/-- Turning up the base value of an opacity makes the brush more opaque. -/
theorem turned_up {s : Load.Brush K} (h1 : isConstant (s sSmudge) = true) (h2 : (s sSmudge).base = 0) (h3 : 0 ≤ (s sOpaqueLinearize).base)
    {id : Nat} (hid : IsOpacity id) {v : K} (hv : (s id).base ≤ v) :
    MoreOpaque s (fun k => if k = id then setBase (s k) v else s k) := by
  refine ⟨fun k k1 k2 => ?_, fun k _ i => ?_, ⟨fun i => ?_, h1⟩, h3⟩
  · rw [if_neg]
    rintro rfl
    exact hid.elim k1 k2
  · by_cases q : k = id
    · subst q
      simp only [if_true]
      rw [calculate_base]
      linarith
    · simp only [if_neg q, le_refl]
  · unfold calculate
    unfold isConstant at h1
    rw [if_pos (by simpa using h1)]
    exact h2

/-- **C127** Turning up the base value of one of the two opacities, whatever curves the settings have: the same events give the same dabs, each at
least as opaque. -/
theorem turning_up_paints_no_less {e : Env K R σ} (hg : GrowingLaws e) {b : Brush K R} (h1 : isConstant (b.settings sSmudge) = true)
    (h2 : (b.settings sSmudge).base = 0) (h3 : 0 ≤ (b.settings sOpaqueLinearize).base) {id : Nat} (hid : IsOpacity id) {v : K}
    (hv : (b.settings id).base ≤ v) {fuel : Nat} {ms : List (Motion K)} {surf surf' : σ} {r r' : Brush K R × (σ × List (Dab.Args K))}
    (h : strokes (recordDabs e) fuel b (surf, []) ms = .ok r)
    (h' : strokes (recordDabs e) fuel { b with settings := fun k => if k = id then setBase (b.settings k) v else b.settings k } (surf', []) ms = .ok r') :
    List.Forall₂ AtLeastAsOpaque r.2.2 r'.2.2 :=
  more_opaque_paints_no_less hg (turned_up h1 h2 h3 hid hv) h h'

end

namespace Demo

/-- Dabs of half the opacity turned up to three quarters. The radius follows the pressure, which is no hindrance here. -/
def faint (o : ℚ) : Brush ℚ Nat :=
  { pressing sRadiusLogarithmic with settings := fun k => if k = sOpaque then setBase ((pressing sRadiusLogarithmic).settings k) o else (pressing sRadiusLogarithmic).settings k }

/-- Eight dabs with half the opacity. -/
example : look (fun r => (r.2.take 2).map fun a => (a.x, a.radius, a.opaque')) (strokes env 100 (faint (1 / 2)) []
    [motion 0 0 (1 / 2) (1 / 10), motion 6 0 (1 / 4) (3 / 40)]) = some [(3 / 4, 583 / 320, 1 / 2), (95 / 64, 9187 / 5120, 1 / 2)] := by
  decide +kernel

/-- The same dabs with three quarters of it. -/
example : look (fun r => (r.2.take 2).map fun a => (a.x, a.radius, a.opaque')) (strokes env 100 (faint (3 / 4)) []
    [motion 0 0 (1 / 2) (1 / 10), motion 6 0 (1 / 4) (3 / 40)]) = some [(3 / 4, 583 / 320, 3 / 4), (95 / 64, 9187 / 5120, 3 / 4)] := by
  decide +kernel

/-- The conditions are met. -/
example {v : ℚ} (h : 1 / 2 ≤ v) : MoreOpaque (faint (1 / 2)).settings (fun k => if k = sOpaque then setBase ((faint (1 / 2)).settings k) v else (faint (1 / 2)).settings k) :=
  turned_up rfl (by decide +kernel) (by decide +kernel) (.inl rfl) h

end Demo
end Verif.Engine
