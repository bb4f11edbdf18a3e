import Verif.Props.C40_Events
import Verif.Lemmas.EngineSession

/-!
# C120: how a dab looks does not change where the dabs are

Two brushes that differ only in the settings for the looks of a dab, such as its colour, opacity, hardness or smudging, draw
their dabs in the same places. They may differ in the random variation of the radius too, if nothing else is random.
-/

namespace Verif.Engine
open Verif.Mask Verif.Color Verif.Spectral Verif.Map

/-! ### Specification -/

/-- The settings for the looks of a dab. -/
def looksOnly : List Nat :=
  [sOpaque, sOpaqueMultiply, sOpaqueLinearize, sHardness, sSoftness, sAntiAliasing, sRadiusByRandom, sColorH, sColorS, sColorV,
   sRestoreColor, sChangeColorH, sChangeColorL, sChangeColorHslS, sChangeColorV, sChangeColorHsvS, sSmudge, sPaintMode,
   sSmudgeTransparency, sSmudgeLength, sSmudgeLengthLog, sSmudgeBucket, sSmudgeRadiusLog, sEraser, sLockAlpha, sColorize,
   sPosterize, sPosterizeNum]

section
variable {K R σ : Type} [Field K] [LinearOrder K] [IsStrictOrderedRing K] [FloorRing K]

/-- The two differ in looks only. -/
def DifferInLooks (s s' : Load.Brush K) : Prop := ∀ id, id ∉ looksOnly → s' id = s id

/-- A brush that does not leave out dabs for the transparency of the canvas. -/
def LeavesNothingOut (s : Load.Brush K) : Prop :=
  ∀ i, calculate (s sSmudgeTransparency) i = 0 ∨ 1 ≤ calculate (s sSmudgeLength) i ∨
    (calculate (s sSmudge) i = 0 ∧ isConstant (s sSmudge) = true)

/-- Nothing is random about the places and the times of the dabs. -/
structure PlacedByRule (s : Load.Brush K) : Prop where
  noise : (s sTrackingNoise).base = 0
  offset : ∀ i, calculate (s sOffsetByRandom) i = 0
  inputs : ∀ id, id ∉ looksOnly → ∀ i j, (∀ k, k ≠ iRandom → i k = j k) → calculate (s id) i = calculate (s id) j

/-- Either the radius varies alike, or nothing else is random. -/
def RandomRadiusApart (s s' : Load.Brush K) : Prop := s' sRadiusByRandom = s sRadiusByRandom ∨ PlacedByRule s

/-- The same place, the same proportions, the same direction. -/
def SamePlace (a a' : Dab.Args K) : Prop := a'.x = a.x ∧ a'.y = a.y ∧ a'.aspect = a.aspect ∧ a'.angle = a.angle

/-! ### Two brushes side by side -/

/-- Two brushes that are in the same place. -/
structure InStep (s s' : Load.Brush K) (b b' : Brush K R) : Prop where
  settings : b.settings = s
  settings' : b'.settings = s'
  st : b'.st = { b.st with smudge := b'.st.smudge }
  vals : ∀ id, id ∉ looksOnly → b'.vals id = b.vals id
  skip : b'.skip = b.skip
  skipX : b'.skipX = b.skipX
  skipY : b'.skipY = b.skipY
  skippedTime : b'.skippedTime = b.skippedTime
  reset : b'.resetRequested = b.resetRequested
  chance : PlacedByRule s ∨ (s' sRadiusByRandom = s sRadiusByRandom ∧ b'.rng = b.rng ∧ b'.random = b.random)

/-- After a step. -/
structure InStepOn (s s' : Load.Brush K) (b b' : Brush K R) : Prop extends InStep s s' b b' where
  on : ∃ i, b.vals = fun id => calculate (s id) i
  on' : ∃ i, b'.vals = fun id => calculate (s' id) i
  radius : PlacedByRule s ∨ b'.vals sRadiusByRandom = b.vals sRadiusByRandom

variable {s s' : Load.Brush K} {b b' : Brush K R}

omit [IsStrictOrderedRing K] [FloorRing K] in
theorem InStep.base (hd : DifferInLooks s s') (h : InStep s s' b b') {id : Nat} (hid : id ∉ looksOnly) :
    b'.baseval id = b.baseval id := by
  unfold Brush.baseval
  rw [h.settings, h.settings', hd id hid]

omit [IsStrictOrderedRing K] in
theorem moveStates_instep (e : Env K R σ) (hd : DifferInLooks s s') (h : InStep s s' b b') (t : Step K) :
    moveStates e b' t = { moveStates e b t with smudge := b'.st.smudge } := by
  unfold moveStates
  rw [h.st, h.base hd (id := sStrokeThreshold) (by decide), h.vals sGridmapScale (by decide),
    h.vals sGridmapScaleX (by decide), h.vals sGridmapScaleY (by decide)]

omit [IsStrictOrderedRing K] in
theorem inputsOf_instep (e : Env K R σ) (hd : DifferInLooks s s') (h : InStep s s' b b') (t : Step K) :
    inputsOf e b' (moveStates e b' t) = { inputsOf e b (moveStates e b t) with random := b'.random } := by
  rw [moveStates_instep e hd h]
  unfold inputsOf
  rw [h.base hd (id := sRadiusLogarithmic) (by decide), h.base hd (id := sPressureGainLog) (by decide),
    h.base hd (id := sSpeed1Gamma) (by decide), h.base hd (id := sSpeed2Gamma) (by decide)]

omit [IsStrictOrderedRing K] in
theorem update_instep {e : Env K R σ} (hd : DifferInLooks s s') (h : InStep s s' b b') {t : Step K} {c c' : Brush K R}
    (hu : update e b t = .ok c) (hu' : update e b' t = .ok c') : InStepOn s s' c c' := by
  have hi := inputsOf_instep e hd h t
  have hv : ∀ id, id ∉ looksOnly → settingValues b'.settings (inputsOf e b' (moveStates e b' t)) id =
      settingValues b.settings (inputsOf e b (moveStates e b t)) id := by
    intro id hid
    unfold settingValues
    rw [h.settings, h.settings', hd id hid, hi]
    rcases h.chance with q | ⟨-, -, q⟩
    · refine q.inputs id hid _ _ (fun k hk => ?_)
      unfold Inputs.get
      simp only [hk, if_false]
    · rw [q]
      rfl
  have hf : followStates e b' (moveStates e b' t) (settingValues b'.settings (inputsOf e b' (moveStates e b' t))) t =
      { followStates e b (moveStates e b t) (settingValues b.settings (inputsOf e b (moveStates e b t))) t with
        smudge := b'.st.smudge } := by
    generalize settingValues b'.settings (inputsOf e b' (moveStates e b' t)) = v' at hv ⊢
    generalize settingValues b.settings (inputsOf e b (moveStates e b t)) = v at hv ⊢
    rw [moveStates_instep e hd h]
    unfold followStates strokeLength
    rw [h.base hd (id := sRadiusLogarithmic) (by decide), hv sSlowTrackingPerDab (by decide), hv sSpeed1Slowness (by decide),
      hv sSpeed2Slowness (by decide), hv sOffsetBySpeedSlowness (by decide), hv sDirectionFilter (by decide),
      hv sCustomInputSlowness (by decide), hv sDabsPerBasicRadius (by decide), hv sDabsPerActualRadius (by decide),
      hv sDabsPerSecond (by decide), hv sCustomInput (by decide), hv sRadiusLogarithmic (by decide),
      hv sEllipticalDabRatio (by decide), hv sEllipticalDabAngle (by decide), hv sStrokeDurationLogarithmic (by decide),
      hv sStrokeHoldtime (by decide)]
  have e1 := update_eq hu
  have e2 := update_eq hu'
  have es : c'.st.smudge = b'.st.smudge := by rw [e2]; dsimp only; rw [hf]
  refine { settings := ?_, settings' := ?_, st := ?_, vals := ?_, skip := ?_, skipX := ?_, skipY := ?_, skippedTime := ?_, reset := ?_,
           chance := ?_, on := ?_, on' := ?_, radius := ?_ }
  · rw [e1]; exact h.settings
  · rw [e2]; exact h.settings'
  · rw [es, e1, e2]; exact hf
  · rw [e1, e2]; exact hv
  · rw [e1, e2]; exact h.skip
  · rw [e1, e2]; exact h.skipX
  · rw [e1, e2]; exact h.skipY
  · rw [e1, e2]; exact h.skippedTime
  · rw [e1, e2]; exact h.reset
  · rw [e1, e2]; exact h.chance
  · rw [e1]; dsimp only; rw [h.settings]; exact ⟨_, rfl⟩
  · rw [e2]; dsimp only; rw [h.settings']; exact ⟨_, rfl⟩
  · rcases h.chance with q | ⟨q1, -, q2⟩
    · exact .inl q
    · right
      rw [e1, e2]
      dsimp only
      unfold settingValues
      rw [h.settings, h.settings', q1, hi, q2]
      rfl

omit [IsStrictOrderedRing K] in
theorem dabPosition_instep {e : Env K R σ} (hd : DifferInLooks s s') (h : InStepOn s s' b b') {p p' : K × K × Brush K R}
    (hp : dabPosition e b = .ok p) (hp' : dabPosition e b' = .ok p') :
    p'.1 = p.1 ∧ p'.2.1 = p.2.1 ∧ (PlacedByRule s ∨ p'.2.2.rng = p.2.2.rng) := by
  have hst := h.st
  have ho : ∀ r f, directionalOffsets e b' r f = directionalOffsets e b r f := by
    intro r f
    unfold directionalOffsets
    rw [hst]
    dsimp only
    rw [h.vals sOffsetAngleAdj (by decide), h.vals sOffsetAngle2 (by decide), h.vals sOffsetAngle2Asc (by decide),
      h.vals sOffsetAngle2View (by decide), h.vals sOffsetX (by decide), h.vals sOffsetY (by decide),
      h.vals sOffsetAngle (by decide), h.vals sOffsetAngleAsc (by decide), h.vals sOffsetAngleView (by decide),
      h.vals sOffsetMultiplier (by decide)]
  have e1 : b'.st.flip = b.st.flip := by rw [hst]
  have e2 : b'.st.actualX = b.st.actualX := by rw [hst]
  have e3 : b'.st.actualY = b.st.actualY := by rw [hst]
  have e4 : b'.st.viewzoom = b.st.viewzoom := by rw [hst]
  have e5 : b'.st.normDxSlow = b.st.normDxSlow := by rw [hst]
  have e6 : b'.st.normDySlow = b.st.normDySlow := by rw [hst]
  unfold dabPosition at hp hp'
  dsimp only at hp hp'
  rw [ho, e1, e2, e3, e4, e5, e6, h.base hd (id := sRadiusLogarithmic) (by decide), h.vals sOffsetBySpeed (by decide),
    h.vals sOffsetByRandom (by decide)] at hp'
  generalize hX : (if b.vals sOffsetBySpeed ≠ 0 then _ else _ : K) = X at hp hp'
  generalize hY : (if b.vals sOffsetBySpeed ≠ 0 then b.st.actualY + _ + _ else _ : K) = Y at hp hp'
  by_cases hz : b.vals sOffsetBySpeed ≠ 0 ∧ b.st.viewzoom = 0
  · rw [if_pos hz] at hp
    cases hp
  rw [if_neg hz] at hp hp'
  by_cases hr : b.vals sOffsetByRandom ≠ 0
  · rw [if_pos hr] at hp hp'
    rcases h.chance with q | ⟨-, q, -⟩
    · obtain ⟨i, hi⟩ := h.on
      rw [hi] at hr
      exact absurd (q.offset i) hr
    · rw [q] at hp'
      rw [← Except.ok.inj hp, ← Except.ok.inj hp']
      exact ⟨rfl, rfl, .inr rfl⟩
  · rw [if_neg hr] at hp hp'
    rw [← Except.ok.inj hp, ← Except.ok.inj hp']
    refine ⟨rfl, rfl, ?_⟩
    rcases h.chance with q | ⟨-, q, -⟩
    · exact .inl q
    · exact .inr q

omit [IsStrictOrderedRing K] [FloorRing K] in
theorem storeSmudge_rng {v : Bucket K} {o : Option Int} {c : Brush K R} (h : storeSmudge b v o = .ok c) : c.rng = b.rng := by
  unfold storeSmudge at h
  split at h
  · rw [← Except.ok.inj h]
  · obtain ⟨m, -, h⟩ := bind_ok h
    rw [← Except.ok.inj h]

omit [IsStrictOrderedRing K] in
theorem fetchSmudge_rng (b : Brush K R) : (fetchSmudge b).2.rng = b.rng := by
  unfold fetchSmudge
  split_ifs <;> rfl

omit [IsStrictOrderedRing K] in
theorem smudgeStage_rng {e : Env K R σ} {surf : σ} {x y r : K} {sm : Bool × Brush K R × σ} (h : smudgeStage e b surf x y r = .ok sm) :
    sm.2.1.rng = b.rng := by
  unfold smudgeStage at h
  split_ifs at h
  · dsimp only at h
    obtain ⟨v, -, h⟩ := bind_ok h
    obtain ⟨px, -, h⟩ := bind_ok h
    obtain ⟨py, -, h⟩ := bind_ok h
    obtain ⟨b2, h2, h⟩ := bind_ok h
    rw [← Except.ok.inj h]
    exact (storeSmudge_rng h2).trans (fetchSmudge_rng b)
  · rw [← Except.ok.inj h]

omit [IsStrictOrderedRing K] in
theorem smudgeColor_rng {e : Env K R σ} {c : Rgb K} {col : K × Rgb K × Brush K R} (h : smudgeColor e b c = .ok col) :
    col.2.2.rng = b.rng := by
  unfold smudgeColor at h
  split_ifs at h
  · dsimp only at h
    obtain ⟨v, -, h⟩ := bind_ok h
    rw [← Except.ok.inj h]
    exact fetchSmudge_rng b
  · rw [← Except.ok.inj h]

omit [IsStrictOrderedRing K] [FloorRing K] in
theorem updateSmudge_stays (e : Env K R σ) (b : Brush K R) (surf : σ) (v : Bucket K) (px py : Int) (radius : K)
    (h : b.vals sSmudgeTransparency = 0) : (updateSmudge e b surf v px py radius).1 = false := by
  unfold updateSmudge
  simp only [h, lt_irrefl, gt_iff_lt, neg_zero, false_and, or_self, and_false, if_false]
  split_ifs <;> rfl

omit [IsStrictOrderedRing K] in
/-- No dab is left out. -/
theorem smudgeStage_stays {e : Env K R σ} {s : Load.Brush K} (hs : LeavesNothingOut s) {b : Brush K R} (hb : b.settings = s) {i : Nat → K}
    (hi : b.vals = fun id => calculate (s id) i) {surf : σ} {x y r : K} {sm : Bool × Brush K R × σ}
    (h : smudgeStage e b surf x y r = .ok sm) : sm.1 = false := by
  unfold smudgeStage at h
  split_ifs at h with q
  · dsimp only at h
    obtain ⟨v, -, h⟩ := bind_ok h
    obtain ⟨px, -, h⟩ := bind_ok h
    obtain ⟨py, -, h⟩ := bind_ok h
    obtain ⟨b2, -, h⟩ := bind_ok h
    rw [← Except.ok.inj h]
    have hf : (fetchSmudge b).2.vals = b.vals := by
      unfold fetchSmudge
      split_ifs <;> rfl
    refine updateSmudge_stays e _ surf v px py r ?_
    rw [hf]
    rcases hs i with k | k | ⟨k1, k2⟩
    · rw [hi]; exact k
    · rw [hi] at q
      exact absurd q.1 (not_lt.mpr k)
    · rw [hb, hi] at q
      rcases q.2 with q | q
      · exact absurd k1 q
      · rw [k2] at q
        cases q
  · rw [← Except.ok.inj h]

omit [FloorRing K] [IsStrictOrderedRing K] in
theorem dabRadius_chance {e : Env K R σ} {o o' : K} {c c' : Brush K R} (hv : c'.vals sRadiusByRandom = c.vals sRadiusByRandom)
    (hr : c'.rng = c.rng) : (dabRadius e c' o').2.2.rng = (dabRadius e c o).2.2.rng := by
  unfold dabRadius
  dsimp only
  rw [hv, hr]
  by_cases q : c.vals sRadiusByRandom ≠ 0
  · rw [if_pos q, if_pos q]
  · rw [if_neg q, if_neg q]
    exact hr

/-- Both draw a dab, in the same place. -/
theorem drawDab_instep {e : Env K R σ} (hd : DifferInLooks s s') (hs : LeavesNothingOut s) (hs' : LeavesNothingOut s')
    (h : InStepOn s s' b b') {surf surf' : σ × List (Dab.Args K)} {lin : Bool} {p p' : Bool × Brush K R × (σ × List (Dab.Args K))}
    (hp : drawDab (recordDabs e) b surf lin = .ok p) (hp' : drawDab (recordDabs e) b' surf' lin = .ok p') :
    InStepOn s s' p.2.1 p'.2.1 ∧ ∃ a a', SamePlace a a' ∧ p.2.2.2 = surf.2 ++ [a] ∧ p'.2.2.2 = surf'.2 ++ [a'] := by
  have fr := drawDab_frame hp
  have fr' := drawDab_frame hp'
  obtain ⟨o, pos, sm, -, h2, h3, -, h4⟩ := drawDab_cases hp
  obtain ⟨o', pos', sm', -, h2', h3', -, h4'⟩ := drawDab_cases hp'
  obtain ⟨i, hi⟩ := h.on
  obtain ⟨i', hi'⟩ := h.on'
  have f := (dabPosition_frame h2).trans (dabRadius_frame (recordDabs e) pos.2.2 o)
  have f' := (dabPosition_frame h2').trans (dabRadius_frame (recordDabs e) pos'.2.2 o')
  have k : sm.1 = false := smudgeStage_stays hs (f.settings.trans h.settings) (f.vals.trans hi) h3
  have k' : sm'.1 = false := smudgeStage_stays hs' (f'.settings.trans h.settings') (f'.vals.trans hi') h3'
  rw [k] at h4
  rw [k'] at h4'
  simp only [Bool.false_eq_true, false_and, false_or, true_and] at h4 h4'
  obtain ⟨col, h5, h6, h7⟩ := h4
  obtain ⟨col', h5', h6', h7'⟩ := h4'
  obtain ⟨x1, x2, x3⟩ := dabPosition_instep hd h h2 h2'
  constructor
  · refine { settings := ?_, settings' := ?_, st := ?_, vals := ?_, skip := ?_, skipX := ?_, skipY := ?_, skippedTime := ?_, reset := ?_,
             chance := ?_, on := ?_, on' := ?_, radius := ?_ }
    · rw [fr]; exact h.settings
    · rw [fr']; exact h.settings'
    · have t1 := fr.st
      have t2 := fr'.st
      rw [h.st] at t2
      rw [t2, t1]
    · rw [fr.vals, fr'.vals]; exact h.vals
    · rw [fr, fr']; exact h.skip
    · rw [fr, fr']; exact h.skipX
    · rw [fr, fr']; exact h.skipY
    · rw [fr, fr']; exact h.skippedTime
    · rw [fr.resetRequested, fr'.resetRequested]; exact h.reset
    · rcases h.chance with q | ⟨q1, q2, q3⟩
      · exact .inl q
      rcases x3 with q | q
      · exact .inl q
      rcases h.radius with q' | q'
      · exact .inl q'
      refine .inr ⟨q1, ?_, ?_⟩
      · have r1 : p.2.1.rng = (dabRadius (recordDabs e) pos.2.2 o).2.2.rng := by
          rw [h7]
          exact (smudgeColor_rng h5).trans (smudgeStage_rng h3)
        have r2 : p'.2.1.rng = (dabRadius (recordDabs e) pos'.2.2 o').2.2.rng := by
          rw [h7']
          exact (smudgeColor_rng h5').trans (smudgeStage_rng h3')
        rw [r1, r2]
        refine dabRadius_chance ?_ q
        rw [(dabPosition_frame h2).vals, (dabPosition_frame h2').vals]
        exact q'
      · rw [fr.random, fr'.random]; exact q3
    · rw [fr.vals]; exact h.on
    · rw [fr'.vals]; exact h.on'
    · rw [fr.vals, fr'.vals]; exact h.radius
  · refine ⟨_, _, ?_, by rw [h7]; exact congrArg (· ++ [_]) (smudgeStage_noDabs h3), by rw [h7']; exact congrArg (· ++ [_]) (smudgeStage_noDabs h3')⟩
    have v1 : col'.2.2.vals sSnapToPixel = col.2.2.vals sSnapToPixel := by
      rw [h6.vals, h6'.vals]; exact h.vals _ (by decide)
    have st1 := h6.st
    have st2 := h6'.st
    rw [h.st] at st2
    have w1 : col'.2.2.st.ratio = col.2.2.st.ratio := by rw [st1, st2]
    have w2 : col'.2.2.st.angle = col.2.2.st.angle := by rw [st1, st2]
    unfold dabArgs snap
    dsimp only
    rw [x1, x2, v1]
    refine ⟨?_, ?_, w1, w2⟩
    · split_ifs <;> rfl
    · split_ifs <;> rfl

/-! ### Sessions -/

omit [IsStrictOrderedRing K] [FloorRing K] in
theorem countDabs_instep {e : Env K R σ} (hd : DifferInLooks s s') (h : InStep s s' b b') (x y dt : K) :
    (countDabs e b' x y dt).1 = (countDabs e b x y dt).1 ∧ InStep s s' (countDabs e b x y dt).2 (countDabs e b' x y dt).2 := by
  have hb := h.base hd (id := sRadiusLogarithmic) (by decide)
  have key : ∀ w, { b.st with smudge := w } = b'.st → (countDabs e b' x y dt).1 = (countDabs e b x y dt).1 ∧
      (countDabs e b' x y dt).2.st = { (countDabs e b x y dt).2.st with smudge := w } := by
    intro w hw
    unfold countDabs
    rw [hb, ← hw]
    dsimp only
    by_cases q : b.st.actualRadius = 0
    · simp only [if_pos q, and_self]
    · simp only [if_neg q, and_self]
  obtain ⟨k1, k2⟩ := key _ h.st.symm
  refine ⟨k1, { settings := h.settings, settings' := h.settings', st := ?_, vals := h.vals, skip := h.skip, skipX := h.skipX,
                skipY := h.skipY, skippedTime := h.skippedTime, reset := h.reset, chance := h.chance }⟩
  rw [k2]

/-- Two loops side by side. -/
structure LoopInStep (s s' : Load.Brush K) (l l' : Loop K R (σ × List (Dab.Args K))) : Prop where
  b : InStep s s' l.b l'.b
  moved : l'.moved = l.moved
  todo : l'.todo = l.todo
  time : l'.dtimeLeft = l.dtimeLeft
  dabs : List.Forall₂ SamePlace l.surf.2 l'.surf.2

theorem dabStep_instep {e : Env K R σ} (hd : DifferInLooks s s') (hs : LeavesNothingOut s) (hs' : LeavesNothingOut s') {ev : Event K}
    {x y : K} {l l' m m' : Loop K R (σ × List (Dab.Args K))} (h : LoopInStep s s' l l')
    (hm : dabStep (recordDabs e) ev x y l = .ok m) (hm' : dabStep (recordDabs e) ev x y l' = .ok m') : LoopInStep s s' m m' := by
  obtain ⟨-, b1, p, b2, hu, hp, e1, e2⟩ := dabStep_eq hm
  obtain ⟨-, b1', p', b2', hu', hp', e1', e2'⟩ := dabStep_eq hm'
  have hst : ∀ d f t, stepTo l'.b.st ev x y d f t = stepTo l.b.st ev x y d f t := by
    intro d f t
    rw [h.b.st]
    rfl
  rw [hst, h.moved, h.todo, h.time] at hu'
  have k1 := update_instep hd h.b hu hu'
  have k2 : InStepOn s s' { b1 with st := { b1.st with flip := b1.st.flip * -1 } } { b1' with st := { b1'.st with flip := b1'.st.flip * -1 } } := by
    refine { k1 with st := ?_ }
    show { b1'.st with flip := b1'.st.flip * -1 } = { b1.st with flip := b1.st.flip * -1, smudge := b1'.st.smudge }
    rw [k1.st]
  obtain ⟨k3, a, a', ha, d1, d2⟩ := drawDab_instep hd hs hs' k2 hp hp'
  have k4 : InStep s s' b2 b2' := by
    rw [e1, e1']
    refine { k3.toInStep with chance := ?_ }
    rcases k3.chance with q | ⟨q1, q2, q3⟩
    · exact .inl q
    · refine .inr ⟨q1, ?_, ?_⟩
      · dsimp only; rw [q2]
      · dsimp only; rw [q2]
  have k5 := countDabs_instep (e := recordDabs e) hd k4 x y
    (l.dtimeLeft - (if l.moved > 0 then 1 - l.moved else 1) / l.todo * l.dtimeLeft)
  rw [e2, e2']
  refine ⟨?_, ?_, ?_, ?_, ?_⟩
  · dsimp only; rw [h.moved, h.todo, h.time]; exact k5.2
  · dsimp only; rw [h.moved]
  · dsimp only; rw [h.moved, h.todo, h.time]; exact k5.1
  · dsimp only; rw [h.moved, h.todo, h.time]
  · dsimp only
    rw [d1, d2]
    exact List.rel_append h.dabs (.cons ha .nil)

theorem dabLoop_instep {e : Env K R σ} (hd : DifferInLooks s s') (hs : LeavesNothingOut s) (hs' : LeavesNothingOut s') {ev : Event K}
    {x y : K} (fuel : Nat) {l l' m m' : Loop K R (σ × List (Dab.Args K))} (h : LoopInStep s s' l l')
    (hm : dabLoop (recordDabs e) ev x y fuel l = .ok m) (hm' : dabLoop (recordDabs e) ev x y fuel l' = .ok m') : LoopInStep s s' m m' := by
  induction fuel generalizing l l' with
  | zero =>
    unfold dabLoop at hm hm'
    rw [h.moved, h.todo] at hm'
    split_ifs at hm hm'
    rw [← Except.ok.inj hm, ← Except.ok.inj hm']
    exact h
  | succ n ih =>
    unfold dabLoop at hm hm'
    rw [h.moved, h.todo] at hm'
    split_ifs at hm hm'
    · obtain ⟨l1, h1, hm⟩ := bind_ok hm
      obtain ⟨l1', h1', hm'⟩ := bind_ok hm'
      exact ih (dabStep_instep hd hs hs' h h1 h1') hm hm'
    · rw [← Except.ok.inj hm, ← Except.ok.inj hm']
      exact h

theorem moveTo_instep {e : Env K R σ} (hd : DifferInLooks s s') (hs : LeavesNothingOut s) (hs' : LeavesNothingOut s') {ev : Event K}
    {x y dt : K} {fuel : Nat} (h : InStep s s' b b') {surf surf' : σ × List (Dab.Args K)} (hl : List.Forall₂ SamePlace surf.2 surf'.2)
    {r r' : Bool × Brush K R × (σ × List (Dab.Args K))} (hr : moveTo (recordDabs e) fuel b surf ev x y dt = .ok r)
    (hr' : moveTo (recordDabs e) fuel b' surf' ev x y dt = .ok r') :
    InStep s s' r.2.1 r'.2.1 ∧ List.Forall₂ SamePlace r.2.2.2 r'.2.2.2 := by
  obtain ⟨l, b1, h1, h2, -, h3, h4⟩ := moveTo_eq hr
  obtain ⟨l', b1', h1', h2', -, h3', h4'⟩ := moveTo_eq hr'
  obtain ⟨c1, c2⟩ := countDabs_instep (e := recordDabs e) hd h x y dt
  have hl0 : ∀ p p' : Painted, LoopInStep s s'
      { b := (countDabs (recordDabs e) b x y dt).2, surf := surf, moved := b.st.partialDabs,
        todo := (countDabs (recordDabs e) b x y dt).1, dtimeLeft := dt, painted := p }
      { b := (countDabs (recordDabs e) b' x y dt).2, surf := surf', moved := b'.st.partialDabs,
        todo := (countDabs (recordDabs e) b' x y dt).1, dtimeLeft := dt, painted := p' } :=
    fun p p' => ⟨c2, by dsimp only; rw [h.st], c1, rfl, hl⟩
  have k := dabLoop_instep hd hs hs' fuel (hl0 _ _) h1 h1'
  have hst : ∀ d f t, stepTo l'.b.st ev x y d f t = stepTo l.b.st ev x y d f t := by
    intro d f t
    rw [k.b.st]
    rfl
  rw [hst, k.todo, k.time] at h2'
  have k1 := (update_instep hd k.b h2 h2').toInStep
  rw [h3, h3', h4, h4', splitStroke_eq, splitStroke_eq { b1' with st := { b1'.st with partialDabs := l'.moved + l'.todo } }]
  refine ⟨{ settings := k1.settings, settings' := k1.settings', st := ?_, vals := k1.vals, skip := k1.skip, skipX := k1.skipX,
            skipY := k1.skipY, skippedTime := k1.skippedTime, reset := k1.reset, chance := k1.chance }, k.dabs⟩
  show { b1'.st with partialDabs := l'.moved + l'.todo } = { b1.st with partialDabs := l.moved + l.todo, smudge := b1'.st.smudge }
  rw [k1.st, k.moved, k.todo]

omit [IsStrictOrderedRing K] [FloorRing K] in
theorem skipStage_instep (e : Env K R σ) (h : InStep s s' b b') (x y dt : K) :
    InStep s s' (skipStage e b x y dt).1 (skipStage e b' x y dt).1 ∧ (skipStage e b' x y dt).2 = (skipStage e b x y dt).2 := by
  unfold skipStage
  rw [h.skip, h.skipX, h.skipY, h.skippedTime, h.reset]
  dsimp only
  by_cases q : b.skip > 1 / 1000
  · rw [if_pos q, if_pos q]
    by_cases q' : b.skip - hypot e (b.skipX - x) (b.skipY - y) > 1 / 1000 ∧ ¬ (b.skippedTime + dt > 5 ∨ b.resetRequested = true)
    · rw [if_pos q', if_pos q']
      exact ⟨{ h with skip := rfl, skipX := rfl, skipY := rfl, skippedTime := rfl, reset := rfl }, rfl⟩
    · rw [if_neg q', if_neg q']
      exact ⟨{ h with skip := rfl, skipX := rfl, skipY := rfl, skippedTime := rfl, reset := rfl }, rfl⟩
  · rw [if_neg q, if_neg q]
    exact ⟨h, rfl⟩

omit [IsStrictOrderedRing K] in
theorem cursor_instep (e : Env K R σ) (hd : DifferInLooks s s') (h : InStep s s' b b') (x y dt : K) :
    (cursor e b' x y dt).1 = (cursor e b x y dt).1 ∧ (cursor e b' x y dt).2.1 = (cursor e b x y dt).2.1 ∧
      InStep s s' (cursor e b x y dt).2.2 (cursor e b' x y dt).2.2 := by
  have e1 : b'.st.x = b.st.x := by rw [h.st]
  have e2 : b'.st.y = b.st.y := by rw [h.st]
  unfold cursor
  rw [h.base hd (id := sRadiusLogarithmic) (by decide), h.base hd (id := sTrackingNoise) (by decide),
    h.base hd (id := sSlowTracking) (by decide), e1, e2]
  dsimp only
  by_cases q : b.baseval sTrackingNoise ≠ 0 ∧ e.exp (b.baseval sRadiusLogarithmic) * b.baseval sTrackingNoise > 1 / 1000
  · rw [if_pos q, if_pos q]
    rcases h.chance with c | ⟨c1, c2, c3⟩
    · refine absurd ?_ q.1
      unfold Brush.baseval
      rw [h.settings]
      exact c.noise
    · rw [c2]
      exact ⟨rfl, rfl, { h with skip := rfl, skipX := rfl, skipY := rfl, chance := .inr ⟨c1, rfl, c3⟩ }⟩
  · rw [if_neg q, if_neg q]
    exact ⟨rfl, rfl, h⟩

theorem strokeEvent_instep {e : Env K R σ} (hd : DifferInLooks s s') (hs : LeavesNothingOut s) (hs' : LeavesNothingOut s') {ev : Event K}
    {fuel : Nat} (h : InStep s s' b b') {surf surf' : σ × List (Dab.Args K)} (hl : List.Forall₂ SamePlace surf.2 surf'.2)
    {r r' : Bool × Brush K R × (σ × List (Dab.Args K))} (hr : strokeEvent (recordDabs e) fuel b surf ev = .ok r)
    (hr' : strokeEvent (recordDabs e) fuel b' surf' ev = .ok r') :
    InStep s s' r.2.1 r'.2.1 ∧ List.Forall₂ SamePlace r.2.2.2 r'.2.2.2 := by
  obtain ⟨k1, k2⟩ := skipStage_instep (recordDabs e) h ev.x ev.y ev.dtime
  obtain ⟨c1, c2, c3⟩ := cursor_instep (recordDabs e) hd k1 ev.x ev.y (skipStage (recordDabs e) b ev.x ev.y ev.dtime).2.1
  have hc := strokeEvent_cases hr
  have hc' := strokeEvent_cases hr'
  rw [k2, h.reset, c1, c2] at hc'
  rcases hc with ⟨q1, rfl⟩ | ⟨q1, q2, b1, q3, rfl⟩ | ⟨q1, q2, q3⟩
  · rcases hc' with ⟨-, rfl⟩ | ⟨w, -⟩ | ⟨w, -⟩
    · exact ⟨k1, hl⟩
    · rw [q1] at w; cases w
    · rw [q1] at w; cases w
  · rcases hc' with ⟨w, -⟩ | ⟨-, -, b1', w, rfl⟩ | ⟨-, w, -⟩
    · rw [q1] at w; cases w
    · obtain ⟨bk, -, e1⟩ := startOver_eq q3
      obtain ⟨bk', -, e1'⟩ := startOver_eq w
      refine ⟨?_, hl⟩
      dsimp only
      rw [e1, e1']
      refine { settings := c3.settings, settings' := c3.settings', st := rfl, vals := c3.vals, skip := rfl, skipX := rfl,
               skipY := rfl, skippedTime := rfl, reset := rfl, chance := ?_ }
      rcases c3.chance with c | ⟨d1, d2, d3⟩
      · exact .inl c
      · refine .inr ⟨d1, ?_, ?_⟩
        · dsimp only; rw [d2]
        · dsimp only; rw [d2]
    · exact absurd q2 w
  · rcases hc' with ⟨w, -⟩ | ⟨-, w, -⟩ | ⟨-, -, w⟩
    · rw [q1] at w; cases w
    · exact absurd w q2
    · exact moveTo_instep hd hs hs' c3 hl q3 w

theorem strokeTo_instep {e : Env K R σ} (hd : DifferInLooks s s') (hs : LeavesNothingOut s) (hs' : LeavesNothingOut s') {m : Motion K}
    {fuel : Nat} (h : InStep s s' b b') {surf surf' : σ × List (Dab.Args K)} (hl : List.Forall₂ SamePlace surf.2 surf'.2)
    {r r' : Bool × Brush K R × (σ × List (Dab.Args K))} (hr : strokeTo (recordDabs e) fuel b surf m = .ok r)
    (hr' : strokeTo (recordDabs e) fuel b' surf' m = .ok r') :
    InStep s s' r.2.1 r'.2.1 ∧ List.Forall₂ SamePlace r.2.2.2 r'.2.2.2 := by
  have hw : ∀ ev, Workaround b' ev ↔ Workaround b ev := by
    intro ev
    unfold Workaround
    rw [h.st]
  obtain ⟨ev, he, hc⟩ := strokeTo_cases hr
  obtain ⟨ev', he', hc'⟩ := strokeTo_cases hr'
  rw [he] at he'
  cases he'
  rw [hw] at hc'
  rcases hc with ⟨w, q⟩ | ⟨w, i, r1, h1, h2, h3⟩
  · rcases hc' with ⟨-, q'⟩ | ⟨w', -⟩
    · exact strokeEvent_instep hd hs hs' h hl q q'
    · exact absurd w' w
  · rcases hc' with ⟨w', -⟩ | ⟨-, i', r1', h1', h2', h3'⟩
    · exact absurd w w'
    · rw [h1] at h1'
      cases h1'
      obtain ⟨k1, k2⟩ := strokeEvent_instep hd hs hs' h hl h2 h2'
      exact strokeEvent_instep hd hs hs' k1 k2 h3 h3'

theorem strokes_instep {e : Env K R σ} (hd : DifferInLooks s s') (hs : LeavesNothingOut s) (hs' : LeavesNothingOut s') {fuel : Nat}
    (ms : List (Motion K)) (h : InStep s s' b b') {surf surf' : σ × List (Dab.Args K)} (hl : List.Forall₂ SamePlace surf.2 surf'.2)
    {r r' : Brush K R × (σ × List (Dab.Args K))} (hr : strokes (recordDabs e) fuel b surf ms = .ok r)
    (hr' : strokes (recordDabs e) fuel b' surf' ms = .ok r') :
    InStep s s' r.1 r'.1 ∧ List.Forall₂ SamePlace r.2.2 r'.2.2 := by
  induction ms generalizing b b' surf surf' with
  | nil =>
    rw [← Except.ok.inj hr, ← Except.ok.inj hr']
    exact ⟨h, hl⟩
  | cons m ms ih =>
    obtain ⟨r1, h1, hr⟩ := bind_ok hr
    obtain ⟨r1', h1', hr'⟩ := bind_ok hr'
    obtain ⟨k1, k2⟩ := strokeTo_instep hd hs hs' h hl h1 h1'
    exact ih k1 k2 hr hr'

/-! ### The theorems -/

/-- **The looks do not move the dabs**: a brush with other settings for the looks of its dabs makes as many dabs, in the same
places, with the same proportions and directions. -/
theorem looks_keep_places {e : Env K R σ} {s' : Load.Brush K} {b : Brush K R} (hd : DifferInLooks b.settings s')
    (hr : RandomRadiusApart b.settings s') (hs : LeavesNothingOut b.settings) (hs' : LeavesNothingOut s') {fuel : Nat}
    {ms : List (Motion K)} {surf surf' : σ} {r r' : Brush K R × (σ × List (Dab.Args K))}
    (h : strokes (recordDabs e) fuel b (surf, []) ms = .ok r)
    (h' : strokes (recordDabs e) fuel { b with settings := s' } (surf', []) ms = .ok r') :
    List.Forall₂ SamePlace r.2.2 r'.2.2 := by
  have h0 : InStep b.settings s' b { b with settings := s' } := by
    refine ⟨rfl, rfl, rfl, fun _ _ => rfl, rfl, rfl, rfl, rfl, rfl, ?_⟩
    rcases hr with q | q
    · exact .inr ⟨q, rfl, rfl⟩
    · exact .inl q
  exact (strokes_instep hd hs hs' ms h0 .nil h h').2

/-- As many dabs. -/
theorem looks_keep_number {e : Env K R σ} {s' : Load.Brush K} {b : Brush K R} (hd : DifferInLooks b.settings s')
    (hr : RandomRadiusApart b.settings s') (hs : LeavesNothingOut b.settings) (hs' : LeavesNothingOut s') {fuel : Nat}
    {ms : List (Motion K)} {surf surf' : σ} {r r' : Brush K R × (σ × List (Dab.Args K))}
    (h : strokes (recordDabs e) fuel b (surf, []) ms = .ok r)
    (h' : strokes (recordDabs e) fuel { b with settings := s' } (surf', []) ms = .ok r') : r'.2.2.length = r.2.2.length :=
  (looks_keep_places hd hr hs hs' h h').length_eq.symm

end

namespace Demo

/-- Another colour, less opaque, softer, erasing a little, with a smudge, and with dabs of random size. -/
def otherLooks (r : ℚ) : Load.Brush ℚ :=
  (set (set (set (set (set (set brush sColorV 1) sOpaque (1 / 2)) sHardness (1 / 4)) sSmudge (1 / 3)) sEraser (1 / 5)) sRadiusByRandom r).settings

/-- A brush without reset. -/
def plainLooks : Brush ℚ Nat := { brush with resetRequested := false }

theorem plainLooks_byRule : PlacedByRule plainLooks.settings :=
  ⟨rfl, fun _ => rfl, fun _ _ _ _ _ => rfl⟩

theorem otherLooks_differ (r : ℚ) : DifferInLooks plainLooks.settings (otherLooks r) := by
  intro id hid
  simp only [looksOnly, List.mem_cons, List.not_mem_nil, or_false, not_or] at hid
  unfold otherLooks set
  dsimp only
  simp only [hid, if_false]
  rfl

theorem plainLooks_all : LeavesNothingOut plainLooks.settings := fun _ => .inl rfl

theorem otherLooks_all (r : ℚ) : LeavesNothingOut (otherLooks r) := fun _ => .inl rfl

/-- The dabs of the first brush: places, radius, opacity. -/
example : look (fun r => r.2.map fun a => (a.x, a.y, a.radius, a.opaque')) (strokes env 100 plainLooks []
    [motion 0 0 (1 / 2) (1 / 10), motion 4 3 (1 / 2) (3 / 40)]) =
    some [(6 / 5, 9 / 10, 16 / 5, 1), (12 / 5, 9 / 5, 16 / 5, 1), (18 / 5, 27 / 10, 16 / 5, 1)] := by decide +kernel

/-- The other brush draws other dabs in the same places. -/
example : look (fun r => r.2.map fun a => (a.x, a.y, a.radius, a.opaque')) (strokes env 100 { plainLooks with settings := otherLooks 1 } []
    [motion 0 0 (1 / 2) (1 / 10), motion 4 3 (1 / 2) (3 / 40)]) =
    some [(6 / 5, 9 / 10, 4, 9 / 32), (12 / 5, 9 / 5, 4, 9 / 32), (18 / 5, 27 / 10, 4, 9 / 32)] := by decide +kernel

/-- The hypotheses hold for the two. -/
example {fuel : Nat} {ms : List (Motion ℚ)} {r r' : Brush ℚ Nat × (List (Dab.Args ℚ) × List (Dab.Args ℚ))}
    (h : strokes (recordDabs env) fuel plainLooks ([], []) ms = .ok r)
    (h' : strokes (recordDabs env) fuel { plainLooks with settings := otherLooks 1 } ([], []) ms = .ok r') :
    List.Forall₂ SamePlace r.2.2 r'.2.2 :=
  looks_keep_places (otherLooks_differ 1) (.inr plainLooks_byRule) plainLooks_all (otherLooks_all 1) h h'

/-- A generator whose numbers differ. -/
def changingEnv : Env ℚ Nat (List (Dab.Args ℚ)) := { env with gauss := fun r => (r, r + 1) }

/-- Dabs that are scattered at random. -/
def scattered (r : ℚ) : Brush ℚ Nat := set (set plainLooks sOffsetByRandom 1) sRadiusByRandom r

/-- **C120** (why nothing else may be random). The random radius takes numbers from the same generator, so it moves the dabs of a brush that
scatters them. -/
theorem random_radius_moves_scatter :
    look (fun r => r.2.map fun a => (a.x, a.y)) (strokes changingEnv 100 (scattered 0) []
        [motion 0 0 (1 / 2) (1 / 10), motion 4 3 (1 / 2) (3 / 40)]) ≠
      look (fun r => r.2.map fun a => (a.x, a.y)) (strokes changingEnv 100 (scattered (1 / 10)) []
        [motion 0 0 (1 / 2) (1 / 10), motion 4 3 (1 / 2) (3 / 40)]) := by decide +kernel

end Demo
end Verif.Engine
