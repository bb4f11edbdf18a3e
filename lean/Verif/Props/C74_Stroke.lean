import Verif.Props.C44_Sampling

/-!
# C74: the input "stroke" goes from zero to one while a stroke is drawn
-/

namespace Verif.Engine
open Verif.Mask Verif.Color Verif.Spectral Verif.Map

section
variable {K R σ : Type} [Field K] [LinearOrder K] [IsStrictOrderedRing K] [FloorRing K]

/-! ### Specification -/

/-- The pressure below which a stroke ends. -/
def endPressure (s : Load.Brush K) : K := (s sStrokeThreshold).base * (9 / 10) + 1 / 10000

/-- The value of the input "stroke" in the next step, as long as no stroke begins. -/
def strokeInput (b : Brush K R) : K := min b.st.stroke 1

/-- The hold time is "infinite" (9.9 or more), nothing disturbs the events, and the threshold is not negative. -/
structure Holding (s : Load.Brush K) : Prop where
  hold : ∀ i, 99 / 10 < calculate (s sStrokeHoldtime) i
  noise : (s sTrackingNoise).base = 0
  threshold : 0 ≤ (s sStrokeThreshold).base

/-- In the middle of a stroke. -/
structure InStroke (b : Brush K R) : Prop where
  started : b.st.strokeStarted ≠ 0
  pressed : endPressure b.settings < b.st.pressure
  noReset : b.resetRequested = false
  noSkip : b.skip ≤ 1 / 1000

/-! ### Steps -/

omit [IsStrictOrderedRing K] [FloorRing K] in
theorem minC_eq (a b : K) : minC a b = min a b := by
  unfold minC
  split_ifs with h
  · exact (min_eq_left h.le).symm
  · exact (min_eq_right (not_lt.mp h)).symm

omit [FloorRing K] in
theorem stepTime_pos {t : K} (h : 0 ≤ t) : 0 < stepTime t := by
  unfold stepTime
  split_ifs with h1 h2
  · norm_num
  · norm_num
  · exact lt_of_le_of_ne h (Ne.symm h2)

omit [FloorRing K] in
theorem normDist_eq {e : Env K R σ} (L : Laws e) (dx dy : K) {t r : K} (ht : 0 < t) (hr : 0 < r) :
    hypot e (dx / t / r) (dy / t / r) * t = hypot e dx dy / r := by
  have k : 0 ≤ 1 / (t * r) := by positivity
  have e1 : dx / t / r = 1 / (t * r) * dx := by field_simp
  have e2 : dy / t / r = 1 / (t * r) * dy := by field_simp
  rw [e1, e2, hypot_scale L k]
  field_simp

/-- The distance that a whole stroke input takes: the radius of the brush times the stroke duration. -/
def strokeDistance (e : Env K R σ) (b : Brush K R) : K :=
  e.exp (b.baseval sRadiusLogarithmic) / e.exp (-b.vals sStrokeDurationLogarithmic)

/-- In the middle of a stroke, a step adds the distance it covers, in units of `strokeDistance`; if the input has been
at one for long, it stays there. `b'` has the values of the step. -/
theorem stroke_counts_distance {e : Env K R σ} (L : Laws e) {b b' : Brush K R} {s : Step K} (hb : 0 ≤ b.st.stroke)
    (hs : b.st.strokeStarted ≠ 0) (hp : endPressure b.settings < b.st.pressure + s.dpressure)
    (h0 : 0 ≤ endPressure b.settings) (ht : 0 ≤ s.dtime) (hh : 99 / 10 < b'.vals sStrokeHoldtime)
    (hu : update e b s = .ok b') :
    b'.st.strokeStarted ≠ 0 ∧
    (b'.st.stroke = b.st.stroke + hypot e s.dx s.dy / strokeDistance e b' ∨
      (b'.st.stroke = 1 ∧ 1 ≤ b.st.stroke + hypot e s.dx s.dy / strokeDistance e b')) := by
  have hpos : ¬ (b.st.pressure + s.dpressure ≤ 0) := not_le.mpr (lt_of_le_of_lt h0 hp)
  rw [update_eq hu] at hh ⊢
  unfold strokeDistance Brush.baseval
  dsimp only at hh ⊢
  generalize hv : settingValues b.settings (inputsOf e b (moveStates e b s)) = v at hh ⊢
  have hns : ¬ (b.st.strokeStarted = 0 ∧ b.st.pressure + s.dpressure > b.baseval sStrokeThreshold + 1 / 10000) :=
    fun q => hs q.1
  have hne : ¬ (b.st.strokeStarted ≠ 0 ∧
      b.st.pressure + s.dpressure ≤ b.baseval sStrokeThreshold * (9 / 10) + 1 / 10000) := fun q => not_lt.mpr q.2 hp
  have m1 : (moveStates e b s).strokeStarted = b.st.strokeStarted := by
    unfold moveStates
    dsimp only
    rw [if_neg hpos, if_neg hns, if_neg hne]
  have m2 : (moveStates e b s).stroke = b.st.stroke := by
    unfold moveStates
    dsimp only
    rw [if_neg hpos, if_neg hns]
  have f1 : (followStates e b (moveStates e b s) v s).strokeStarted = b.st.strokeStarted := m1
  have f2 : (followStates e b (moveStates e b s) v s).stroke = strokeLength e v b.st.stroke
      (hypot e (s.dx / stepTime s.dtime / e.exp (b.baseval sRadiusLogarithmic))
        (s.dy / stepTime s.dtime / e.exp (b.baseval sRadiusLogarithmic)) * stepTime s.dtime) := by
    show strokeLength e v (moveStates e b s).stroke _ = _
    rw [m2]
  rw [f1, f2, normDist_eq L _ _ (stepTime_pos ht) (L.exp_pos _)]
  refine ⟨hs, ?_⟩
  have hd : hypot e s.dx s.dy / e.exp (b.baseval sRadiusLogarithmic) * e.exp (-v sStrokeDurationLogarithmic) =
      hypot e s.dx s.dy / (e.exp (b.settings sRadiusLogarithmic).base / e.exp (-v sStrokeDurationLogarithmic)) := by
    unfold Brush.baseval
    have := (L.exp_pos (b.settings sRadiusLogarithmic).base).ne'
    have := (L.exp_pos (-v sStrokeDurationLogarithmic)).ne'
    field_simp
  have hg : 0 ≤ hypot e s.dx s.dy / (e.exp (b.settings sRadiusLogarithmic).base / e.exp (-v sStrokeDurationLogarithmic)) :=
    div_nonneg (hypot_nonneg L _ _) (div_nonneg (L.exp_pos _).le (L.exp_pos _).le)
  unfold strokeLength
  dsimp only
  rw [hd]
  generalize hypot e s.dx s.dy / (e.exp (b.settings sRadiusLogarithmic).base / e.exp (-v sStrokeDurationLogarithmic)) = g at *
  have e3 : maxC 0 (b.st.stroke + g) = b.st.stroke + g := by
    unfold maxC
    rcases eq_or_lt_of_le (add_nonneg hb hg) with q | q
    · rw [← q]; simp
    · rw [if_neg (not_lt.mpr q.le)]
  have e4 : maxC 0 (v sStrokeHoldtime) = v sStrokeHoldtime := by
    unfold maxC
    rw [if_neg (not_lt.mpr (by linarith))]
  rw [e3, e4]
  by_cases q : b.st.stroke + g ≥ 1 + v sStrokeHoldtime
  · rw [if_pos ⟨q, by linarith⟩]
    exact .inr ⟨rfl, by linarith⟩
  · rw [if_neg (fun w => q w.1), if_neg q]
    exact .inl rfl

/-- A stroke begins: the input of this step is zero. -/
theorem stroke_begins_at_zero {e : Env K R σ} {b : Brush K R} {s : Step K} (hs : b.st.strokeStarted = 0)
    (h0 : 0 ≤ (b.settings sStrokeThreshold).base)
    (hp : (b.settings sStrokeThreshold).base + 1 / 10000 < b.st.pressure + s.dpressure) :
    (inputsOf e b (moveStates e b s)).stroke = 0 ∧ (moveStates e b s).strokeStarted ≠ 0 := by
  have hpos : ¬ (b.st.pressure + s.dpressure ≤ 0) := by
    refine not_le.mpr (lt_trans ?_ hp)
    linarith [show (0 : K) < 1 / 10000 by norm_num]
  have hst : b.st.strokeStarted = 0 ∧ b.st.pressure + s.dpressure > b.baseval sStrokeThreshold + 1 / 10000 := ⟨hs, hp⟩
  have m1 : (moveStates e b s).stroke = 0 := by
    unfold moveStates
    dsimp only
    rw [if_neg hpos, if_pos hst]
  have m2 : (moveStates e b s).strokeStarted = 1 := by
    unfold moveStates
    dsimp only
    rw [if_neg hpos, if_pos hst]
  refine ⟨?_, by rw [m2]; exact one_ne_zero⟩
  show minC (moveStates e b s).stroke 1 = 0
  rw [m1, minC_eq]
  exact min_eq_left zero_le_one

/-! ### Sessions -/

/-- In the middle of a stroke, and the input is at least `c`. -/
structure Risen (c : K) (b : Brush K R) : Prop where
  holding : Holding b.settings
  stroke : InStroke b
  positive : 0 ≤ b.st.stroke
  risen : c ≤ strokeInput b

/-- An event in the middle of a stroke: pressed enough, and not after a pause of more than five seconds. -/
def Pressed (s : Load.Brush K) (ev : Event K) : Prop := endPressure s < ev.pressure ∧ ev.dtime ≤ 5

omit [FloorRing K] in
theorem sanitise_pressed {e : Env K R σ} {s0 : Load.Brush K} {m : Motion K} {ev : Event K} (h0 : 0 ≤ endPressure s0)
    (hm : endPressure s0 < m.pressure ∧ m.dtime ≤ 5 ∧ m.x.Sensible ∧ m.y.Sensible) (h : sanitise e m = .ok ev) :
    Pressed s0 ev := by
  have no : ∀ {g : Flt K}, g.Sensible → ¬ g.Absurd := by
    intro g hg ha
    cases g with
    | fin v =>
      have h1 : |v| < (10 : K) ^ 8 := hg
      have h2 : (10 : K) ^ 10 < |v| := ha
      have h3 : (10 : K) ^ 8 < 10 ^ 10 := by norm_num
      exact absurd (h2.trans h1) (not_lt.mpr h3.le)
    | _ => exact hg
  have hp : endPressure s0 < if m.pressure ≤ 0 then 0 else m.pressure := by
    rw [if_neg (not_le.mpr (lt_of_le_of_lt h0 hm.1))]
    exact hm.1
  have hd : (if m.dtime ≤ 0 then 1 / 10000 else m.dtime) ≤ 5 := by
    split_ifs
    · norm_num
    · exact hm.2.1
  unfold sanitise at h
  obtain ⟨t, -, h⟩ := bind_ok h
  dsimp only at h
  cases hx : sane m.x with
  | none => exact (no hm.2.2.1 (sane_none.mp hx)).elim
  | some x =>
    cases hy : sane m.y with
    | none => exact (no hm.2.2.2 (sane_none.mp hy)).elim
    | some y =>
      rw [hx, hy] at h
      dsimp only at h
      by_cases q : x < 10 ^ 8 ∧ y < 10 ^ 8 ∧ x > -10 ^ 8 ∧ y > -10 ^ 8
      · rw [if_pos q] at h
        rw [← Except.ok.inj h]
        exact ⟨hp, hd⟩
      · rw [if_neg q] at h
        cases h

theorem risen_invariant {e : Env K R σ} (L : Laws e) (c : K) (s0 : Load.Brush K) :
    Invariant e (Pressed s0) (fun _ _ => True) (fun b _ => b.settings = s0 ∧ Risen c b)
      (fun b _ => b.settings = s0 ∧ Risen c b) where
  skip b s ev hev h := by
    obtain ⟨h1, h2, h3, h4⟩ := h.2
    have e0 : skipStage e b ev.x ev.y ev.dtime = (b, ev.dtime, false) := if_neg (not_lt.mpr h2.noSkip)
    rw [e0]
    exact h
  pull b s ev hev _ h := by
    have h2 := h.2.stroke
    have e0 : skipStage e b ev.x ev.y ev.dtime = (b, ev.dtime, false) := if_neg (not_lt.mpr h2.noSkip)
    have e1 : (cursor e b ev.x ev.y ev.dtime).2.2 = b := by
      unfold cursor
      dsimp only
      rw [if_neg (fun q => q.1 h.2.holding.noise)]
    rw [e0]
    dsimp only
    rw [e1]
    exact h
  target _ _ _ _ _ _ := trivial
  start b s ev x y b' hev _ h hq _ := by
    exfalso
    rcases hq with hq | ⟨b0, h0, hq⟩
    · rw [h.2.stroke.noReset] at hq; cases hq
    · have e0 : skipStage e b0 ev.x ev.y ev.dtime = (b0, ev.dtime, false) := if_neg (not_lt.mpr h0.2.stroke.noSkip)
      rw [e0] at hq
      exact not_lt.mpr hev.2 hq
  count b s x y dt h := by
    obtain ⟨h1, h2, h3, h4⟩ := h.2
    rw [countDabs_st]
    exact ⟨h.1, h1, ⟨h2.started, h2.pressed, h2.noReset, h2.noSkip⟩, h3, h4⟩
  step b s ev x y d f t b' hev _ _ f0 f1 ht h hu := by
    obtain ⟨hs, h1, h2, h3, h4⟩ := h
    have hp0 : 0 ≤ endPressure b.settings := by
      have := h1.threshold
      unfold endPressure
      positivity
    have hp : endPressure b.settings < b.st.pressure + (stepTo b.st ev x y d f t).dpressure := by
      show _ < b.st.pressure + f * (ev.pressure - b.st.pressure)
      have k1 := h2.pressed
      have k2 := hev.1
      rw [← hs] at k2
      rcases eq_or_lt_of_le f1 with q | q
      · rw [q]; linarith
      · have := mul_nonneg f0 (sub_nonneg.mpr k2.le)
        have := mul_pos (sub_pos.mpr q) (sub_pos.mpr k1)
        linarith
    have hst : b'.settings = b.settings := by rw [update_eq hu]
    have hv : b'.vals = fun id => calculate (b'.settings id) (inputsOf e b (moveStates e b (stepTo b.st ev x y d f t))).get := by
      rw [update_eq hu]
      rfl
    have ht' : 0 ≤ (stepTo b.st ev x y d f t).dtime := mul_nonneg f0 ht
    obtain ⟨c1, c2⟩ := stroke_counts_distance L h3 h2.started hp hp0 ht' (by rw [hv, hst]; exact h1.hold _) hu
    have hg : 0 ≤ hypot e (stepTo b.st ev x y d f t).dx (stepTo b.st ev x y d f t).dy / strokeDistance e b' :=
      div_nonneg (hypot_nonneg L _ _) (div_nonneg (L.exp_pos _).le (L.exp_pos _).le)
    refine ⟨hst.trans hs, hst ▸ h1, ⟨c1, ?_, ?_, ?_⟩, ?_, ?_⟩
    · have e1 : b'.st.pressure = b.st.pressure + (stepTo b.st ev x y d f t).dpressure := by
        rw [update_eq hu]
        show (if b.st.pressure + (stepTo b.st ev x y d f t).dpressure ≤ 0 then 0 else _) = _
        rw [if_neg (not_le.mpr (lt_of_le_of_lt hp0 hp))]
      rw [e1, hst]
      exact hp
    · rw [update_eq hu]; exact h2.noReset
    · rw [update_eq hu]; exact h2.noSkip
    · rcases c2 with c2 | c2
      · rw [c2]; exact add_nonneg h3 hg
      · rw [c2.1]; exact zero_le_one
    · unfold strokeInput at h4 ⊢
      rcases c2 with c2 | c2
      · rw [c2]
        exact le_trans h4 (min_le_min_right _ (le_add_of_nonneg_right hg))
      · rw [c2.1, min_self]
        exact le_trans h4 (min_le_right _ _)
  draw b s lin p h hp := by
    have fr := drawDab_frame hp
    obtain ⟨hs, h1, h2, h3, h4⟩ := h
    have est : p.2.1.settings = b.settings := fr.settings
    refine ⟨est.trans hs, est ▸ h1, ⟨?_, ?_, ?_, ?_⟩, ?_, ?_⟩
    · show p.2.1.st.strokeStarted ≠ 0
      rw [fr]; exact h2.started
    · show endPressure p.2.1.settings < p.2.1.st.pressure
      rw [est]
      rw [fr]; exact h2.pressed
    · show p.2.1.resetRequested = false
      rw [fr]; exact h2.noReset
    · show p.2.1.skip ≤ 1 / 1000
      rw [fr]; exact h2.noSkip
    · show 0 ≤ p.2.1.st.stroke
      rw [fr]; exact h3
    · show c ≤ min p.2.1.st.stroke 1
      rw [fr]; exact h4
  finish b s n total idle h :=
    ⟨h.1, h.2.holding, ⟨h.2.stroke.started, h.2.stroke.pressed, h.2.stroke.noReset, h.2.stroke.noSkip⟩, h.2.positive, h.2.risen⟩

/-- **C74**. In the middle of a stroke, as long as the pen stays pressed and never pauses for more than five seconds, the
input "stroke" of a brush with infinite hold time never falls; the stroke goes on. -/
theorem stroke_never_falls {e : Env K R σ} (L : Laws e) (fuel : Nat) (ms : List (Motion K)) :
    ∀ {b : Brush K R} {surf : σ} {r : Brush K R × σ}, Holding b.settings → InStroke b → Underway b → 0 ≤ b.st.stroke →
      (∀ m ∈ ms, endPressure b.settings < m.pressure ∧ m.dtime ≤ 5 ∧ m.x.Sensible ∧ m.y.Sensible) →
      strokes e fuel b surf ms = .ok r → InStroke r.1 ∧ strokeInput b ≤ strokeInput r.1 := by
  intro b surf r h1 h2 hu h3 hm h
  have key : ∀ (ms : List (Motion K)) (b' : Brush K R) (surf : σ), b'.settings = b.settings → Risen (strokeInput b) b' →
      Underway b' →
      (∀ m ∈ ms, endPressure b.settings < m.pressure ∧ m.dtime ≤ 5 ∧ m.x.Sensible ∧ m.y.Sensible) →
      strokes e fuel b' surf ms = .ok r → InStroke r.1 ∧ strokeInput b ≤ strokeInput r.1 := by
    intro ms
    induction ms with
    | nil =>
      intro b' surf _ hr _ _ h
      rw [← Except.ok.inj h]
      exact ⟨hr.stroke, hr.risen⟩
    | cons m ms ih =>
      intro b' surf hs hr hu hm h
      unfold strokes at h
      obtain ⟨r1, k1, h⟩ := bind_ok h
      have hp0 : 0 ≤ endPressure b.settings := by
        have := h1.threshold
        unfold endPressure
        positivity
      have k : (r1.2.1.settings = b.settings ∧ Risen (strokeInput b) r1.2.1) ∧ TimeOk r1.2.1 := by
        have k1' := k1
        unfold strokeTo at k1
        obtain ⟨ev, hev, k1⟩ := bind_ok k1
        have hpz : b'.st.pressure ≠ 0 := by
          have := hr.stroke.pressed
          rw [hs] at this
          exact ne_of_gt (lt_of_le_of_lt hp0 this)
        rw [if_neg (fun q => hpz q.2.2)] at k1
        have hE : Pressed b.settings ev := sanitise_pressed hp0 (hm m (List.mem_cons_self ..)) hev
        exact strokeEvent_keeps (risen_invariant L (strokeInput b) b.settings) hE (sanitise_time hev) hu.pending hu.time
          ⟨hs, hr⟩ k1
      exact ih r1.2.1 r1.2.2 k.1.1 k.1.2 ⟨strokeTo_pending k1 hu.pending, k.2⟩ (fun q hq => hm q (List.mem_cons_of_mem _ hq)) h
  exact key ms b surf rfl ⟨h1, h2, h3, le_refl _⟩ hu hm h

end

/-! ### A brush in the middle of a stroke -/

noncomputable def holdValues (id : Nat) : ℝ :=
  if id = sStrokeHoldtime then 10 else if id = sStrokeThreshold then 1 / 10 else smudgeValues id

/-- After a stroke has begun, with the pen half pressed. -/
noncomputable def heldBrush : Brush ℝ Unit :=
  { plainBrush holdValues with
    resetRequested := false
    st := { State.cleared with strokeStarted := 1, pressure := 1 / 2, stroke := 1 / 4 } }

example : Holding heldBrush.settings ∧ InStroke heldBrush ∧ Underway heldBrush ∧ 0 ≤ heldBrush.st.stroke ∧
    endPressure heldBrush.settings < 1 / 5 := by
  have e1 : (heldBrush.settings sStrokeThreshold).base = 1 / 10 := rfl
  refine ⟨⟨fun i => ?_, rfl, ?_⟩, ⟨?_, ?_, rfl, ?_⟩, ⟨?_, ?_⟩, ?_, ?_⟩
  · show 99 / 10 < calculate ((plainBrush holdValues).settings sStrokeHoldtime) i
    rw [plainBrush_value]
    norm_num [holdValues]
  · rw [e1]; norm_num
  · norm_num [heldBrush, State.cleared]
  · unfold endPressure
    rw [e1]
    norm_num [heldBrush, State.cleared]
  · norm_num [heldBrush, plainBrush]
  · first | exact .inl rfl | (unfold PendingOk; norm_num [heldBrush, plainBrush, State.cleared])
  · exact le_refl _
  · norm_num [heldBrush, State.cleared]
  · unfold endPressure
    rw [e1]
    norm_num

/-- A drawn stroke: the input after each event. -/
example : ((List.range 7).map fun n => Demo.look (fun r => (decide (r.1.st.strokeStarted ≠ 0), strokeInput r.1))
    (strokes Demo.env 100 (Demo.set (Demo.set Demo.brush sStrokeHoldtime 10) sStrokeDurationLogarithmic 1) []
      ([Demo.motion 0 0 0 (1 / 10), Demo.motion 0 0 (1 / 2) (1 / 10), Demo.motion 3 0 (1 / 2) (1 / 10),
        Demo.motion 3 0 (1 / 2) (1 / 10), Demo.motion 3 4 (1 / 2) (1 / 10), Demo.motion 9 4 (1 / 2) (1 / 10)].take n))) =
    [some (false, 0), some (false, 1), some (true, 0), some (true, 1 / 2), some (true, 1 / 2), some (true, 1),
      some (true, 1)] := by
  decide +kernel

end Verif.Engine
