import Verif.Props.C102_Tracking
import Verif.Props.C53_Ranges
import Verif.Lemmas.EngineSpin

/-!
# C103: the direction inputs read the direction of a straight stroke

The library filters the movement of the brush. On a straight stroke the result has the direction of the stroke, so that dabs that
follow the direction lie along the stroke.
-/

namespace Verif.Engine
open Verif.Mask Verif.Color Verif.Spectral Verif.Map

section
variable {K R σ : Type} [Field K] [LinearOrder K] [IsStrictOrderedRing K] [FloorRing K]

/-! ## Specification -/

/-- What is used of the angle of a vector, in degrees: it depends on the direction only, and the opposite vector has the opposite
direction. -/
structure AngleLaws (e : Env K R σ) : Prop where
  scale : ∀ c y x, 0 < c → e.atan2 (c * y) (c * x) = e.atan2 y x
  turn : ∀ y x, (y ≠ 0 ∨ x ≠ 0) → ∃ n : ℤ, e.atan2 (-y) (-x) = e.atan2 y x + 180 * n

/-- The line through `(px, py)` in the direction `(ux, uy)`. -/
def OnTheLine (px py ux uy x y : K) : Prop := ∃ k, x = px + k * ux ∧ y = py + k * uy

/-- The pen is on the line, on a view that has some zoom and one of the rotations of `V`, and does not pause for more than five
seconds. -/
def PenOnLine (V : K → Prop) (px py ux uy : K) (m : Motion K) : Prop :=
  ∃ X Y, RestsAt X Y m ∧ OnCanvas X Y ∧ OnTheLine px py ux uy X Y ∧ m.dtime ≤ 5 ∧ m.viewzoom ≠ 0 ∧ V m.viewrotation

/-- The direction filter is on, whatever the inputs. -/
def Filters (e : Env K R σ) (s : Load.Brush K) : Prop := ∀ i, 1 / 1000 < e.exp (calculate (s sDirectionFilter) i * (1 / 2)) - 1

/-- No tracking noise, and no pending reset. -/
structure Undisturbed (b : Brush K R) : Prop where
  noise : (b.settings sTrackingNoise).base = 0
  skip : b.skip ≤ 1 / 1000
  reset : b.resetRequested = false

/-- The filtered movement is along the line, in either sense. -/
def AlongLine (ux uy : K) (st : State K) : Prop := ∃ c, c ≠ 0 ∧ st.directionDx = c * ux ∧ st.directionDy = c * uy

/-- The filtered movement is in the direction of the line. -/
def Ahead (ux uy : K) (st : State K) : Prop := ∃ c, 0 < c ∧ st.directionAngleDx = c * ux ∧ st.directionAngleDy = c * uy

/-- The dab has the shape that the settings ask for, for inputs of which the one for the direction is `θ` plus the rotation of the
view, in half turns; and its angle is the one the settings ask for on the view with that rotation. -/
def DirectedDab (e : Env K R σ) (V : K → Prop) (s : Load.Brush K) (θ : K) (a : Dab.Args K) : Prop :=
  ∃ i ρ, V ρ ∧ i iDirection = modArith (θ + viewRotation e ρ) 180 ∧ DabShape e s i a ∧
    a.angle = modArith (calculate (s sEllipticalDabAngle) i - viewRotation e ρ + 180) 180 - 180

/-- The same, for the input that counts full turns. -/
def FullyDirectedDab (e : Env K R σ) (V : K → Prop) (s : Load.Brush K) (θ : K) (a : Dab.Args K) : Prop :=
  ∃ i ρ, V ρ ∧ (0 ≤ i iDirectionAngle ∧ i iDirectionAngle < 360 ∧ Congruent 360 (i iDirectionAngle) (θ + viewRotation e ρ)) ∧
    DabShape e s i a ∧ a.angle = modArith (calculate (s sEllipticalDabAngle) i - viewRotation e ρ + 180) 180 - 180

/-- The pen moves ahead on the line, from `k` on; it may rest but never goes back. -/
def MovesAhead (V : K → Prop) (px py ux uy : K) : K → List (Motion K) → Prop
  | _, [] => True
  | k, m :: ms => ∃ k', k ≤ k' ∧ RestsAt (px + k' * ux) (py + k' * uy) m ∧ OnCanvas (px + k' * ux) (py + k' * uy) ∧ m.dtime ≤ 5 ∧
    0 < m.viewzoom ∧ V m.viewrotation ∧ MovesAhead V px py ux uy k' ms

/-! ## Proof -/

omit [FloorRing K] in
theorem line_convex (px py ux uy : K) : Convex (OnTheLine px py ux uy) := by
  rintro x y x' y' t ⟨k, rfl, rfl⟩ ⟨k', rfl, rfl⟩ - -
  exact ⟨k + (k' - k) * t, by ring, by ring⟩

omit [FloorRing K] in
theorem angle_along {e : Env K R σ} (A : AngleLaws e) {ux uy c : K} (hu : uy ≠ 0 ∨ ux ≠ 0) (hc : c ≠ 0) :
    ∃ n : ℤ, e.atan2 (c * uy) (c * ux) = e.atan2 uy ux + 180 * n := by
  rcases lt_or_gt_of_ne hc with h | h
  · obtain ⟨n, hn⟩ := A.turn uy ux hu
    refine ⟨n, ?_⟩
    rw [← hn, ← A.scale (-c) (-uy) (-ux) (by linarith)]
    congr 1 <;> ring
  · exact ⟨0, by rw [A.scale c uy ux h]; push_cast; ring⟩

theorem sanitise_still {e : Env K R σ} {X Y : K} (hc : OnCanvas X Y) {m : Motion K} (hm : RestsAt X Y m) (ht : m.dtime ≤ 5)
    {ev : Event K} (h : sanitise e m = .ok ev) :
    ev.x = X ∧ ev.y = Y ∧ ev.dtime ≤ 5 ∧ ev.viewzoom = m.viewzoom ∧ ev.viewrotation = m.viewrotation := by
  obtain ⟨c1, c2, c3, c4⟩ := hc
  have big : (10 : K) ^ 8 ≤ 10 ^ 10 := by norm_num
  have s : ∀ v : K, -10 ^ 8 < v → v < 10 ^ 8 → sane (.fin v) = some v := by
    intro v h1 h2
    show (if v > 10 ^ 10 ∨ v < -10 ^ 10 then none else some v) = some v
    rw [if_neg]
    rintro (q | q) <;> linarith
  unfold sanitise at h
  obtain ⟨t, -, h⟩ := bind_ok h
  rw [hm.1, hm.2, s X c1 c2, s Y c3 c4] at h
  dsimp only at h
  rw [if_pos ⟨c2, c4, c1, c3⟩] at h
  rw [← Except.ok.inj h]
  refine ⟨rfl, rfl, ?_, rfl, rfl⟩
  show (if m.dtime ≤ 0 then 1 / 10000 else m.dtime) ≤ 5
  split_ifs
  · norm_num
  · exact ht

/-- How much is kept of the filtered movement: something, and not more than all. -/
theorem filter_range {e : Env K R σ} (L : Laws e) (he : Decays e) {T : K} (hT : 1 / 1000 < T) (dx dy : K) :
    0 < expDecay e T (hypot e dx dy) ∧ expDecay e T (hypot e dx dy) ≤ 1 := by
  have hT0 : 0 < T := lt_trans (by norm_num) hT
  unfold expDecay
  rw [if_neg (not_le.mpr hT)]
  exact ⟨L.exp_pos _, (he _ (div_nonpos_of_nonpos_of_nonneg (neg_nonpos.mpr (hypot_nonneg L _ _)) hT0.le)).2⟩

omit [FloorRing K] in
/-- The filtered movement stays on the line, and keeps its sense. -/
theorem turned_step {ux uy c m q : K} (hu : uy ≠ 0 ∨ ux ≠ 0) (q0 : 0 < q) (q1 : q ≤ 1) :
    ∃ c', (c ≠ 0 → c' ≠ 0) ∧ (m ≠ 0 → q < 1 → c' ≠ 0) ∧
      approach (c * ux) (if (c * ux - m * ux) * (c * ux - m * ux) + (c * uy - m * uy) * (c * uy - m * uy) >
          (c * ux - -(m * ux)) * (c * ux - -(m * ux)) + (c * uy - -(m * uy)) * (c * uy - -(m * uy)) then -(m * ux) else m * ux)
        (1 - q) = c' * ux ∧
      approach (c * uy) (if (c * ux - m * ux) * (c * ux - m * ux) + (c * uy - m * uy) * (c * uy - m * uy) >
          (c * ux - -(m * ux)) * (c * ux - -(m * ux)) + (c * uy - -(m * uy)) * (c * uy - -(m * uy)) then -(m * uy) else m * uy)
        (1 - q) = c' * uy := by
  have hn : 0 < ux * ux + uy * uy := by
    rcases hu with h | h
    · have := mul_self_pos.mpr h; nlinarith [mul_self_nonneg ux]
    · have := mul_self_pos.mpr h; nlinarith [mul_self_nonneg uy]
  have diff : (c * ux - m * ux) * (c * ux - m * ux) + (c * uy - m * uy) * (c * uy - m * uy) -
      ((c * ux - -(m * ux)) * (c * ux - -(m * ux)) + (c * uy - -(m * uy)) * (c * uy - -(m * uy))) =
      -(4 * (c * m) * (ux * ux + uy * uy)) := by ring
  have key : ∀ m' : K, 0 ≤ c * m' → (m' = m ∨ m' = -m) → ∃ c', (c ≠ 0 → c' ≠ 0) ∧ (m ≠ 0 → q < 1 → c' ≠ 0) ∧
      approach (c * ux) (m' * ux) (1 - q) = c' * ux ∧ approach (c * uy) (m' * uy) (1 - q) = c' * uy := by
    intro m' h0 hm
    have pos : c ≠ 0 → c * q + m' * (1 - q) ≠ 0 := by
      intro hc hz
      have : c * (c * q + m' * (1 - q)) = 0 := by rw [hz, mul_zero]
      have h1 : 0 < c * c * q := mul_pos (mul_self_pos.mpr hc) q0
      have h2 : 0 ≤ c * m' * (1 - q) := mul_nonneg h0 (by linarith)
      nlinarith
    refine ⟨c * q + m' * (1 - q), pos, ?_, by unfold approach; ring, by unfold approach; ring⟩
    intro hm0 hq
    by_cases hc : c = 0
    · rw [hc, zero_mul, zero_add]
      refine mul_ne_zero ?_ (by linarith)
      rcases hm with h | h
      · rw [h]; exact hm0
      · rw [h]; exact neg_ne_zero.mpr hm0
    · exact pos hc
  by_cases hop : (c * ux - m * ux) * (c * ux - m * ux) + (c * uy - m * uy) * (c * uy - m * uy) >
      (c * ux - -(m * ux)) * (c * ux - -(m * ux)) + (c * uy - -(m * uy)) * (c * uy - -(m * uy))
  · rw [if_pos hop, if_pos hop]
    have : 0 ≤ c * -m := by
      by_contra hneg
      have : 0 < c * m := by linarith [not_le.mp hneg, mul_neg c m]
      have := mul_pos this hn
      linarith
    have k := key (-m) this (.inr rfl)
    rw [neg_mul, neg_mul] at k
    exact k
  · rw [if_neg hop, if_neg hop]
    have : 0 ≤ c * m := by
      by_contra hneg
      have := mul_neg_of_neg_of_pos (not_le.mp hneg) hn
      linarith [not_lt.mp hop]
    exact key m this (.inl rfl)

/-- The state on the line. -/
structure LineState (px py ux uy : K) (st : State K) : Prop where
  place : OnTheLine px py ux uy st.x st.y
  way : ∃ c, st.directionDx = c * ux ∧ st.directionDy = c * uy

/-- One step on the line. The direction that is read is that of the state before the step. -/
theorem update_on_line {e : Env K R σ} (L : Laws e) (he : Decays e) (A : AngleLaws e) {px py ux uy : K} (hu : uy ≠ 0 ∨ ux ≠ 0)
    {b b' : Brush K R} (hf : Filters e b.settings) (hb : LineState px py ux uy b.st) {ev : Event K} {x y d f t : K}
    (hx : OnTheLine px py ux uy x y) (h : update e b (stepTo b.st ev x y d f t) = .ok b') :
    LineState px py ux uy b'.st ∧ (AlongLine ux uy b.st → AlongLine ux uy b'.st) ∧
    ((∀ z, z < 0 → e.exp z < 1) → ev.viewzoom ≠ 0 → ¬ (b'.st.x = b.st.x ∧ b'.st.y = b.st.y) → AlongLine ux uy b'.st) ∧
    (AlongLine ux uy b.st → ∃ i, i iDirection = modArith (e.atan2 uy ux + viewRotation e ev.viewrotation) 180 ∧
      (b'.vals = fun id => calculate (b'.settings id) i) ∧
      b'.st.actualRadius = askedRadius e (calculate (b'.settings sRadiusLogarithmic) i) ∧
      b'.st.ratio = calculate (b'.settings sEllipticalDabRatio) i ∧
      b'.st.angle = modArith (calculate (b'.settings sEllipticalDabAngle) i - viewRotation e ev.viewrotation + 180) 180 - 180) := by
  obtain ⟨⟨k, hk1, hk2⟩, c, hc1, hc2⟩ := hb
  obtain ⟨k', hk1', hk2'⟩ := hx
  obtain ⟨s, hs⟩ : ∃ s, s = stepTo b.st ev x y d f t := ⟨_, rfl⟩
  rw [← hs] at h
  obtain ⟨m, hm⟩ : ∃ m, m = f * (k' - k) * ev.viewzoom := ⟨_, rfl⟩
  have dx : s.dx * s.viewzoom = m * ux := by
    rw [hs, hm]; show f * (x - b.st.x) * ev.viewzoom = _; rw [hk1, hk1']; ring
  have dy : s.dy * s.viewzoom = m * uy := by
    rw [hs, hm]; show f * (y - b.st.y) * ev.viewzoom = _; rw [hk2, hk2']; ring
  have bx : b'.st.x = b.st.x + s.dx := by rw [update_eq h]; rfl
  have by' : b'.st.y = b.st.y + s.dy := by rw [update_eq h]; rfl
  have sx : s.dx = f * (k' - k) * ux := by rw [hs]; show f * (x - b.st.x) = _; rw [hk1, hk1']; ring
  have sy : s.dy = f * (k' - k) * uy := by rw [hs]; show f * (y - b.st.y) = _; rw [hk2, hk2']; ring
  have hT : 1 / 1000 < e.exp (b'.vals sDirectionFilter * (1 / 2)) - 1 := by
    rw [update_eq h]; exact hf _
  obtain ⟨T, hTe⟩ : ∃ T, T = e.exp (b'.vals sDirectionFilter * (1 / 2)) - 1 := ⟨_, rfl⟩
  rw [← hTe] at hT
  obtain ⟨q0, q1⟩ := filter_range L he hT (m * ux) (m * uy)
  obtain ⟨c', cn, cm, e1, e2⟩ := turned_step (c := c) (m := m) hu q0 q1
  have d1 : b'.st.directionDx = c' * ux := by
    rw [← e1, ← dx, ← dy, hTe, update_eq h, ← hc1, ← hc2]
    rfl
  have d2 : b'.st.directionDy = c' * uy := by
    rw [← e2, ← dx, ← dy, hTe, update_eq h, ← hc1, ← hc2]
    rfl
  have along : AlongLine ux uy b.st → c ≠ 0 := by
    rintro ⟨c0, h0, g1, g2⟩ rfl
    rw [hc1, zero_mul] at g1
    rw [hc2, zero_mul] at g2
    rcases hu with q | q
    · exact (mul_ne_zero h0 q) g2.symm
    · exact (mul_ne_zero h0 q) g1.symm
  refine ⟨⟨⟨k + f * (k' - k), ?_, ?_⟩, c', d1, d2⟩, fun ha => ⟨c', cn (along ha), d1, d2⟩, ?_, ?_⟩
  · rw [bx, sx, hk1]; ring
  · rw [by', sy, hk2]; ring
  · intro hexp hz hne
    have hm0 : m ≠ 0 := by
      intro h0
      rw [hm] at h0
      have h1 := (mul_eq_zero.mp h0).resolve_right hz
      apply hne
      rw [bx, by', sx, sy, h1, zero_mul, zero_mul, add_zero, add_zero]
      exact ⟨rfl, rfl⟩
    refine ⟨c', cm hm0 ?_, d1, d2⟩
    unfold expDecay
    rw [if_neg (not_le.mpr hT)]
    refine hexp _ (div_neg_of_neg_of_pos (neg_neg_of_pos ?_) (lt_trans (by norm_num) hT))
    have h1 := hypot_nonneg L (m * ux) (m * uy)
    refine lt_of_le_of_ne h1 (fun h2 => ?_)
    have h3 := hypot_sq L (m * ux) (m * uy)
    rw [← h2, mul_zero] at h3
    rcases hu with q | q
    · have := mul_self_pos.mpr (mul_ne_zero hm0 q); nlinarith [mul_self_nonneg (m * ux)]
    · have := mul_self_pos.mpr (mul_ne_zero hm0 q); nlinarith [mul_self_nonneg (m * uy)]
  · intro ha
    obtain ⟨n, hn⟩ := angle_along A hu (along ha)
    have hv : viewRotation e ev.viewrotation = (moveStates e b s).viewrotation := by rw [hs]; rfl
    rw [hv]
    refine ⟨(inputsOf e b (moveStates e b s)).get, ?_, ?_, ?_, ?_, ?_⟩
    · show modArith (e.atan2 b.st.directionDy b.st.directionDx + (moveStates e b s).viewrotation + 180) 180 = _
      rw [hc1, hc2, hn, show e.atan2 uy ux + 180 * (n : K) + (moveStates e b s).viewrotation + 180 =
        e.atan2 uy ux + (moveStates e b s).viewrotation + 180 * ((n + 1 : ℤ) : K) by push_cast; ring, modArith_halves]
    · rw [update_eq h]; rfl
    · rw [update_eq h, ← finalRadius_eq]; rfl
    · rw [update_eq h]; rfl
    · rw [update_eq h]; rfl

/-- What an update leaves, on the line. -/
def Directed (e : Env K R σ) (V : K → Prop) (θ : K) (b : Brush K R) : Prop :=
  ∃ i ρ, V ρ ∧ i iDirection = modArith (θ + viewRotation e ρ) 180 ∧ (b.vals = fun id => calculate (b.settings id) i) ∧
    b.st.actualRadius = askedRadius e (calculate (b.settings sRadiusLogarithmic) i) ∧
    b.st.ratio = calculate (b.settings sEllipticalDabRatio) i ∧
    b.st.angle = modArith (calculate (b.settings sEllipticalDabAngle) i - viewRotation e ρ + 180) 180 - 180

/-- On the line, before or after a step. -/
structure LineBrush (e : Env K R σ) (px py ux uy : K) (s0 : Load.Brush K) (b : Brush K R) : Prop where
  settings : b.settings = s0
  steady : Undisturbed b
  state : LineState px py ux uy b.st

/-- What is known of the events on the line. -/
structure LineEvent (V : K → Prop) (px py ux uy : K) (ev : Event K) : Prop where
  place : OnTheLine px py ux uy ev.x ev.y
  time : ev.dtime ≤ 5
  zoom : ev.viewzoom ≠ 0
  canvas : OnCanvas ev.x ev.y
  view : V ev.viewrotation

theorem lineEvent_of {e : Env K R σ} {V : K → Prop} {px py ux uy : K} {m : Motion K} {ev : Event K} (hm : PenOnLine V px py ux uy m)
    (h : sanitise e m = .ok ev) : LineEvent V px py ux uy ev := by
  obtain ⟨X, Y, h1, h2, h3, h4, h5, h6⟩ := hm
  obtain ⟨k1, k2, k3, k4, k5⟩ := sanitise_still h2 h1 h4 h
  exact ⟨by rw [k1, k2]; exact h3, k3, by rw [k4]; exact h5, by rw [k1, k2]; exact h2, by rw [k5]; exact h6⟩

theorem lineEvent_workaround {e : Env K R σ} {V : K → Prop} {px py ux uy : K} {ev i : Event K} (h : LineEvent V px py ux uy ev)
    (hi : sanitise e (workaroundMotion ev) = .ok i) : LineEvent V px py ux uy i :=
  lineEvent_of ⟨ev.x, ev.y, ⟨rfl, rfl⟩, h.canvas, h.place, by
    show ev.dtime - 1 / 10000 ≤ 5
    have := h.time
    linarith, h.zoom, h.view⟩ hi

theorem steady_skip {e : Env K R σ} {b : Brush K R} (h : Undisturbed b) (x y dt : K) : skipStage e b x y dt = (b, dt, false) := by
  unfold skipStage
  rw [if_neg (not_lt.mpr h.skip)]

theorem steady_cursor {e : Env K R σ} {b : Brush K R} (h : Undisturbed b) (x y dt : K) : (cursor e b x y dt).2.2 = b := by
  have hn' : b.baseval sTrackingNoise = 0 := h.noise
  unfold cursor
  dsimp only
  rw [if_neg (fun q => q.1 hn')]

theorem line_invariant {e : Env K R σ} (L : Laws e) (he : Decays e) (A : AngleLaws e) {V : K → Prop} {px py ux uy : K} (hu : uy ≠ 0 ∨ ux ≠ 0)
    {s0 : Load.Brush K} (hf : Filters e s0) :
    Invariant (recordDabs e) (LineEvent V px py ux uy) (OnTheLine px py ux uy)
      (fun b s => LineBrush e px py ux uy s0 b ∧ AlongLine ux uy b.st ∧ ∀ a ∈ s.2, DirectedDab e V s0 (e.atan2 uy ux) a)
      (fun b s => LineBrush e px py ux uy s0 b ∧ (AlongLine ux uy b.st ∧ Directed e V (e.atan2 uy ux) b) ∧
        ∀ a ∈ s.2, DirectedDab e V s0 (e.atan2 uy ux) a) where
  skip b s ev _ h := by rw [steady_skip h.1.steady]; exact h
  pull b s ev _ _ h := by rw [steady_skip h.1.steady, steady_cursor h.1.steady]; exact h
  target b s ev hev hdt h := by
    rw [steady_skip h.1.steady] at hdt ⊢
    exact cursor_in (line_convex px py ux uy) (e := recordDabs e) he h.1.steady.noise h.1.state.place hev.place hdt
  start b s ev x y b' hev hx h hq hs := by
    exfalso
    rcases hq with q | ⟨b0, q0, q⟩
    · rw [h.1.steady.reset] at q; cases q
    · rw [steady_skip q0.1.steady] at q
      exact absurd q (not_lt.mpr hev.time)
  count b s x y dt h := by
    rw [countDabs_st]
    exact ⟨⟨h.1.settings, ⟨h.1.steady.noise, h.1.steady.skip, h.1.steady.reset⟩, ⟨h.1.state.place, h.1.state.way⟩⟩, h.2.1, h.2.2⟩
  step b s ev x y d f t b' hev hx hd f0 f1 _ h hb := by
    have L' : Laws (recordDabs e) :=
      ⟨L.exp_pos, L.sqrt_nonneg, L.sqrt_sq, L.trig, L.atan2_range, L.next_range, L.pow_range⟩
    obtain ⟨k1, k2, -, k4⟩ := update_on_line (e := recordDabs e) L' he ⟨A.scale, A.turn⟩ hu
      (by rw [h.1.settings]; exact hf) h.1.state hx hb
    have est : b'.settings = b.settings := by rw [update_eq hb]
    refine ⟨⟨est.trans h.1.settings, ⟨by rw [est]; exact h.1.steady.noise, by rw [update_eq hb]; exact h.1.steady.skip,
      by rw [update_eq hb]; exact h.1.steady.reset⟩, k1⟩, ⟨k2 h.2.1, ?_⟩, h.2.2⟩
    obtain ⟨i, hi⟩ := k4 h.2.1
    exact ⟨i, ev.viewrotation, hev.view, hi⟩
  draw b s lin p h hp := by
    obtain ⟨hb, ⟨ha, i, rot, hV, h1, h2, h3, h4, h5⟩, hl⟩ := h
    have fr := drawDab_frame hp
    have est : p.2.1.settings = b.settings := fr.settings
    have esk : p.2.1.skip = b.skip := by rw [fr]
    have ers : p.2.1.resetRequested = b.resetRequested := by rw [fr]
    have ex : p.2.1.st.x = b.st.x := by rw [fr]
    have ey : p.2.1.st.y = b.st.y := by rw [fr]
    have edx : p.2.1.st.directionDx = b.st.directionDx := by rw [fr]
    have edy : p.2.1.st.directionDy = b.st.directionDy := by rw [fr]
    refine ⟨⟨est.trans hb.settings, ⟨by show (p.2.1.settings _).base = 0; rw [est]; exact hb.steady.noise,
      by show p.2.1.skip ≤ _; rw [esk]; exact hb.steady.skip, by show p.2.1.resetRequested = _; rw [ers]; exact hb.steady.reset⟩,
      ⟨by show OnTheLine px py ux uy p.2.1.st.x p.2.1.st.y; rw [ex, ey]; exact hb.state.place, ?_⟩⟩, ?_, ?_⟩
    · show ∃ c, p.2.1.st.directionDx = c * ux ∧ p.2.1.st.directionDy = c * uy
      rw [edx, edy]; exact hb.state.way
    · show ∃ c, c ≠ 0 ∧ p.2.1.st.directionDx = c * ux ∧ p.2.1.st.directionDy = c * uy
      rw [edx, edy]; exact ha
    · rcases drawDab_new h2 h3 h4 hp with q | ⟨a0, q, q1, q2⟩
      · rw [q]; exact hl
      · rw [q]
        intro a hin
        rcases List.mem_append.mp hin with g | g
        · exact hl a g
        · rw [List.mem_singleton.mp g]
          rw [hb.settings] at q1 h5
          exact ⟨i, rot, hV, h1, q1, q2.trans h5⟩
  finish b s n total idle h := ⟨⟨h.1.settings, ⟨h.1.steady.noise, h.1.steady.skip, h.1.steady.reset⟩,
    ⟨h.1.state.place, h.1.state.way⟩⟩, h.2.1.1, h.2.2⟩

/-- **C103**. The pen moves on a straight line, forwards and backwards, with any pauses up to five seconds, and the brush has been
moving along the line before; slow tracking is allowed. Then every dab has the shape that the settings ask for when the direction
input reads the angle of the line, plus the rotation of the view; and the brush goes on along the line. -/
theorem direction_reads_the_line {e : Env K R σ} (L : Laws e) (he : Decays e) (A : AngleLaws e) {V : K → Prop} {px py ux uy : K}
    (hu : uy ≠ 0 ∨ ux ≠ 0) {fuel : Nat} (ms : List (Motion K)) (hm : ∀ m ∈ ms, PenOnLine V px py ux uy m) {b : Brush K R}
    (hb : Underway b) (hs : Undisturbed b) (hf : Filters e b.settings) (h0 : OnTheLine px py ux uy b.st.x b.st.y) (ha : AlongLine ux uy b.st)
    (surf : σ) {r : Brush K R × (σ × List (Dab.Args K))} (h : strokes (recordDabs e) fuel b (surf, []) ms = .ok r) :
    (OnTheLine px py ux uy r.1.st.x r.1.st.y ∧ AlongLine ux uy r.1.st ∧ Undisturbed r.1) ∧
      ∀ a ∈ r.2.2, DirectedDab e V b.settings (e.atan2 uy ux) a := by
  have k := (session_keeps (line_invariant (px := px) (py := py) L he A hu hf) (PenOnLine V px py ux uy)
    (fun m ev hm hev => lineEvent_of hm hev) (fun ev i h hi => lineEvent_workaround h hi)
    (fun ev h => ⟨h.place, by show (1 / 10000 : K) ≤ 5; norm_num, h.zoom, h.canvas, h.view⟩) ms hm hb
    ⟨⟨rfl, hs, ⟨h0, by obtain ⟨c, -, h1, h2⟩ := ha; exact ⟨c, h1, h2⟩⟩⟩, ha, by simp⟩ h).1
  exact ⟨⟨k.1.state.place, k.2.1, k.1.steady⟩, k.2.2⟩

/-- **C103**. Dabs whose angle follows the direction lie along the line, however the view is rotated. -/
theorem dabs_lie_along_the_line {e : Env K R σ} (L : Laws e) (he : Decays e) (A : AngleLaws e) {V : K → Prop} {px py ux uy : K}
    (hu : uy ≠ 0 ∨ ux ≠ 0) {fuel : Nat} (ms : List (Motion K)) (hm : ∀ m ∈ ms, PenOnLine V px py ux uy m) {b : Brush K R}
    (hb : Underway b) (hs : Undisturbed b) (hf : Filters e b.settings) (h0 : OnTheLine px py ux uy b.st.x b.st.y) (ha : AlongLine ux uy b.st)
    (hθ : ∀ i, calculate (b.settings sEllipticalDabAngle) i = i iDirection)
    (surf : σ) {r : Brush K R × (σ × List (Dab.Args K))} (h : strokes (recordDabs e) fuel b (surf, []) ms = .ok r) :
    ∀ a ∈ r.2.2, Congruent 180 a.angle (e.atan2 uy ux) := by
  intro a hin
  obtain ⟨i, ρ, -, h1, -, h3⟩ := (direction_reads_the_line L he A hu ms hm hb hs hf h0 ha surf h).2 a hin
  rw [hθ, h1] at h3
  generalize viewRotation e ρ = rot at h3
  obtain ⟨-, -, n, hn⟩ := modArith_spec (e.atan2 uy ux + rot) 180 (by norm_num)
  obtain ⟨-, -, n', hn'⟩ := modArith_spec (modArith (e.atan2 uy ux + rot) 180 - rot + 180) 180 (by norm_num)
  refine ⟨n + n', ?_⟩
  rw [h3, hn', hn]
  push_cast
  ring

/-- The brush is still where it started, or it has a direction. -/
def Left (ux uy x0 y0 : K) (st : State K) : Prop := (st.x = x0 ∧ st.y = y0) ∨ AlongLine ux uy st

theorem leaving_invariant {e : Env K R σ} (L : Laws e) (he : Decays e) (hexp : ∀ z, z < 0 → e.exp z < 1) (A : AngleLaws e)
    {V : K → Prop} {px py ux uy : K} (hu : uy ≠ 0 ∨ ux ≠ 0) {s0 : Load.Brush K} (hf : Filters e s0) (x0 y0 : K) :
    Invariant e (LineEvent V px py ux uy) (OnTheLine px py ux uy)
      (fun b _ => LineBrush e px py ux uy s0 b ∧ Left ux uy x0 y0 b.st)
      (fun b _ => LineBrush e px py ux uy s0 b ∧ Left ux uy x0 y0 b.st) where
  skip b s ev _ h := by rw [steady_skip h.1.steady]; exact h
  pull b s ev _ _ h := by rw [steady_skip h.1.steady, steady_cursor h.1.steady]; exact h
  target b s ev hev hdt h := by
    rw [steady_skip h.1.steady] at hdt ⊢
    exact cursor_in (line_convex px py ux uy) he h.1.steady.noise h.1.state.place hev.place hdt
  start b s ev x y b' hev hx h hq hs := by
    exfalso
    rcases hq with q | ⟨b0, q0, q⟩
    · rw [h.1.steady.reset] at q; cases q
    · rw [steady_skip q0.1.steady] at q
      exact absurd q (not_lt.mpr hev.time)
  count b s x y dt h := by
    rw [countDabs_st]
    exact ⟨⟨h.1.settings, ⟨h.1.steady.noise, h.1.steady.skip, h.1.steady.reset⟩, ⟨h.1.state.place, h.1.state.way⟩⟩, h.2⟩
  step b s ev x y d f t b' hev hx hd f0 f1 _ h hb := by
    obtain ⟨k1, k2, k3, -⟩ := update_on_line L he A hu (by rw [h.1.settings]; exact hf) h.1.state hx hb
    have est : b'.settings = b.settings := by rw [update_eq hb]
    refine ⟨⟨est.trans h.1.settings, ⟨by rw [est]; exact h.1.steady.noise, by rw [update_eq hb]; exact h.1.steady.skip,
      by rw [update_eq hb]; exact h.1.steady.reset⟩, k1⟩, ?_⟩
    rcases h.2 with q | q
    · by_cases hmv : b'.st.x = b.st.x ∧ b'.st.y = b.st.y
      · exact .inl ⟨hmv.1.trans q.1, hmv.2.trans q.2⟩
      · exact .inr (k3 hexp hev.zoom hmv)
    · exact .inr (k2 q)
  draw b s lin p h hp := by
    obtain ⟨hb, ha⟩ := h
    have fr := drawDab_frame hp
    have est : p.2.1.settings = b.settings := fr.settings
    have esk : p.2.1.skip = b.skip := by rw [fr]
    have ers : p.2.1.resetRequested = b.resetRequested := by rw [fr]
    have ex : p.2.1.st.x = b.st.x := by rw [fr]
    have ey : p.2.1.st.y = b.st.y := by rw [fr]
    have edx : p.2.1.st.directionDx = b.st.directionDx := by rw [fr]
    have edy : p.2.1.st.directionDy = b.st.directionDy := by rw [fr]
    refine ⟨⟨est.trans hb.settings, ⟨by show (p.2.1.settings _).base = 0; rw [est]; exact hb.steady.noise,
      by show p.2.1.skip ≤ _; rw [esk]; exact hb.steady.skip, by show p.2.1.resetRequested = _; rw [ers]; exact hb.steady.reset⟩,
      ⟨by show OnTheLine px py ux uy p.2.1.st.x p.2.1.st.y; rw [ex, ey]; exact hb.state.place, ?_⟩⟩, ?_⟩
    · show ∃ c, p.2.1.st.directionDx = c * ux ∧ p.2.1.st.directionDy = c * uy
      rw [edx, edy]; exact hb.state.way
    · show (p.2.1.st.x = x0 ∧ p.2.1.st.y = y0) ∨ ∃ c, c ≠ 0 ∧ p.2.1.st.directionDx = c * ux ∧ p.2.1.st.directionDy = c * uy
      rw [ex, ey, edx, edy]; exact ha
  finish b s n total idle h := ⟨⟨h.1.settings, ⟨h.1.steady.noise, h.1.steady.skip, h.1.steady.reset⟩,
    ⟨h.1.state.place, h.1.state.way⟩⟩, h.2⟩

/-- **C103**. After a reset the brush has no direction; it has that of the line as soon as it has moved: whatever the pen does on the
line, if the brush ends anywhere else than it started, it has the direction of the line. -/
theorem movement_gives_direction {e : Env K R σ} (L : Laws e) (he : Decays e) (hexp : ∀ z, z < 0 → e.exp z < 1) (A : AngleLaws e)
    {V : K → Prop} {px py ux uy : K} (hu : uy ≠ 0 ∨ ux ≠ 0) {fuel : Nat} (ms : List (Motion K)) (hm : ∀ m ∈ ms, PenOnLine V px py ux uy m)
    {b : Brush K R} (hb : Underway b) (hs : Undisturbed b) (hf : Filters e b.settings) (h0 : OnTheLine px py ux uy b.st.x b.st.y)
    (hd : b.st.directionDx = 0 ∧ b.st.directionDy = 0) (surf : σ) {r : Brush K R × σ} (h : strokes e fuel b surf ms = .ok r)
    (hr : ¬ (r.1.st.x = b.st.x ∧ r.1.st.y = b.st.y)) : AlongLine ux uy r.1.st := by
  have k := (session_keeps (leaving_invariant (px := px) (py := py) L he hexp A hu hf b.st.x b.st.y) (PenOnLine V px py ux uy)
    (fun m ev hm hev => lineEvent_of hm hev) (fun ev i h hi => lineEvent_workaround h hi)
    (fun ev h => ⟨h.place, by show (1 / 10000 : K) ≤ 5; norm_num, h.zoom, h.canvas, h.view⟩) ms hm hb
    ⟨⟨rfl, hs, ⟨h0, 0, by rw [hd.1, zero_mul], by rw [hd.2, zero_mul]⟩⟩, .inl ⟨rfl, rfl⟩⟩ h).1
  exact k.2.resolve_left hr

/-! ### Full turns -/

/-- One step ahead. The filtered movement may be zero. -/
theorem update_ahead {e : Env K R σ} (L : Laws e) (he : Decays e) (A : AngleLaws e) {px py ux uy k k' : K} (hk : k ≤ k')
    {b b' : Brush K R} (hf : Filters e b.settings) (hx0 : b.st.x = px + k * ux) (hy0 : b.st.y = py + k * uy)
    (ha : ∃ c, 0 ≤ c ∧ b.st.directionAngleDx = c * ux ∧ b.st.directionAngleDy = c * uy) {ev : Event K} (hz : 0 < ev.viewzoom)
    {d f t : K} (f0 : 0 ≤ f) (f1 : f ≤ 1) (hu : uy ≠ 0 ∨ ux ≠ 0)
    (h : update e b (stepTo b.st ev (px + k' * ux) (py + k' * uy) d f t) = .ok b') :
    (∃ k1, k1 ≤ k' ∧ b'.st.x = px + k1 * ux ∧ b'.st.y = py + k1 * uy) ∧
    (∃ c, 0 ≤ c ∧ b'.st.directionAngleDx = c * ux ∧ b'.st.directionAngleDy = c * uy) ∧ (Ahead ux uy b.st → Ahead ux uy b'.st) ∧
    ((∀ z, z < 0 → e.exp z < 1) → ¬ (b'.st.x = b.st.x ∧ b'.st.y = b.st.y) → Ahead ux uy b'.st) ∧
    (Ahead ux uy b.st → ∃ i, (0 ≤ i iDirectionAngle ∧ i iDirectionAngle < 360 ∧
        Congruent 360 (i iDirectionAngle) (e.atan2 uy ux + viewRotation e ev.viewrotation)) ∧
      (b'.vals = fun id => calculate (b'.settings id) i) ∧
      b'.st.actualRadius = askedRadius e (calculate (b'.settings sRadiusLogarithmic) i) ∧
      b'.st.ratio = calculate (b'.settings sEllipticalDabRatio) i ∧
      b'.st.angle = modArith (calculate (b'.settings sEllipticalDabAngle) i - viewRotation e ev.viewrotation + 180) 180 - 180) := by
  obtain ⟨c, c0, hc1, hc2⟩ := ha
  have cpos : Ahead ux uy b.st → 0 < c := by
    rintro ⟨c1, p1, g1, g2⟩
    refine lt_of_le_of_ne c0 ?_
    rintro rfl
    rw [hc1, zero_mul] at g1
    rw [hc2, zero_mul] at g2
    rcases hu with q | q
    · exact (mul_ne_zero p1.ne' q) g2.symm
    · exact (mul_ne_zero p1.ne' q) g1.symm
  obtain ⟨s, hs⟩ : ∃ s, s = stepTo b.st ev (px + k' * ux) (py + k' * uy) d f t := ⟨_, rfl⟩
  rw [← hs] at h
  obtain ⟨m, hm⟩ : ∃ m, m = f * (k' - k) * ev.viewzoom := ⟨_, rfl⟩
  have m0 : 0 ≤ m := by rw [hm]; exact mul_nonneg (mul_nonneg f0 (by linarith)) hz.le
  have dx : s.dx * s.viewzoom = m * ux := by
    rw [hs, hm]; show f * (px + k' * ux - b.st.x) * ev.viewzoom = _; rw [hx0]; ring
  have dy : s.dy * s.viewzoom = m * uy := by
    rw [hs, hm]; show f * (py + k' * uy - b.st.y) * ev.viewzoom = _; rw [hy0]; ring
  have bx : b'.st.x = b.st.x + s.dx := by rw [update_eq h]; rfl
  have by' : b'.st.y = b.st.y + s.dy := by rw [update_eq h]; rfl
  have sx : s.dx = f * (k' - k) * ux := by rw [hs]; show f * (px + k' * ux - b.st.x) = _; rw [hx0]; ring
  have sy : s.dy = f * (k' - k) * uy := by rw [hs]; show f * (py + k' * uy - b.st.y) = _; rw [hy0]; ring
  have hT : 1 / 1000 < e.exp (b'.vals sDirectionFilter * (1 / 2)) - 1 := by
    rw [update_eq h]; exact hf _
  obtain ⟨T, hTe⟩ : ∃ T, T = e.exp (b'.vals sDirectionFilter * (1 / 2)) - 1 := ⟨_, rfl⟩
  rw [← hTe] at hT
  obtain ⟨q0, q1⟩ := filter_range L he hT (m * ux) (m * uy)
  obtain ⟨q, hq⟩ : ∃ q, q = expDecay e T (hypot e (m * ux) (m * uy)) := ⟨_, rfl⟩
  rw [← hq] at q0 q1
  have d1 : b'.st.directionAngleDx = (c * q + m * (1 - q)) * ux := by
    have : b'.st.directionAngleDx = approach (c * ux) (m * ux) (1 - q) := by
      rw [hq, ← dx, ← dy, hTe, update_eq h, ← hc1]
      rfl
    rw [this]; unfold approach; ring
  have d2 : b'.st.directionAngleDy = (c * q + m * (1 - q)) * uy := by
    have : b'.st.directionAngleDy = approach (c * uy) (m * uy) (1 - q) := by
      rw [hq, ← dx, ← dy, hTe, update_eq h, ← hc2]
      rfl
    rw [this]; unfold approach; ring
  refine ⟨⟨k + f * (k' - k), ?_, ?_, ?_⟩, ⟨_, ?_, d1, d2⟩, fun ha => ⟨_, ?_, d1, d2⟩, fun hexp hne => ⟨_, ?_, d1, d2⟩, fun ha => ?_⟩
  · have := mul_le_mul_of_nonneg_right f1 (sub_nonneg.mpr hk)
    linarith
  · rw [bx, sx, hx0]; ring
  · rw [by', sy, hy0]; ring
  · exact add_nonneg (mul_nonneg c0 q0.le) (mul_nonneg m0 (by linarith))
  · exact add_pos_of_pos_of_nonneg (mul_pos (cpos ha) q0) (mul_nonneg m0 (by linarith))
  · have hm0 : m ≠ 0 := by
      intro h0
      rw [hm] at h0
      have h1 := (mul_eq_zero.mp h0).resolve_right hz.ne'
      apply hne
      rw [bx, by', sx, sy, h1, zero_mul, zero_mul, add_zero, add_zero]
      exact ⟨rfl, rfl⟩
    have q2 : q < 1 := by
      rw [hq]
      unfold expDecay
      rw [if_neg (not_le.mpr hT)]
      refine hexp _ (div_neg_of_neg_of_pos (neg_neg_of_pos ?_) (lt_trans (by norm_num) hT))
      have h1 := hypot_nonneg L (m * ux) (m * uy)
      refine lt_of_le_of_ne h1 (fun h2 => ?_)
      have h3 := hypot_sq L (m * ux) (m * uy)
      rw [← h2, mul_zero] at h3
      rcases hu with q | q
      · have := mul_self_pos.mpr (mul_ne_zero hm0 q); nlinarith [mul_self_nonneg (m * ux)]
      · have := mul_self_pos.mpr (mul_ne_zero hm0 q); nlinarith [mul_self_nonneg (m * uy)]
    exact add_pos_of_nonneg_of_pos (mul_nonneg c0 q0.le) (mul_pos (lt_of_le_of_ne m0 hm0.symm) (by linarith))
  · have hv : viewRotation e ev.viewrotation = (moveStates e b s).viewrotation := by rw [hs]; rfl
    rw [hv]
    refine ⟨(inputsOf e b (moveStates e b s)).get, ?_, ?_, ?_, ?_, ?_⟩
    · show 0 ≤ fmod (e.atan2 b.st.directionAngleDy b.st.directionAngleDx + (moveStates e b s).viewrotation + 360) 360 ∧
        fmod (e.atan2 b.st.directionAngleDy b.st.directionAngleDx + (moveStates e b s).viewrotation + 360) 360 < 360 ∧
        Congruent 360 (fmod (e.atan2 b.st.directionAngleDy b.st.directionAngleDx + (moveStates e b s).viewrotation + 360) 360) _
      rw [hc1, hc2, A.scale c uy ux (cpos ha)]
      have r1 : -180 ≤ (moveStates e b s).viewrotation := by
        show -180 ≤ modArith _ 360 - 180
        linarith [(modArith_spec (e.degrees s.viewrotation + 180) 360 (by norm_num)).1]
      generalize (moveStates e b s).viewrotation = rot at *
      have r2 := (L.atan2_range uy ux).1
      have r3 : 0 ≤ e.atan2 uy ux + rot + 360 := by linarith
      unfold fmod
      rw [if_pos r3]
      obtain ⟨g1, g2, n, hn⟩ := modArith_spec (e.atan2 uy ux + rot + 360) 360 (by norm_num)
      refine ⟨g1, g2, n + 1, ?_⟩
      rw [hn]; push_cast; ring
    · rw [update_eq h]; rfl
    · rw [update_eq h, ← finalRadius_eq]; rfl
    · rw [update_eq h]; rfl
    · rw [update_eq h]; rfl

/-- On the way ahead to `k'`. -/
structure AheadBrush (px py ux uy k' : K) (s0 : Load.Brush K) (b : Brush K R) : Prop where
  settings : b.settings = s0
  steady : Undisturbed b
  place : ∃ k, k ≤ k' ∧ b.st.x = px + k * ux ∧ b.st.y = py + k * uy
  way : ∃ c, 0 ≤ c ∧ b.st.directionAngleDx = c * ux ∧ b.st.directionAngleDy = c * uy

/-- The event at `k'`. -/
structure AheadEvent (V : K → Prop) (px py ux uy k' : K) (ev : Event K) : Prop where
  x : ev.x = px + k' * ux
  y : ev.y = py + k' * uy
  time : ev.dtime ≤ 5
  zoom : 0 < ev.viewzoom
  canvas : OnCanvas ev.x ev.y
  view : V ev.viewrotation

theorem ahead_invariant {e : Env K R σ} (L : Laws e) (he : Decays e) (A : AngleLaws e) {V : K → Prop} {px py ux uy k' : K} (hu : uy ≠ 0 ∨ ux ≠ 0)
    {s0 : Load.Brush K} (hf : Filters e s0) (hslow : (s0 sSlowTracking).base ≤ 1 / 1000) :
    Invariant (recordDabs e) (AheadEvent V px py ux uy k') (fun x y => x = px + k' * ux ∧ y = py + k' * uy)
      (fun b s => (AheadBrush px py ux uy k' s0 b ∧ Ahead ux uy b.st) ∧ ∀ a ∈ s.2, FullyDirectedDab e V s0 (e.atan2 uy ux) a)
      (fun b s => ((AheadBrush px py ux uy k' s0 b ∧ Ahead ux uy b.st) ∧
        ∃ i ρ, V ρ ∧ (0 ≤ i iDirectionAngle ∧ i iDirectionAngle < 360 ∧
            Congruent 360 (i iDirectionAngle) (e.atan2 uy ux + viewRotation e ρ)) ∧
          (b.vals = fun id => calculate (b.settings id) i) ∧
          b.st.actualRadius = askedRadius e (calculate (b.settings sRadiusLogarithmic) i) ∧
          b.st.ratio = calculate (b.settings sEllipticalDabRatio) i ∧
          b.st.angle = modArith (calculate (b.settings sEllipticalDabAngle) i - viewRotation e ρ + 180) 180 - 180) ∧
        ∀ a ∈ s.2, FullyDirectedDab e V s0 (e.atan2 uy ux) a) where
  skip b s ev _ h := by rw [steady_skip h.1.1.steady]; exact h
  pull b s ev _ _ h := by rw [steady_skip h.1.1.steady, steady_cursor h.1.1.steady]; exact h
  target b s ev hev hdt h := by
    rw [steady_skip h.1.1.steady]
    have hn' : b.baseval sTrackingNoise = 0 := h.1.1.steady.noise
    have hs' : b.baseval sSlowTracking ≤ 1 / 1000 := by
      show (b.settings sSlowTracking).base ≤ _
      rw [h.1.1.settings]; exact hslow
    unfold cursor
    dsimp only
    rw [if_neg (fun q => q.1 hn')]
    unfold expDecay
    rw [if_pos hs']
    unfold approach
    dsimp only
    rw [hev.x, hev.y]
    constructor <;> ring
  start b s ev x y b' hev hx h hq hs := by
    exfalso
    rcases hq with q | ⟨b0, q0, q⟩
    · rw [h.1.1.steady.reset] at q; cases q
    · rw [steady_skip q0.1.1.steady] at q
      exact absurd q (not_lt.mpr hev.time)
  count b s x y dt h := by
    rw [countDabs_st]
    exact ⟨⟨⟨h.1.1.settings, ⟨h.1.1.steady.noise, h.1.1.steady.skip, h.1.1.steady.reset⟩, h.1.1.place, h.1.1.way⟩, h.1.2⟩, h.2⟩
  step b s ev x y d f t b' hev hx hd f0 f1 _ h hb := by
    have L' : Laws (recordDabs e) :=
      ⟨L.exp_pos, L.sqrt_nonneg, L.sqrt_sq, L.trig, L.atan2_range, L.next_range, L.pow_range⟩
    obtain ⟨k, hk, hx0, hy0⟩ := h.1.1.place
    rw [hx.1, hx.2] at hb
    obtain ⟨k1, k2, k3, -, k5⟩ := update_ahead (e := recordDabs e) L' he ⟨A.scale, A.turn⟩ hk
      (by rw [h.1.1.settings]; exact hf) hx0 hy0 h.1.1.way hev.zoom f0 f1 hu hb
    have est : b'.settings = b.settings := by rw [update_eq hb]
    refine ⟨⟨⟨⟨est.trans h.1.1.settings, ⟨by rw [est]; exact h.1.1.steady.noise, by rw [update_eq hb]; exact h.1.1.steady.skip,
      by rw [update_eq hb]; exact h.1.1.steady.reset⟩, k1, k2⟩, k3 h.1.2⟩, ?_⟩, h.2⟩
    obtain ⟨i, hi⟩ := k5 h.1.2
    exact ⟨i, ev.viewrotation, hev.view, hi⟩
  draw b s lin p h hp := by
    obtain ⟨⟨⟨hb, ha⟩, i, rot, hV, h1, h2, h3, h4, h5⟩, hl⟩ := h
    have fr := drawDab_frame hp
    have est : p.2.1.settings = b.settings := fr.settings
    have esk : p.2.1.skip = b.skip := by rw [fr]
    have ers : p.2.1.resetRequested = b.resetRequested := by rw [fr]
    have ex : p.2.1.st.x = b.st.x := by rw [fr]
    have ey : p.2.1.st.y = b.st.y := by rw [fr]
    have edx : p.2.1.st.directionAngleDx = b.st.directionAngleDx := by rw [fr]
    have edy : p.2.1.st.directionAngleDy = b.st.directionAngleDy := by rw [fr]
    refine ⟨⟨⟨est.trans hb.settings, ⟨by show (p.2.1.settings _).base = 0; rw [est]; exact hb.steady.noise,
      by show p.2.1.skip ≤ _; rw [esk]; exact hb.steady.skip, by show p.2.1.resetRequested = _; rw [ers]; exact hb.steady.reset⟩,
      ?_, ?_⟩, ?_⟩, ?_⟩
    · show ∃ k, k ≤ k' ∧ p.2.1.st.x = px + k * ux ∧ p.2.1.st.y = py + k * uy
      rw [ex, ey]; exact hb.place
    · show ∃ c, 0 ≤ c ∧ p.2.1.st.directionAngleDx = c * ux ∧ p.2.1.st.directionAngleDy = c * uy
      rw [edx, edy]; exact hb.way
    · show ∃ c, 0 < c ∧ p.2.1.st.directionAngleDx = c * ux ∧ p.2.1.st.directionAngleDy = c * uy
      rw [edx, edy]; exact ha
    · rcases drawDab_new h2 h3 h4 hp with q | ⟨a0, q, q1, q2⟩
      · rw [q]; exact hl
      · rw [q]
        intro a hin
        rcases List.mem_append.mp hin with g | g
        · exact hl a g
        · rw [List.mem_singleton.mp g]
          rw [hb.settings] at q1 h5
          exact ⟨i, rot, hV, h1, q1, q2.trans h5⟩
  finish b s n total idle h := ⟨⟨⟨h.1.1.1.settings, ⟨h.1.1.1.steady.noise, h.1.1.1.steady.skip, h.1.1.1.steady.reset⟩,
    h.1.1.1.place, h.1.1.1.way⟩, h.1.1.2⟩, h.2⟩

/-- The brush is still where it started, or it has a direction. -/
def SetOut (ux uy x0 y0 : K) (st : State K) : Prop := (st.x = x0 ∧ st.y = y0) ∨ Ahead ux uy st

theorem setting_out_invariant {e : Env K R σ} (L : Laws e) (he : Decays e) (hexp : ∀ z, z < 0 → e.exp z < 1) (A : AngleLaws e)
    {V : K → Prop} {px py ux uy k' : K} (hu : uy ≠ 0 ∨ ux ≠ 0) {s0 : Load.Brush K} (hf : Filters e s0)
    (hslow : (s0 sSlowTracking).base ≤ 1 / 1000) (x0 y0 : K) :
    Invariant e (AheadEvent V px py ux uy k') (fun x y => x = px + k' * ux ∧ y = py + k' * uy)
      (fun b _ => AheadBrush px py ux uy k' s0 b ∧ SetOut ux uy x0 y0 b.st)
      (fun b _ => AheadBrush px py ux uy k' s0 b ∧ SetOut ux uy x0 y0 b.st) where
  skip b s ev _ h := by rw [steady_skip h.1.steady]; exact h
  pull b s ev _ _ h := by rw [steady_skip h.1.steady, steady_cursor h.1.steady]; exact h
  target b s ev hev hdt h := by
    rw [steady_skip h.1.steady]
    have hn' : b.baseval sTrackingNoise = 0 := h.1.steady.noise
    have hs' : b.baseval sSlowTracking ≤ 1 / 1000 := by
      show (b.settings sSlowTracking).base ≤ _
      rw [h.1.settings]; exact hslow
    unfold cursor
    dsimp only
    rw [if_neg (fun q => q.1 hn')]
    unfold expDecay
    rw [if_pos hs']
    unfold approach
    dsimp only
    rw [hev.x, hev.y]
    constructor <;> ring
  start b s ev x y b' hev hx h hq hs := by
    exfalso
    rcases hq with q | ⟨b0, q0, q⟩
    · rw [h.1.steady.reset] at q; cases q
    · rw [steady_skip q0.1.steady] at q
      exact absurd q (not_lt.mpr hev.time)
  count b s x y dt h := by
    rw [countDabs_st]
    exact ⟨⟨h.1.settings, ⟨h.1.steady.noise, h.1.steady.skip, h.1.steady.reset⟩, h.1.place, h.1.way⟩, h.2⟩
  step b s ev x y d f t b' hev hx hd f0 f1 _ h hb := by
    obtain ⟨k, hk, hx0, hy0⟩ := h.1.place
    rw [hx.1, hx.2] at hb
    obtain ⟨k1, k2, k3, k4, -⟩ := update_ahead L he A hk (by rw [h.1.settings]; exact hf) hx0 hy0 h.1.way hev.zoom f0 f1 hu hb
    have est : b'.settings = b.settings := by rw [update_eq hb]
    refine ⟨⟨est.trans h.1.settings, ⟨by rw [est]; exact h.1.steady.noise, by rw [update_eq hb]; exact h.1.steady.skip,
      by rw [update_eq hb]; exact h.1.steady.reset⟩, k1, k2⟩, ?_⟩
    rcases h.2 with q | q
    · by_cases hmv : b'.st.x = b.st.x ∧ b'.st.y = b.st.y
      · exact .inl ⟨hmv.1.trans q.1, hmv.2.trans q.2⟩
      · exact .inr (k4 hexp hmv)
    · exact .inr (k3 q)
  draw b s lin p h hp := by
    obtain ⟨hb, ha⟩ := h
    have fr := drawDab_frame hp
    have est : p.2.1.settings = b.settings := fr.settings
    have esk : p.2.1.skip = b.skip := by rw [fr]
    have ers : p.2.1.resetRequested = b.resetRequested := by rw [fr]
    have ex : p.2.1.st.x = b.st.x := by rw [fr]
    have ey : p.2.1.st.y = b.st.y := by rw [fr]
    have edx : p.2.1.st.directionAngleDx = b.st.directionAngleDx := by rw [fr]
    have edy : p.2.1.st.directionAngleDy = b.st.directionAngleDy := by rw [fr]
    refine ⟨⟨est.trans hb.settings, ⟨by show (p.2.1.settings _).base = 0; rw [est]; exact hb.steady.noise,
      by show p.2.1.skip ≤ _; rw [esk]; exact hb.steady.skip, by show p.2.1.resetRequested = _; rw [ers]; exact hb.steady.reset⟩,
      ?_, ?_⟩, ?_⟩
    · show ∃ k, k ≤ k' ∧ p.2.1.st.x = px + k * ux ∧ p.2.1.st.y = py + k * uy
      rw [ex, ey]; exact hb.place
    · show ∃ c, 0 ≤ c ∧ p.2.1.st.directionAngleDx = c * ux ∧ p.2.1.st.directionAngleDy = c * uy
      rw [edx, edy]; exact hb.way
    · show (p.2.1.st.x = x0 ∧ p.2.1.st.y = y0) ∨ ∃ c, 0 < c ∧ p.2.1.st.directionAngleDx = c * ux ∧ p.2.1.st.directionAngleDy = c * uy
      rw [ex, ey, edx, edy]; exact ha
  finish b s n total idle h := ⟨⟨h.1.settings, ⟨h.1.steady.noise, h.1.steady.skip, h.1.steady.reset⟩, h.1.place, h.1.way⟩, h.2⟩

/-- Induction over the events of a movement ahead. -/
theorem ahead_keeps {e : Env K R σ} {V : K → Prop} {px py ux uy : K} {s0 : Load.Brush K} {fuel : Nat} {Q : Brush K R → σ → Prop}
    {J : K → Brush K R → σ → Prop}
    (H : ∀ k', Invariant e (AheadEvent V px py ux uy k') (fun x y => x = px + k' * ux ∧ y = py + k' * uy)
      (fun b s => AheadBrush px py ux uy k' s0 b ∧ Q b s) (J k')) (ms : List (Motion K)) :
    ∀ {k : K} {b : Brush K R} {surf : σ}, MovesAhead V px py ux uy k ms → Underway b → AheadBrush px py ux uy k s0 b → Q b surf →
      ∀ {r : Brush K R × σ}, strokes e fuel b surf ms = .ok r → Q r.1 r.2 := by
  induction ms with
  | nil =>
    intro k b surf _ _ hb hq r h
    rw [← Except.ok.inj h]
    exact hq
  | cons m ms ih =>
    intro k b surf hm hu hb hq r h
    obtain ⟨k', hk, m1, m2, m3, m4, m5, hm⟩ := hm
    unfold strokes at h
    obtain ⟨r1, h1, h⟩ := bind_ok h
    have hmo : ∀ {m : Motion K} {ev : Event K}, RestsAt (px + k' * ux) (py + k' * uy) m → m.dtime ≤ 5 → 0 < m.viewzoom →
        V m.viewrotation → sanitise e m = .ok ev → AheadEvent V px py ux uy k' ev := by
      intro m ev m1 m3 m4 m5 hev
      obtain ⟨g1, g2, g3, g4, g5⟩ := sanitise_still m2 m1 m3 hev
      exact ⟨g1, g2, g3, by rw [g4]; exact m4, by rw [g1, g2]; exact m2, by rw [g5]; exact m5⟩
    have k1 := session_keeps (H k')
      (fun m' => m' = m) (fun m' ev hm hev => by rw [hm] at hev; exact hmo m1 m3 m4 m5 hev)
      (fun ev i g hi => hmo (m := workaroundMotion ev) ⟨by show Flt.fin ev.x = _; rw [g.x], by show Flt.fin ev.y = _; rw [g.y]⟩ (by
        show ev.dtime - 1 / 10000 ≤ 5
        have := g.time
        linarith) g.zoom g.view hi)
      (fun ev g => ⟨g.x, g.y, by show (1 / 10000 : K) ≤ 5; norm_num, g.zoom, g.canvas, g.view⟩) [m] (fun m' hm => List.mem_singleton.mp hm) hu
      ⟨⟨hb.settings, hb.steady, by obtain ⟨k0, q, q1, q2⟩ := hb.place; exact ⟨k0, q.trans hk, q1, q2⟩, hb.way⟩, hq⟩
      (r := r1.2) (fuel := fuel) (by
        show (strokeTo e fuel b surf m >>= _) = _
        rw [ok_bind h1]
        rfl)
    exact ih hm k1.2 k1.1.1 k1.1.2 h

/-- **C103**. The pen moves ahead on a straight line, never back, and so has the brush before; no slow tracking. Then every dab has
the shape that the settings ask for when the input for the direction in full turns reads the angle of the movement, plus the
rotation of the view. -/
theorem direction_angle_reads_the_stroke {e : Env K R σ} (L : Laws e) (he : Decays e) (A : AngleLaws e) {V : K → Prop} {px py ux uy k : K}
    (hu : uy ≠ 0 ∨ ux ≠ 0) {fuel : Nat} (ms : List (Motion K)) (hm : MovesAhead V px py ux uy k ms) {b : Brush K R} (hb : Underway b)
    (hs : Undisturbed b) (hslow : (b.settings sSlowTracking).base ≤ 1 / 1000) (hf : Filters e b.settings) (hx : b.st.x = px + k * ux)
    (hy : b.st.y = py + k * uy) (ha : Ahead ux uy b.st) (surf : σ) {r : Brush K R × (σ × List (Dab.Args K))}
    (h : strokes (recordDabs e) fuel b (surf, []) ms = .ok r) :
    Ahead ux uy r.1.st ∧ ∀ a ∈ r.2.2, FullyDirectedDab e V b.settings (e.atan2 uy ux) a :=
  ahead_keeps (e := recordDabs e) (s0 := b.settings)
    (Q := fun b' s => Ahead ux uy b'.st ∧ ∀ a ∈ s.2, FullyDirectedDab e V b.settings (e.atan2 uy ux) a)
    (fun k' => by
      have H := ahead_invariant (V := V) (px := px) (py := py) (k' := k') L he A hu hf hslow
      simp only [and_assoc] at H ⊢
      exact H) ms hm hb
    ⟨rfl, hs, ⟨k, le_refl _, hx, hy⟩, by obtain ⟨c, c0, h1, h2⟩ := ha; exact ⟨c, c0.le, h1, h2⟩⟩ ⟨ha, by simp⟩ h

/-- **C103**. After a reset the brush has no direction; it has that of the movement ahead as soon as it has moved. -/
theorem movement_gives_direction_angle {e : Env K R σ} (L : Laws e) (he : Decays e) (hexp : ∀ z, z < 0 → e.exp z < 1)
    (A : AngleLaws e) {V : K → Prop} {px py ux uy k : K} (hu : uy ≠ 0 ∨ ux ≠ 0) {fuel : Nat} (ms : List (Motion K))
    (hm : MovesAhead V px py ux uy k ms) {b : Brush K R} (hb : Underway b) (hs : Undisturbed b)
    (hslow : (b.settings sSlowTracking).base ≤ 1 / 1000) (hf : Filters e b.settings) (hx : b.st.x = px + k * ux)
    (hy : b.st.y = py + k * uy) (hd : b.st.directionAngleDx = 0 ∧ b.st.directionAngleDy = 0) (surf : σ) {r : Brush K R × σ}
    (h : strokes e fuel b surf ms = .ok r) (hr : ¬ (r.1.st.x = b.st.x ∧ r.1.st.y = b.st.y)) : Ahead ux uy r.1.st :=
  (ahead_keeps (s0 := b.settings) (Q := fun b' _ => SetOut ux uy b.st.x b.st.y b'.st)
    (fun k' => setting_out_invariant (px := px) (py := py) (k' := k') L he hexp A hu hf hslow b.st.x b.st.y) ms hm hb
    ⟨rfl, hs, ⟨k, le_refl _, hx, hy⟩, 0, le_refl _, by rw [hd.1, zero_mul], by rw [hd.2, zero_mul]⟩ (.inl ⟨rfl, rfl⟩) h).resolve_left hr

end

/-! ### Examples -/

namespace Demo

open Real in
/-- The functions of the real numbers satisfy the laws. -/
theorem realEnv_angles {R σ : Type} (next gauss : R → ℝ × R) (draw : σ → Dab.Args ℝ → Bool × σ)
    (getColor : σ → Int → Int → ℝ → ℝ → Color.Rgba ℝ × σ) : AngleLaws (realEnv next gauss draw getColor) where
  scale c y x hc := by
    show Complex.arg ⟨c * x, c * y⟩ * (180 / π) = Complex.arg ⟨x, y⟩ * (180 / π)
    rw [← Complex.arg_real_mul ⟨x, y⟩ hc]
    congr 2
    apply Complex.ext <;> simp
  turn y x h := by
    have h0 : (⟨x, y⟩ : ℂ) ≠ 0 := by
      intro q
      have q1 := congrArg Complex.re q
      have q2 := congrArg Complex.im q
      rcases h with h | h
      · exact h q2
      · exact h q1
    have k := Complex.arg_neg_coe_angle h0
    rw [← Real.Angle.coe_add, Real.Angle.angle_eq_iff_two_pi_dvd_sub] at k
    obtain ⟨n, hn⟩ := k
    refine ⟨2 * n + 1, ?_⟩
    show Complex.arg ⟨-x, -y⟩ * (180 / π) = Complex.arg ⟨x, y⟩ * (180 / π) + 180 * ((2 * n + 1 : ℤ) : ℝ)
    have e1 : (⟨-x, -y⟩ : ℂ) = -⟨x, y⟩ := by apply Complex.ext <;> simp
    have e2 : Complex.arg (-⟨x, y⟩) = Complex.arg ⟨x, y⟩ + π + 2 * π * n := by linarith
    rw [e1, e2]
    have := Real.pi_ne_zero
    push_cast
    field_simp
    ring

/-- The curve by which the angle of the dabs follows the direction. -/
def following {K : Type} [Field K] : Mapping K where
  base := 0
  inputs := 18
  pts i := if i = iDirection then ⟨fun j => if j = 0 then 0 else 180, fun j => if j = 0 then 0 else 180, 2⟩
    else ⟨fun _ => 0, fun _ => 0, 0⟩
  used := 1

theorem following_direction {K : Type} [Field K] [LinearOrder K] [IsStrictOrderedRing K] (i : Nat → K) :
    calculate following i = i iDirection := by
  have hp : ∀ x : K, evaluate ⟨fun j => if j = 0 then 0 else 180, fun j => if j = 0 then 0 else 180, 2⟩ x = x := by
    intro x
    unfold evaluate
    simp only [findSegment]
    norm_num
  have hr : List.range 18 = [0, 1, 2, 3, 4, 5, 6, 7, 8, 9, 10, 11, 12, 13, 14, 15, 16, 17] := by decide
  have hn : ∀ j, ((following : Mapping K).pts j).n = if j = 3 then 2 else 0 := by
    intro j
    show (if j = 3 then _ else _ : Points K).n = _
    split_ifs <;> rfl
  have h3 : (following : Mapping K).pts 3 = ⟨fun j => if j = 0 then 0 else 180, fun j => if j = 0 then 0 else 180, 2⟩ := rfl
  unfold calculate
  rw [if_neg (show ¬ (following : Mapping K).used = 0 from one_ne_zero), show (following : Mapping K).inputs = 18 from rfl, hr,
    show (following : Mapping K).base = 0 from rfl]
  simp only [List.foldl_cons, List.foldl_nil, hn, h3, hp]
  simp

/-- A brush on the y axis that has moved upwards, with a filter; the dabs follow the direction. -/
noncomputable def upright : Brush ℝ Nat where
  total := 0
  idle := 0
  st := { State.cleared with directionDy := 1, directionAngleDy := 1 }
  buckets := ⟨[], 0, 0, 0⟩
  random := 0
  skip := 0
  skipX := 0
  skipY := 0
  skippedTime := 0
  rng := 0
  settings := fun i => if i = sEllipticalDabAngle then following else
    { base := if i = sDirectionFilter then 2 else 0, inputs := 18, pts := fun _ => ⟨fun _ => 0, fun _ => 0, 0⟩, used := 0 }
  vals := fun _ => 0
  resetRequested := false
  mix := ⟨0, 0, 0, 0⟩

/-- The hypotheses of the theorems hold for the brush and the functions of the real numbers. -/
theorem upright_ready {σ : Type} (next gauss : Nat → ℝ × Nat) (draw : σ → Dab.Args ℝ → Bool × σ)
    (getColor : σ → Int → Int → ℝ → ℝ → Color.Rgba ℝ × σ) :
    Underway upright ∧ Undisturbed upright ∧ Filters (realEnv next gauss draw getColor) upright.settings ∧
      OnTheLine 0 0 0 1 upright.st.x upright.st.y ∧ AlongLine 0 1 upright.st ∧ Ahead 0 1 upright.st ∧
      (upright.settings sSlowTracking).base ≤ 1 / 1000 ∧
      ∀ i, calculate (upright.settings sEllipticalDabAngle) i = i iDirection := by
  refine ⟨⟨⟨le_refl _, zero_lt_one⟩, le_refl _⟩, ⟨rfl, by show (0 : ℝ) ≤ _; norm_num, rfl⟩, ?_, ⟨0, ?_, ?_⟩,
    ⟨1, one_ne_zero, ?_, ?_⟩, ⟨1, one_pos, ?_, ?_⟩, by show (0 : ℝ) ≤ _; norm_num, following_direction⟩
  · intro i
    show (1 / 1000 : ℝ) < Real.exp (2 * (1 / 2)) - 1
    have := Real.add_one_le_exp (2 * (1 / 2) : ℝ)
    linarith
  · show (0 : ℝ) = 0 + 0 * 0; norm_num
  · show (0 : ℝ) = 0 + 0 * 1; norm_num
  · show (0 : ℝ) = 1 * 0; norm_num
  · show (1 : ℝ) = 1 * 1; norm_num
  · show (0 : ℝ) = 1 * 0; norm_num
  · show (1 : ℝ) = 1 * 1; norm_num

/-- Up and down, on a view that is turned in between. -/
noncomputable def upAndDown : List (Motion ℝ) :=
  [⟨.fin 0, .fin 30, 1, .fin 0, .fin 0, 1 / 10, 1, 0, 0, false⟩, ⟨.fin 0, .fin 7, 1, .fin 0, .fin 0, 1 / 10, 1, 1, 0, false⟩]

theorem upAndDown_on_line : ∀ m ∈ upAndDown, PenOnLine (fun ρ => ρ = 0 ∨ ρ = 1) (0 : ℝ) 0 0 1 m := by
  intro m hm
  rcases List.mem_cons.mp hm with rfl | hm
  · exact ⟨0, 30, ⟨rfl, rfl⟩, by unfold OnCanvas; norm_num, ⟨30, by norm_num, by norm_num⟩, by norm_num, by norm_num, .inl rfl⟩
  · rw [List.mem_singleton.mp hm]
    exact ⟨0, 7, ⟨rfl, rfl⟩, by unfold OnCanvas; norm_num, ⟨7, by norm_num, by norm_num⟩, by norm_num, by norm_num, .inr rfl⟩

open Real in
/-- Its dabs are upright. -/
example {σ : Type} (next gauss : Nat → ℝ × Nat) (draw : σ → Dab.Args ℝ → Bool × σ)
    (getColor : σ → Int → Int → ℝ → ℝ → Color.Rgba ℝ × σ) (hn : ∀ r, 0 ≤ (next r).1 ∧ (next r).1 < 1) {fuel : Nat} (surf : σ)
    {r : Brush ℝ Nat × (σ × List (Dab.Args ℝ))}
    (h : strokes (recordDabs (realEnv next gauss draw getColor)) fuel upright (surf, []) upAndDown = .ok r) :
    ∀ a ∈ r.2.2, Congruent 180 a.angle 90 := by
  obtain ⟨h1, h2, h3, h4, h5, -, -, h8⟩ := upright_ready next gauss draw getColor
  have k := dabs_lie_along_the_line (realEnv_laws next gauss draw getColor hn) (realEnv_decays next gauss draw getColor)
    (realEnv_angles next gauss draw getColor) (.inl one_ne_zero) upAndDown upAndDown_on_line h1 h2 h3 h4 h5 h8 surf h
  have e : (realEnv next gauss draw getColor).atan2 1 0 = 90 := by
    show Complex.arg ⟨0, 1⟩ * (180 / π) = 90
    rw [show (⟨0, 1⟩ : ℂ) = Complex.I from rfl, Complex.arg_I]
    have := Real.pi_ne_zero
    field_simp
    norm_num
  rw [e] at k
  exact k

/-- Upwards only, with a rest. -/
noncomputable def upwards : List (Motion ℝ) :=
  [⟨.fin 0, .fin 30, 1, .fin 0, .fin 0, 1 / 10, 1, 0, 0, false⟩, ⟨.fin 0, .fin 30, 1, .fin 0, .fin 0, 1 / 10, 1, 0, 0, false⟩]

example : MovesAhead (· = 0) (0 : ℝ) 0 0 1 0 upwards :=
  ⟨30, by norm_num, ⟨congrArg Flt.fin (by norm_num), congrArg Flt.fin (by norm_num)⟩, by unfold OnCanvas; norm_num, by norm_num,
    by norm_num, rfl, 30, by norm_num, ⟨congrArg Flt.fin (by norm_num), congrArg Flt.fin (by norm_num)⟩,
    by unfold OnCanvas; norm_num, by norm_num, by norm_num, rfl, trivial⟩

/-- Replacements for the functions of the C library, with the angles of the axes. -/
def compass : Env ℚ Nat (List (Dab.Args ℚ)) :=
  { env with atan2 := fun y x => if y = 0 then (if x < 0 then 180 else 0) else if 0 < y then 90 else -90 }

/-- Elongated dabs that follow the direction; `f` is the setting of the direction filter. -/
def wheel (f : ℚ) : Brush ℚ Nat :=
  let b := set (set (set (set brush sEllipticalDabRatio 3) sDirectionFilter f) sSpeed1Slowness 0) sSpeed2Slowness 0
  { b with settings := fun i => if i = sEllipticalDabAngle then following else b.settings i, resetRequested := false }

/-- Upwards, a rest, and on. -/
def climb : List (Motion ℚ) :=
  [motion 0 (5 / 8) (1 / 2) (1 / 20), motion 0 (15 / 4) (1 / 2) (1 / 10), motion 0 (15 / 4) (1 / 2) (1 / 20),
    motion 0 (15 / 2) (1 / 2) (1 / 20)]

/-- With the filter all the dabs are upright. -/
example : look (fun r => r.2.map (·.angle)) (strokes compass 100 (wheel 2) [] climb) = some [-90, -90, -90, -90] := by
  decide +kernel

/-- **C103** (refuted without a filter). The pen rests during the stroke: the next dab lies across it. -/
theorem resting_pen_loses_direction :
    look (fun r => r.2.map (·.angle)) (strokes compass 100 (wheel 0) [] climb) = some [-90, -90, -180, -90] := by
  decide +kernel

end Demo

end Verif.Engine
