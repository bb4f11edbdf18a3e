import Verif.Props.C58_PlainColour

/-!
# C63: paint appears where the pen was

The pen is at a place at every event. Whatever convex region holds these places and the place where the brush was
before, holds the brush at all later times and, without offsets, the centre of every dab. With directional offsets the
centre of a dab is at most 3240 pixels away from such a place, in each direction.
-/

namespace Verif.Engine
open Verif.Mask Verif.Color Verif.Spectral Verif.Map

section
variable {K R σ : Type} [Field K] [LinearOrder K] [IsStrictOrderedRing K] [FloorRing K]

/-- A region that holds the segment between any two of its points. -/
def Convex (C : K → K → Prop) : Prop :=
  ∀ x y x' y' t, C x y → C x' y' → 0 ≤ t → t ≤ 1 → C (x + (x' - x) * t) (y + (y' - y) * t)

/-- Where the program takes the pen to be: coordinates that are not finite or beyond 1e10 stand for the origin. -/
def Place (m : Motion K) (x y : K) : Prop :=
  (m.x = .fin x ∧ m.y = .fin y ∧ ¬ m.x.Absurd ∧ ¬ m.y.Absurd) ∨ ((m.x.Absurd ∨ m.y.Absurd) ∧ x = 0 ∧ y = 0)

/-- What is used of the exponential function. -/
def Decays (e : Env K R σ) : Prop := ∀ t, t ≤ 0 → 0 ≤ e.exp t ∧ e.exp t ≤ 1

/-- The brush does not scatter: no tracking noise, no offset by speed and no random offset, whatever the inputs. -/
structure NoScatter (s : Load.Brush K) : Prop where
  noise : (s sTrackingNoise).base = 0
  speed : ∀ i, calculate (s sOffsetBySpeed) i = 0
  random : ∀ i, calculate (s sOffsetByRandom) i = 0

/-- Nor does it offset its dabs in a direction. -/
structure NoOffset (s : Load.Brush K) : Prop where
  x : ∀ i, calculate (s sOffsetX) i = 0
  y : ∀ i, calculate (s sOffsetY) i = 0
  angle : ∀ i, calculate (s sOffsetAngle) i = 0
  angleAsc : ∀ i, calculate (s sOffsetAngleAsc) i = 0
  angleView : ∀ i, calculate (s sOffsetAngleView) i = 0
  angle2 : ∀ i, calculate (s sOffsetAngle2) i ≤ 0
  angle2Asc : ∀ i, calculate (s sOffsetAngle2Asc) i ≤ 0
  angle2View : ∀ i, calculate (s sOffsetAngle2View) i ≤ 0

/-- The centre of the dab is in the region, but for the directional offset. -/
def DabAt (C : K → K → Prop) (s : Load.Brush K) (x y : K) : Prop :=
  ∃ px py, C px py ∧ |x - px| ≤ 3240 ∧ |y - py| ≤ 3240 ∧ (NoOffset s → x = px ∧ y = py)

omit [FloorRing K] in
theorem expDecay_range {e : Env K R σ} (h : Decays e) {T t : K} (ht : 0 ≤ t) :
    0 ≤ 1 - expDecay e T t ∧ 1 - expDecay e T t ≤ 1 := by
  unfold expDecay
  split_ifs with hT
  · norm_num
  · have hT' : 0 < T := lt_trans (by norm_num) (not_le.mp hT)
    have := h (-t / T) (div_nonpos_of_nonpos_of_nonneg (neg_nonpos.mpr ht) hT'.le)
    exact ⟨by linarith [this.2], by linarith [this.1]⟩

/-- Where the brush is. -/
structure BrushIn (C : K → K → Prop) (b : Brush K R) : Prop where
  at' : C b.st.x b.st.y
  slow : C b.st.actualX b.st.actualY

theorem cursor_in {C : K → K → Prop} (hC : Convex C) {e : Env K R σ} (he : Decays e) {b : Brush K R}
    (hn : (b.settings sTrackingNoise).base = 0) (hb : C b.st.x b.st.y) {x y dt : K} (hx : C x y) (hdt : 0 ≤ dt) :
    C (cursor e b x y dt).1 (cursor e b x y dt).2.1 := by
  have hn' : b.baseval sTrackingNoise = 0 := hn
  have hc : ¬ (b.baseval sTrackingNoise ≠ 0 ∧
      e.exp (b.baseval sRadiusLogarithmic) * b.baseval sTrackingNoise > 1 / 1000) := fun h => h.1 hn'
  unfold cursor
  dsimp only
  rw [if_neg hc]
  have k := expDecay_range he (T := b.baseval sSlowTracking) (t := 100 * dt) (by positivity)
  exact hC _ _ _ _ _ hb hx k.1 k.2

theorem update_in {C : K → K → Prop} (hC : Convex C) {e : Env K R σ} (he : Decays e) {b b' : Brush K R}
    (hb : BrushIn C b) {ev : Event K} {x y d f t : K} (hx : C x y) (hd : 0 ≤ d) (f0 : 0 ≤ f) (f1 : f ≤ 1)
    (h : update e b (stepTo b.st ev x y d f t) = .ok b') : BrushIn C b' := by
  have k := expDecay_range he (T := b'.vals sSlowTrackingPerDab) hd
  have m : C (b.st.x + (x - b.st.x) * f) (b.st.y + (y - b.st.y) * f) := hC _ _ _ _ _ hb.at' hx f0 f1
  rw [mul_comm _ f, mul_comm _ f] at m
  rw [update_eq h] at k ⊢
  exact ⟨m, hC _ _ _ _ _ hb.slow m k.1 k.2⟩

theorem clampK_abs {a c : K} (hc : 0 ≤ c) : |clampK a (-c) c| ≤ c := by
  have := clampK_ge (a := a) (lo := -c) (hi := c) (by linarith)
  exact abs_le.mpr this

/-- Without offsets there is none. -/
theorem directionalOffsets_zero {e : Env K R σ} {b : Brush K R} {i : Nat → K}
    (hv : b.vals = fun id => calculate (b.settings id) i) (hs : NoOffset b.settings) (r f : K) :
    directionalOffsets e b r f = (0, 0) := by
  have z : ∀ {v : K}, v ≤ 0 → maxC 0 v = 0 := by
    intro v h
    unfold maxC
    split_ifs <;> [rfl; exact le_antisymm h (not_lt.mp ‹_›)]
  have c0 : clampK (0 : K) (-3240) 3240 = 0 := by
    unfold clampK
    norm_num
  unfold directionalOffsets
  dsimp only
  rw [hv]
  simp only [hs.x i, hs.y i, hs.angle i, hs.angleAsc i, hs.angleView i, z (hs.angle2 i), z (hs.angle2Asc i),
    z (hs.angle2View i), mul_zero, zero_mul, add_zero, c0]

theorem dabPosition_at {C : K → K → Prop} {e : Env K R σ} {b : Brush K R} {i : Nat → K}
    (hv : b.vals = fun id => calculate (b.settings id) i) (hs : NoScatter b.settings) (hb : BrushIn C b)
    {pos : K × K × Brush K R} (h : dabPosition e b = .ok pos) : DabAt C b.settings pos.1 pos.2.1 := by
  have h1 : b.vals sOffsetBySpeed = 0 := by rw [hv]; exact hs.speed i
  have h2 : b.vals sOffsetByRandom = 0 := by rw [hv]; exact hs.random i
  unfold dabPosition at h
  dsimp only at h
  rw [h1, h2] at h
  simp only [ne_eq, not_true, false_and, if_false] at h
  rw [← Except.ok.inj h]
  refine ⟨_, _, hb.slow, ?_, ?_, fun hn => ?_⟩
  · simp only [add_sub_cancel_left]
    exact clampK_abs (by norm_num)
  · simp only [add_sub_cancel_left]
    exact clampK_abs (by norm_num)
  · rw [directionalOffsets_zero hv hn]
    simp

/-- The brush stays in the region, whatever it paints on. -/
theorem region_invariant {C : K → K → Prop} (hC : Convex C) (e : Env K R σ) (he : Decays e) :
    Invariant e (fun ev => C ev.x ev.y) C (fun b _ => NoScatter b.settings ∧ BrushIn C b)
      (fun b _ => (NoScatter b.settings ∧ BrushIn C b) ∧ ∃ i, b.vals = fun id => calculate (b.settings id) i) where
  skip b s ev _ h := by rw [skipStage_eq]; exact ⟨h.1, ⟨h.2.1, h.2.2⟩⟩
  pull b s ev _ _ h := by rw [cursor_eq, skipStage_eq]; exact ⟨h.1, ⟨h.2.1, h.2.2⟩⟩
  target b s ev hev hdt h := by
    refine cursor_in hC he ?_ ?_ hev hdt
    · rw [skipStage_eq]; exact h.1.noise
    · rw [skipStage_eq]; exact h.2.at'
  start b s ev x y b' _ hx h _ hs := by
    obtain ⟨bk, -, e1⟩ := startOver_eq hs
    rw [e1]
    exact ⟨h.1, ⟨hx, hx⟩⟩
  count b s x y dt h := by rw [countDabs_st]; exact ⟨h.1, ⟨h.2.1, h.2.2⟩⟩
  step b s ev x y d f t b' _ hx hd f0 f1 _ h hu := by
    have k := update_in hC he h.2 hx hd f0 f1 hu
    refine ⟨⟨?_, k⟩, ?_⟩
    · rw [update_eq hu]; exact h.1
    · rw [update_eq hu]; exact ⟨_, rfl⟩
  draw b s lin p h hp := by
    obtain ⟨⟨hs, hb⟩, i, hv⟩ := h
    have fr := drawDab_frame hp
    have est : p.2.1.settings = b.settings := fr.settings
    have ex : p.2.1.st.x = b.st.x := by rw [fr]
    have ey : p.2.1.st.y = b.st.y := by rw [fr]
    have eax : p.2.1.st.actualX = b.st.actualX := by rw [fr]
    have eay : p.2.1.st.actualY = b.st.actualY := by rw [fr]
    refine ⟨est ▸ hs, ⟨?_, ?_⟩⟩
    · show C p.2.1.st.x p.2.1.st.y
      rw [ex, ey]; exact hb.at'
    · show C p.2.1.st.actualX p.2.1.st.actualY
      rw [eax, eay]; exact hb.slow
  finish b s n total idle h := ⟨h.1.1, ⟨h.1.2.1, h.1.2.2⟩⟩

/-- What is known of a list of dabs, without snapping. -/
def DabsAt (C : K → K → Prop) (s : Load.Brush K) (l : List (Dab.Args K)) : Prop :=
  (∀ i, calculate (s sSnapToPixel) i ≤ 0) ∧ ∀ a ∈ l, DabAt C s a.x a.y

theorem where_invariant {C : K → K → Prop} (hC : Convex C) (e : Env K R σ) (he : Decays e) :
    Invariant (recordDabs e) (fun ev => C ev.x ev.y) C
      (fun b s => (NoScatter b.settings ∧ BrushIn C b) ∧ DabsAt C b.settings s.2)
      (fun b s => ((NoScatter b.settings ∧ BrushIn C b) ∧ ∃ i, b.vals = fun id => calculate (b.settings id) i) ∧
        DabsAt C b.settings s.2) :=
  have H := region_invariant hC (recordDabs e) he
  { skip := fun b s ev hv h => ⟨H.skip b s ev hv h.1, by rw [skipStage_eq]; exact h.2⟩
    pull := fun b s ev hv ht h => ⟨H.pull b s ev hv ht h.1, by rw [cursor_eq, skipStage_eq]; exact h.2⟩
    target := fun b s ev hv ht h => H.target b s ev hv ht h.1
    start := fun b s ev x y b' hv hx h hq hs => ⟨H.start b s ev x y b' hv hx h.1
        (hq.imp_right fun ⟨b0, q, q2⟩ => ⟨b0, q.1, q2⟩) hs, by
      obtain ⟨bk, -, e1⟩ := startOver_eq hs
      rw [e1]
      exact h.2⟩
    count := fun b s x y dt h => ⟨H.count b s x y dt h.1, by rw [countDabs_st]; exact h.2⟩
    step := fun b s ev x y d f t b' hv hx hd f0 f1 ht h hu => ⟨H.step b s ev x y d f t b' hv hx hd f0 f1 ht h.1 hu, by
      rw [update_eq hu]; exact h.2⟩
    draw := fun b s lin p h hp => ⟨H.draw b s lin p h.1 hp, by
      obtain ⟨⟨⟨hs, hb⟩, i, hv⟩, hsn, hl⟩ := h
      have fr := drawDab_frame hp
      have est : p.2.1.settings = b.settings := fr.settings
      show DabsAt C p.2.1.settings p.2.2.2
      rw [est]
      refine ⟨hsn, ?_⟩
      rcases drawDab_oneDab hp with h | ⟨o, pos, sm, col, -, hpos, -, -, -, fr2, -, h⟩
      · rw [h]; exact hl
      · rw [h]
        intro a ha
        rcases List.mem_append.mp ha with q | q
        · exact hl a q
        · rw [List.mem_singleton.mp q]
          have hv2 : col.2.2.vals sSnapToPixel ≤ 0 := by
            rw [fr2.vals]
            show b.vals sSnapToPixel ≤ 0
            rw [hv]
            exact hsn i
          have k : DabAt C b.settings pos.1 pos.2.1 :=
            dabPosition_at (b := { b with st := { b.st with flip := b.st.flip * -1 } }) (i := i) hv hs ⟨hb.1, hb.2⟩ hpos
          have sn : ∀ r, snap col.2.2 pos.1 pos.2.1 r = (pos.1, pos.2.1, r) := by
            intro r
            unfold snap
            dsimp only
            rw [if_neg (not_lt.mpr hv2)]
          unfold dabArgs
          simp only
          rw [sn]
          exact k⟩
    finish := fun b s n total idle h => ⟨H.finish b s n total idle h.1, h.2⟩ }

omit [FloorRing K] in
theorem sanitise_place {e : Env K R σ} {m : Motion K} {ev : Event K} (h : sanitise e m = .ok ev) :
    Place m ev.x ev.y := by
  unfold sanitise at h
  obtain ⟨t, -, h⟩ := bind_ok h
  dsimp only at h
  by_cases q : m.x.Absurd ∨ m.y.Absurd
  · have hq := q
    refine .inr ⟨hq, ?_⟩
    rcases q with q | q
    · rw [sane_none.mpr q] at h
      rw [← Except.ok.inj h]
      exact ⟨rfl, rfl⟩
    · rw [sane_none.mpr q] at h
      cases hx : sane m.x <;> rw [hx] at h <;> rw [← Except.ok.inj h] <;> exact ⟨rfl, rfl⟩
  · obtain ⟨x, ex, sx⟩ := sane_some (fun hq => q (.inl hq))
    obtain ⟨y, ey, sy⟩ := sane_some (fun hq => q (.inr hq))
    rw [sx, sy] at h
    dsimp only at h
    by_cases hb : x < 10 ^ 8 ∧ y < 10 ^ 8 ∧ x > -10 ^ 8 ∧ y > -10 ^ 8
    swap
    · rw [if_neg hb] at h
      cases h
    rw [if_pos hb] at h
    rw [← Except.ok.inj h]
    exact .inl ⟨ex, ey, fun hq => q (.inl hq), fun hq => q (.inr hq)⟩

/-- An event accepted by the checks has bounded coordinates. -/
theorem sanitise_bound {e : Env K R σ} {m : Motion K} {ev : Event K} (h : sanitise e m = .ok ev) :
    |ev.x| < 10 ^ 8 ∧ |ev.y| < 10 ^ 8 := by
  unfold sanitise at h
  obtain ⟨t, -, h⟩ := bind_ok h
  dsimp only at h
  cases hx : sane m.x <;> cases hy : sane m.y <;> rw [hx, hy] at h <;> dsimp only at h
  case some.some x y =>
    by_cases q : x < 10 ^ 8 ∧ y < 10 ^ 8 ∧ x > -10 ^ 8 ∧ y > -10 ^ 8
    · rw [if_pos q] at h
      rw [← Except.ok.inj h]
      exact ⟨abs_lt.mpr ⟨q.2.2.1, q.1⟩, abs_lt.mpr ⟨q.2.2.2, q.2.1⟩⟩
    · rw [if_neg q] at h
      cases h
  all_goals
    rw [← Except.ok.inj h]
    simp

theorem workaround_place {e : Env K R σ} {ev i : Event K} (hx : |ev.x| < 10 ^ 8) (hy : |ev.y| < 10 ^ 8)
    (h : sanitise e (workaroundMotion ev) = .ok i) : i.x = ev.x ∧ i.y = ev.y := by
  have lt : (10 : K) ^ 8 < 10 ^ 10 := by norm_num
  rcases sanitise_place h with ⟨a, b, -, -⟩ | ⟨a | a, -⟩
  · simp only [workaroundMotion, Flt.fin.injEq] at a b
    exact ⟨a.symm, b.symm⟩
  · have : (10 : K) ^ 10 < |ev.x| := a
    linarith
  · have : (10 : K) ^ 10 < |ev.y| := a
    linarith

/-- Restrict the events of an invariant. -/
theorem Invariant.events {e : Env K R σ} {E E' : Event K → Prop} {T : K → K → Prop} {I J : Brush K R → σ → Prop}
    (H : Invariant e E T I J) (h : ∀ ev, E' ev → E ev) : Invariant e E' T I J :=
  { skip := fun b s ev he => H.skip b s ev (h ev he)
    pull := fun b s ev he => H.pull b s ev (h ev he)
    target := fun b s ev he => H.target b s ev (h ev he)
    start := fun b s ev x y b' he => H.start b s ev x y b' (h ev he)
    count := H.count
    step := fun b s ev x y d f t b' he => H.step b s ev x y d f t b' (h ev he)
    draw := H.draw
    finish := H.finish }

/-- **C63**. A session with a brush that does not scatter and does not snap to pixels: the brush ends up in every convex
region that holds the pen at all events and the brush at the start, and every dab has its centre there, or at most 3240
pixels off if the brush offsets its dabs. -/
theorem dabs_where_the_pen_was {e : Env K R σ} (he : Decays e) {C : K → K → Prop} (hC : Convex C) {fuel : Nat}
    (ms : List (Motion K)) (hm : ∀ m ∈ ms, ∀ x y, Place m x y → C x y) {b : Brush K R} (hb : Underway b)
    (hs : NoScatter b.settings) (hn : ∀ i, calculate (b.settings sSnapToPixel) i ≤ 0) (hb0 : C b.st.x b.st.y)
    (hb1 : C b.st.actualX b.st.actualY) (surf : σ) {r : Brush K R × (σ × List (Dab.Args K))}
    (h : strokes (recordDabs e) fuel b (surf, []) ms = .ok r) :
    C r.1.st.x r.1.st.y ∧ C r.1.st.actualX r.1.st.actualY ∧ ∀ a ∈ r.2.2, DabAt C b.settings a.x a.y := by
  have H := (where_invariant hC e he).events (E' := fun ev => C ev.x ev.y ∧ |ev.x| < 10 ^ 8 ∧ |ev.y| < 10 ^ 8)
    (fun _ h => h.1)
  have k := (session_keeps H (fun m => ∀ x y, Place m x y → C x y)
    (fun m ev hm hev => ⟨hm _ _ (sanitise_place hev), sanitise_bound hev⟩)
    (fun ev i he hi => by
      have q := workaround_place he.2.1 he.2.2 hi
      rw [q.1, q.2]; exact he)
    (fun ev he => he) ms hm hb ⟨⟨hs, ⟨hb0, hb1⟩⟩, hn, by simp⟩ h).1
  have k2 := k.2.2
  rw [settings_kept _ ms hb _ h] at k2
  exact ⟨k.1.2.at', k.1.2.slow, k2⟩

end

/-! ### What the hypotheses mean for the real functions, and sessions that meet them -/

theorem realEnv_decays {R σ : Type} (next gauss : R → ℝ × R) (draw : σ → Dab.Args ℝ → Bool × σ)
    (getColor : σ → Int → Int → ℝ → ℝ → Color.Rgba ℝ × σ) : Decays (realEnv next gauss draw getColor) :=
  fun t ht => ⟨(Real.exp_pos t).le, Real.exp_le_one_iff.mpr ht⟩

theorem demo_decays : Decays Demo.env := by
  intro t ht
  show 0 ≤ (if 0 ≤ t then 1 + t else 1 / (1 - t)) ∧ (if 0 ≤ t then 1 + t else 1 / (1 - t)) ≤ 1
  split_ifs with h
  · constructor <;> linarith
  · have : 0 < 1 - t := by linarith
    exact ⟨by positivity, by rw [div_le_one this]; linarith⟩

/-- A brush that lags behind the pen, between events and between dabs. -/
def demoLag : Brush ℚ Nat := Demo.set (Demo.set Demo.brush sSlowTracking 1) sSlowTrackingPerDab 2

def demoCorner : List (Motion ℚ) :=
  [Demo.motion 0 0 (1 / 2) (1 / 10), Demo.motion 8 0 (1 / 2) (1 / 10), Demo.motion 8 6 (1 / 2) (1 / 10)]

/-- A triangle. -/
def demoTriangle (x y : ℚ) : Prop := 0 ≤ y ∧ x ≤ 8 ∧ 4 * y ≤ 3 * x

theorem demoTriangle_convex : Convex demoTriangle := by
  rintro x y x' y' t ⟨h1, h2, h3⟩ ⟨h4, h5, h6⟩ t0 t1
  refine ⟨?_, ?_, ?_⟩ <;> nlinarith

/-- A brush without dynamics: every value is the base value. -/
theorem demoLag_value (id : Nat) (i : Nat → ℚ) : calculate (demoLag.settings id) i = (demoLag.settings id).base := by
  show calculate (if id = sSlowTrackingPerDab then Demo.constant 2 else
    if id = sSlowTracking then Demo.constant 1 else Demo.settings id) i = (if id = sSlowTrackingPerDab then Demo.constant 2 else
    if id = sSlowTracking then Demo.constant 1 else Demo.settings id).base
  split_ifs <;> exact demo_constant _ _

example : NoScatter demoLag.settings ∧ (∀ i, calculate (demoLag.settings sSnapToPixel) i ≤ 0) ∧
    NoOffset demoLag.settings ∧ demoTriangle demoLag.st.x demoLag.st.y ∧
    demoTriangle demoLag.st.actualX demoLag.st.actualY ∧
    ∀ m ∈ demoCorner, ∀ x y, Place m x y → demoTriangle x y := by
  refine ⟨⟨by decide +kernel, ?_, ?_⟩, ?_, ⟨?_, ?_, ?_, ?_, ?_, ?_, ?_, ?_⟩, by unfold demoTriangle; decide +kernel,
    by unfold demoTriangle; decide +kernel, ?_⟩
  any_goals
    intro i
    rw [demoLag_value]
    decide +kernel
  intro m hm x y h
  have no : ∀ v : ℚ, |v| ≤ 10 → ¬ (Flt.fin v).Absurd := by
    intro v hv (h : (10 : ℚ) ^ 10 < |v|)
    norm_num at h
    linarith
  unfold demoTriangle
  simp only [demoCorner, List.mem_cons, List.not_mem_nil, or_false] at hm
  rcases hm with rfl | rfl | rfl <;> rcases h with ⟨a, b, -⟩ | ⟨a | a, -⟩ <;>
    first
    | (exact (no _ (by norm_num) a).elim)
    | (simp only [Demo.motion, Flt.fin.injEq] at a b; subst a; subst b; norm_num)

/-- It draws three dabs; the last one is still far from the pen. -/
example : Demo.look (fun r => r.2.2.map fun a => decide (4 * a.y < 3 * a.x ∧ a.x < 6 ∧ 0 < a.y))
    (strokes (recordDabs Demo.env) 100 demoLag ([], []) demoCorner) = some [true, true, true] := by
  decide +kernel

end Verif.Engine
