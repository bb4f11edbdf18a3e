import Verif.Props.C111_Swing
import Verif.Props.C104_Pen

/-!
# C115: the tilt of the pen in a turned view

In a turned view an application has two ways to report which way the pen leans: relative to the canvas, or relative to the screen.
-/

namespace Verif.Engine
open Verif.Map Verif.Mask Verif.Color

section
variable {K R σ : Type} [Field K] [LinearOrder K] [IsStrictOrderedRing K] [FloorRing K] {a : K}

/-- The second state is in a view turned back by `a`. -/
def ViewTurned (a : K) (st st' : State K) : Prop := ∃ k : ℤ, st'.viewrotation = st.viewrotation - a + 360 * k

/-- The direction of the stroke on the canvas is turned by `a`. -/
def DirectionTurned (e : Env K R σ) (a : K) (st st' : State K) : Prop :=
  st'.directionAngleDx = swingX (e.cos a) (e.sin a) st.directionAngleDx st.directionAngleDy ∧
    st'.directionAngleDy = swingY (e.cos a) (e.sin a) st.directionAngleDx st.directionAngleDy

/-- The reported tilt is turned by `a`, as the canvas is. -/
def TiltTurned (a : K) (st st' : State K) : Prop := ∃ k : ℤ, st'.ascension = st.ascension + a + 360 * k

/-- **C115**, for applications that report the tilt relative to the canvas: in a turned view the input for the direction of the tilt
and, as long as the brush has a direction, the input for the angle of attack read the same. -/
theorem tilt_reads_the_screen {e : Env K R σ} (A : AngleTurns e a) (b : Brush K R) {st st' : State K}
    (hv : ViewTurned a st st') (ht : TiltTurned a st st') :
    (inputsOf e b st').tiltAscension = (inputsOf e b st).tiltAscension ∧
    (DirectionTurned e a st st' → (st.directionAngleDy ≠ 0 ∨ st.directionAngleDx ≠ 0) →
      (inputsOf e b st').attackAngle = (inputsOf e b st).attackAngle) := by
  obtain ⟨k, hk⟩ := hv
  obtain ⟨l, hl⟩ := ht
  constructor
  · show modArith (st'.ascension + st'.viewrotation + 180) 360 - 180 = modArith (st.ascension + st.viewrotation + 180) 360 - 180
    rw [modArith_congr ⟨k + l, ?_⟩]
    rw [hk, hl]
    push_cast
    ring
  · intro hd h0
    obtain ⟨n, hn⟩ := A _ _ h0
    show smallestDiff st'.ascension (modArith (e.atan2 st'.directionAngleDy st'.directionAngleDx + 90) 360) =
      smallestDiff st.ascension (modArith (e.atan2 st.directionAngleDy st.directionAngleDx + 90) 360)
    obtain ⟨p, hp⟩ := modArith_turns (e.atan2 st'.directionAngleDy st'.directionAngleDx + 90)
    obtain ⟨q, hq⟩ := modArith_turns (e.atan2 st.directionAngleDy st.directionAngleDx + 90)
    have hy := hd.2
    have hx := hd.1
    rw [hx, hy, hn] at hp
    rw [hx, hy, hn]
    obtain ⟨h1, h2, ⟨m, hm⟩, -⟩ := smallestDiff_spec st.ascension (modArith (e.atan2 st.directionAngleDy st.directionAngleDx + 90) 360)
    obtain ⟨k1, k2, ⟨m', hm'⟩, -⟩ := smallestDiff_spec st'.ascension
      (modArith (e.atan2 st.directionAngleDy st.directionAngleDx + a + 360 * n + 90) 360)
    rw [hq] at hm
    rw [hp] at hm'
    rw [hq] at h1 h2 ⊢
    rw [hp] at k1 k2 ⊢
    generalize smallestDiff st.ascension _ = S at *
    generalize smallestDiff st'.ascension _ = S' at *
    have h3 : S' - S = 360 * ((n + p - l + m' - q - m : ℤ) : K) := by
      rw [hm, hm', hl]
      push_cast
      ring
    have : (n + p - l + m' - q - m : ℤ) = 0 := by
      generalize (n + p - l + m' - q - m : ℤ) = z at *
      by_contra hz
      rcases lt_or_gt_of_ne hz with g | g
      · have : (z : K) ≤ -1 := by exact_mod_cast Int.le_sub_one_of_lt g
        linarith
      · have : (1 : K) ≤ z := by exact_mod_cast g
        linarith
    rw [this] at h3
    push_cast at h3
    linarith

/-- Sine and cosine determine the direction. -/
def Determines (e : Env K R σ) : Prop := ∀ t u, e.cos t = e.cos u → e.sin t = e.sin u → ∃ k : ℤ, t = u + 360 * k

/-- The only offset of the dabs is the one that follows the tilt; it has the length `d`, which is not beyond the limit. -/
structure OffsetByTilt (e : Env K R σ) (v : Nat → K) (radius d : K) : Prop where
  axes : v sOffsetX = 0 ∧ v sOffsetY = 0
  ahead : v sOffsetAngle = 0 ∧ v sOffsetAngle2 ≤ 0
  view : v sOffsetAngleView = 0 ∧ v sOffsetAngle2View ≤ 0
  sides : v sOffsetAngle2Asc ≤ 0
  length : v sOffsetAngleAsc * (radius * e.exp (v sOffsetMultiplier)) = d
  limit : |d| ≤ 3240

omit [FloorRing K] [IsStrictOrderedRing K] in
theorem maxC_nonpos {t : K} (h : t ≤ 0) : maxC 0 t = 0 := by
  unfold maxC
  split_ifs with q
  · rfl
  · exact le_antisymm h (not_lt.mp q)

/-- The offset that follows the tilt. -/
theorem offset_by_tilt {e : Env K R σ} (L : Laws e) (b : Brush K R) {radius flip d : K} (h : OffsetByTilt e b.vals radius d) :
    directionalOffsets e b radius flip =
      (d * e.cos (b.st.ascension - b.st.viewrotation + b.vals sOffsetAngleAdj),
        d * e.sin (b.st.ascension - b.st.viewrotation + b.vals sOffsetAngleAdj)) := by
  have fin : ∀ t : K, |t| ≤ 1 → clampK (t * b.vals sOffsetAngleAsc * (radius * e.exp (b.vals sOffsetMultiplier))) (-3240) 3240 = d * t := by
    intro t ht
    rw [mul_assoc, h.length, mul_comm]
    refine clampK_within ?_
    rw [abs_mul]
    exact (mul_le_of_le_one_right (abs_nonneg _) ht).trans h.limit
  unfold directionalOffsets
  simp only [h.axes.1, h.axes.2, h.ahead.1, h.view.1, maxC_nonpos h.ahead.2, maxC_nonpos h.view.2, maxC_nonpos h.sides,
    zero_mul, mul_zero, zero_add, add_zero]
  rw [fin _ (trig_le L _).1, fin _ (trig_le L _).2]

/-- **C115**, the offsets. With the tilt reported relative to the screen (so that it stays the same number), the offset is turned with the
canvas; with the tilt reported relative to the canvas, it is turned twice as far as the canvas. -/
theorem offset_reads_the_report {e : Env K R σ} (L : Laws e) {r : K} (T : SwingLaws e a r) {b b' : Brush K R} {radius flip d : K}
    (h : OffsetByTilt e b.vals radius d) (hb : b'.vals = b.vals) (hv : ViewTurned a b.st b'.st) :
    ((∃ k : ℤ, b'.st.ascension = b.st.ascension + 360 * k) →
      directionalOffsets e b' radius flip =
        (swingX (e.cos a) (e.sin a) (directionalOffsets e b radius flip).1 (directionalOffsets e b radius flip).2,
          swingY (e.cos a) (e.sin a) (directionalOffsets e b radius flip).1 (directionalOffsets e b radius flip).2)) ∧
    (TiltTurned a b.st b'.st →
      directionalOffsets e b' radius flip =
        (swingX (e.cos (2 * a)) (e.sin (2 * a)) (directionalOffsets e b radius flip).1 (directionalOffsets e b radius flip).2,
          swingY (e.cos (2 * a)) (e.sin (2 * a)) (directionalOffsets e b radius flip).1 (directionalOffsets e b radius flip).2)) := by
  obtain ⟨k, hk⟩ := hv
  have h' : OffsetByTilt e b'.vals radius d := hb ▸ h
  have key : ∀ u : K, (∃ n : ℤ, b'.st.ascension - b'.st.viewrotation = b.st.ascension - b.st.viewrotation + u + 360 * n) →
      directionalOffsets e b' radius flip =
        (swingX (e.cos u) (e.sin u) (directionalOffsets e b radius flip).1 (directionalOffsets e b radius flip).2,
          swingY (e.cos u) (e.sin u) (directionalOffsets e b radius flip).1 (directionalOffsets e b radius flip).2) := by
    rintro u ⟨n, hn⟩
    rw [offset_by_tilt L b h, offset_by_tilt L b' h', hb]
    set t := b.st.ascension - b.st.viewrotation + b.vals sOffsetAngleAdj with ht
    rw [show b'.st.ascension - b'.st.viewrotation + b.vals sOffsetAngleAdj = t + u + 360 * n by rw [hn, ht]; ring,
      (full_steps T (t + u) n).1, (full_steps T (t + u) n).2, T.cos_add t u, T.sin_add t u]
    unfold swingX swingY
    refine Prod.ext ?_ ?_ <;> (dsimp only; ring)
  constructor
  · rintro ⟨l, hl⟩
    exact key a ⟨l - k, by rw [hl, hk]; push_cast; ring⟩
  · rintro ⟨l, hl⟩
    exact key (2 * a) ⟨l - k, by rw [hl, hk]; push_cast; ring⟩

/-- **C115** (refuted). However an application reports the tilt in a turned view, the input for the direction of the tilt and the offset
that follows the tilt are not both right, unless the view is turned by full turns. -/
theorem no_report_of_tilt_is_right {e : Env K R σ} (L : Laws e) (D : Determines e) {r : K} (T : SwingLaws e a r) {b b' : Brush K R}
    {radius flip d : K} (h : OffsetByTilt e b.vals radius d) (hd : d ≠ 0) (hb : b'.vals = b.vals) (hv : ViewTurned a b.st b'.st)
    (ha : ¬ ∃ k : ℤ, a = 360 * k) :
    ¬ ((inputsOf e b' b'.st).tiltAscension = (inputsOf e b b.st).tiltAscension ∧
      directionalOffsets e b' radius flip =
        (swingX (e.cos a) (e.sin a) (directionalOffsets e b radius flip).1 (directionalOffsets e b radius flip).2,
          swingY (e.cos a) (e.sin a) (directionalOffsets e b radius flip).1 (directionalOffsets e b radius flip).2)) := by
  rintro ⟨h1, h2⟩
  apply ha
  obtain ⟨k, hk⟩ := hv
  have h' : OffsetByTilt e b'.vals radius d := hb ▸ h
  have h1 : modArith (b'.st.ascension + b'.st.viewrotation + 180) 360 - 180 = modArith (b.st.ascension + b.st.viewrotation + 180) 360 - 180 := h1
  obtain ⟨p, hp⟩ := modArith_turns (b'.st.ascension + b'.st.viewrotation + 180)
  obtain ⟨q, hq⟩ := modArith_turns (b.st.ascension + b.st.viewrotation + 180)
  rw [offset_by_tilt L b h, offset_by_tilt L b' h', hb] at h2
  set t := b.st.ascension - b.st.viewrotation + b.vals sOffsetAngleAdj with ht
  set t' := b'.st.ascension - b'.st.viewrotation + b.vals sOffsetAngleAdj with ht'
  have c1 := congrArg Prod.fst h2
  have c2 := congrArg Prod.snd h2
  unfold swingX at c1
  unfold swingY at c2
  dsimp only at c1 c2
  have d1 : e.cos t' = e.cos (t + a) := by
    rw [T.cos_add t a]
    refine mul_left_cancel₀ hd ?_
    rw [c1]; ring
  have d2 : e.sin t' = e.sin (t + a) := by
    rw [T.sin_add t a]
    refine mul_left_cancel₀ hd ?_
    rw [c2]; ring
  obtain ⟨n, hn⟩ := D _ _ d1 d2
  -- the input gives the turn of the report, the offset that there is none
  refine ⟨n + p - q + 2 * k, ?_⟩
  have e1 : b'.st.ascension = b.st.ascension + a + 360 * (q - p - k) := by
    have : b'.st.ascension + b'.st.viewrotation + 180 + 360 * p = b.st.ascension + b.st.viewrotation + 180 + 360 * q := by linarith
    rw [hk] at this
    linarith
  have e2 : b'.st.ascension - b'.st.viewrotation = b.st.ascension - b.st.viewrotation + a + 360 * n := by
    have : t' - b.vals sOffsetAngleAdj = t - b.vals sOffsetAngleAdj + a + 360 * n := by rw [hn]; ring
    rw [ht, ht'] at this
    linarith
  rw [e1, hk] at e2
  push_cast
  linarith

end

/-! ### Examples -/

namespace Demo

open Real in
theorem realEnv_determines {R σ : Type} (next gauss : R → ℝ × R) (draw : σ → Dab.Args ℝ → Bool × σ)
    (getColor : σ → Int → Int → ℝ → ℝ → Color.Rgba ℝ × σ) : Determines (realEnv next gauss draw getColor) := by
  intro t u h1 h2
  have k := Real.Angle.cos_sin_inj (θ := t * (π / 180)) (ψ := u * (π / 180)) h1 h2
  rw [Real.Angle.angle_eq_iff_two_pi_dvd_sub] at k
  obtain ⟨n, hn⟩ := k
  refine ⟨n, ?_⟩
  have := Real.pi_ne_zero
  field_simp at hn
  linarith

/-- The pen leans along the x axis of the canvas, and moves along it. -/
def sloping : List (Motion ℚ) :=
  [leaning 0 (1 / 2) (1 / 2) (1 / 20), leaning 0 (1 / 2) (1 / 2) (1 / 20), leaning (15 / 4) (1 / 2) (1 / 2) (1 / 20)]

/-- The tilt, too, is turned with the canvas. -/
def Motion.swingTilt (c s r : ℚ) (m : Motion ℚ) : Motion ℚ :=
  match m.xtilt, m.ytilt with
  | .fin x, .fin y => { m.swing c s r with xtilt := .fin (swingX c s x y), ytilt := .fin (swingY c s x y) }
  | _, _ => m.swing c s r

/-- Dabs to the side to which the pen leans. -/
def shifted : Brush ℚ Nat := set (gaugeOf iTiltAscension) sOffsetAngleAsc 1

/-- **C115** (refuted, a session). The dabs of this brush lie three pixels to the side to which the pen leans, and are turned along it.
In the view turned by a quarter, with the tilt reported relative to the screen the dabs are at the side to which the pen leans, but
not turned with the canvas; with the tilt reported relative to the canvas they are turned, but on the wrong side. -/
theorem tilt_in_a_turned_view :
    lying shifted sloping = some [(1 / 2, -3, -90), (1, -3, -90), (3 / 2, -3, -90), (2, -3, -90), (5 / 2, -3, -90), (3, -3, -90),
      (7 / 2, -3, -90)] ∧
    lying shifted (sloping.map (Motion.swing 0 1 1)) = some [(3, 3 / 2, -90), (3, 3, -90)] ∧
    lying shifted (sloping.map (Motion.swingTilt 0 1 1)) = some [(0, 7 / 2, -180), (0, 4, -180), (0, 9 / 2, -180), (0, 5, -180),
      (0, 11 / 2, -180), (0, 6, -180), (0, 13 / 2, -180)] := by
  refine ⟨?_, ?_, ?_⟩ <;> decide +kernel

/-- The real functions: a brush that only follows the tilt, in a view turned by a right angle, whatever the application reports. -/
example {R σ : Type} (next gauss : R → ℝ × R) (draw : σ → Dab.Args ℝ → Bool × σ)
    (getColor : σ → Int → Int → ℝ → ℝ → Color.Rgba ℝ × σ) (hn : ∀ r, 0 ≤ (next r).1 ∧ (next r).1 < 1) (b : Brush ℝ R)
    (hb : b.vals = fun id => if id = sOffsetAngleAsc then 1 else 0) (report : ℝ) :
    ¬ ((inputsOf (realEnv next gauss draw getColor) { b with st := { b.st with ascension := report, viewrotation := b.st.viewrotation - 90 } }
          { b.st with ascension := report, viewrotation := b.st.viewrotation - 90 }).tiltAscension =
        (inputsOf (realEnv next gauss draw getColor) b b.st).tiltAscension ∧
      directionalOffsets (realEnv next gauss draw getColor)
          { b with st := { b.st with ascension := report, viewrotation := b.st.viewrotation - 90 } } 2 1 =
        (swingX ((realEnv next gauss draw getColor).cos 90) ((realEnv next gauss draw getColor).sin 90)
            (directionalOffsets (realEnv next gauss draw getColor) b 2 1).1 (directionalOffsets (realEnv next gauss draw getColor) b 2 1).2,
          swingY ((realEnv next gauss draw getColor).cos 90) ((realEnv next gauss draw getColor).sin 90)
            (directionalOffsets (realEnv next gauss draw getColor) b 2 1).1 (directionalOffsets (realEnv next gauss draw getColor) b 2 1).2)) := by
  refine no_report_of_tilt_is_right (d := 2) (realEnv_laws _ _ _ _ hn) (realEnv_determines _ _ _ _) (realEnv_swing _ _ _ _ 90)
    ⟨?_, ?_, ?_, ?_, ?_, ?_⟩ (by norm_num) rfl ⟨0, by simp⟩ ?_
  · rw [hb]; norm_num
  · rw [hb]; norm_num
  · rw [hb]; norm_num
  · rw [hb]; norm_num
  · rw [hb]
    show (if sOffsetAngleAsc = sOffsetAngleAsc then (1 : ℝ) else 0) * (2 * Real.exp (if sOffsetMultiplier = sOffsetAngleAsc then 1 else 0)) = 2
    rw [if_pos rfl, if_neg (by decide), Real.exp_zero]
    norm_num
  · norm_num
  · rintro ⟨k, hk⟩
    have : (1 : ℤ) = 4 * k := by
      have : (1 : ℝ) = 4 * k := by linarith
      exact_mod_cast this
    omega

end Demo
end Verif.Engine
