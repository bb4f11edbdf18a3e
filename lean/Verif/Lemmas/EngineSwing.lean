import Verif.Lemmas.EngineTwin
import Verif.Lemmas.EngineLoop
import Verif.Lemmas.EnginePace
import Verif.Lemmas.EngineSlide
import Verif.Lemmas.EngineSpin
import Verif.Lemmas.EngineResize
import Verif.Spec.Swing
import Mathlib.Tactic.Ring
import Mathlib.Tactic.LinearCombination

/-!
# The engine in a turned view

Two runs of the engine, one turned on the canvas, in a view that is turned back.
-/

namespace Verif.Engine
open Verif.Mask Verif.Color Verif.Spectral Verif.Map

section
variable {K R σ : Type} [Field K] [LinearOrder K] [IsStrictOrderedRing K] [FloorRing K] {c s a r : K}

/-- What the runs may differ in besides. -/
structure SwingLoose (K : Type) where
  gx : K
  gy : K
  angle : K
  view : K
  idle : K
  total : K

/-- The state, turned. -/
def swingState (c s : K) (p : SwingLoose K) (st : State K) : State K :=
  { st with x := swingX c s st.x st.y, y := swingY c s st.x st.y
            actualX := swingX c s st.actualX st.actualY, actualY := swingY c s st.actualX st.actualY
            normDxSlow := swingX c s st.normDxSlow st.normDySlow, normDySlow := swingY c s st.normDxSlow st.normDySlow
            directionDx := swingX c s st.directionDx st.directionDy, directionDy := swingY c s st.directionDx st.directionDy
            directionAngleDx := swingX c s st.directionAngleDx st.directionAngleDy
            directionAngleDy := swingY c s st.directionAngleDx st.directionAngleDy
            angle := p.angle, viewrotation := p.view, gridmapX := p.gx, gridmapY := p.gy }

/-- The brush, turned. -/
def swungBrush (c s : K) (p : SwingLoose K) (v : Nat → K) (b : Brush K R) : Brush K R :=
  { b with st := swingState c s p b.st, vals := v, idle := p.idle, total := p.total }

/-- What is kept between the steps. -/
structure SwingOk (e : Env K R σ) (b : Brush K R) : Prop where
  settings : Swinging e b.settings
  skip : b.skip ≤ 1 / 1000
  flip : |b.st.flip| ≤ 1

/-- Between steps. -/
def Swings (e : Env K R σ) (c s a : K) (b b' : Brush K R) : Prop :=
  SwingOk e b ∧ ∃ p v, b' = swungBrush c s p v b ∧ (b.st.ratio ≤ 1 ∨ ∃ k : ℤ, p.angle = b.st.angle + a + 180 * k)

/-- After a step. -/
def SwingsOn (e : Env K R σ) (c s a : K) (b b' : Brush K R) : Prop :=
  SwingOk e b ∧ (∃ p, b' = swungBrush c s p b.vals b ∧ p.angle = swingAngle a b.st.angle ∧
    ∃ k : ℤ, p.view = b.st.viewrotation - a + 360 * k) ∧ ∃ i, b.vals = fun id => calculate (b.settings id) i

/-- What the angle and the engine must be like. -/
structure SwingSet (e : Env K R σ) (a r c s : K) : Prop extends SwingLaws e a r where
  c_eq : c = e.cos a
  s_eq : s = e.sin a
  unit : c * c + s * s = 1
  exp_pos : ∀ t, 0 < e.exp t
  trig : ∀ t, |e.cos t| ≤ 1 ∧ |e.sin t| ≤ 1

/-! ### Turned vectors -/

omit [LinearOrder K] [IsStrictOrderedRing K] [FloorRing K] in
theorem swingX_add (x y x' y' : K) : swingX c s (x + x') (y + y') = swingX c s x y + swingX c s x' y' := by
  unfold swingX; ring

omit [LinearOrder K] [IsStrictOrderedRing K] [FloorRing K] in
theorem swingY_add (x y x' y' : K) : swingY c s (x + x') (y + y') = swingY c s x y + swingY c s x' y' := by
  unfold swingY; ring

omit [LinearOrder K] [IsStrictOrderedRing K] [FloorRing K] in
theorem swingX_sub (x y x' y' : K) : swingX c s (x - x') (y - y') = swingX c s x y - swingX c s x' y' := by
  unfold swingX; ring

omit [LinearOrder K] [IsStrictOrderedRing K] [FloorRing K] in
theorem swingY_sub (x y x' y' : K) : swingY c s (x - x') (y - y') = swingY c s x y - swingY c s x' y' := by
  unfold swingY; ring

omit [LinearOrder K] [IsStrictOrderedRing K] [FloorRing K] in
theorem swingX_mul (x y t : K) : swingX c s (x * t) (y * t) = swingX c s x y * t := by
  unfold swingX; ring

omit [LinearOrder K] [IsStrictOrderedRing K] [FloorRing K] in
theorem swingY_mul (x y t : K) : swingY c s (x * t) (y * t) = swingY c s x y * t := by
  unfold swingY; ring

omit [LinearOrder K] [IsStrictOrderedRing K] [FloorRing K] in
theorem swingX_div (x y t : K) : swingX c s (x / t) (y / t) = swingX c s x y / t := by
  unfold swingX; ring

omit [LinearOrder K] [IsStrictOrderedRing K] [FloorRing K] in
theorem swingY_div (x y t : K) : swingY c s (x / t) (y / t) = swingY c s x y / t := by
  unfold swingY; ring

omit [LinearOrder K] [IsStrictOrderedRing K] [FloorRing K] in
theorem swingX_neg (x y : K) : swingX c s (-x) (-y) = -swingX c s x y := by
  unfold swingX; ring

omit [LinearOrder K] [IsStrictOrderedRing K] [FloorRing K] in
theorem swingY_neg (x y : K) : swingY c s (-x) (-y) = -swingY c s x y := by
  unfold swingY; ring

omit [LinearOrder K] [IsStrictOrderedRing K] [FloorRing K] in
theorem swingX_approach (x y x' y' f : K) :
    approach (swingX c s x y) (swingX c s x' y') f = swingX c s (approach x x' f) (approach y y' f) := by
  unfold swingX approach; ring

omit [LinearOrder K] [IsStrictOrderedRing K] [FloorRing K] in
theorem swingY_approach (x y x' y' f : K) :
    approach (swingY c s x y) (swingY c s x' y') f = swingY c s (approach x x' f) (approach y y' f) := by
  unfold swingY approach; ring

omit [LinearOrder K] [IsStrictOrderedRing K] [FloorRing K] in
theorem swing_square (h : c * c + s * s = 1) (x y : K) :
    swingX c s x y * swingX c s x y + swingY c s x y * swingY c s x y = x * x + y * y := by
  unfold swingX swingY
  linear_combination (x * x + y * y) * h

omit [LinearOrder K] [IsStrictOrderedRing K] [FloorRing K] in
theorem swing_hypot (e : Env K R σ) (h : c * c + s * s = 1) (x y : K) : hypot e (swingX c s x y) (swingY c s x y) = hypot e x y := by
  unfold hypot
  rw [swing_square h]

omit [LinearOrder K] [IsStrictOrderedRing K] [FloorRing K] in
theorem swingX_ite (o : Prop) [Decidable o] (x y : K) :
    (if o then -swingX c s x y else swingX c s x y) = swingX c s (if o then -x else x) (if o then -y else y) := by
  split_ifs
  · rw [swingX_neg]
  · rfl

omit [LinearOrder K] [IsStrictOrderedRing K] [FloorRing K] in
theorem swingY_ite (o : Prop) [Decidable o] (x y : K) :
    (if o then -swingY c s x y else swingY c s x y) = swingY c s (if o then -x else x) (if o then -y else y) := by
  split_ifs
  · rw [swingY_neg]
  · rfl

omit [LinearOrder K] [IsStrictOrderedRing K] [FloorRing K] in
theorem swing_apart (h : c * c + s * s = 1) (x y x' y' : K) :
    (swingX c s x y - swingX c s x' y') * (swingX c s x y - swingX c s x' y') +
      (swingY c s x y - swingY c s x' y') * (swingY c s x y - swingY c s x' y') =
      (x - x') * (x - x') + (y - y') * (y - y') := by
  rw [← swingX_sub, ← swingY_sub, swing_square h]

omit [LinearOrder K] [IsStrictOrderedRing K] [FloorRing K] in
theorem swing_apart' (h : c * c + s * s = 1) (x y x' y' : K) :
    (swingX c s x y - -swingX c s x' y') * (swingX c s x y - -swingX c s x' y') +
      (swingY c s x y - -swingY c s x' y') * (swingY c s x y - -swingY c s x' y') =
      (x - -x') * (x - -x') + (y - -y') * (y - -y') := by
  rw [← swingX_neg, ← swingY_neg, swing_apart h]

/-! ### Angles -/

theorem modArith_turns (t : K) : ∃ k : ℤ, modArith t 360 = t + 360 * k := by
  refine ⟨-⌊t / 360⌋, ?_⟩
  unfold modArith
  push_cast
  ring

theorem swingAngle_eq (v : K) {w w' : K} (h : ∃ k : ℤ, w' = w - a + 360 * k) :
    modArith (v - w' + 180) 180 - 180 = swingAngle a (modArith (v - w + 180) 180 - 180) := by
  obtain ⟨k, rfl⟩ := h
  unfold swingAngle
  have h1 : v - (w - a + 360 * k) + 180 = (v - w + 180 + a) + 180 * ((-(2 * k) : ℤ) : K) := by push_cast; ring
  have h2 : modArith (v - w + 180) 180 - 180 + a + 180 = (v - w + 180 + a) + 180 * ((-⌊(v - w + 180) / 180⌋ : ℤ) : K) := by
    unfold modArith
    push_cast
    ring
  rw [h1, h2, modArith_halves, modArith_halves]

theorem swingAngle_turns (t : K) : ∃ k : ℤ, swingAngle a t = t + a + 180 * k := by
  refine ⟨-⌊(t + a + 180) / 180⌋, ?_⟩
  unfold swingAngle modArith
  push_cast
  ring

omit [LinearOrder K] [IsStrictOrderedRing K] [FloorRing K] in
theorem half_step {e : Env K R σ} [LinearOrder K] [FloorRing K] (L : SwingLaws e a r) (t : K) : e.cos (t + 180) = -e.cos t ∧ e.sin (t + 180) = -e.sin t := by
  rw [L.cos_add, L.sin_add, L.half.1, L.half.2]
  constructor <;> ring

theorem half_steps {e : Env K R σ} (L : SwingLaws e a r) (t : K) (k : ℤ) :
    ∃ f : K, f * f = 1 ∧ e.cos (t + 180 * k) = f * e.cos t ∧ e.sin (t + 180 * k) = f * e.sin t := by
  induction k using Int.induction_on with
  | zero => exact ⟨1, by ring, by simp, by simp⟩
  | succ n ih =>
    obtain ⟨f, h1, h2, h3⟩ := ih
    obtain ⟨q1, q2⟩ := half_step L (t + 180 * (n : ℤ))
    refine ⟨-f, by rw [neg_mul_neg]; exact h1, ?_, ?_⟩
    · rw [show t + 180 * (((n : ℤ) + 1 : ℤ) : K) = t + 180 * ((n : ℤ) : K) + 180 by push_cast; ring, q1, h2]; ring
    · rw [show t + 180 * (((n : ℤ) + 1 : ℤ) : K) = t + 180 * ((n : ℤ) : K) + 180 by push_cast; ring, q2, h3]; ring
  | pred n ih =>
    obtain ⟨f, h1, h2, h3⟩ := ih
    obtain ⟨q1, q2⟩ := half_step L (t + 180 * ((-(n : ℤ) - 1 : ℤ) : K))
    have q : t + 180 * ((-(n : ℤ) - 1 : ℤ) : K) + 180 = t + 180 * ((-(n : ℤ) : ℤ) : K) := by push_cast; ring
    rw [q] at q1 q2
    refine ⟨-f, by rw [neg_mul_neg]; exact h1, ?_, ?_⟩
    · rw [h2] at q1; rw [neg_mul, q1, neg_neg]
    · rw [h3] at q2; rw [neg_mul, q2, neg_neg]

theorem full_steps {e : Env K R σ} (L : SwingLaws e a r) (t : K) (k : ℤ) :
    e.cos (t + 360 * k) = e.cos t ∧ e.sin (t + 360 * k) = e.sin t := by
  have h1 : ∀ u : K, e.cos (u + 360) = e.cos u ∧ e.sin (u + 360) = e.sin u := by
    intro u
    rw [show u + 360 = u + 180 + 180 by ring]
    obtain ⟨q1, q2⟩ := half_step L u
    obtain ⟨q3, q4⟩ := half_step L (u + 180)
    rw [q3, q4, q1, q2, neg_neg, neg_neg]
    exact ⟨rfl, rfl⟩
  induction k using Int.induction_on with
  | zero => simp
  | succ n ih =>
    rw [show t + 360 * (((n : ℤ) + 1 : ℤ) : K) = t + 360 * ((n : ℤ) : K) + 360 by push_cast; ring, (h1 _).1, (h1 _).2]
    exact ih
  | pred n ih =>
    have q : t + 360 * ((-(n : ℤ) - 1 : ℤ) : K) + 360 = t + 360 * ((-(n : ℤ) : ℤ) : K) := by push_cast; ring
    have k := h1 (t + 360 * ((-(n : ℤ) - 1 : ℤ) : K))
    rw [q] at k
    rw [← k.1, ← k.2]
    exact ih

/-! ### A step -/

/-- The step, turned. -/
def swingStep (c s r : K) (t : Step K) : Step K :=
  { t with dx := swingX c s t.dx t.dy, dy := swingY c s t.dx t.dy, viewrotation := t.viewrotation - r }

theorem moveStates_swing {e : Env K R σ} (L : SwingLaws e a r) (b : Brush K R) (p : SwingLoose K) (v : Nat → K) (t : Step K) :
    ∃ q : SwingLoose K, moveStates e (swungBrush c s p v b) (swingStep c s r t) = swingState c s q (moveStates e b t) ∧
      q.idle = p.idle ∧ q.total = p.total ∧ ∃ k : ℤ, q.view = (moveStates e b t).viewrotation - a + 360 * k := by
  refine ⟨⟨gridmap (e.exp (v sGridmapScale) * 256) (v sGridmapScaleX) (swingX c s b.st.actualX b.st.actualY),
    gridmap (e.exp (v sGridmapScale) * 256) (v sGridmapScaleY) (swingY c s b.st.actualX b.st.actualY), p.angle,
    viewRotation e (t.viewrotation - r), p.idle, p.total⟩, ?_, rfl, rfl, ?_⟩
  · unfold moveStates swungBrush swingState swingStep
    dsimp only
    rw [swingX_add, swingY_add]
    rfl
  · show ∃ k : ℤ, viewRotation e (t.viewrotation - r) = viewRotation e t.viewrotation - a + 360 * k
    unfold viewRotation
    rw [L.degrees]
    obtain ⟨k1, h1⟩ := modArith_turns (e.degrees t.viewrotation - a + 180)
    obtain ⟨k2, h2⟩ := modArith_turns (e.degrees t.viewrotation + 180)
    refine ⟨k1 - k2, ?_⟩
    rw [h1, h2]
    push_cast
    ring

theorem followStates_swing {e : Env K R σ} (L : SwingSet e a r c s) (b : Brush K R) (p q : SwingLoose K) (v vals : Nat → K) (st : State K)
    (t : Step K) :
    followStates e (swungBrush c s p v b) (swingState c s q st) vals (swingStep c s r t) =
      swingState c s { q with angle := modArith (vals sEllipticalDabAngle - q.view + 180) 180 - 180 } (followStates e b st vals t) := by
  have hu := L.unit
  unfold followStates
  dsimp only [swingState, swingStep]
  simp only [← swingX_div, ← swingX_mul, ← swingY_div, ← swingY_mul, swing_hypot e hu, swing_apart hu, swing_apart' hu, swingX_ite,
    swingY_ite, swingX_approach, swingY_approach]
  rfl

theorem update_swing {e : Env K R σ} (L : SwingSet e a r c s) {b b' : Brush K R} (h : Swings e c s a b b') (t : Step K) :
    Alike (SwingsOn e c s a) (update e b t) (update e b' (swingStep c s r t)) := by
  obtain ⟨m, p, v, rfl, -⟩ := h
  obtain ⟨q, hm, q1, q2, k, q3⟩ := moveStates_swing (c := c) (s := s) L.toSwingLaws b p v t
  have key : settingValues b.settings (inputsOf e (swungBrush c s p v b) (swingState c s q (moveStates e b t))) =
      settingValues b.settings (inputsOf e b (moveStates e b t)) := by
    funext id
    refine calculate_curves fun k hk => ?_
    have hk' : k ∉ swingInputs := fun z => hk (m.settings.inputs id k z)
    have k1 : k ≠ iGridmapX := fun q => hk' (by simp [swingInputs, q])
    have k2 : k ≠ iGridmapY := fun q => hk' (by simp [swingInputs, q])
    have k3 : k ≠ iDirection := fun q => hk' (by simp [swingInputs, q])
    have k4 : k ≠ iDirectionAngle := fun q => hk' (by simp [swingInputs, q])
    have k5 : k ≠ iAttackAngle := fun q => hk' (by simp [swingInputs, q])
    have k6 : k ≠ iTiltAscension := fun q => hk' (by simp [swingInputs, q])
    unfold Inputs.get
    simp only [k1, k2, k3, k4, k5, k6, if_false]
    rfl
  unfold update
  dsimp only
  rw [show (swingStep c s r t).viewzoom = t.viewzoom from rfl, show (swungBrush c s p v b).settings = b.settings from rfl]
  by_cases hz : t.viewzoom ≤ 0 ∧ usesInput b.settings iViewzoom = true
  · rw [if_pos hz, if_pos hz]; exact .error _
  · rw [if_neg hz, if_neg hz, hm, key, followStates_swing L b p q v]
    refine .ok ⟨⟨m.settings, m.skip, m.flip⟩, ⟨⟨q.gx, q.gy, _, q.view, p.idle, p.total⟩, rfl, ?_, k, q3⟩, ⟨_, rfl⟩⟩
    exact swingAngle_eq _ ⟨k, q3⟩

omit [FloorRing K] in
theorem clampK_within {t l : K} (h : |t| ≤ l) : clampK t (-l) l = t := by
  rw [abs_le] at h
  unfold clampK
  rw [if_neg (not_lt.mpr h.2), if_neg (not_lt.mpr h.1)]

omit [FloorRing K] in
theorem swing_four {u1 u2 u3 u4 m1 m2 m3 m4 f : K} (hf : |f| ≤ 1) (h1 : |u1| ≤ 1) (h2 : |u2| ≤ 1) (h3 : |u3| ≤ 1) (h4 : |u4| ≤ 1)
    (p3 : 0 ≤ m3) (p4 : 0 ≤ m4) : |u1 * m1 + u2 * m2 + u3 * (f * m3) + u4 * (f * m4)| ≤ |m1| + |m2| + m3 + m4 := by
  have a1 := abs_term (m := m1) h1
  have a2 := abs_term (m := m2) h2
  have a3 := (abs_term (m := f * m3) h3).trans ((abs_term hf).trans (abs_of_nonneg p3).le)
  have a4 := (abs_term (m := f * m4) h4).trans ((abs_term hf).trans (abs_of_nonneg p4).le)
  have t1 := abs_add_le (u1 * m1) (u2 * m2)
  have t2 := abs_add_le (u1 * m1 + u2 * m2) (u3 * (f * m3))
  have t3 := abs_add_le (u1 * m1 + u2 * m2 + u3 * (f * m3)) (u4 * (f * m4))
  linarith

theorem swing_trig {e : Env K R σ} (L : SwingSet e a r c s) {t t' : K} (h : ∃ k : ℤ, t' = t + a + 360 * k) :
    e.cos t' = swingX c s (e.cos t) (e.sin t) ∧ e.sin t' = swingY c s (e.cos t) (e.sin t) := by
  obtain ⟨k, rfl⟩ := h
  obtain ⟨q1, q2⟩ := full_steps L.toSwingLaws (t + a) k
  rw [q1, q2, L.cos_add, L.sin_add, ← L.c_eq, ← L.s_eq]
  unfold swingX swingY
  constructor <;> ring

theorem directionalOffsets_swing {e : Env K R σ} (L : SwingSet e a r c s) {b : Brush K R} (m : SwingOk e b) {i : Nat → K}
    (hi : b.vals = fun id => calculate (b.settings id) i) {p : SwingLoose K} (hp : ∃ k : ℤ, p.view = b.st.viewrotation - a + 360 * k) :
    directionalOffsets e (swungBrush c s p b.vals b) (e.exp (b.baseval sRadiusLogarithmic)) b.st.flip =
      (swingX c s (directionalOffsets e b (e.exp (b.baseval sRadiusLogarithmic)) b.st.flip).1
          (directionalOffsets e b (e.exp (b.baseval sRadiusLogarithmic)) b.st.flip).2,
       swingY c s (directionalOffsets e b (e.exp (b.baseval sRadiusLogarithmic)) b.st.flip).1
          (directionalOffsets e b (e.exp (b.baseval sRadiusLogarithmic)) b.st.flip).2) := by
  have ho := m.settings.offsets i
  rw [← hi, show calculate (b.settings sOffsetMultiplier) i = b.vals sOffsetMultiplier by rw [hi],
    show (b.settings sRadiusLogarithmic).base = b.baseval sRadiusLogarithmic from rfl] at ho
  have z1 : b.vals sOffsetX = 0 := by rw [hi]; exact (m.settings.axes i).1
  have z2 : b.vals sOffsetY = 0 := by rw [hi]; exact (m.settings.axes i).2
  have z3 : b.vals sOffsetAngle = 0 := by rw [hi]; exact (m.settings.ahead i).1
  have z4 : maxC 0 (b.vals sOffsetAngle2) = 0 := by
    have : b.vals sOffsetAngle2 ≤ 0 := by rw [hi]; exact (m.settings.ahead i).2
    unfold maxC
    split_ifs with q
    · rfl
    · exact le_antisymm this (not_lt.mp q)
  have n1 := maxC_nonneg' (b.vals sOffsetAngle2Asc)
  have n2 := maxC_nonneg' (b.vals sOffsetAngle2View)
  have hM : 0 < e.exp (b.baseval sRadiusLogarithmic) * e.exp (b.vals sOffsetMultiplier) := mul_pos (L.exp_pos _) (L.exp_pos _)
  have hf := m.flip
  have hT := fun t => (L.trig t).1
  have hS := fun t => (L.trig t).2
  obtain ⟨k, hk⟩ := hp
  have g1 := fun adj : K => swing_trig L (t := b.st.ascension - b.st.viewrotation + adj) (t' := b.st.ascension - p.view + adj)
    ⟨-k, by rw [hk]; push_cast; ring⟩
  have g2 := fun adj : K => swing_trig L (t := -(b.st.viewrotation + adj)) (t' := -(p.view + adj))
    ⟨-k, by rw [hk]; push_cast; ring⟩
  unfold directionalOffsets
  dsimp only [swungBrush, swingState]
  simp only [z1, z2, z3, z4, zero_mul, mul_zero, zero_add, add_zero]
  generalize e.exp (b.baseval sRadiusLogarithmic) * e.exp (b.vals sOffsetMultiplier) = M at ho hM
  have fin : ∀ t : K, |t| ≤ swingSum b.vals → clampK (t * M) (-3240) 3240 = t * M := by
    intro t ht
    refine clampK_within ?_
    rw [abs_mul, abs_of_pos hM]
    exact (mul_le_mul_of_nonneg_right ht hM.le).trans ho
  rw [fin _ (swing_four hf (hT _) (hT _) (hT _) (hT _) n1 n2), fin _ (swing_four hf (hS _) (hS _) (hS _) (hS _) n1 n2),
    fin _ (swing_four hf (hT _) (hT _) (hT _) (hT _) n1 n2), fin _ (swing_four hf (hS _) (hS _) (hS _) (hS _) n1 n2)]
  rw [(g1 _).1, (g1 _).2, (g1 _).1, (g1 _).2, (g2 _).1, (g2 _).2]
  refine Prod.ext ?_ ?_
  · dsimp only [swingX, swingY]; ring
  · dsimp only [swingX, swingY]; ring

theorem dabPosition_swing {e : Env K R σ} (L : SwingSet e a r c s) {b b' : Brush K R} (h : SwingsOn e c s a b b') :
    Alike (fun r r' => r'.1 = swingX c s r.1 r.2.1 ∧ r'.2.1 = swingY c s r.1 r.2.1 ∧ SwingsOn e c s a r.2.2 r'.2.2)
      (dabPosition e b) (dabPosition e b') := by
  obtain ⟨m, ⟨p, rfl, ha, hp⟩, i, hi⟩ := h
  have ho := directionalOffsets_swing L m hi hp
  unfold dabPosition
  dsimp only
  rw [show e.exp ((swungBrush c s p b.vals b).baseval sRadiusLogarithmic) = e.exp (b.baseval sRadiusLogarithmic) from rfl,
    show (swungBrush c s p b.vals b).st.flip = b.st.flip from rfl, ho]
  dsimp only
  have v1 : (swungBrush c s p b.vals b).vals sOffsetBySpeed = b.vals sOffsetBySpeed := rfl
  have v2 : (swungBrush c s p b.vals b).vals sOffsetByRandom = b.vals sOffsetByRandom := rfl
  have v3 : (swungBrush c s p b.vals b).st.viewzoom = b.st.viewzoom := rfl
  have v4 : (swungBrush c s p b.vals b).st.actualX = swingX c s b.st.actualX b.st.actualY := rfl
  have v5 : (swungBrush c s p b.vals b).st.actualY = swingY c s b.st.actualX b.st.actualY := rfl
  have v6 : (swungBrush c s p b.vals b).st.normDxSlow = swingX c s b.st.normDxSlow b.st.normDySlow := rfl
  have v7 : (swungBrush c s p b.vals b).st.normDySlow = swingY c s b.st.normDxSlow b.st.normDySlow := rfl
  have v8 : (swungBrush c s p b.vals b).rng = b.rng := rfl
  rw [v1, v2, v3, v4, v5, v6, v7, v8]
  have hz4 : maxC 0 (b.vals sOffsetByRandom) = 0 := by
    have : b.vals sOffsetByRandom ≤ 0 := by rw [hi]; exact m.settings.scatter i
    unfold maxC
    split_ifs with q
    · rfl
    · exact le_antisymm this (not_lt.mp q)
  by_cases hz : b.vals sOffsetBySpeed ≠ 0 ∧ b.st.viewzoom = 0
  · rw [if_pos hz, if_pos hz]
    exact .error _
  · rw [if_neg hz, if_neg hz]
    have hx : ∀ A B C D N Q : K, (if b.vals sOffsetBySpeed ≠ 0 then swingX c s A B + swingX c s C D +
        swingX c s N Q * b.vals sOffsetBySpeed * (1 / 10) / b.st.viewzoom else swingX c s A B + swingX c s C D) =
        swingX c s (if b.vals sOffsetBySpeed ≠ 0 then A + C + N * b.vals sOffsetBySpeed * (1 / 10) / b.st.viewzoom else A + C)
          (if b.vals sOffsetBySpeed ≠ 0 then B + D + Q * b.vals sOffsetBySpeed * (1 / 10) / b.st.viewzoom else B + D) := by
      intro A B C D N Q
      unfold swingX
      split_ifs <;> ring
    have hy : ∀ A B C D N Q : K, (if b.vals sOffsetBySpeed ≠ 0 then swingY c s A B + swingY c s C D +
        swingY c s N Q * b.vals sOffsetBySpeed * (1 / 10) / b.st.viewzoom else swingY c s A B + swingY c s C D) =
        swingY c s (if b.vals sOffsetBySpeed ≠ 0 then A + C + N * b.vals sOffsetBySpeed * (1 / 10) / b.st.viewzoom else A + C)
          (if b.vals sOffsetBySpeed ≠ 0 then B + D + Q * b.vals sOffsetBySpeed * (1 / 10) / b.st.viewzoom else B + D) := by
      intro A B C D N Q
      unfold swingY
      split_ifs <;> ring
    rw [hx, hy, hz4]
    by_cases hr' : b.vals sOffsetByRandom ≠ 0
    · rw [if_pos hr', if_pos hr']
      simp only [mul_zero, zero_mul, add_zero]
      exact .ok ⟨rfl, rfl, ⟨m.1, m.2, m.3⟩, ⟨p, rfl, ha, hp⟩, i, hi⟩
    · rw [if_neg hr', if_neg hr']
      exact .ok ⟨rfl, rfl, m, ⟨p, rfl, ha, hp⟩, i, hi⟩

theorem dabRadius_swing {e : Env K R σ} {b b' : Brush K R} (h : SwingsOn e c s a b b') (o : K) :
    (dabRadius e b' o).1 = (dabRadius e b o).1 ∧ (dabRadius e b' o).2.1 = (dabRadius e b o).2.1 ∧
      SwingsOn e c s a (dabRadius e b o).2.2 (dabRadius e b' o).2.2 := by
  obtain ⟨m, ⟨p, rfl, ha, hp⟩, i, hi⟩ := h
  unfold dabRadius
  dsimp only
  have v1 : (swungBrush c s p b.vals b).vals sRadiusByRandom = b.vals sRadiusByRandom := rfl
  rw [v1]
  by_cases hn : b.vals sRadiusByRandom ≠ 0
  · rw [if_pos hn, if_pos hn]
    exact ⟨rfl, rfl, ⟨m.1, m.2, m.3⟩, ⟨p, rfl, ha, hp⟩, i, hi⟩
  · rw [if_neg hn, if_neg hn]
    exact ⟨rfl, rfl, m, ⟨p, rfl, ha, hp⟩, i, hi⟩

omit [IsStrictOrderedRing K] in
theorem smudgeStage_swing {e : Env K R σ} {b b' : Brush K R} (h : SwingsOn e c s a b b') (surf surf' : σ)
    (x y x' y' r r' : K) :
    smudgeStage e b surf x y r = .ok (false, b, surf) ∧ smudgeStage e b' surf' x' y' r' = .ok (false, b', surf') := by
  obtain ⟨m, ⟨p, rfl, -⟩, i, hi⟩ := h
  have hn : ¬ (b.vals sSmudgeLength < 1 ∧ (b.vals sSmudge ≠ 0 ∨ isConstant (b.settings sSmudge) = false)) := by
    rw [hi]; exact m.settings.samples i
  constructor
  · unfold smudgeStage
    rw [if_neg hn]
    rfl
  · unfold smudgeStage
    rw [if_neg (show ¬ ((swungBrush c s p b.vals b).vals sSmudgeLength < 1 ∧
      ((swungBrush c s p b.vals b).vals sSmudge ≠ 0 ∨
        isConstant ((swungBrush c s p b.vals b).settings sSmudge) = false)) from hn)]
    rfl

omit [IsStrictOrderedRing K] in
theorem fetchSmudge_swing (p : SwingLoose K) (b : Brush K R) :
    fetchSmudge (swungBrush c s p b.vals b) = ((fetchSmudge b).1, swungBrush c s p b.vals (fetchSmudge b).2) := by
  unfold fetchSmudge
  by_cases h : b.buckets.mem.isEmpty = true ∨ b.buckets.num = 0
  · rw [if_pos h, if_pos (show (swungBrush c s p b.vals b).buckets.mem.isEmpty = true ∨
      (swungBrush c s p b.vals b).buckets.num = 0 from h)]
  · rw [if_neg h, if_neg (show ¬ ((swungBrush c s p b.vals b).buckets.mem.isEmpty = true ∨
      (swungBrush c s p b.vals b).buckets.num = 0) from h)]
    rfl

theorem smudgeColor_swing {e : Env K R σ} {b b' : Brush K R} (h : SwingsOn e c s a b b') (q : Rgb K) :
    Alike (fun r' r'' => r''.1 = r'.1 ∧ r''.2.1 = r'.2.1 ∧ SwingsOn e c s a r'.2.2 r''.2.2) (smudgeColor e b q)
      (smudgeColor e b' q) := by
  obtain ⟨m, ⟨p, rfl, ha, hp⟩, i, hi⟩ := h
  unfold smudgeColor
  by_cases hc : b.vals sSmudge > 0
  · rw [if_pos hc, if_pos (show (swungBrush c s p b.vals b).vals sSmudge > 0 from hc)]
    dsimp only
    rw [fetchSmudge_swing]
    dsimp only
    have hl : ∀ (v : Nat → K) (b : Brush K R) o, loadSmudge (swungBrush c s p v b) o = loadSmudge b o := by
      intro v b o; cases o <;> rfl
    rw [hl]
    have hf := fetchSmudge_same b
    generalize fetchSmudge b = f at hf ⊢
    obtain ⟨o, fb⟩ := f
    dsimp only at hf ⊢
    refine Alike.bind (Alike.same (P := Eq) _ fun _ _ => rfl) ?_
    rintro v _ rfl
    have hv : fb.vals = b.vals := by rw [hf]
    rw [← hv]
    refine .ok ⟨rfl, rfl, ⟨?_, ?_, ?_⟩, ⟨p, rfl, ?_, ?_⟩, i, ?_⟩
    · show Swinging e fb.settings
      rw [hf]; exact m.1
    · show fb.skip ≤ 1 / 1000
      rw [hf]; exact m.2
    · show |fb.st.flip| ≤ 1
      rw [hf]; exact m.3
    · show p.angle = swingAngle a fb.st.angle
      rw [hf]; exact ha
    · show ∃ k : ℤ, p.view = fb.st.viewrotation - a + 360 * k
      rw [hf]; exact hp
    · show fb.vals = fun id => calculate (fb.settings id) i
      rw [hf]; exact hi
  · rw [if_neg hc, if_neg (show ¬ (swungBrush c s p b.vals b).vals sSmudge > 0 from hc)]
    exact .ok ⟨rfl, rfl, m, ⟨p, rfl, ha, hp⟩, i, hi⟩

theorem dabArgs_swing {e : Env K R σ} {b b' : Brush K R} (h : SwingsOn e c s a b b') (lin : Bool) (x y r o t : K) (q : Rgb K) :
    dabArgs e b' lin (swingX c s x y) (swingY c s x y) r o t q = swingDab c s a (dabArgs e b lin x y r o t q) := by
  obtain ⟨m, ⟨p, rfl, ha, hp⟩, i, hi⟩ := h
  have hs : ¬ b.vals sSnapToPixel > 0 := by
    rw [hi]; exact not_lt.mpr (m.settings.free i)
  have hn : ∀ x y r : K, snap b x y r = (x, y, r) := by
    intro x y r
    unfold snap
    rw [if_neg hs]
  have hn' : ∀ x y r : K, snap (swungBrush c s p b.vals b) x y r = (x, y, r) := by
    intro x y r
    unfold snap
    rw [if_neg (show ¬ (swungBrush c s p b.vals b).vals sSnapToPixel > 0 from hs)]
  unfold dabArgs
  dsimp only
  rw [hn, hn']
  unfold swingDab
  dsimp only
  rw [← ha]
  rfl

/-- Drawing a turned dab keeps the surfaces related. -/
def DrawsSwung (e : Env K R σ) (c s a : K) (P : σ → σ → Prop) : Prop :=
  ∀ z z' d, P z z' → P (e.draw z d).2 (e.draw z' (swingDab c s a d)).2

theorem drawDab_swing {e : Env K R σ} (L : SwingSet e a r c s) {P : σ → σ → Prop} (hP : DrawsSwung e c s a P) {b b' : Brush K R}
    (h : SwingsOn e c s a b b') {surf surf' : σ} (hs : P surf surf') (lin : Bool) :
    Alike (fun r r' => P r.2.2 r'.2.2 ∧ SwingsOn e c s a r.2.1 r'.2.1) (drawDab e b surf lin) (drawDab e b' surf' lin) := by
  have ho : dabOpacity e b' = dabOpacity e b := by
    obtain ⟨-, ⟨p, rfl, -⟩, -⟩ := h
    rfl
  have hcol : (⟨b'.baseval sColorH, b'.baseval sColorS, b'.baseval sColorV⟩ : Hue K) =
      ⟨b.baseval sColorH, b.baseval sColorS, b.baseval sColorV⟩ := by
    obtain ⟨-, ⟨p, rfl, -⟩, -⟩ := h
    rfl
  unfold drawDab
  rw [ho, hcol]
  refine Alike.bind (Alike.same (P := Eq) _ fun _ _ => rfl) ?_
  rintro o _ rfl
  refine Alike.bind (dabPosition_swing L h) ?_
  rintro ⟨x, y, b1⟩ ⟨x', y', b1'⟩ ⟨h1, h2, h3⟩
  dsimp only at h1 h2 h3 ⊢
  subst h1 h2
  obtain ⟨r1, r2, r3⟩ := dabRadius_swing h3 o
  rw [r1, r2]
  obtain ⟨q1, q2⟩ := smudgeStage_swing r3 surf surf' x y (swingX c s x y) (swingY c s x y) (dabRadius e b1 o).1 (dabRadius e b1 o).1
  rw [q1, q2]
  simp only [bind, Except.bind, Bool.false_eq_true, if_false]
  refine Alike.bind (smudgeColor_swing r3 _) ?_
  rintro ⟨t, q, b3⟩ ⟨t', q', b3'⟩ ⟨h7, h8, h9⟩
  dsimp only at h7 h8 h9 ⊢
  subst h7 h8
  rw [dabArgs_swing h9 lin x y]
  exact .ok ⟨hP _ _ _ hs, h9⟩

/-! ### Sessions -/

theorem dist_swing {e : Env K R σ} (L : SwingSet e a r c s) {t t' : K} (h : ∃ k : ℤ, t' = t + a + 180 * k) (X Y q : K) :
    hypot e ((swingY c s X Y * e.cos t' - swingX c s X Y * e.sin t') * q) (swingY c s X Y * e.sin t' + swingX c s X Y * e.cos t') =
      hypot e ((Y * e.cos t - X * e.sin t) * q) (Y * e.sin t + X * e.cos t) := by
  obtain ⟨k, rfl⟩ := h
  obtain ⟨f, f1, f2, f3⟩ := half_steps L.toSwingLaws (t + a) k
  have hu := L.unit
  rw [f2, f3, L.cos_add, L.sin_add, ← L.c_eq, ← L.s_eq]
  have k1 : (swingY c s X Y * (f * (e.cos t * c - e.sin t * s)) - swingX c s X Y * (f * (e.sin t * c + e.cos t * s))) * q =
      f * ((Y * e.cos t - X * e.sin t) * q) := by
    unfold swingX swingY
    linear_combination (f * ((Y * e.cos t - X * e.sin t) * q)) * hu
  have k2 : swingY c s X Y * (f * (e.sin t * c + e.cos t * s)) + swingX c s X Y * (f * (e.cos t * c - e.sin t * s)) =
      f * (Y * e.sin t + X * e.cos t) := by
    unfold swingX swingY
    linear_combination (f * (Y * e.sin t + X * e.cos t)) * hu
  rw [k1, k2]
  unfold hypot
  congr 1
  linear_combination (((Y * e.cos t - X * e.sin t) * q) * ((Y * e.cos t - X * e.sin t) * q) +
    (Y * e.sin t + X * e.cos t) * (Y * e.sin t + X * e.cos t)) * f1

theorem countDabs_swing {e : Env K R σ} (L : SwingSet e a r c s) {b b' : Brush K R} (h : Swings e c s a b b') (x y dt : K) :
    (countDabs e b' (swingX c s x y) (swingY c s x y) dt).1 = (countDabs e b x y dt).1 ∧
      Swings e c s a (countDabs e b x y dt).2 (countDabs e b' (swingX c s x y) (swingY c s x y) dt).2 := by
  obtain ⟨m, p, v, rfl, hp⟩ := h
  have key : countDabs e (swungBrush c s p v b) (swingX c s x y) (swingY c s x y) dt =
      ((countDabs e b x y dt).1, swungBrush c s p v (countDabs e b x y dt).2) := by
    have e1 : ∀ X Y : K, (if b.st.ratio > 1 then hypot e ((swingY c s X Y * e.cos p.angle - swingX c s X Y * e.sin p.angle) * b.st.ratio)
          (swingY c s X Y * e.sin p.angle + swingX c s X Y * e.cos p.angle) else hypot e (swingX c s X Y) (swingY c s X Y)) =
        (if b.st.ratio > 1 then hypot e ((Y * e.cos b.st.angle - X * e.sin b.st.angle) * b.st.ratio)
          (Y * e.sin b.st.angle + X * e.cos b.st.angle) else hypot e X Y) := by
      intro X Y
      by_cases hq : b.st.ratio > 1
      · rw [if_pos hq, if_pos hq]
        exact dist_swing L (hp.resolve_left (not_le.mpr hq)) X Y _
      · rw [if_neg hq, if_neg hq, swing_hypot e L.unit]
    unfold countDabs
    dsimp only
    rw [show (swungBrush c s p v b).baseval sRadiusLogarithmic = b.baseval sRadiusLogarithmic from rfl]
    by_cases q : b.st.actualRadius = 0
    · rw [if_pos q, if_pos (show (swungBrush c s p v b).st.actualRadius = 0 from q)]
      dsimp only [swungBrush, swingState]
      simp only [← swingX_sub, ← swingY_sub, e1]
    · rw [if_neg q, if_neg (show ¬ (swungBrush c s p v b).st.actualRadius = 0 from q)]
      dsimp only [swungBrush, swingState]
      simp only [← swingX_sub, ← swingY_sub, e1]
  rw [key]
  obtain ⟨r, hr⟩ := countDabs_same e b x y dt
  rw [hr]
  exact ⟨rfl, ⟨m.1, m.2, m.3⟩, p, v, rfl, hp⟩

/-- The same for the dab loop. -/
structure LoopSwung (e : Env K R σ) (c s a : K) (P : σ → σ → Prop) (l l' : Loop K R σ) : Prop where
  b : Swings e c s a l.b l'.b
  surf : P l.surf l'.surf
  moved : l'.moved = l.moved
  todo : l'.todo = l.todo
  left : l'.dtimeLeft = l.dtimeLeft

theorem SwingsOn.flip {e : Env K R σ} {b b' : Brush K R} (h : SwingsOn e c s a b b') :
    SwingsOn e c s a { b with st := { b.st with flip := b.st.flip * -1 } } { b' with st := { b'.st with flip := b'.st.flip * -1 } } := by
  obtain ⟨m, ⟨p, rfl, ha, hp⟩, i, hi⟩ := h
  refine ⟨⟨m.1, m.2, ?_⟩, ⟨p, rfl, ha, hp⟩, i, hi⟩
  show |b.st.flip * -1| ≤ 1
  rw [mul_neg_one, abs_neg]
  exact m.3

theorem SwingsOn.next {e : Env K R σ} {b b' : Brush K R} (h : SwingsOn e c s a b b') :
    Swings e c s a { b with random := (e.next b.rng).1, rng := (e.next b.rng).2 }
      { b' with random := (e.next b'.rng).1, rng := (e.next b'.rng).2 } := by
  obtain ⟨m, ⟨p, rfl, ha, -⟩, -⟩ := h
  exact ⟨⟨m.1, m.2, m.3⟩, p, _, rfl, .inr (by rw [ha]; exact swingAngle_turns _)⟩

/-- The event, turned. -/
def swingEvent (c s r : K) (ev : Event K) : Event K :=
  { ev with x := swingX c s ev.x ev.y, y := swingY c s ev.x ev.y, viewrotation := ev.viewrotation - r }

theorem Swings.step {e : Env K R σ} {b b' : Brush K R} (h : Swings e c s a b b') (ev : Event K) (x y dd f t : K) :
    stepTo b'.st (swingEvent c s r ev) (swingX c s x y) (swingY c s x y) dd f t = swingStep c s r (stepTo b.st ev x y dd f t) := by
  obtain ⟨-, p, v, rfl, -⟩ := h
  unfold stepTo swingStep
  dsimp only [swungBrush, swingState, swingEvent]
  rw [← swingX_sub, ← swingY_sub, mul_comm f, ← swingX_mul, mul_comm f, ← swingY_mul, mul_comm _ f, mul_comm _ f]

theorem dabStep_swing {e : Env K R σ} (L : SwingSet e a r c s) {P : σ → σ → Prop} (hP : DrawsSwung e c s a P) {l l' : Loop K R σ}
    (h : LoopSwung e c s a P l l') (ev : Event K) (x y : K) :
    Alike (LoopSwung e c s a P) (dabStep e ev x y l) (dabStep e (swingEvent c s r ev) (swingX c s x y) (swingY c s x y) l') := by
  obtain ⟨b, surf, moved, todo, left, painted⟩ := l
  obtain ⟨b', surf', moved', todo', left', painted'⟩ := l'
  obtain ⟨hb, h1, h2, h3, h4⟩ := h
  dsimp only at hb h1 h2 h3 h4
  subst h2 h3 h4
  unfold dabStep
  dsimp only
  by_cases hz : todo' = 0
  · rw [if_pos hz, if_pos hz]; exact .error _
  · rw [if_neg hz, if_neg hz, hb.step]
    refine Alike.bind (update_swing L hb _) ?_
    intro b1 b1' hc
    refine Alike.bind (drawDab_swing L hP hc.flip h1 _) ?_
    rintro ⟨dd, b2, s2⟩ ⟨dd', b2', s2'⟩ ⟨g2, g3⟩
    dsimp only at g2 g3 ⊢
    obtain ⟨k1, k2⟩ := countDabs_swing L (g3.next) x y
      (left' - (stepTo b.st ev x y (if moved' > 0 then 1 - moved' else 1)
        ((if moved' > 0 then 1 - moved' else 1) / todo') left').dtime)
    exact .ok ⟨k2, g2, rfl, k1, rfl⟩

theorem dabLoop_swing {e : Env K R σ} (L : SwingSet e a r c s) {P : σ → σ → Prop} (hP : DrawsSwung e c s a P) (ev : Event K) (x y : K)
    (fuel : Nat) : ∀ {l l' : Loop K R σ}, LoopSwung e c s a P l l' →
      Alike (LoopSwung e c s a P) (dabLoop e ev x y fuel l)
        (dabLoop e (swingEvent c s r ev) (swingX c s x y) (swingY c s x y) fuel l') := by
  induction fuel with
  | zero =>
    intro l l' h
    unfold dabLoop
    rw [h.moved, h.todo]
    by_cases hc : l.moved + l.todo ≥ 1
    · rw [if_pos hc, if_pos hc]; exact .error _
    · rw [if_neg hc, if_neg hc]; exact .ok h
  | succ fuel ih =>
    intro l l' h
    unfold dabLoop
    rw [h.moved, h.todo]
    by_cases hc : l.moved + l.todo ≥ 1
    · rw [if_pos hc, if_pos hc]
      exact Alike.bind (dabStep_swing L hP h ev x y) fun a a' ha => ih ha
    · rw [if_neg hc, if_neg hc]; exact .ok h

/-- The results of an event. -/
def ResSwung (e : Env K R σ) (c s a : K) (P : σ → σ → Prop) (r r' : Bool × Brush K R × σ) : Prop :=
  P r.2.2 r'.2.2 ∧ Swings e c s a r.2.1 r'.2.1

theorem splitStroke_swing {e : Env K R σ} {b b' : Brush K R} (h : Swings e c s a b b') (p p' : Painted) (dt dt' pr pr' dp dp' : K) :
    Swings e c s a (splitStroke b p dt pr dp).2 (splitStroke b' p' dt' pr' dp').2 := by
  obtain ⟨m, q, v, rfl, hq⟩ := h
  obtain ⟨t, i, ht⟩ := splitStroke_same b p dt pr dp
  obtain ⟨t', i', ht'⟩ := splitStroke_same (swungBrush c s q v b) p' dt' pr' dp'
  rw [ht, ht']
  exact ⟨⟨m.1, m.2, m.3⟩, { q with idle := i', total := t' }, v, rfl, hq⟩

theorem moveTo_swing {e : Env K R σ} (L : SwingSet e a r c s) {P : σ → σ → Prop} (hP : DrawsSwung e c s a P) {b b' : Brush K R}
    (h : Swings e c s a b b') (fuel : Nat) {surf surf' : σ} (hs : P surf surf') (ev : Event K) (x y dt : K) :
    Alike (ResSwung e c s a P) (moveTo e fuel b surf ev x y dt)
      (moveTo e fuel b' surf' (swingEvent c s r ev) (swingX c s x y) (swingY c s x y) dt) := by
  unfold moveTo
  dsimp only
  obtain ⟨k1, k2⟩ := countDabs_swing L h x y dt
  have k3 : b'.st.partialDabs = b.st.partialDabs := by
    obtain ⟨-, p, v, rfl, -⟩ := h
    rfl
  rw [k1, k3]
  refine Alike.bind (dabLoop_swing L hP ev x y fuel ⟨k2, hs, rfl, rfl, rfl⟩) ?_
  rintro ⟨b, surf, moved, todo, left, painted⟩ ⟨b', surf', moved', todo', left', painted'⟩ ⟨hb, h1, h2, h3, h4⟩
  dsimp only at hb h1 h2 h3 h4 ⊢
  subst h2 h3 h4
  rw [hb.step]
  refine Alike.bind (update_swing L hb _) ?_
  intro b1 b1' hc
  have hc' : Swings e c s a { b1 with st := { b1.st with partialDabs := moved' + todo' } }
      { b1' with st := { b1'.st with partialDabs := moved' + todo' } } := by
    obtain ⟨m, ⟨p, rfl, ha, -⟩, -⟩ := hc
    exact ⟨⟨m.1, m.2, m.3⟩, p, _, rfl, .inr (by rw [ha]; exact swingAngle_turns _)⟩
  exact .ok ⟨h1, splitStroke_swing hc' _ _ _ _ _ _ _ _⟩

theorem cursor_swing {e : Env K R σ} {b b' : Brush K R} (h : Swings e c s a b b') (x y dt : K) :
    (cursor e b' (swingX c s x y) (swingY c s x y) dt).1 = swingX c s (cursor e b x y dt).1 (cursor e b x y dt).2.1 ∧
      (cursor e b' (swingX c s x y) (swingY c s x y) dt).2.1 = swingY c s (cursor e b x y dt).1 (cursor e b x y dt).2.1 ∧
      Swings e c s a (cursor e b x y dt).2.2 (cursor e b' (swingX c s x y) (swingY c s x y) dt).2.2 := by
  have h' := h
  obtain ⟨m, p, v, rfl, -⟩ := h
  have z : b.baseval sTrackingNoise = 0 := m.settings.steady
  have z' : (swungBrush c s p v b).baseval sTrackingNoise = 0 := z
  unfold cursor
  dsimp only
  rw [z, z']
  simp only [ne_eq, not_true_eq_false, false_and, if_false]
  exact ⟨swingX_approach _ _ _ _ _, swingY_approach _ _ _ _ _, h'⟩

omit [LinearOrder K] [IsStrictOrderedRing K] [FloorRing K] in
theorem swing_zero : swingX c s 0 0 = 0 ∧ swingY c s 0 0 = 0 := by
  unfold swingX swingY
  constructor <;> ring

theorem startOver_swing {e : Env K R σ} {b b' : Brush K R} (h : Swings e c s a b b') (x y p : K) :
    Alike (Swings e c s a) (startOver e b x y p) (startOver e b' (swingX c s x y) (swingY c s x y) p) := by
  obtain ⟨m, q, v, rfl, -⟩ := h
  unfold startOver brushReset
  simp only [bind_assoc]
  refine Alike.bind (P := Eq) (Alike.same (P := Eq) (resetBuckets b.buckets) fun _ _ => rfl) ?_
  rintro bk _ rfl
  refine .ok ⟨⟨m.1, ?_, ?_⟩, ⟨0, 0, 0, 0, q.idle, q.total⟩, v, ?_, .inl ?_⟩
  · show (0 : K) ≤ 1 / 1000
    norm_num
  · show |(-1 : K)| ≤ 1
    norm_num
  · unfold swungBrush swingState
    dsimp only [State.cleared]
    rw [(swing_zero (c := c) (s := s)).1, (swing_zero (c := c) (s := s)).2]
  · show (0 : K) ≤ 1
    norm_num

theorem strokeEvent_swing {e : Env K R σ} (L : SwingSet e a r c s) {P : σ → σ → Prop} (hP : DrawsSwung e c s a P) {b b' : Brush K R}
    (h : Swings e c s a b b') (fuel : Nat) {surf surf' : σ} (hs : P surf surf') (ev : Event K) :
    Alike (ResSwung e c s a P) (strokeEvent e fuel b surf ev) (strokeEvent e fuel b' surf' (swingEvent c s r ev)) := by
  have hr : b'.resetRequested = b.resetRequested ∧ b'.skip ≤ 1 / 1000 := by
    obtain ⟨m, p, v, rfl, -⟩ := h
    exact ⟨rfl, m.skip⟩
  unfold strokeEvent
  rw [show (swingEvent c s r ev).x = swingX c s ev.x ev.y from rfl, show (swingEvent c s r ev).y = swingY c s ev.x ev.y from rfl,
    show (swingEvent c s r ev).dtime = ev.dtime from rfl, show (swingEvent c s r ev).pressure = ev.pressure from rfl]
  dsimp only
  rw [skipStage_grow h.1.skip, skipStage_grow hr.2, hr.1]
  dsimp only
  simp only [Bool.false_eq_true, if_false]
  obtain ⟨c1, c2, c3⟩ := cursor_swing (e := e) h ev.x ev.y ev.dtime
  rw [c1, c2]
  by_cases hz : ev.dtime > 5 ∨ b.resetRequested = true
  · rw [if_pos hz, if_pos hz]
    refine Alike.bind (startOver_swing c3 _ _ _) ?_
    intro b1 b1' h1
    exact .ok ⟨hs, h1⟩
  · rw [if_neg hz, if_neg hz]
    exact moveTo_swing L hP c3 fuel hs ev _ _ _

theorem sanitise_swing {e : Env K R σ} {m : Motion K} (h : m.Near) (h' : (m.swing c s r).Near) :
    Alike (fun ev ev' => ev' = swingEvent c s r ev ∧ (workaroundMotion ev).Near ∧ ((workaroundMotion ev).swing c s r).Near)
      (sanitise e m) (sanitise e (m.swing c s r)) := by
  obtain ⟨mx, my, mp, mt, mt', md, mz, mr, mb, ml⟩ := m
  obtain ⟨hx, hy⟩ := h
  obtain ⟨hx', hy'⟩ := h'
  cases mx with
  | fin x =>
    cases my with
    | fin y =>
      dsimp only [Motion.swing, Flt.Near] at hx hy hx' hy'
      unfold sanitise Motion.swing
      dsimp only
      refine Alike.bind (Alike.same (P := Eq) _ fun _ _ => rfl) ?_
      rintro t _ rfl
      rw [sane_near hx, sane_near hy, sane_near hx', sane_near hy']
      dsimp only
      have k : ∀ {x y : K}, |x| < 10 ^ 8 → |y| < 10 ^ 8 → x < 10 ^ 8 ∧ y < 10 ^ 8 ∧ x > -10 ^ 8 ∧ y > -10 ^ 8 := by
        intro x y hx hy
        rw [abs_lt] at hx hy
        exact ⟨hx.2, hy.2, hx.1, hy.1⟩
      rw [if_pos (k hx hy), if_pos (k hx' hy')]
      exact .ok ⟨rfl, ⟨hx, hy⟩, hx', hy'⟩
    | _ => exact absurd hy (by simp [Flt.Near])
  | _ => exact absurd hx (by simp [Flt.Near])

theorem strokeTo_swing {e : Env K R σ} (L : SwingSet e a r c s) {P : σ → σ → Prop} (hP : DrawsSwung e c s a P) {b b' : Brush K R}
    (h : Swings e c s a b b') (fuel : Nat) {surf surf' : σ} (hs : P surf surf') {m : Motion K} (hm : m.Near) (hm' : (m.swing c s r).Near) :
    Alike (ResSwung e c s a P) (strokeTo e fuel b surf m) (strokeTo e fuel b' surf' (m.swing c s r)) := by
  unfold strokeTo
  have hp : b'.st.pressure = b.st.pressure := by
    obtain ⟨-, p, v, rfl, -⟩ := h
    rfl
  refine Alike.bind (sanitise_swing hm hm') ?_
  rintro ev _ ⟨rfl, n1, n2⟩
  rw [hp]
  by_cases hc : ev.dtime > 1 / 10 ∧ ev.pressure ≠ 0 ∧ b.st.pressure = 0
  · rw [if_pos hc, if_pos (show (swingEvent c s r ev).dtime > 1 / 10 ∧ (swingEvent c s r ev).pressure ≠ 0 ∧ b.st.pressure = 0 from hc)]
    refine Alike.bind (sanitise_swing n1 n2) ?_
    rintro i _ ⟨rfl, -, -⟩
    refine Alike.bind (strokeEvent_swing L hP h fuel hs i) ?_
    rintro r r' ⟨r1, r2⟩
    exact strokeEvent_swing L hP r2 fuel r1 { ev with dtime := 1 / 10000 }
  · rw [if_neg hc, if_neg (show ¬ ((swingEvent c s r ev).dtime > 1 / 10 ∧ (swingEvent c s r ev).pressure ≠ 0 ∧ b.st.pressure = 0) from hc)]
    exact strokeEvent_swing L hP h fuel hs ev

theorem strokes_swing {e : Env K R σ} (L : SwingSet e a r c s) {P : σ → σ → Prop} (hP : DrawsSwung e c s a P) (fuel : Nat)
    (ms : List (Motion K)) : ∀ {b b' : Brush K R} {surf surf' : σ}, Swings e c s a b b' → P surf surf' →
      (∀ m ∈ ms, m.Near ∧ (m.swing c s r).Near) →
      Alike (fun r r' => P r.2 r'.2 ∧ Swings e c s a r.1 r'.1) (strokes e fuel b surf ms)
        (strokes e fuel b' surf' (ms.map (Motion.swing c s r))) := by
  induction ms with
  | nil => intro b b' surf surf' h hs _; exact .ok ⟨hs, h⟩
  | cons m ms ih =>
    intro b b' surf surf' h hs hm
    rw [List.map_cons]
    unfold strokes
    obtain ⟨m1, m2⟩ := hm m List.mem_cons_self
    refine Alike.bind (strokeTo_swing L hP h fuel hs m1 m2) ?_
    rintro r r' ⟨r1, r2⟩
    exact ih r2 r1 fun m q => hm m (List.mem_cons_of_mem _ q)

end
end Verif.Engine
