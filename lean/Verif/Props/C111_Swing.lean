import Verif.Lemmas.EngineSwing
import Verif.Props.C110_Resize
import Verif.Props.C103_Direction

/-!
# C111: a turned view does not change a stroke
-/

namespace Verif.Engine
open Verif.Map Verif.Mask Verif.Color

section
variable {K R σ : Type} [Field K] [LinearOrder K] [IsStrictOrderedRing K] [FloorRing K] {a r : K}

/-- **C111**. The same stroke turned on the canvas by an angle (`a` degrees, `r` radians), in a view that is turned back by the same
angle, so that the pen moves on the screen as before: the same fault, or the same dabs, turned, and the brush ends in the same
state, turned. -/
theorem turned_view_stroke {e : Env K R σ} (L : Laws e) (T : SwingLaws e a r) (fuel : Nat) {b : Brush K R}
    (hb : Swinging e b.settings) (h0 : b.skip ≤ 1 / 1000) (h1 : |b.st.flip| ≤ 1) {ms : List (Motion K)}
    (hm : ∀ m ∈ ms, m.Near ∧ (m.swing (e.cos a) (e.sin a) r).Near) (surf surf' : σ) :
    Alike (fun r r' => r'.2.2 = r.2.2.map (swingDab (e.cos a) (e.sin a) a) ∧ Swung (e.cos a) (e.sin a) a r.1 r'.1)
      (strokes (recordDabs e) fuel b (surf, []) ms)
      (strokes (recordDabs e) fuel (swingBrush (e.cos a) (e.sin a) a b) (surf', []) (ms.map (Motion.swing (e.cos a) (e.sin a) r))) := by
  have hP : DrawsSwung (recordDabs e) (e.cos a) (e.sin a) a
      (fun s s' : σ × List (Dab.Args K) => s'.2 = s.2.map (swingDab (e.cos a) (e.sin a) a)) := by
    intro s s' d h
    show s'.2 ++ [swingDab (e.cos a) (e.sin a) a d] = (s.2 ++ [d]).map (swingDab (e.cos a) (e.sin a) a)
    rw [h, List.map_append]
    rfl
  have hS : SwingSet (recordDabs e) a r (e.cos a) (e.sin a) :=
    ⟨⟨T.cos_add, T.sin_add, T.half, T.degrees⟩, rfl, rfl, L.trig a, L.exp_pos, fun t => trig_le (e := e) L t⟩
  have hb' : Swinging (recordDabs e) b.settings :=
    ⟨hb.inputs, hb.samples, hb.axes, hb.ahead, hb.offsets, hb.scatter, hb.free, hb.steady⟩
  have k := strokes_swing (e := recordDabs e) hS hP fuel ms (b := b) (b' := swingBrush (e.cos a) (e.sin a) a b)
    (surf := (surf, [])) (surf' := (surf', []))
    ⟨⟨hb', h0, h1⟩, ⟨b.st.gridmapX, b.st.gridmapY, swingAngle a b.st.angle, b.st.viewrotation, b.idle, b.total⟩, b.vals, rfl,
      .inr (swingAngle_turns _)⟩ rfl hm
  cases hs : strokes (recordDabs e) fuel b (surf, []) ms <;>
    cases hs' : strokes (recordDabs e) fuel (swingBrush (e.cos a) (e.sin a) a b) (surf', [])
      (ms.map (Motion.swing (e.cos a) (e.sin a) r)) <;> rw [hs, hs'] at k <;> cases k
  · exact .error _
  · rename_i h
    obtain ⟨q1, -, p, v, q2, -⟩ := h
    exact .ok ⟨q1, p.gx, p.gy, p.angle, p.view, p.idle, p.total, v, q2⟩

/-- The angle of a turned vector. -/
def AngleTurns (e : Env K R σ) (a : K) : Prop :=
  ∀ x y, (y ≠ 0 ∨ x ≠ 0) → ∃ k : ℤ, e.atan2 (swingY (e.cos a) (e.sin a) x y) (swingX (e.cos a) (e.sin a) x y) = e.atan2 y x + a + 360 * k

/-- **C111**, the inputs for the direction: as long as the brush has a direction, they read the same in the turned view. -/
theorem direction_reads_the_screen {e : Env K R σ} (L : Laws e) (A : AngleTurns e a) (b : Brush K R) {st st' : State K}
    (h1 : st'.directionDx = swingX (e.cos a) (e.sin a) st.directionDx st.directionDy ∧
      st'.directionDy = swingY (e.cos a) (e.sin a) st.directionDx st.directionDy)
    (h2 : st'.directionAngleDx = swingX (e.cos a) (e.sin a) st.directionAngleDx st.directionAngleDy ∧
      st'.directionAngleDy = swingY (e.cos a) (e.sin a) st.directionAngleDx st.directionAngleDy)
    (hv : ∃ k : ℤ, st'.viewrotation = st.viewrotation - a + 360 * k) (r1 : -180 ≤ st.viewrotation) (r2 : -180 ≤ st'.viewrotation) :
    (st.directionDy ≠ 0 ∨ st.directionDx ≠ 0 → (inputsOf e b st').direction = (inputsOf e b st).direction) ∧
    (st.directionAngleDy ≠ 0 ∨ st.directionAngleDx ≠ 0 → (inputsOf e b st').directionAngle = (inputsOf e b st).directionAngle) := by
  obtain ⟨k, hk⟩ := hv
  constructor
  · intro h
    obtain ⟨n, hn⟩ := A _ _ h
    show modArith (e.atan2 st'.directionDy st'.directionDx + st'.viewrotation + 180) 180 =
      modArith (e.atan2 st.directionDy st.directionDx + st.viewrotation + 180) 180
    rw [h1.1, h1.2, hn, hk, ← modArith_halves (e.atan2 st.directionDy st.directionDx + st.viewrotation + 180) (2 * (n + k))]
    congr 1
    push_cast
    ring
  · intro h
    obtain ⟨n, hn⟩ := A _ _ h
    show fmod (e.atan2 st'.directionAngleDy st'.directionAngleDx + st'.viewrotation + 360) 360 =
      fmod (e.atan2 st.directionAngleDy st.directionAngleDx + st.viewrotation + 360) 360
    have p1 := (L.atan2_range st'.directionAngleDy st'.directionAngleDx).1
    have p2 := (L.atan2_range st.directionAngleDy st.directionAngleDx).1
    unfold fmod
    rw [if_pos (show 0 ≤ e.atan2 st'.directionAngleDy st'.directionAngleDx + st'.viewrotation + 360 by linarith),
      if_pos (show 0 ≤ e.atan2 st.directionAngleDy st.directionAngleDx + st.viewrotation + 360 by linarith)]
    refine modArith_congr ⟨n + k, ?_⟩
    rw [h2.1, h2.2, hn, hk]
    push_cast
    ring

end

/-! ### Examples -/

namespace Demo

open Real in
/-- The functions of the real numbers satisfy the laws, for every angle. -/
theorem realEnv_swing {R σ : Type} (next gauss : R → ℝ × R) (draw : σ → Dab.Args ℝ → Bool × σ)
    (getColor : σ → Int → Int → ℝ → ℝ → Color.Rgba ℝ × σ) (a : ℝ) :
    SwingLaws (realEnv next gauss draw getColor) a (a * (π / 180)) where
  cos_add t u := by
    show Real.cos ((t + u) * (π / 180)) = _
    rw [add_mul, Real.cos_add]
    rfl
  sin_add t u := by
    show Real.sin ((t + u) * (π / 180)) = _
    rw [add_mul, Real.sin_add]
    rfl
  half := by
    constructor
    · show Real.cos (180 * (π / 180)) = -1
      rw [show 180 * (π / 180) = π by ring, Real.cos_pi]
    · show Real.sin (180 * (π / 180)) = 0
      rw [show 180 * (π / 180) = π by ring, Real.sin_pi]
  degrees t := by
    show (t - a * (π / 180)) * (180 / π) = t * (180 / π) - a
    have := Real.pi_ne_zero
    field_simp

open Real in
theorem realEnv_angleTurns {R σ : Type} (next gauss : R → ℝ × R) (draw : σ → Dab.Args ℝ → Bool × σ)
    (getColor : σ → Int → Int → ℝ → ℝ → Color.Rgba ℝ × σ) (a : ℝ) : AngleTurns (realEnv next gauss draw getColor) a := by
  intro x y h
  have h0 : (⟨x, y⟩ : ℂ) ≠ 0 := by
    intro q
    have q1 := congrArg Complex.re q
    have q2 := congrArg Complex.im q
    rcases h with h | h
    · exact h q2
    · exact h q1
  show ∃ k : ℤ, Complex.arg ⟨Real.cos (a * (π / 180)) * x - Real.sin (a * (π / 180)) * y,
    Real.sin (a * (π / 180)) * x + Real.cos (a * (π / 180)) * y⟩ * (180 / π) = Complex.arg ⟨x, y⟩ * (180 / π) + a + 360 * k
  have e1 : (⟨Real.cos (a * (π / 180)) * x - Real.sin (a * (π / 180)) * y,
      Real.sin (a * (π / 180)) * x + Real.cos (a * (π / 180)) * y⟩ : ℂ) = Complex.exp ((a * (π / 180) : ℝ) * Complex.I) * ⟨x, y⟩ := by
    rw [Complex.exp_mul_I]
    apply Complex.ext
    · simp [← Complex.ofReal_cos, ← Complex.ofReal_sin, -Complex.ofReal_mul, -Complex.ofReal_div]
    · simp [← Complex.ofReal_cos, ← Complex.ofReal_sin, -Complex.ofReal_mul, -Complex.ofReal_div]
      ring
  have k := Complex.arg_mul_coe_angle (Complex.exp_ne_zero ((a * (π / 180) : ℝ) * Complex.I)) h0
  rw [show ((Complex.exp ((a * (π / 180) : ℝ) * Complex.I)).arg : Real.Angle) = ((a * (π / 180) : ℝ) : Real.Angle) by
    rw [Complex.exp_mul_I, ← Complex.ofReal_cos, ← Complex.ofReal_sin, ← Real.Angle.cos_coe, ← Real.Angle.sin_coe,
      Complex.arg_cos_add_sin_mul_I_coe_angle], ← Real.Angle.coe_add, Real.Angle.angle_eq_iff_two_pi_dvd_sub] at k
  obtain ⟨n, hn⟩ := k
  refine ⟨n, ?_⟩
  rw [e1]
  have : Complex.arg (Complex.exp ((a * (π / 180) : ℝ) * Complex.I) * ⟨x, y⟩) = a * (π / 180) + Complex.arg ⟨x, y⟩ + 2 * π * n := by linarith
  rw [this]
  have := Real.pi_ne_zero
  field_simp
  ring

/-- Replacements for the functions of the C library that are right for the directions of the axes. -/
def cross : Env ℚ Nat (List (Dab.Args ℚ)) :=
  { compass with
    cos := fun a => if modArith a 360 = 0 then 1 else if modArith a 360 = 180 then -1 else 0
    sin := fun a => if modArith a 360 = 90 then 1 else if modArith a 360 = 270 then -1 else 0
    degrees := fun t => t * 90 }

/-- Elongated dabs with a fixed angle, after a reset. -/
def pennant : Brush ℚ Nat := set (set (set brush sEllipticalDabRatio 3) sDirectionFilter 2) sEllipticalDabAngle 90

/-- The same, but the dabs follow the direction of the stroke. -/
def spoke : Brush ℚ Nat := { wheel 2 with resetRequested := true }

/-- The pen is put down, rests a moment, and moves to the right. -/
def across : List (Motion ℚ) := [motion 0 0 (1 / 2) (1 / 20), motion 0 0 (1 / 2) (1 / 20), motion (15 / 4) 0 (1 / 2) (1 / 20)]

/-- Place and angle of the dabs. -/
def lying (b : Brush ℚ Nat) (ms : List (Motion ℚ)) : Option (List (ℚ × ℚ × ℚ)) :=
  look (fun r => r.2.map fun a => (a.x, a.y, a.angle)) (strokes cross 100 b [] ms)

example : lying pennant across = some [(1 / 2, 0, -90), (1, 0, -90), (3 / 2, 0, -90), (2, 0, -90), (5 / 2, 0, -90), (3, 0, -90),
      (7 / 2, 0, -90)] ∧
    lying pennant (across.map (Motion.swing 0 1 1)) = some [(0, 1 / 2, -180), (0, 1, -180), (0, 3 / 2, -180), (0, 2, -180),
      (0, 5 / 2, -180), (0, 3, -180), (0, 7 / 2, -180)] := by
  constructor <;> decide +kernel

/-- **C111** (refuted for brushes that follow the direction). At the start of a stroke the brush has no direction, and the inputs read
the rotation of the view instead: in the turned view the first dab lies across the stroke, and there are more of them. -/
theorem first_dab_does_not_turn :
    lying spoke across = some [(3 / 2, 0, -180), (3, 0, -180)] ∧
    lying spoke (across.map (Motion.swing 0 1 1)) = some [(0, 1 / 2, -180), (0, 1, -90), (0, 5 / 2, -90)] := by
  constructor <;> decide +kernel

end Demo
end Verif.Engine

namespace Verif.Painting
open Verif.Full Verif.Engine Verif.Map

section Demo
open Verif.Painting.Demo

/-- A pen with an elongated tip, held at 30 degrees on the screen. -/
noncomputable def nibValues (id : Nat) : ℝ :=
  if id = sEllipticalDabRatio then 3 else if id = sEllipticalDabAngle then 30 else paintValues False id

theorem nib_swinging : Swinging canvasEnv (plainBrush nibValues).settings := by
  have c : ∀ id i, calculate ((plainBrush nibValues).settings id) i = nibValues id := fun id i => plainBrush_value _ id i
  refine ⟨fun _ _ _ => rfl, ?_, ?_, ?_, ?_, ?_, ?_, ?_⟩
  · rintro i ⟨-, k | k⟩
    · apply k
      rw [plainBrush_value]; norm_num [nibValues, paintValues]
    · cases k
  · intro i
    rw [c, c]
    norm_num [nibValues, paintValues]
  · intro i
    rw [c, c]
    norm_num [nibValues, paintValues]
  · intro i
    rw [show swingSum (fun id => calculate ((plainBrush nibValues).settings id) i) = 0 by
      unfold swingSum
      simp only [c]
      norm_num [nibValues, paintValues, Color.maxC], zero_mul]
    norm_num
  · intro i
    rw [c]; norm_num [nibValues, paintValues]
  · intro i
    rw [c]; norm_num [nibValues, paintValues]
  · norm_num [plainBrush, nibValues, paintValues]

open Real in
/-- Whatever is drawn on the right half of the desk, in a view that is turned by any angle. -/
example (a : ℝ) (ps : List {p : ℝ × ℝ // rightDesk p.1 p.2}) :
    Alike (fun r r' => r'.2.2 = r.2.2.map (swingDab (Real.cos (a * (π / 180))) (Real.sin (a * (π / 180))) a) ∧
        Swung (Real.cos (a * (π / 180))) (Real.sin (a * (π / 180))) a r.1 r'.1)
      (strokes (recordDabs canvasEnv) 1000 (plainBrush nibValues) ([], []) (penMotions ps))
      (strokes (recordDabs canvasEnv) 1000
        (swingBrush (Real.cos (a * (π / 180))) (Real.sin (a * (π / 180))) a (plainBrush nibValues)) ([], [])
        ((penMotions ps).map (Motion.swing (Real.cos (a * (π / 180))) (Real.sin (a * (π / 180))) (a * (π / 180))))) := by
  refine turned_view_stroke (e := canvasEnv) (realEnv_laws _ _ _ _ (fun _ => ⟨le_refl _, one_pos⟩)) (Demo.realEnv_swing _ _ _ _ a) 1000
    nib_swinging ?_ ?_ ?_ _ _
  · norm_num [plainBrush]
  · norm_num [plainBrush, State.cleared]
  · intro m hm
    obtain ⟨p, -, rfl⟩ := List.mem_map.mp hm
    have q1 : |p.1.1| ≤ 100000 := abs_le.mpr ⟨by linarith [p.2.1], p.2.2.1⟩
    have q2 : |p.1.2| ≤ 100000 := p.2.2.2
    have c1 : |Real.cos (a * (π / 180))| ≤ 1 := Real.abs_cos_le_one _
    have s1 : |Real.sin (a * (π / 180))| ≤ 1 := Real.abs_sin_le_one _
    refine ⟨⟨lt_of_le_of_lt q1 (by norm_num), lt_of_le_of_lt q2 (by norm_num)⟩, ?_, ?_⟩
    · show |Real.cos (a * (π / 180)) * p.1.1 - Real.sin (a * (π / 180)) * p.1.2| < 10 ^ 8
      have t := abs_sub (Real.cos (a * (π / 180)) * p.1.1) (Real.sin (a * (π / 180)) * p.1.2)
      have t1 := (abs_term (m := p.1.1) c1).trans q1
      have t2 := (abs_term (m := p.1.2) s1).trans q2
      norm_num
      linarith
    · show |Real.sin (a * (π / 180)) * p.1.1 + Real.cos (a * (π / 180)) * p.1.2| < 10 ^ 8
      have t := abs_add_le (Real.sin (a * (π / 180)) * p.1.1) (Real.cos (a * (π / 180)) * p.1.2)
      have t1 := (abs_term (m := p.1.1) s1).trans q1
      have t2 := (abs_term (m := p.1.2) c1).trans q2
      norm_num
      linarith

end Demo
end Verif.Painting
