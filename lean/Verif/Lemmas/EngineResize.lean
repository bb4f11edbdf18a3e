import Verif.Lemmas.EngineTwin
import Verif.Lemmas.EngineLoop
import Verif.Lemmas.EnginePace
import Verif.Lemmas.EngineSlide
import Verif.Spec.Resize
import Mathlib.Tactic.Ring
import Mathlib.Tactic.FieldSimp

/-!
# The engine at another size

Two runs of the engine, one with all lengths multiplied by a factor.
-/

namespace Verif.Engine
open Verif.Mask Verif.Color Verif.Spectral Verif.Map

section
variable {K R σ : Type} [Field K] [LinearOrder K] [IsStrictOrderedRing K] [FloorRing K] {c d : K}

/-- The state at another size. -/
def growState (c gx gy : K) (st : State K) : State K :=
  { st with x := c * st.x, y := c * st.y, actualX := c * st.actualX, actualY := c * st.actualY
            actualRadius := c * st.actualRadius, viewzoom := st.viewzoom / c, gridmapX := gx, gridmapY := gy }

/-- The values of the settings at another size. -/
def growVals (d : K) (v : Nat → K) : Nat → K := fun id => if id = sRadiusLogarithmic then v id + d else v id

/-- What the runs may differ in besides. -/
structure Loose (K : Type) where
  gx : K
  gy : K
  idle : K
  total : K

/-- The brush at another size. -/
def growBrush (c d : K) (p : Loose K) (v : Nat → K) (b : Brush K R) : Brush K R :=
  { b with st := growState c p.gx p.gy b.st, settings := resizeSettings d b.settings, vals := v, idle := p.idle, total := p.total }

/-- What is kept between the steps. -/
structure Growing (e : Env K R σ) (c : K) (b : Brush K R) : Prop where
  settings : Resizable e c b.settings
  skip : b.skip ≤ 1 / 1000
  flip : |b.st.flip| ≤ 1

/-- Between steps. -/
def Grown (e : Env K R σ) (c d : K) (b b' : Brush K R) : Prop := Growing e c b ∧ ∃ p v, b' = growBrush c d p v b

/-- After a step. -/
def GrownOn (e : Env K R σ) (c d : K) (b b' : Brush K R) : Prop :=
  Growing e c b ∧ (∃ p, b' = growBrush c d p (growVals d b.vals) b) ∧ (∃ i, b.vals = fun id => calculate (b.settings id) i) ∧
    b.st.actualRadius = e.exp (b.vals sRadiusLogarithmic)

/-- What the factor and the engine must be like. -/
structure SizeLaws (e : Env K R σ) (c d : K) : Prop where
  pos : 0 < c
  exp : ∀ a, e.exp (a + d) = c * e.exp a
  scale : ScaleLaw e
  exp_pos : ∀ a, 0 < e.exp a
  trig : ∀ a, |e.cos a| ≤ 1 ∧ |e.sin a| ≤ 1

omit [LinearOrder K] [IsStrictOrderedRing K] [FloorRing K] in
theorem approach_grow (v t f : K) : approach (c * v) (c * t) f = c * approach v t f := by
  unfold approach; ring

omit [FloorRing K] [IsStrictOrderedRing K] in
theorem foldl_base (l : List Nat) (f : K → Nat → K) (hf : ∀ a j, f (a + d) j = f a j + d) (a : K) :
    l.foldl f (a + d) = l.foldl f a + d := by
  induction l generalizing a with
  | nil => rfl
  | cons j l ih => rw [List.foldl_cons, List.foldl_cons, hf, ih]

omit [FloorRing K] [IsStrictOrderedRing K] in
theorem calculate_grow (s : Load.Brush K) (id : Nat) {i j : Nat → K} (hs : ∀ k ∈ sizeInputs, ((s id).pts k).n = 0)
    (hij : ∀ k, k ∉ sizeInputs → i k = j k) :
    calculate (resizeSettings d s id) j = growVals d (fun id => calculate (s id) i) id := by
  have h1 : calculate (s id) i = calculate (s id) j := calculate_curves fun k hk => hij k fun q => hk (hs k q)
  unfold resizeSettings growVals
  by_cases h : id = sRadiusLogarithmic
  · rw [if_pos h, if_pos h]
    dsimp only
    rw [h1]
    unfold calculate
    dsimp only
    by_cases hu : (s id).used = 0
    · rw [if_pos hu, if_pos hu]
    · rw [if_neg hu, if_neg hu]
      refine foldl_base _ _ (fun a k => ?_) _
      split_ifs
      · ring
      · rfl
  · rw [if_neg h, if_neg h]
    exact h1.symm

omit [IsStrictOrderedRing K] [FloorRing K] [LinearOrder K] in
theorem grow_base (s : Load.Brush K) {id : Nat} (h : id ≠ sRadiusLogarithmic) : resizeSettings d s id = s id := if_neg h

/-- The step at another size. -/
def growStep (c : K) (s : Step K) : Step K := { s with dx := c * s.dx, dy := c * s.dy, viewzoom := s.viewzoom / c }

omit [IsStrictOrderedRing K] in
theorem moveStates_grow (e : Env K R σ) (b : Brush K R) (p : Loose K) (v : Nat → K) (s : Step K) :
    ∃ gx gy, moveStates e (growBrush c d p v b) (growStep c s) = growState c gx gy (moveStates e b s) := by
  refine ⟨gridmap (e.exp (v sGridmapScale) * 256) (v sGridmapScaleX) (c * b.st.actualX),
    gridmap (e.exp (v sGridmapScale) * 256) (v sGridmapScaleY) (c * b.st.actualY), ?_⟩
  unfold moveStates growBrush growState growStep
  dsimp only
  rw [mul_add, mul_add]
  rfl

omit [FloorRing K] in
theorem finalRadius_grow {e : Env K R σ} (L : SizeLaws e c d) {v : K} (h : BothFit c (e.exp v)) :
    finalRadius e (v + d) = c * finalRadius e v ∧ finalRadius e v = e.exp v := by
  obtain ⟨⟨h1, h2⟩, h3, h4⟩ := h
  have k1 : finalRadius e v = e.exp v := by
    unfold finalRadius
    dsimp only
    rw [if_neg (not_lt.mpr h1), if_neg (not_lt.mpr h2)]
  refine ⟨?_, k1⟩
  rw [k1]
  unfold finalRadius
  dsimp only
  rw [L.exp, if_neg (not_lt.mpr h3), if_neg (not_lt.mpr h4)]

omit [FloorRing K] [LinearOrder K] [IsStrictOrderedRing K] in
theorem speed_grow (h : c ≠ 0) (a t z : K) : c * a / t * (z / c) = a / t * z := by field_simp

omit [FloorRing K] [LinearOrder K] [IsStrictOrderedRing K] in
theorem path_grow (h : c ≠ 0) (a z : K) : c * a * (z / c) = a * z := by field_simp

omit [FloorRing K] [LinearOrder K] [IsStrictOrderedRing K] in
theorem dist_grow (h : c ≠ 0) (a t r : K) : c * a / t / (c * r) = a / t / r := by
  rw [mul_div_assoc, mul_div_mul_left _ _ h]

theorem followStates_grow {e : Env K R σ} (L : SizeLaws e c d) (b : Brush K R) (p : Loose K) (v : Nat → K) (gx gy : K) (st : State K)
    (vals : Nat → K) (s : Step K) (hr : BothFit c (e.exp (vals sRadiusLogarithmic))) :
    followStates e (growBrush c d p v b) (growState c gx gy st) (growVals d vals) (growStep c s) =
      growState c gx gy (followStates e b st vals s) := by
  have hc := L.pos.ne'
  have hb : e.exp ((growBrush c d p v b).baseval sRadiusLogarithmic) = c * e.exp (b.baseval sRadiusLogarithmic) :=
    L.exp _
  unfold followStates
  dsimp only [growState, growStep]
  rw [hb]
  simp only [speed_grow hc, path_grow hc, dist_grow hc, approach_grow]
  rw [show growVals d vals sRadiusLogarithmic = vals sRadiusLogarithmic + d from rfl, (finalRadius_grow L hr).1]
  rfl

theorem update_grow {e : Env K R σ} (L : SizeLaws e c d) {b b' : Brush K R} (h : Grown e c d b b') (s : Step K) :
    Alike (GrownOn e c d) (update e b s) (update e b' (growStep c s)) := by
  obtain ⟨m, p, v, rfl⟩ := h
  obtain ⟨gx, gy, hm⟩ := moveStates_grow (c := c) (d := d) e b p v s
  have key : settingValues (resizeSettings d b.settings) (inputsOf e (growBrush c d p v b) (growState c gx gy (moveStates e b s))) =
      growVals d (settingValues b.settings (inputsOf e b (moveStates e b s))) := by
    funext id
    refine calculate_grow b.settings id (m.settings.inputs id) (fun k hk => ?_)
    have k1 : k ≠ iGridmapX := fun q => hk (by simp [sizeInputs, q])
    have k2 : k ≠ iGridmapY := fun q => hk (by simp [sizeInputs, q])
    have k3 : k ≠ iViewzoom := fun q => hk (by simp [sizeInputs, q])
    have k4 : k ≠ iBrushRadius := fun q => hk (by simp [sizeInputs, q])
    unfold Inputs.get
    simp only [k1, k2, k3, k4, if_false]
    rfl
  have z1 : usesInput b.settings iViewzoom = false :=
    unused_zoom fun id => m.settings.inputs id iViewzoom (by simp [sizeInputs])
  have z2 : usesInput (growBrush c d p v b).settings iViewzoom = false := by
    refine unused_zoom fun id => ?_
    have := m.settings.inputs id iViewzoom (by simp [sizeInputs])
    show ((resizeSettings d b.settings id).pts iViewzoom).n = 0
    unfold resizeSettings
    split_ifs <;> exact this
  unfold update
  dsimp only
  rw [if_neg (by rw [z1]; simp), if_neg (by rw [z2]; simp)]
  rw [hm, show (growBrush c d p v b).settings = resizeSettings d b.settings from rfl, key,
    followStates_grow L b p v gx gy _ _ s (m.settings.radius _).1]
  refine .ok ⟨⟨m.settings, m.skip, m.flip⟩, ⟨⟨gx, gy, p.idle, p.total⟩, rfl⟩, ⟨_, rfl⟩, ?_⟩
  exact (finalRadius_grow L (m.settings.radius _).1).2

omit [FloorRing K] in
theorem clampK_grow {t l : K} (hc : 0 < c) (h : |t| ≤ l) (h' : c * |t| ≤ l) :
    clampK (c * t) (-l) l = c * clampK t (-l) l := by
  have h2 : |c * t| ≤ l := by rw [abs_mul, abs_of_pos hc]; exact h'
  rw [abs_le] at h h2
  unfold clampK
  rw [if_neg (not_lt.mpr h.2), if_neg (not_lt.mpr h.1), if_neg (not_lt.mpr h2.2), if_neg (not_lt.mpr h2.1)]

omit [FloorRing K] in
theorem abs_term {a m : K} (h : |a| ≤ 1) : |a * m| ≤ |m| := by
  rw [abs_mul]
  exact mul_le_of_le_one_left (abs_nonneg _) h

omit [FloorRing K] [IsStrictOrderedRing K] in
theorem maxC_nonneg' (v : K) : 0 ≤ maxC 0 v := by
  unfold maxC
  split_ifs with h
  · exact le_refl _
  · exact not_lt.mp h

omit [FloorRing K] in
theorem offsets_sum {x u1 u2 u3 u4 u5 u6 m1 m2 m3 m4 m5 m6 f : K} (hf : |f| ≤ 1) (h1 : |u1| ≤ 1) (h2 : |u2| ≤ 1) (h3 : |u3| ≤ 1)
    (h4 : |u4| ≤ 1) (h5 : |u5| ≤ 1) (h6 : |u6| ≤ 1) (p4 : 0 ≤ m4) (p5 : 0 ≤ m5) (p6 : 0 ≤ m6) :
    |x + u1 * m1 + u2 * m2 + u3 * m3 + u4 * (m4 * f) + u5 * (f * m5) + u6 * (f * m6)| ≤
      |x| + |m1| + |m2| + |m3| + m4 + m5 + m6 := by
  have a1 := abs_term (m := m1) h1
  have a2 := abs_term (m := m2) h2
  have a3 := abs_term (m := m3) h3
  have a4 := abs_term (m := m4 * f) h4
  have a5 := abs_term (m := f * m5) h5
  have a6 := abs_term (m := f * m6) h6
  have b4 : |m4 * f| ≤ m4 := by rw [mul_comm]; exact (abs_term hf).trans (abs_of_nonneg p4).le
  have b5 : |f * m5| ≤ m5 := (abs_term hf).trans (abs_of_nonneg p5).le
  have b6 : |f * m6| ≤ m6 := (abs_term hf).trans (abs_of_nonneg p6).le
  have t1 := abs_add_le x (u1 * m1)
  have t2 := abs_add_le (x + u1 * m1) (u2 * m2)
  have t3 := abs_add_le (x + u1 * m1 + u2 * m2) (u3 * m3)
  have t4 := abs_add_le (x + u1 * m1 + u2 * m2 + u3 * m3) (u4 * (m4 * f))
  have t5 := abs_add_le (x + u1 * m1 + u2 * m2 + u3 * m3 + u4 * (m4 * f)) (u5 * (f * m5))
  have t6 := abs_add_le (x + u1 * m1 + u2 * m2 + u3 * m3 + u4 * (m4 * f) + u5 * (f * m5)) (u6 * (f * m6))
  linarith

theorem directionalOffsets_grow {e : Env K R σ} (L : SizeLaws e c d) {b : Brush K R} (m : Growing e c b) {i : Nat → K}
    (hi : b.vals = fun id => calculate (b.settings id) i) (p : Loose K) :
    directionalOffsets e (growBrush c d p (growVals d b.vals) b) (c * e.exp (b.baseval sRadiusLogarithmic)) b.st.flip =
      (c * (directionalOffsets e b (e.exp (b.baseval sRadiusLogarithmic)) b.st.flip).1,
       c * (directionalOffsets e b (e.exp (b.baseval sRadiusLogarithmic)) b.st.flip).2) := by
  have hoff := m.settings.offsets i
  dsimp only at hoff
  rw [← hi, show calculate (b.settings sOffsetMultiplier) i = b.vals sOffsetMultiplier by rw [hi],
    show (b.settings sRadiusLogarithmic).base = b.baseval sRadiusLogarithmic from rfl] at hoff
  obtain ⟨o1, o2⟩ := hoff
  have hM : 0 < e.exp (b.baseval sRadiusLogarithmic) * e.exp (b.vals sOffsetMultiplier) := mul_pos (L.exp_pos _) (L.exp_pos _)
  have n1 := maxC_nonneg' (b.vals sOffsetAngle2)
  have n2 := maxC_nonneg' (b.vals sOffsetAngle2Asc)
  have n3 := maxC_nonneg' (b.vals sOffsetAngle2View)
  have fin : ∀ t : K, |t| ≤ offsetSum b.vals →
      clampK (t * (c * e.exp (b.baseval sRadiusLogarithmic) * e.exp (b.vals sOffsetMultiplier))) (-3240) 3240 =
        c * clampK (t * (e.exp (b.baseval sRadiusLogarithmic) * e.exp (b.vals sOffsetMultiplier))) (-3240) 3240 := by
    intro t ht
    have k := mul_le_mul_of_nonneg_right ht hM.le
    have k2 : |t * (e.exp (b.baseval sRadiusLogarithmic) * e.exp (b.vals sOffsetMultiplier))| =
        |t| * (e.exp (b.baseval sRadiusLogarithmic) * e.exp (b.vals sOffsetMultiplier)) := by
      rw [abs_mul, abs_of_pos hM]
    rw [show t * (c * e.exp (b.baseval sRadiusLogarithmic) * e.exp (b.vals sOffsetMultiplier)) =
      c * (t * (e.exp (b.baseval sRadiusLogarithmic) * e.exp (b.vals sOffsetMultiplier))) by ring]
    refine clampK_grow L.pos ?_ ?_
    · rw [k2]; linarith
    · rw [k2]
      have := mul_le_mul_of_nonneg_left k L.pos.le
      linarith
  have hT := fun a => (L.trig a).1
  have hS := fun a => (L.trig a).2
  unfold directionalOffsets
  refine Prod.ext ?_ ?_
  · refine fin _ ((offsets_sum m.flip (hT _) (hT _) (hT _) (hT _) (hT _) (hT _) n1 n2 n3).trans ?_)
    show |b.vals sOffsetX| + |b.vals sOffsetAngle| + |b.vals sOffsetAngleAsc| + |b.vals sOffsetAngleView| + maxC 0 (b.vals sOffsetAngle2) +
      maxC 0 (b.vals sOffsetAngle2Asc) + maxC 0 (b.vals sOffsetAngle2View) ≤ offsetSum b.vals
    unfold offsetSum
    linarith [abs_nonneg (b.vals sOffsetY)]
  · refine fin _ ((offsets_sum m.flip (hS _) (hS _) (hS _) (hS _) (hS _) (hS _) n1 n2 n3).trans ?_)
    show |b.vals sOffsetY| + |b.vals sOffsetAngle| + |b.vals sOffsetAngleAsc| + |b.vals sOffsetAngleView| + maxC 0 (b.vals sOffsetAngle2) +
      maxC 0 (b.vals sOffsetAngle2Asc) + maxC 0 (b.vals sOffsetAngle2View) ≤ offsetSum b.vals
    unfold offsetSum
    linarith [abs_nonneg (b.vals sOffsetX)]

theorem dabPosition_grow {e : Env K R σ} (L : SizeLaws e c d) {b b' : Brush K R} (h : GrownOn e c d b b') :
    Alike (fun r r' => r'.1 = c * r.1 ∧ r'.2.1 = c * r.2.1 ∧ GrownOn e c d r.2.2 r'.2.2) (dabPosition e b) (dabPosition e b') := by
  obtain ⟨m, ⟨p, rfl⟩, ⟨i, hi⟩, hr⟩ := h
  have hc := L.pos.ne'
  have hb : e.exp ((growBrush c d p (growVals d b.vals) b).baseval sRadiusLogarithmic) = c * e.exp (b.baseval sRadiusLogarithmic) :=
    L.exp _
  have ho := directionalOffsets_grow L m hi p
  unfold dabPosition
  dsimp only
  rw [hb, show (growBrush c d p (growVals d b.vals) b).st.flip = b.st.flip from rfl, ho]
  dsimp only
  have v1 : (growBrush c d p (growVals d b.vals) b).vals sOffsetBySpeed = b.vals sOffsetBySpeed := rfl
  have v2 : (growBrush c d p (growVals d b.vals) b).vals sOffsetByRandom = b.vals sOffsetByRandom := rfl
  have v3 : (growBrush c d p (growVals d b.vals) b).st.viewzoom = b.st.viewzoom / c := rfl
  have v4 : (growBrush c d p (growVals d b.vals) b).st.actualX = c * b.st.actualX := rfl
  have v5 : (growBrush c d p (growVals d b.vals) b).st.actualY = c * b.st.actualY := rfl
  have v6 : (growBrush c d p (growVals d b.vals) b).st.normDxSlow = b.st.normDxSlow := rfl
  have v7 : (growBrush c d p (growVals d b.vals) b).st.normDySlow = b.st.normDySlow := rfl
  have v8 : (growBrush c d p (growVals d b.vals) b).rng = b.rng := rfl
  rw [v1, v2, v3, v4, v5, v6, v7, v8]
  have hz0 : b.st.viewzoom / c = 0 ↔ b.st.viewzoom = 0 := by
    constructor
    · intro q
      rcases div_eq_zero_iff.mp q with q | q
      · exact q
      · exact absurd q hc
    · intro q; rw [q, zero_div]
  by_cases hz : b.vals sOffsetBySpeed ≠ 0 ∧ b.st.viewzoom = 0
  · rw [if_pos hz, if_pos ⟨hz.1, hz0.mpr hz.2⟩]
    exact .error _
  · rw [if_neg hz, if_neg (show ¬ (b.vals sOffsetBySpeed ≠ 0 ∧ b.st.viewzoom / c = 0) from fun q => hz ⟨q.1, hz0.mp q.2⟩)]
    have hx : ∀ a o n : K, (if b.vals sOffsetBySpeed ≠ 0 then c * a + c * o + n * b.vals sOffsetBySpeed * (1 / 10) / (b.st.viewzoom / c)
        else c * a + c * o) = c * (if b.vals sOffsetBySpeed ≠ 0 then a + o + n * b.vals sOffsetBySpeed * (1 / 10) / b.st.viewzoom else a + o) := by
      intro a o n
      split_ifs
      · rw [div_div_eq_mul_div]; ring
      · ring
    rw [hx, hx]
    by_cases hr' : b.vals sOffsetByRandom ≠ 0
    · rw [if_pos hr', if_pos hr']
      refine .ok ⟨?_, ?_, ⟨m.1, m.2, m.3⟩, ⟨p, rfl⟩, ⟨i, hi⟩, hr⟩
      · dsimp only; ring
      · dsimp only; ring
    · rw [if_neg hr', if_neg hr']
      exact .ok ⟨rfl, rfl, m, ⟨p, rfl⟩, ⟨i, hi⟩, hr⟩

/-- The radius of the dab is such that anti-aliasing does not act at either size. -/
def Clear (c : K) (b : Brush K R) (r : K) : Prop := BothSmooth c (b.vals sAntiAliasing) (clampK (b.vals sHardness) 0 1) r

theorem dabRadius_grow {e : Env K R σ} (L : SizeLaws e c d) {b b' : Brush K R} (h : GrownOn e c d b b') (o : K) :
    (dabRadius e b' o).1 = c * (dabRadius e b o).1 ∧ (dabRadius e b' o).2.1 = (dabRadius e b o).2.1 ∧
      GrownOn e c d (dabRadius e b o).2.2 (dabRadius e b' o).2.2 ∧ Clear c (dabRadius e b o).2.2 (dabRadius e b o).1 := by
  obtain ⟨m, ⟨p, rfl⟩, ⟨i, hi⟩, hr⟩ := h
  have hc := L.pos.ne'
  unfold dabRadius
  dsimp only
  have v1 : (growBrush c d p (growVals d b.vals) b).vals sRadiusByRandom = b.vals sRadiusByRandom := rfl
  have v2 : (growBrush c d p (growVals d b.vals) b).vals sRadiusLogarithmic = b.vals sRadiusLogarithmic + d := rfl
  have v3 : (growBrush c d p (growVals d b.vals) b).st.actualRadius = c * b.st.actualRadius := rfl
  have v4 : (growBrush c d p (growVals d b.vals) b).rng = b.rng := rfl
  rw [v1, v2, v3, v4]
  by_cases hn : b.vals sRadiusByRandom ≠ 0
  · rw [if_pos hn, if_pos hn]
    have hn' : calculate (b.settings sRadiusByRandom) i ≠ 0 := by rw [hi] at hn; exact hn
    obtain ⟨⟨⟨f1, f2⟩, f3, f4⟩, f5⟩ := m.settings.random i b.rng hn'
    have e1 : e.exp (calculate (b.settings sRadiusLogarithmic) i + (e.gauss b.rng).1 * calculate (b.settings sRadiusByRandom) i) =
        e.exp (b.vals sRadiusLogarithmic + (e.gauss b.rng).1 * b.vals sRadiusByRandom) := by rw [hi]
    rw [e1] at f1 f2 f3 f4 f5
    have r1 : clampK (e.exp (b.vals sRadiusLogarithmic + (e.gauss b.rng).1 * b.vals sRadiusByRandom)) (1 / 5) 1000 =
        e.exp (b.vals sRadiusLogarithmic + (e.gauss b.rng).1 * b.vals sRadiusByRandom) := by
      unfold clampK
      rw [if_neg (not_lt.mpr f2), if_neg (not_lt.mpr f1)]
    have r2 : clampK (e.exp (b.vals sRadiusLogarithmic + d + (e.gauss b.rng).1 * b.vals sRadiusByRandom)) (1 / 5) 1000 =
        c * e.exp (b.vals sRadiusLogarithmic + (e.gauss b.rng).1 * b.vals sRadiusByRandom) := by
      rw [add_right_comm, L.exp]
      unfold clampK
      rw [if_neg (not_lt.mpr f4), if_neg (not_lt.mpr f3)]
    rw [r1, r2, mul_div_mul_left _ _ hc]
    refine ⟨rfl, rfl, ⟨⟨m.1, m.2, m.3⟩, ⟨p, rfl⟩, ⟨i, hi⟩, hr⟩, ?_⟩
    show BothSmooth c (b.vals sAntiAliasing) (clampK (b.vals sHardness) 0 1) _
    have h1 : b.vals sAntiAliasing = calculate (b.settings sAntiAliasing) i := by rw [hi]
    have h2 : b.vals sHardness = calculate (b.settings sHardness) i := by rw [hi]
    rw [h1, h2]
    exact f5
  · rw [if_neg hn, if_neg hn]
    refine ⟨rfl, rfl, ⟨m, ⟨p, rfl⟩, ⟨i, hi⟩, hr⟩, ?_⟩
    have k := (m.settings.radius i).2
    have h1 : b.vals sAntiAliasing = calculate (b.settings sAntiAliasing) i := by rw [hi]
    have h2 : b.vals sHardness = calculate (b.settings sHardness) i := by rw [hi]
    have h3 : b.vals sRadiusLogarithmic = calculate (b.settings sRadiusLogarithmic) i := by rw [hi]
    show BothSmooth c (b.vals sAntiAliasing) (clampK (b.vals sHardness) 0 1) b.st.actualRadius
    rw [hr, h1, h2, h3]
    exact k

omit [IsStrictOrderedRing K] in
theorem smudgeStage_grow {e : Env K R σ} {b b' : Brush K R} (h : GrownOn e c d b b') (surf surf' : σ)
    (x y x' y' r r' : K) :
    smudgeStage e b surf x y r = .ok (false, b, surf) ∧ smudgeStage e b' surf' x' y' r' = .ok (false, b', surf') := by
  obtain ⟨m, ⟨p, rfl⟩, ⟨i, hi⟩, -⟩ := h
  have hn : ¬ (b.vals sSmudgeLength < 1 ∧ (b.vals sSmudge ≠ 0 ∨ isConstant (b.settings sSmudge) = false)) := by
    rw [hi]; exact m.settings.samples i
  constructor
  · unfold smudgeStage
    rw [if_neg hn]
    rfl
  · unfold smudgeStage
    rw [if_neg (show ¬ ((growBrush c d p (growVals d b.vals) b).vals sSmudgeLength < 1 ∧
      ((growBrush c d p (growVals d b.vals) b).vals sSmudge ≠ 0 ∨
        isConstant ((growBrush c d p (growVals d b.vals) b).settings sSmudge) = false)) from hn)]
    rfl

omit [IsStrictOrderedRing K] in
theorem fetchSmudge_grow (p : Loose K) (b : Brush K R) :
    fetchSmudge (growBrush c d p (growVals d b.vals) b) =
      ((fetchSmudge b).1, growBrush c d p (growVals d b.vals) (fetchSmudge b).2) := by
  unfold fetchSmudge
  by_cases h : b.buckets.mem.isEmpty = true ∨ b.buckets.num = 0
  · rw [if_pos h, if_pos (show (growBrush c d p (growVals d b.vals) b).buckets.mem.isEmpty = true ∨
      (growBrush c d p (growVals d b.vals) b).buckets.num = 0 from h)]
  · rw [if_neg h, if_neg (show ¬ ((growBrush c d p (growVals d b.vals) b).buckets.mem.isEmpty = true ∨
      (growBrush c d p (growVals d b.vals) b).buckets.num = 0) from h)]
    rfl

theorem smudgeColor_grow {e : Env K R σ} {b b' : Brush K R} (h : GrownOn e c d b b') (q : Rgb K) {r : K} (hq : Clear c b r) :
    Alike (fun r' r'' => r''.1 = r'.1 ∧ r''.2.1 = r'.2.1 ∧ GrownOn e c d r'.2.2 r''.2.2 ∧ Clear c r'.2.2 r) (smudgeColor e b q)
      (smudgeColor e b' q) := by
  obtain ⟨m, ⟨p, rfl⟩, ⟨i, hi⟩, hr⟩ := h
  unfold smudgeColor
  by_cases hc : b.vals sSmudge > 0
  · rw [if_pos hc, if_pos (show (growBrush c d p (growVals d b.vals) b).vals sSmudge > 0 from hc)]
    dsimp only
    rw [fetchSmudge_grow]
    dsimp only
    have hl : ∀ (v : Nat → K) (b : Brush K R) o, loadSmudge (growBrush c d p v b) o = loadSmudge b o := by
      intro v b o; cases o <;> rfl
    rw [hl]
    have hf := fetchSmudge_same b
    generalize fetchSmudge b = f at hf ⊢
    obtain ⟨o, fb⟩ := f
    dsimp only at hf ⊢
    refine Alike.bind (Alike.same (P := Eq) _ fun _ _ => rfl) ?_
    rintro v _ rfl
    have hv : fb.vals = b.vals := by rw [hf]
    rw [← hv]
    refine .ok ⟨rfl, rfl, ⟨⟨?_, ?_, ?_⟩, ⟨p, rfl⟩, ⟨i, ?_⟩, ?_⟩, ?_⟩
    · show Resizable e c fb.settings
      rw [hf]; exact m.1
    · show fb.skip ≤ 1 / 1000
      rw [hf]; exact m.2
    · show |fb.st.flip| ≤ 1
      rw [hf]; exact m.3
    · show fb.vals = fun id => calculate (fb.settings id) i
      rw [hf]; exact hi
    · show fb.st.actualRadius = e.exp (fb.vals sRadiusLogarithmic)
      rw [hf]; exact hr
    · show BothSmooth c (fb.vals sAntiAliasing) (clampK (fb.vals sHardness) 0 1) r
      rw [hf]; exact hq
  · rw [if_neg hc, if_neg (show ¬ (growBrush c d p (growVals d b.vals) b).vals sSmudge > 0 from hc)]
    exact .ok ⟨rfl, rfl, ⟨m, ⟨p, rfl⟩, ⟨i, hi⟩, hr⟩, hq⟩

theorem dabArgs_grow {e : Env K R σ} {b b' : Brush K R} (h : GrownOn e c d b b') (lin : Bool) (x y : K) {r : K} (hq : Clear c b r)
    (o t : K) (q : Rgb K) :
    dabArgs e b' lin (c * x) (c * y) (c * r) o t q = resizeDab c (dabArgs e b lin x y r o t q) := by
  obtain ⟨m, ⟨p, rfl⟩, ⟨i, hi⟩, hr⟩ := h
  have ha : antiAlias b (clampK (b.vals sHardness) 0 1) r = (clampK (b.vals sHardness) 0 1, r) := by
    unfold antiAlias
    rw [if_neg (not_lt.mpr hq.1)]
  have ha' : antiAlias (growBrush c d p (growVals d b.vals) b) (clampK (b.vals sHardness) 0 1) (c * r) =
      (clampK (b.vals sHardness) 0 1, c * r) := by
    unfold antiAlias
    dsimp only
    rw [if_neg]
    exact not_lt.mpr hq.2
  have hs : ¬ b.vals sSnapToPixel > 0 := by
    rw [hi]; exact not_lt.mpr (m.settings.free i)
  have hn : ∀ x y r : K, snap b x y r = (x, y, r) := by
    intro x y r
    unfold snap
    rw [if_neg hs]
  have hn' : ∀ x y r : K, snap (growBrush c d p (growVals d b.vals) b) x y r = (x, y, r) := by
    intro x y r
    unfold snap
    rw [if_neg (show ¬ (growBrush c d p (growVals d b.vals) b).vals sSnapToPixel > 0 from hs)]
  unfold dabArgs
  dsimp only
  rw [show (growBrush c d p (growVals d b.vals) b).vals sHardness = b.vals sHardness from rfl, ha, ha', hn, hn']
  rfl

/-- Drawing a dab at another size keeps the surfaces related. -/
def DrawsLarge (e : Env K R σ) (c : K) (P : σ → σ → Prop) : Prop :=
  ∀ s s' a, P s s' → P (e.draw s a).2 (e.draw s' (resizeDab c a)).2

theorem drawDab_grow {e : Env K R σ} (L : SizeLaws e c d) {P : σ → σ → Prop} (hP : DrawsLarge e c P) {b b' : Brush K R}
    (h : GrownOn e c d b b') {surf surf' : σ} (hs : P surf surf') (lin : Bool) :
    Alike (fun r r' => P r.2.2 r'.2.2 ∧ GrownOn e c d r.2.1 r'.2.1) (drawDab e b surf lin) (drawDab e b' surf' lin) := by
  have ho : dabOpacity e b' = dabOpacity e b := by
    obtain ⟨-, ⟨p, rfl⟩, -⟩ := h
    rfl
  have hcol : (⟨b'.baseval sColorH, b'.baseval sColorS, b'.baseval sColorV⟩ : Hue K) =
      ⟨b.baseval sColorH, b.baseval sColorS, b.baseval sColorV⟩ := by
    obtain ⟨-, ⟨p, rfl⟩, -⟩ := h
    rfl
  unfold drawDab
  rw [ho, hcol]
  refine Alike.bind (Alike.same (P := Eq) _ fun _ _ => rfl) ?_
  rintro o _ rfl
  refine Alike.bind (dabPosition_grow L h) ?_
  rintro ⟨x, y, b1⟩ ⟨x', y', b1'⟩ ⟨h1, h2, h3⟩
  dsimp only at h1 h2 h3 ⊢
  subst h1 h2
  obtain ⟨r1, r2, r3, r4⟩ := dabRadius_grow L h3 o
  rw [r1, r2]
  obtain ⟨q1, q2⟩ := smudgeStage_grow r3 surf surf' x y (c * x) (c * y) (dabRadius e b1 o).1 (c * (dabRadius e b1 o).1)
  rw [q1, q2]
  simp only [bind, Except.bind, Bool.false_eq_true, if_false]
  refine Alike.bind (smudgeColor_grow r3 _ r4) ?_
  rintro ⟨t, q, b3⟩ ⟨t', q', b3'⟩ ⟨h7, h8, h9, h10⟩
  dsimp only at h7 h8 h9 h10 ⊢
  subst h7 h8
  rw [dabArgs_grow h9 lin x y h10]
  exact .ok ⟨hP _ _ _ hs, h9⟩

/-! ### Sessions -/

theorem countDabs_grow {e : Env K R σ} (L : SizeLaws e c d) {b b' : Brush K R} (h : Grown e c d b b') (x y dt : K) :
    (countDabs e b' (c * x) (c * y) dt).1 = (countDabs e b x y dt).1 ∧
      Grown e c d (countDabs e b x y dt).2 (countDabs e b' (c * x) (c * y) dt).2 := by
  obtain ⟨m, p, v, rfl⟩ := h
  have hc := L.pos.ne'
  have hb : clampK (e.exp ((growBrush c d p v b).baseval sRadiusLogarithmic)) (1 / 5) 1000 =
      c * clampK (e.exp (b.baseval sRadiusLogarithmic)) (1 / 5) 1000 := by
    rw [show e.exp ((growBrush c d p v b).baseval sRadiusLogarithmic) = c * e.exp (b.baseval sRadiusLogarithmic) from L.exp _]
    obtain ⟨⟨h1, h2⟩, h3, h4⟩ := m.settings.base
    rw [show (b.settings sRadiusLogarithmic).base = b.baseval sRadiusLogarithmic from rfl] at h1 h2 h3 h4
    unfold clampK
    rw [if_neg (not_lt.mpr h2), if_neg (not_lt.mpr h1), if_neg (not_lt.mpr h4), if_neg (not_lt.mpr h3)]
  have key : countDabs e (growBrush c d p v b) (c * x) (c * y) dt =
      ((countDabs e b x y dt).1, growBrush c d p v (countDabs e b x y dt).2) := by
    have e1 : ∀ X Y s cs sn : K, (if s > 1 then hypot e ((c * Y * cs - c * X * sn) * s) (c * Y * sn + c * X * cs) else hypot e (c * X) (c * Y)) =
        c * (if s > 1 then hypot e ((Y * cs - X * sn) * s) (Y * sn + X * cs) else hypot e X Y) := by
      intro X Y s cs sn
      split_ifs
      · rw [← L.scale c _ _ L.pos]
        congr 1 <;> ring
      · exact L.scale c _ _ L.pos
    unfold countDabs
    dsimp only
    rw [hb]
    by_cases q : b.st.actualRadius = 0
    · rw [if_pos q, if_pos (show (growBrush c d p v b).st.actualRadius = 0 by
        show c * b.st.actualRadius = 0
        rw [q, mul_zero])]
      dsimp only [growBrush, growState]
      simp only [← mul_sub, e1, mul_div_mul_left _ _ hc]
    · rw [if_neg q, if_neg (show ¬ (growBrush c d p v b).st.actualRadius = 0 from mul_ne_zero hc q)]
      dsimp only [growBrush, growState]
      simp only [← mul_sub, e1, mul_div_mul_left _ _ hc]
  rw [key]
  obtain ⟨r, hr⟩ := countDabs_same e b x y dt
  rw [hr]
  exact ⟨rfl, ⟨m.1, m.2, m.3⟩, p, v, rfl⟩

/-- The same for the dab loop. -/
structure LoopGrown (e : Env K R σ) (c d : K) (P : σ → σ → Prop) (l l' : Loop K R σ) : Prop where
  b : Grown e c d l.b l'.b
  surf : P l.surf l'.surf
  moved : l'.moved = l.moved
  todo : l'.todo = l.todo
  left : l'.dtimeLeft = l.dtimeLeft

theorem GrownOn.flip {e : Env K R σ} {b b' : Brush K R} (h : GrownOn e c d b b') :
    GrownOn e c d { b with st := { b.st with flip := b.st.flip * -1 } } { b' with st := { b'.st with flip := b'.st.flip * -1 } } := by
  obtain ⟨m, ⟨p, rfl⟩, ⟨i, hi⟩, hr⟩ := h
  refine ⟨⟨m.1, m.2, ?_⟩, ⟨p, rfl⟩, ⟨i, hi⟩, hr⟩
  show |b.st.flip * -1| ≤ 1
  rw [mul_neg_one, abs_neg]
  exact m.3

theorem GrownOn.next {e : Env K R σ} {b b' : Brush K R} (h : GrownOn e c d b b') :
    Grown e c d { b with random := (e.next b.rng).1, rng := (e.next b.rng).2 }
      { b' with random := (e.next b'.rng).1, rng := (e.next b'.rng).2 } := by
  obtain ⟨m, ⟨p, rfl⟩, -⟩ := h
  exact ⟨⟨m.1, m.2, m.3⟩, p, _, rfl⟩

/-- The event at another size. -/
def growEvent (c : K) (ev : Event K) : Event K := { ev with x := c * ev.x, y := c * ev.y, viewzoom := ev.viewzoom / c }

theorem Grown.step {e : Env K R σ} {b b' : Brush K R} (h : Grown e c d b b') (ev : Event K) (x y dd f t : K) :
    stepTo b'.st (growEvent c ev) (c * x) (c * y) dd f t = growStep c (stepTo b.st ev x y dd f t) := by
  obtain ⟨-, p, v, rfl⟩ := h
  unfold stepTo growStep
  dsimp only [growBrush, growState, growEvent]
  rw [← mul_sub, ← mul_sub, mul_left_comm, mul_left_comm f c]

theorem dabStep_grow {e : Env K R σ} (L : SizeLaws e c d) {P : σ → σ → Prop} (hP : DrawsLarge e c P) {l l' : Loop K R σ}
    (h : LoopGrown e c d P l l') (ev : Event K) (x y : K) :
    Alike (LoopGrown e c d P) (dabStep e ev x y l) (dabStep e (growEvent c ev) (c * x) (c * y) l') := by
  obtain ⟨b, surf, moved, todo, left, painted⟩ := l
  obtain ⟨b', surf', moved', todo', left', painted'⟩ := l'
  obtain ⟨hb, h1, h2, h3, h4⟩ := h
  dsimp only at hb h1 h2 h3 h4
  subst h2 h3 h4
  unfold dabStep
  dsimp only
  by_cases hz : todo' = 0
  · rw [if_pos hz, if_pos hz]; exact .error _
  · rw [if_neg hz, if_neg hz, hb.step]
    refine Alike.bind (update_grow L hb _) ?_
    intro b1 b1' hc
    refine Alike.bind (drawDab_grow L hP hc.flip h1 _) ?_
    rintro ⟨dd, b2, s2⟩ ⟨dd', b2', s2'⟩ ⟨g2, g3⟩
    dsimp only at g2 g3 ⊢
    obtain ⟨k1, k2⟩ := countDabs_grow L (g3.next) x y
      (left' - (stepTo b.st ev x y (if moved' > 0 then 1 - moved' else 1)
        ((if moved' > 0 then 1 - moved' else 1) / todo') left').dtime)
    exact .ok ⟨k2, g2, rfl, k1, rfl⟩

theorem dabLoop_grow {e : Env K R σ} (L : SizeLaws e c d) {P : σ → σ → Prop} (hP : DrawsLarge e c P) (ev : Event K) (x y : K)
    (fuel : Nat) : ∀ {l l' : Loop K R σ}, LoopGrown e c d P l l' →
      Alike (LoopGrown e c d P) (dabLoop e ev x y fuel l) (dabLoop e (growEvent c ev) (c * x) (c * y) fuel l') := by
  induction fuel with
  | zero =>
    intro l l' h
    unfold dabLoop
    rw [h.moved, h.todo]
    by_cases hc : l.moved + l.todo ≥ 1
    · rw [if_pos hc, if_pos hc]; exact .error _
    · rw [if_neg hc, if_neg hc]; exact .ok h
  | succ fuel ih =>
    intro l l' h
    unfold dabLoop
    rw [h.moved, h.todo]
    by_cases hc : l.moved + l.todo ≥ 1
    · rw [if_pos hc, if_pos hc]
      exact Alike.bind (dabStep_grow L hP h ev x y) fun a a' ha => ih ha
    · rw [if_neg hc, if_neg hc]; exact .ok h

/-- The results of an event. -/
def ResGrown (e : Env K R σ) (c d : K) (P : σ → σ → Prop) (r r' : Bool × Brush K R × σ) : Prop :=
  P r.2.2 r'.2.2 ∧ Grown e c d r.2.1 r'.2.1

theorem splitStroke_grow {e : Env K R σ} {b b' : Brush K R} (h : Grown e c d b b') (p p' : Painted) (dt dt' pr pr' dp dp' : K) :
    Grown e c d (splitStroke b p dt pr dp).2 (splitStroke b' p' dt' pr' dp').2 := by
  obtain ⟨m, q, v, rfl⟩ := h
  obtain ⟨t, i, ht⟩ := splitStroke_same b p dt pr dp
  obtain ⟨t', i', ht'⟩ := splitStroke_same (growBrush c d q v b) p' dt' pr' dp'
  rw [ht, ht']
  exact ⟨⟨m.1, m.2, m.3⟩, { q with idle := i', total := t' }, v, rfl⟩

theorem moveTo_grow {e : Env K R σ} (L : SizeLaws e c d) {P : σ → σ → Prop} (hP : DrawsLarge e c P) {b b' : Brush K R}
    (h : Grown e c d b b') (fuel : Nat) {surf surf' : σ} (hs : P surf surf') (ev : Event K) (x y dt : K) :
    Alike (ResGrown e c d P) (moveTo e fuel b surf ev x y dt) (moveTo e fuel b' surf' (growEvent c ev) (c * x) (c * y) dt) := by
  unfold moveTo
  dsimp only
  obtain ⟨k1, k2⟩ := countDabs_grow L h x y dt
  have k3 : b'.st.partialDabs = b.st.partialDabs := by
    obtain ⟨-, p, v, rfl⟩ := h
    rfl
  rw [k1, k3]
  refine Alike.bind (dabLoop_grow L hP ev x y fuel ⟨k2, hs, rfl, rfl, rfl⟩) ?_
  rintro ⟨b, surf, moved, todo, left, painted⟩ ⟨b', surf', moved', todo', left', painted'⟩ ⟨hb, h1, h2, h3, h4⟩
  dsimp only at hb h1 h2 h3 h4 ⊢
  subst h2 h3 h4
  rw [hb.step]
  refine Alike.bind (update_grow L hb _) ?_
  intro b1 b1' hc
  have hc' : Grown e c d { b1 with st := { b1.st with partialDabs := moved' + todo' } }
      { b1' with st := { b1'.st with partialDabs := moved' + todo' } } := by
    obtain ⟨m, ⟨p, rfl⟩, -⟩ := hc
    exact ⟨⟨m.1, m.2, m.3⟩, p, _, rfl⟩
  exact .ok ⟨h1, splitStroke_grow hc' _ _ _ _ _ _ _ _⟩

theorem skipStage_grow {e : Env K R σ} {b : Brush K R} (h : b.skip ≤ 1 / 1000) (x y dt : K) : skipStage e b x y dt = (b, dt, false) := by
  unfold skipStage
  rw [if_neg (not_lt.mpr h)]

theorem cursor_grow {e : Env K R σ} {b b' : Brush K R} (h : Grown e c d b b') (x y dt : K) :
    (cursor e b' (c * x) (c * y) dt).1 = c * (cursor e b x y dt).1 ∧
      (cursor e b' (c * x) (c * y) dt).2.1 = c * (cursor e b x y dt).2.1 ∧
      Grown e c d (cursor e b x y dt).2.2 (cursor e b' (c * x) (c * y) dt).2.2 := by
  have h' := h
  obtain ⟨m, p, v, rfl⟩ := h
  have z : b.baseval sTrackingNoise = 0 := m.settings.steady
  have z' : (growBrush c d p v b).baseval sTrackingNoise = 0 := z
  unfold cursor
  dsimp only
  rw [z, z']
  simp only [ne_eq, not_true_eq_false, false_and, if_false]
  exact ⟨approach_grow _ _ _, approach_grow _ _ _, h'⟩

theorem startOver_grow {e : Env K R σ} {b b' : Brush K R} (h : Grown e c d b b') (x y p : K) :
    Alike (Grown e c d) (startOver e b x y p) (startOver e b' (c * x) (c * y) p) := by
  obtain ⟨m, q, v, rfl⟩ := h
  unfold startOver brushReset
  simp only [bind_assoc]
  refine Alike.bind (P := Eq) (Alike.same (P := Eq) (resetBuckets b.buckets) fun _ _ => rfl) ?_
  rintro bk _ rfl
  have h0 : (c * 0 : K) = 0 := mul_zero c
  have h1 : (0 / c : K) = 0 := zero_div c
  refine .ok ⟨⟨m.1, ?_, ?_⟩, ⟨0, 0, q.idle, q.total⟩, v, ?_⟩
  · show (0 : K) ≤ 1 / 1000
    norm_num
  · show |(-1 : K)| ≤ 1
    norm_num
  · unfold growBrush growState
    dsimp only [State.cleared]
    rw [h0, h1]

theorem strokeEvent_grow {e : Env K R σ} (L : SizeLaws e c d) {P : σ → σ → Prop} (hP : DrawsLarge e c P) {b b' : Brush K R}
    (h : Grown e c d b b') (fuel : Nat) {surf surf' : σ} (hs : P surf surf') (ev : Event K) :
    Alike (ResGrown e c d P) (strokeEvent e fuel b surf ev) (strokeEvent e fuel b' surf' (growEvent c ev)) := by
  have hr : b'.resetRequested = b.resetRequested ∧ b'.skip ≤ 1 / 1000 := by
    obtain ⟨m, p, v, rfl⟩ := h
    exact ⟨rfl, m.skip⟩
  unfold strokeEvent
  dsimp only [growEvent]
  rw [skipStage_grow h.1.skip, skipStage_grow hr.2, hr.1]
  dsimp only
  simp only [Bool.false_eq_true, if_false]
  obtain ⟨c1, c2, c3⟩ := cursor_grow (e := e) h ev.x ev.y ev.dtime
  rw [c1, c2]
  by_cases hz : ev.dtime > 5 ∨ b.resetRequested = true
  · rw [if_pos hz, if_pos hz]
    refine Alike.bind (startOver_grow c3 _ _ _) ?_
    intro b1 b1' h1
    exact .ok ⟨hs, h1⟩
  · rw [if_neg hz, if_neg hz]
    exact moveTo_grow L hP c3 fuel hs ev _ _ _

theorem sanitise_grow {e : Env K R σ} {m : Motion K} (h : m.Near) (h' : (m.resize c).Near) :
    Alike (fun ev ev' => ev' = growEvent c ev ∧ (workaroundMotion ev).Near ∧ ((workaroundMotion ev).resize c).Near)
      (sanitise e m) (sanitise e (m.resize c)) := by
  obtain ⟨mx, my, mp, mt, mt', md, mz, mr, mb, ml⟩ := m
  obtain ⟨hx, hy⟩ := h
  obtain ⟨hx', hy'⟩ := h'
  dsimp only [Motion.resize] at hx hy hx' hy'
  cases mx with
  | fin x =>
    cases my with
    | fin y =>
      dsimp only [Flt.resize, Flt.Near] at hx hy hx' hy'
      unfold sanitise Motion.resize
      dsimp only [Flt.resize]
      refine Alike.bind (Alike.same (P := Eq) _ fun _ _ => rfl) ?_
      rintro t _ rfl
      rw [sane_near hx, sane_near hy, sane_near hx', sane_near hy']
      dsimp only
      have k : ∀ {x y : K}, |x| < 10 ^ 8 → |y| < 10 ^ 8 → x < 10 ^ 8 ∧ y < 10 ^ 8 ∧ x > -10 ^ 8 ∧ y > -10 ^ 8 := by
        intro x y hx hy
        rw [abs_lt] at hx hy
        exact ⟨hx.2, hy.2, hx.1, hy.1⟩
      rw [if_pos (k hx hy), if_pos (k hx' hy')]
      exact .ok ⟨rfl, ⟨hx, hy⟩, hx', hy'⟩
    | _ => exact absurd hy (by simp [Flt.Near])
  | _ => exact absurd hx (by simp [Flt.Near])

theorem strokeTo_grow {e : Env K R σ} (L : SizeLaws e c d) {P : σ → σ → Prop} (hP : DrawsLarge e c P) {b b' : Brush K R}
    (h : Grown e c d b b') (fuel : Nat) {surf surf' : σ} (hs : P surf surf') {m : Motion K} (hm : m.Near) (hm' : (m.resize c).Near) :
    Alike (ResGrown e c d P) (strokeTo e fuel b surf m) (strokeTo e fuel b' surf' (m.resize c)) := by
  unfold strokeTo
  have hp : b'.st.pressure = b.st.pressure := by
    obtain ⟨-, p, v, rfl⟩ := h
    rfl
  refine Alike.bind (sanitise_grow hm hm') ?_
  rintro ev _ ⟨rfl, n1, n2⟩
  rw [hp]
  by_cases hc : ev.dtime > 1 / 10 ∧ ev.pressure ≠ 0 ∧ b.st.pressure = 0
  · rw [if_pos hc, if_pos (show (growEvent c ev).dtime > 1 / 10 ∧ (growEvent c ev).pressure ≠ 0 ∧ b.st.pressure = 0 from hc)]
    refine Alike.bind (sanitise_grow n1 n2) ?_
    rintro i _ ⟨rfl, -, -⟩
    refine Alike.bind (strokeEvent_grow L hP h fuel hs i) ?_
    rintro r r' ⟨r1, r2⟩
    exact strokeEvent_grow L hP r2 fuel r1 { ev with dtime := 1 / 10000 }
  · rw [if_neg hc, if_neg (show ¬ ((growEvent c ev).dtime > 1 / 10 ∧ (growEvent c ev).pressure ≠ 0 ∧ b.st.pressure = 0) from hc)]
    exact strokeEvent_grow L hP h fuel hs ev

theorem strokes_grow {e : Env K R σ} (L : SizeLaws e c d) {P : σ → σ → Prop} (hP : DrawsLarge e c P) (fuel : Nat)
    (ms : List (Motion K)) : ∀ {b b' : Brush K R} {surf surf' : σ}, Grown e c d b b' → P surf surf' →
      (∀ m ∈ ms, m.Near ∧ (m.resize c).Near) →
      Alike (fun r r' => P r.2 r'.2 ∧ Grown e c d r.1 r'.1) (strokes e fuel b surf ms)
        (strokes e fuel b' surf' (ms.map (Motion.resize c))) := by
  induction ms with
  | nil => intro b b' surf surf' h hs _; exact .ok ⟨hs, h⟩
  | cons m ms ih =>
    intro b b' surf surf' h hs hm
    rw [List.map_cons]
    unfold strokes
    obtain ⟨m1, m2⟩ := hm m List.mem_cons_self
    refine Alike.bind (strokeTo_grow L hP h fuel hs m1 m2) ?_
    rintro r r' ⟨r1, r2⟩
    exact ih r2 r1 fun m q => hm m (List.mem_cons_of_mem _ q)

end
end Verif.Engine
