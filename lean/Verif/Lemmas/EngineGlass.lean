import Verif.Lemmas.EngineTwin
import Verif.Lemmas.EngineLoop
import Verif.Lemmas.EnginePace
import Verif.Lemmas.EngineSlide
import Verif.Lemmas.EngineSpin
import Verif.Lemmas.EngineResize
import Verif.Lemmas.EngineSwing
import Verif.Lemmas.MaskMirror
import Verif.Spec.Glass
import Mathlib.Tactic.Ring
import Mathlib.Tactic.LinearCombination

/-!
# The engine in the looking glass

Two runs of the engine, one mirrored at an upright line.
-/

namespace Verif.Engine
open Verif.Mask Verif.Color Verif.Spectral Verif.Map

section
variable {K R σ : Type} [Field K] [LinearOrder K] [IsStrictOrderedRing K] [FloorRing K] {n : K}

/-- What the runs may differ in besides. -/
structure GlassLoose (K : Type) where
  gx : K
  gy : K
  angle : K
  view : K
  idle : K
  total : K

/-- The state, mirrored. -/
def glassState (n : K) (p : GlassLoose K) (st : State K) : State K :=
  { st with x := n - st.x, actualX := n - st.actualX, normDxSlow := -st.normDxSlow, directionDx := -st.directionDx
            directionAngleDx := -st.directionAngleDx
            angle := p.angle, viewrotation := p.view, gridmapX := p.gx, gridmapY := p.gy }

/-- The brush, mirrored. -/
def glassOver (n : K) (p : GlassLoose K) (v : Nat → K) (b : Brush K R) : Brush K R :=
  { b with settings := glassSettings b.settings, st := glassState n p b.st, vals := v, idle := p.idle, total := p.total }

/-- The values of the settings of the mirrored brush. -/
def glassVals (v : Nat → K) : Nat → K := fun id => if id = sEllipticalDabAngle ∨ id = sOffsetX then -v id else v id

/-- What is kept between the steps. -/
structure GlassOk (b : Brush K R) : Prop where
  settings : Mirrorable b.settings
  skip : b.skip ≤ 1 / 1000

/-- Between steps. -/
def Glassy (n : K) (b b' : Brush K R) : Prop :=
  GlassOk b ∧ ∃ p v, b' = glassOver n p v b ∧ (b.st.ratio ≤ 1 ∨ ∃ k : ℤ, p.angle = -b.st.angle + 180 * k)

/-- After a step. -/
def GlassyOn (n : K) (b b' : Brush K R) : Prop :=
  GlassOk b ∧ (∃ p, b' = glassOver n p (glassVals b.vals) b ∧ p.angle = glassAngle b.st.angle) ∧
    ∃ i, b.vals = fun id => calculate (b.settings id) i

/-! ### Settings and angles -/

omit [FloorRing K] in
theorem evaluate_glass (p : Points K) (x : K) : evaluate { p with ys := fun i => -p.ys i } x = -evaluate p x := by
  have hf : ∀ f i, findSegment { p with ys := fun i => -p.ys i } x f i = findSegment p x f i := by
    intro f
    induction f with
    | zero => intro i; rfl
    | succ f ih => intro i; unfold findSegment; rw [ih]
  unfold evaluate
  dsimp only
  rw [hf]
  simp only [neg_inj]
  split_ifs
  · rfl
  · ring

omit [FloorRing K] in
theorem calculate_glass (m : Mapping K) (i : Nat → K) : calculate (glassMap m) i = -calculate m i := by
  unfold calculate
  by_cases hu : m.used = 0
  · rw [if_pos hu, if_pos (show (glassMap m).used = 0 from hu)]
    rfl
  · rw [if_neg hu, if_neg (show ¬ (glassMap m).used = 0 from hu)]
    show (List.range m.inputs).foldl _ (-m.base) = _
    generalize m.base = r
    induction List.range m.inputs generalizing r with
    | nil => rfl
    | cons k l ih =>
      rw [List.foldl_cons, List.foldl_cons, ← ih]
      congr 1
      by_cases hk : (m.pts k).n ≠ 0
      · rw [if_pos hk, if_pos (show ((glassMap m).pts k).n ≠ 0 from hk)]
        rw [show (glassMap m).pts k = { m.pts k with ys := fun i => -(m.pts k).ys i } from rfl, evaluate_glass]
        ring
      · rw [if_neg hk, if_neg (show ¬ ((glassMap m).pts k).n ≠ 0 from hk)]

omit [FloorRing K] in
theorem settings_glass (s : Load.Brush K) (i : Nat → K) :
    (fun id => calculate (glassSettings s id) i) = glassVals fun id => calculate (s id) i := by
  funext id
  unfold glassSettings glassVals
  split_ifs
  · exact calculate_glass _ _
  · rfl

omit [LinearOrder K] [IsStrictOrderedRing K] [FloorRing K] in
theorem glass_used (s : Load.Brush K) (id k : Nat) : (glassSettings s id).used = (s id).used ∧
    ((glassSettings s id).pts k).n = ((s id).pts k).n := by
  unfold glassSettings
  split_ifs <;> exact ⟨rfl, rfl⟩

omit [LinearOrder K] [IsStrictOrderedRing K] [FloorRing K] in
theorem usesInput_glass (s : Load.Brush K) (k : Nat) : usesInput (glassSettings s) k = usesInput s k := by
  unfold usesInput
  congr 1
  funext id
  rw [(glass_used s id k).1, (glass_used s id k).2]

theorem glassAngle_eq (v : K) {w w' : K} (h : ∃ k : ℤ, w' = -w + 360 * k) :
    modArith (-v - w' + 180) 180 - 180 = glassAngle (modArith (v - w + 180) 180 - 180) := by
  obtain ⟨k, rfl⟩ := h
  unfold glassAngle
  have h1 : -v - (-w + 360 * k) + 180 = (-(v - w)) + 180 * ((1 - 2 * k : ℤ) : K) := by push_cast; ring
  have h2 : 180 - (modArith (v - w + 180) 180 - 180) = (-(v - w)) + 180 * ((1 + ⌊(v - w + 180) / 180⌋ : ℤ) : K) := by
    unfold modArith
    push_cast
    ring
  rw [h1, h2, modArith_halves, modArith_halves]

theorem glassAngle_turns (t : K) : ∃ k : ℤ, glassAngle t = -t + 180 * k := by
  refine ⟨-⌊(180 - t) / 180⌋, ?_⟩
  unfold glassAngle modArith
  push_cast
  ring

theorem glass_halves {e : Env K R σ} (L : GlassLaws e) (t : K) (k : ℤ) :
    ∃ f : K, f * f = 1 ∧ e.cos (t + 180 * k) = f * e.cos t ∧ e.sin (t + 180 * k) = f * e.sin t := by
  induction k using Int.induction_on with
  | zero => exact ⟨1, by ring, by simp, by simp⟩
  | succ m ih =>
    obtain ⟨f, h1, h2, h3⟩ := ih
    obtain ⟨q1, q2⟩ := L.half (t + 180 * (m : ℤ))
    refine ⟨-f, by rw [neg_mul_neg]; exact h1, ?_, ?_⟩
    · rw [show t + 180 * (((m : ℤ) + 1 : ℤ) : K) = t + 180 * ((m : ℤ) : K) + 180 by push_cast; ring, q1, h2]; ring
    · rw [show t + 180 * (((m : ℤ) + 1 : ℤ) : K) = t + 180 * ((m : ℤ) : K) + 180 by push_cast; ring, q2, h3]; ring
  | pred m ih =>
    obtain ⟨f, h1, h2, h3⟩ := ih
    obtain ⟨q1, q2⟩ := L.half (t + 180 * ((-(m : ℤ) - 1 : ℤ) : K))
    have q : t + 180 * ((-(m : ℤ) - 1 : ℤ) : K) + 180 = t + 180 * ((-(m : ℤ) : ℤ) : K) := by push_cast; ring
    rw [q] at q1 q2
    refine ⟨-f, by rw [neg_mul_neg]; exact h1, ?_, ?_⟩
    · rw [h2] at q1; rw [neg_mul, q1, neg_neg]
    · rw [h3] at q2; rw [neg_mul, q2, neg_neg]

/-! ### A step -/

/-- The step, mirrored. -/
def glassStep (t : Step K) : Step K := { t with dx := -t.dx, viewrotation := -t.viewrotation }

theorem moveStates_glass {e : Env K R σ} (L : GlassLaws e) (b : Brush K R) (p : GlassLoose K) (v : Nat → K) (t : Step K) :
    ∃ q : GlassLoose K, moveStates e (glassOver n p v b) (glassStep t) = glassState n q (moveStates e b t) ∧
      q.idle = p.idle ∧ q.total = p.total ∧ ∃ k : ℤ, q.view = -(moveStates e b t).viewrotation + 360 * k := by
  refine ⟨⟨gridmap (e.exp (v sGridmapScale) * 256) (v sGridmapScaleX) (n - b.st.actualX),
    gridmap (e.exp (v sGridmapScale) * 256) (v sGridmapScaleY) b.st.actualY, p.angle,
    viewRotation e (-t.viewrotation), p.idle, p.total⟩, ?_, rfl, rfl, ?_⟩
  · unfold moveStates glassOver glassState glassStep
    dsimp only
    rw [show n - b.st.x + -t.dx = n - (b.st.x + t.dx) by ring]
    rfl
  · show ∃ k : ℤ, viewRotation e (-t.viewrotation) = -viewRotation e t.viewrotation + 360 * k
    unfold viewRotation
    rw [L.degrees]
    obtain ⟨k1, h1⟩ := modArith_turns (-e.degrees t.viewrotation + 180)
    obtain ⟨k2, h2⟩ := modArith_turns (e.degrees t.viewrotation + 180)
    refine ⟨k1 + k2, ?_⟩
    rw [h1, h2]
    push_cast
    ring

omit [LinearOrder K] [IsStrictOrderedRing K] [FloorRing K] in
theorem glass_hypot (e : Env K R σ) (x y : K) : hypot e (-x) y = hypot e x y := by
  unfold hypot
  rw [neg_mul_neg]

omit [LinearOrder K] [IsStrictOrderedRing K] [FloorRing K] in
theorem glass_approach (x y f : K) : approach (-x) (-y) f = -approach x y f := by
  unfold approach; ring

omit [LinearOrder K] [IsStrictOrderedRing K] [FloorRing K] in
theorem glass_approach' (x y f : K) : approach (n - x) (n - y) f = n - approach x y f := by
  unfold approach; ring

omit [LinearOrder K] [IsStrictOrderedRing K] [FloorRing K] in
theorem glass_ite (o : Prop) [Decidable o] (x : K) : (if o then - -x else -x) = -(if o then -x else x) := by
  split_ifs <;> rfl

omit [LinearOrder K] [IsStrictOrderedRing K] [FloorRing K] in
theorem glass_apart (x y : K) : (-x - -y) * (-x - -y) = (x - y) * (x - y) := by ring

omit [LinearOrder K] [IsStrictOrderedRing K] [FloorRing K] in
theorem glass_apart' (x y : K) : (-x - - -y) * (-x - - -y) = (x - -y) * (x - -y) := by ring

theorem followStates_glass {e : Env K R σ} (b : Brush K R) (p q : GlassLoose K) (v vals : Nat → K) (st : State K) (t : Step K) :
    followStates e (glassOver n p v b) (glassState n q st) (glassVals vals) (glassStep t) =
      glassState n { q with angle := modArith (-vals sEllipticalDabAngle - q.view + 180) 180 - 180 } (followStates e b st vals t) := by
  unfold followStates
  dsimp only [glassState, glassStep]
  simp only [neg_div, neg_mul, glass_hypot, glass_apart, glass_apart', glass_ite, glass_approach, glass_approach']
  rfl

theorem update_glass {e : Env K R σ} (L : GlassLaws e) {b b' : Brush K R} (h : Glassy n b b') (t : Step K) :
    Alike (GlassyOn n) (update e b t) (update e b' (glassStep t)) := by
  obtain ⟨m, p, v, rfl, -⟩ := h
  obtain ⟨q, hm, q1, q2, k, q3⟩ := moveStates_glass (n := n) L b p v t
  have key : settingValues (glassSettings b.settings) (inputsOf e (glassOver n p v b) (glassState n q (moveStates e b t))) =
      glassVals (settingValues b.settings (inputsOf e b (moveStates e b t))) := by
    unfold settingValues
    rw [← settings_glass]
    funext id
    refine calculate_curves fun k hk => ?_
    rw [(glass_used b.settings id k).2] at hk
    have hk' : k ∉ swingInputs := fun z => hk (m.settings.inputs id k z)
    have k1 : k ≠ iGridmapX := fun q => hk' (by simp [swingInputs, q])
    have k2 : k ≠ iGridmapY := fun q => hk' (by simp [swingInputs, q])
    have k3 : k ≠ iDirection := fun q => hk' (by simp [swingInputs, q])
    have k4 : k ≠ iDirectionAngle := fun q => hk' (by simp [swingInputs, q])
    have k5 : k ≠ iAttackAngle := fun q => hk' (by simp [swingInputs, q])
    have k6 : k ≠ iTiltAscension := fun q => hk' (by simp [swingInputs, q])
    unfold Inputs.get
    simp only [k1, k2, k3, k4, k5, k6, if_false]
    rfl
  unfold update
  dsimp only
  rw [show (glassStep t).viewzoom = t.viewzoom from rfl, show (glassOver n p v b).settings = glassSettings b.settings from rfl,
    usesInput_glass]
  by_cases hz : t.viewzoom ≤ 0 ∧ usesInput b.settings iViewzoom = true
  · rw [if_pos hz, if_pos hz]; exact .error _
  · rw [if_neg hz, if_neg hz, hm, key, followStates_glass b p q v]
    refine .ok ⟨⟨m.settings, m.skip⟩, ⟨⟨q.gx, q.gy, _, q.view, p.idle, p.total⟩, rfl, ?_⟩, ⟨_, rfl⟩⟩
    exact glassAngle_eq _ ⟨k, q3⟩

omit [IsStrictOrderedRing K] [FloorRing K] in
theorem maxC_zero {t : K} (h : t ≤ 0) : maxC 0 t = 0 := by
  unfold maxC
  split_ifs with q
  · rfl
  · exact le_antisymm h (not_lt.mp q)

theorem directionalOffsets_glass {e : Env K R σ} {b : Brush K R} (m : GlassOk b) {i : Nat → K}
    (hi : b.vals = fun id => calculate (b.settings id) i) (p : GlassLoose K) (ρ f : K) :
    directionalOffsets e (glassOver n p (glassVals b.vals) b) ρ f =
      (-(directionalOffsets e b ρ f).1, (directionalOffsets e b ρ f).2) := by
  obtain ⟨a1, a2, a3⟩ := m.settings.angles i
  obtain ⟨a4, a5, a6⟩ := m.settings.mirrored i
  have z1 : b.vals sOffsetAngle = 0 := by rw [hi]; exact a1
  have z2 : b.vals sOffsetAngleAsc = 0 := by rw [hi]; exact a2
  have z3 : b.vals sOffsetAngleView = 0 := by rw [hi]; exact a3
  have z4 : maxC 0 (b.vals sOffsetAngle2) = 0 := maxC_zero (by rw [hi]; exact a4)
  have z5 : maxC 0 (b.vals sOffsetAngle2Asc) = 0 := maxC_zero (by rw [hi]; exact a5)
  have z6 : maxC 0 (b.vals sOffsetAngle2View) = 0 := maxC_zero (by rw [hi]; exact a6)
  have o : ∀ id, id ≠ sEllipticalDabAngle → id ≠ sOffsetX → (glassOver n p (glassVals b.vals) b).vals id = b.vals id :=
    fun id h1 h2 => if_neg (fun h => h.elim h1 h2)
  have ox : (glassOver n p (glassVals b.vals) b).vals sOffsetX = -b.vals sOffsetX := rfl
  unfold directionalOffsets
  dsimp only
  rw [ox, o sOffsetAngle (by decide) (by decide), o sOffsetAngleAsc (by decide) (by decide), o sOffsetAngleView (by decide) (by decide),
    o sOffsetAngle2 (by decide) (by decide), o sOffsetAngle2Asc (by decide) (by decide), o sOffsetAngle2View (by decide) (by decide),
    o sOffsetY (by decide) (by decide), o sOffsetMultiplier (by decide) (by decide), z1, z2, z3, z4, z5, z6]
  simp only [zero_mul, mul_zero, add_zero]
  refine Prod.ext ?_ rfl
  dsimp only
  rw [← clampK_neg (show (-3240 : K) ≤ 3240 by norm_num), neg_neg, neg_mul]

theorem dabPosition_glass {e : Env K R σ} {b b' : Brush K R} (h : GlassyOn n b b') :
    Alike (fun r r' => r'.1 = n - r.1 ∧ r'.2.1 = r.2.1 ∧ GlassyOn n r.2.2 r'.2.2) (dabPosition e b) (dabPosition e b') := by
  obtain ⟨m, ⟨p, rfl, ha⟩, i, hi⟩ := h
  have ho := fun ρ f => directionalOffsets_glass (n := n) (e := e) m hi p ρ f
  unfold dabPosition
  dsimp only
  rw [show e.exp ((glassOver n p (glassVals b.vals) b).baseval sRadiusLogarithmic) = e.exp (b.baseval sRadiusLogarithmic) from rfl,
    show (glassOver n p (glassVals b.vals) b).st.flip = b.st.flip from rfl, ho]
  dsimp only
  have v1 : (glassOver n p (glassVals b.vals) b).vals sOffsetBySpeed = b.vals sOffsetBySpeed := rfl
  have v2 : (glassOver n p (glassVals b.vals) b).vals sOffsetByRandom = b.vals sOffsetByRandom := rfl
  have v3 : (glassOver n p (glassVals b.vals) b).st.viewzoom = b.st.viewzoom := rfl
  have v4 : (glassOver n p (glassVals b.vals) b).st.actualX = n - b.st.actualX := rfl
  have v5 : (glassOver n p (glassVals b.vals) b).st.actualY = b.st.actualY := rfl
  have v6 : (glassOver n p (glassVals b.vals) b).st.normDxSlow = -b.st.normDxSlow := rfl
  have v7 : (glassOver n p (glassVals b.vals) b).st.normDySlow = b.st.normDySlow := rfl
  have v8 : (glassOver n p (glassVals b.vals) b).rng = b.rng := rfl
  rw [v1, v2, v3, v4, v5, v6, v7, v8]
  have hz4 : maxC 0 (b.vals sOffsetByRandom) = 0 := maxC_zero (by rw [hi]; exact m.settings.scatter i)
  by_cases hz : b.vals sOffsetBySpeed ≠ 0 ∧ b.st.viewzoom = 0
  · rw [if_pos hz, if_pos hz]
    exact .error _
  · rw [if_neg hz, if_neg hz]
    have hx : ∀ A C N : K, (if b.vals sOffsetBySpeed ≠ 0 then n - A + -C +
        -N * b.vals sOffsetBySpeed * (1 / 10) / b.st.viewzoom else n - A + -C) =
        n - (if b.vals sOffsetBySpeed ≠ 0 then A + C + N * b.vals sOffsetBySpeed * (1 / 10) / b.st.viewzoom else A + C) := by
      intro A C N
      split_ifs <;> ring
    rw [hx, hz4]
    by_cases hr' : b.vals sOffsetByRandom ≠ 0
    · rw [if_pos hr', if_pos hr']
      simp only [mul_zero, zero_mul, add_zero]
      exact .ok ⟨rfl, rfl, ⟨m.1, m.2⟩, ⟨p, rfl, ha⟩, i, hi⟩
    · rw [if_neg hr', if_neg hr']
      exact .ok ⟨rfl, rfl, m, ⟨p, rfl, ha⟩, i, hi⟩

theorem dabRadius_glass {e : Env K R σ} {b b' : Brush K R} (h : GlassyOn n b b') (o : K) :
    (dabRadius e b' o).1 = (dabRadius e b o).1 ∧ (dabRadius e b' o).2.1 = (dabRadius e b o).2.1 ∧
      GlassyOn n (dabRadius e b o).2.2 (dabRadius e b' o).2.2 := by
  obtain ⟨m, ⟨p, rfl, ha⟩, i, hi⟩ := h
  unfold dabRadius
  dsimp only
  have v1 : (glassOver n p (glassVals b.vals) b).vals sRadiusByRandom = b.vals sRadiusByRandom := rfl
  rw [v1]
  by_cases hn : b.vals sRadiusByRandom ≠ 0
  · rw [if_pos hn, if_pos hn]
    exact ⟨rfl, rfl, ⟨m.1, m.2⟩, ⟨p, rfl, ha⟩, i, hi⟩
  · rw [if_neg hn, if_neg hn]
    exact ⟨rfl, rfl, m, ⟨p, rfl, ha⟩, i, hi⟩

omit [IsStrictOrderedRing K] in
theorem smudgeStage_glass {e : Env K R σ} {b b' : Brush K R} (h : GlassyOn n b b') (surf surf' : σ)
    (x y x' y' r r' : K) :
    smudgeStage e b surf x y r = .ok (false, b, surf) ∧ smudgeStage e b' surf' x' y' r' = .ok (false, b', surf') := by
  obtain ⟨m, ⟨p, rfl, -⟩, i, hi⟩ := h
  have hn : ¬ (b.vals sSmudgeLength < 1 ∧ (b.vals sSmudge ≠ 0 ∨ isConstant (b.settings sSmudge) = false)) := by
    rw [hi]; exact m.settings.samples i
  constructor
  · unfold smudgeStage
    rw [if_neg hn]
    rfl
  · unfold smudgeStage
    rw [if_neg (show ¬ ((glassOver n p (glassVals b.vals) b).vals sSmudgeLength < 1 ∧
      ((glassOver n p (glassVals b.vals) b).vals sSmudge ≠ 0 ∨
        isConstant ((glassOver n p (glassVals b.vals) b).settings sSmudge) = false)) from hn)]
    rfl

omit [IsStrictOrderedRing K] in
theorem fetchSmudge_glass (p : GlassLoose K) (b : Brush K R) :
    fetchSmudge (glassOver n p (glassVals b.vals) b) = ((fetchSmudge b).1, glassOver n p (glassVals b.vals) (fetchSmudge b).2) := by
  unfold fetchSmudge
  by_cases h : b.buckets.mem.isEmpty = true ∨ b.buckets.num = 0
  · rw [if_pos h, if_pos (show (glassOver n p (glassVals b.vals) b).buckets.mem.isEmpty = true ∨
      (glassOver n p (glassVals b.vals) b).buckets.num = 0 from h)]
  · rw [if_neg h, if_neg (show ¬ ((glassOver n p (glassVals b.vals) b).buckets.mem.isEmpty = true ∨
      (glassOver n p (glassVals b.vals) b).buckets.num = 0) from h)]
    rfl

theorem smudgeColor_glass {e : Env K R σ} {b b' : Brush K R} (h : GlassyOn n b b') (q : Rgb K) :
    Alike (fun r' r'' => r''.1 = r'.1 ∧ r''.2.1 = r'.2.1 ∧ GlassyOn n r'.2.2 r''.2.2) (smudgeColor e b q)
      (smudgeColor e b' q) := by
  obtain ⟨m, ⟨p, rfl, ha⟩, i, hi⟩ := h
  unfold smudgeColor
  by_cases hc : b.vals sSmudge > 0
  · rw [if_pos hc, if_pos (show (glassOver n p (glassVals b.vals) b).vals sSmudge > 0 from hc)]
    dsimp only
    rw [fetchSmudge_glass]
    dsimp only
    have hl : ∀ (b : Brush K R) o, loadSmudge (glassOver n p (glassVals b.vals) b) o = loadSmudge b o := by
      intro b o; cases o <;> rfl
    have hf := fetchSmudge_same b
    generalize fetchSmudge b = f at hf ⊢
    obtain ⟨o, fb⟩ := f
    dsimp only at hf ⊢
    have hv : fb.vals = b.vals := by rw [hf]
    rw [← hv, hl]
    refine Alike.bind (Alike.same (P := Eq) _ fun _ _ => rfl) ?_
    rintro v _ rfl
    refine .ok ⟨rfl, rfl, ⟨?_, ?_⟩, ⟨p, rfl, ?_⟩, i, ?_⟩
    · show Mirrorable fb.settings
      rw [hf]; exact m.1
    · show fb.skip ≤ 1 / 1000
      rw [hf]; exact m.2
    · show p.angle = glassAngle fb.st.angle
      rw [hf]; exact ha
    · show fb.vals = fun id => calculate (fb.settings id) i
      rw [hf]; exact hi
  · rw [if_neg hc, if_neg (show ¬ (glassOver n p (glassVals b.vals) b).vals sSmudge > 0 from hc)]
    exact .ok ⟨rfl, rfl, m, ⟨p, rfl, ha⟩, i, hi⟩

theorem dabArgs_glass {e : Env K R σ} {b b' : Brush K R} (h : GlassyOn n b b') (lin : Bool) (x y r o t : K) (q : Rgb K) :
    dabArgs e b' lin (n - x) y r o t q = glassDab n (dabArgs e b lin x y r o t q) := by
  obtain ⟨m, ⟨p, rfl, ha⟩, i, hi⟩ := h
  have hs : ¬ b.vals sSnapToPixel > 0 := by
    rw [hi]; exact not_lt.mpr (m.settings.free i)
  have hn : ∀ x y r : K, snap b x y r = (x, y, r) := by
    intro x y r
    unfold snap
    rw [if_neg hs]
  have hn' : ∀ x y r : K, snap (glassOver n p (glassVals b.vals) b) x y r = (x, y, r) := by
    intro x y r
    unfold snap
    rw [if_neg (show ¬ (glassOver n p (glassVals b.vals) b).vals sSnapToPixel > 0 from hs)]
  unfold dabArgs
  dsimp only
  rw [hn, hn']
  unfold glassDab
  dsimp only
  rw [← ha]
  rfl

/-- Drawing a mirrored dab keeps the surfaces related. -/
def DrawsGlass (e : Env K R σ) (n : K) (P : σ → σ → Prop) : Prop :=
  ∀ z z' d, P z z' → P (e.draw z d).2 (e.draw z' (glassDab n d)).2

theorem drawDab_glass {e : Env K R σ} {P : σ → σ → Prop} (hP : DrawsGlass e n P) {b b' : Brush K R}
    (h : GlassyOn n b b') {surf surf' : σ} (hs : P surf surf') (lin : Bool) :
    Alike (fun r r' => P r.2.2 r'.2.2 ∧ GlassyOn n r.2.1 r'.2.1) (drawDab e b surf lin) (drawDab e b' surf' lin) := by
  have ho : dabOpacity e b' = dabOpacity e b := by
    obtain ⟨-, ⟨p, rfl, -⟩, -⟩ := h
    rfl
  have hcol : (⟨b'.baseval sColorH, b'.baseval sColorS, b'.baseval sColorV⟩ : Hue K) =
      ⟨b.baseval sColorH, b.baseval sColorS, b.baseval sColorV⟩ := by
    obtain ⟨-, ⟨p, rfl, -⟩, -⟩ := h
    rfl
  unfold drawDab
  rw [ho, hcol]
  refine Alike.bind (Alike.same (P := Eq) _ fun _ _ => rfl) ?_
  rintro o _ rfl
  refine Alike.bind (dabPosition_glass h) ?_
  rintro ⟨x, y, b1⟩ ⟨x', y', b1'⟩ ⟨h1, h2, h3⟩
  dsimp only at h1 h2 h3 ⊢
  subst h1 h2
  obtain ⟨r1, r2, r3⟩ := dabRadius_glass h3 o
  rw [r1, r2]
  obtain ⟨q1, q2⟩ := smudgeStage_glass r3 surf surf' x y' (n - x) y' (dabRadius e b1 o).1 (dabRadius e b1 o).1
  rw [q1, q2]
  simp only [bind, Except.bind, Bool.false_eq_true, if_false]
  refine Alike.bind (smudgeColor_glass r3 _) ?_
  rintro ⟨t, q, b3⟩ ⟨t', q', b3'⟩ ⟨h7, h8, h9⟩
  dsimp only at h7 h8 h9 ⊢
  subst h7 h8
  rw [dabArgs_glass h9 lin x y']
  exact .ok ⟨hP _ _ _ hs, h9⟩

/-! ### Sessions -/

theorem dist_glass {e : Env K R σ} (L : GlassLaws e) {t t' : K} (h : ∃ k : ℤ, t' = -t + 180 * k) (X Y q : K) :
    hypot e ((Y * e.cos t' - -X * e.sin t') * q) (Y * e.sin t' + -X * e.cos t') =
      hypot e ((Y * e.cos t - X * e.sin t) * q) (Y * e.sin t + X * e.cos t) := by
  obtain ⟨k, rfl⟩ := h
  obtain ⟨f, f1, f2, f3⟩ := glass_halves L (-t) k
  rw [f2, f3, L.cos_neg, L.sin_neg]
  have k1 : (Y * (f * e.cos t) - -X * (f * -e.sin t)) * q = f * ((Y * e.cos t - X * e.sin t) * q) := by ring
  have k2 : Y * (f * -e.sin t) + -X * (f * e.cos t) = -(f * (Y * e.sin t + X * e.cos t)) := by ring
  rw [k1, k2]
  unfold hypot
  congr 1
  linear_combination (((Y * e.cos t - X * e.sin t) * q) * ((Y * e.cos t - X * e.sin t) * q) +
    (Y * e.sin t + X * e.cos t) * (Y * e.sin t + X * e.cos t)) * f1

theorem countDabs_glass {e : Env K R σ} (L : GlassLaws e) {b b' : Brush K R} (h : Glassy n b b') (x y dt : K) :
    (countDabs e b' (n - x) y dt).1 = (countDabs e b x y dt).1 ∧
      Glassy n (countDabs e b x y dt).2 (countDabs e b' (n - x) y dt).2 := by
  obtain ⟨m, p, v, rfl, hp⟩ := h
  have key : countDabs e (glassOver n p v b) (n - x) y dt =
      ((countDabs e b x y dt).1, glassOver n p v (countDabs e b x y dt).2) := by
    have e1 : ∀ X Y : K, (if b.st.ratio > 1 then hypot e ((Y * e.cos p.angle - -X * e.sin p.angle) * b.st.ratio)
          (Y * e.sin p.angle + -X * e.cos p.angle) else hypot e (-X) Y) =
        (if b.st.ratio > 1 then hypot e ((Y * e.cos b.st.angle - X * e.sin b.st.angle) * b.st.ratio)
          (Y * e.sin b.st.angle + X * e.cos b.st.angle) else hypot e X Y) := by
      intro X Y
      by_cases hq : b.st.ratio > 1
      · rw [if_pos hq, if_pos hq]
        exact dist_glass L (hp.resolve_left (not_le.mpr hq)) X Y _
      · rw [if_neg hq, if_neg hq, glass_hypot]
    have e2 : n - x - (n - b.st.x) = -(x - b.st.x) := by ring
    unfold countDabs
    dsimp only
    rw [show (glassOver n p v b).baseval sRadiusLogarithmic = b.baseval sRadiusLogarithmic from rfl]
    by_cases q : b.st.actualRadius = 0
    · rw [if_pos q, if_pos (show (glassOver n p v b).st.actualRadius = 0 from q)]
      dsimp only [glassOver, glassState]
      simp only [e2, e1]
    · rw [if_neg q, if_neg (show ¬ (glassOver n p v b).st.actualRadius = 0 from q)]
      dsimp only [glassOver, glassState]
      simp only [e2, e1]
  rw [key]
  obtain ⟨r, hr⟩ := countDabs_same e b x y dt
  rw [hr]
  exact ⟨rfl, ⟨m.1, m.2⟩, p, v, rfl, hp⟩

/-- The same for the dab loop. -/
structure LoopGlass (n : K) (P : σ → σ → Prop) (l l' : Loop K R σ) : Prop where
  b : Glassy n l.b l'.b
  surf : P l.surf l'.surf
  moved : l'.moved = l.moved
  todo : l'.todo = l.todo
  left : l'.dtimeLeft = l.dtimeLeft

omit [IsStrictOrderedRing K] in
theorem GlassyOn.flip {b b' : Brush K R} (h : GlassyOn n b b') :
    GlassyOn n { b with st := { b.st with flip := b.st.flip * -1 } } { b' with st := { b'.st with flip := b'.st.flip * -1 } } := by
  obtain ⟨m, ⟨p, rfl, ha⟩, i, hi⟩ := h
  exact ⟨⟨m.1, m.2⟩, ⟨p, rfl, ha⟩, i, hi⟩

theorem GlassyOn.next {e : Env K R σ} {b b' : Brush K R} (h : GlassyOn n b b') :
    Glassy n { b with random := (e.next b.rng).1, rng := (e.next b.rng).2 }
      { b' with random := (e.next b'.rng).1, rng := (e.next b'.rng).2 } := by
  obtain ⟨m, ⟨p, rfl, ha⟩, -⟩ := h
  exact ⟨⟨m.1, m.2⟩, p, _, rfl, .inr (by rw [ha]; exact glassAngle_turns _)⟩

/-- The event, mirrored. -/
def glassEvent (n : K) (ev : Event K) : Event K := { ev with x := n - ev.x, viewrotation := -ev.viewrotation }

omit [IsStrictOrderedRing K] in
theorem Glassy.step {b b' : Brush K R} (h : Glassy n b b') (ev : Event K) (x y dd f t : K) :
    stepTo b'.st (glassEvent n ev) (n - x) y dd f t = glassStep (stepTo b.st ev x y dd f t) := by
  obtain ⟨-, p, v, rfl, -⟩ := h
  unfold stepTo glassStep
  dsimp only [glassOver, glassState, glassEvent]
  rw [show f * (n - x - (n - b.st.x)) = -(f * (x - b.st.x)) by ring]

theorem dabStep_glass {e : Env K R σ} (L : GlassLaws e) {P : σ → σ → Prop} (hP : DrawsGlass e n P) {l l' : Loop K R σ}
    (h : LoopGlass n P l l') (ev : Event K) (x y : K) :
    Alike (LoopGlass n P) (dabStep e ev x y l) (dabStep e (glassEvent n ev) (n - x) y l') := by
  obtain ⟨b, surf, moved, todo, left, painted⟩ := l
  obtain ⟨b', surf', moved', todo', left', painted'⟩ := l'
  obtain ⟨hb, h1, h2, h3, h4⟩ := h
  dsimp only at hb h1 h2 h3 h4
  subst h2 h3 h4
  unfold dabStep
  dsimp only
  by_cases hz : todo' = 0
  · rw [if_pos hz, if_pos hz]; exact .error _
  · rw [if_neg hz, if_neg hz, hb.step]
    refine Alike.bind (update_glass L hb _) ?_
    intro b1 b1' hc
    refine Alike.bind (drawDab_glass hP hc.flip h1 _) ?_
    rintro ⟨dd, b2, s2⟩ ⟨dd', b2', s2'⟩ ⟨g2, g3⟩
    dsimp only at g2 g3 ⊢
    obtain ⟨k1, k2⟩ := countDabs_glass L (g3.next (e := e)) x y
      (left' - (stepTo b.st ev x y (if moved' > 0 then 1 - moved' else 1)
        ((if moved' > 0 then 1 - moved' else 1) / todo') left').dtime)
    exact .ok ⟨k2, g2, rfl, k1, rfl⟩

theorem dabLoop_glass {e : Env K R σ} (L : GlassLaws e) {P : σ → σ → Prop} (hP : DrawsGlass e n P) (ev : Event K) (x y : K)
    (fuel : Nat) : ∀ {l l' : Loop K R σ}, LoopGlass n P l l' →
      Alike (LoopGlass n P) (dabLoop e ev x y fuel l) (dabLoop e (glassEvent n ev) (n - x) y fuel l') := by
  induction fuel with
  | zero =>
    intro l l' h
    unfold dabLoop
    rw [h.moved, h.todo]
    by_cases hc : l.moved + l.todo ≥ 1
    · rw [if_pos hc, if_pos hc]; exact .error _
    · rw [if_neg hc, if_neg hc]; exact .ok h
  | succ fuel ih =>
    intro l l' h
    unfold dabLoop
    rw [h.moved, h.todo]
    by_cases hc : l.moved + l.todo ≥ 1
    · rw [if_pos hc, if_pos hc]
      exact Alike.bind (dabStep_glass L hP h ev x y) fun a a' ha => ih ha
    · rw [if_neg hc, if_neg hc]; exact .ok h

/-- The results of an event. -/
def ResGlass (n : K) (P : σ → σ → Prop) (r r' : Bool × Brush K R × σ) : Prop :=
  P r.2.2 r'.2.2 ∧ Glassy n r.2.1 r'.2.1

theorem splitStroke_glass {b b' : Brush K R} (h : Glassy n b b') (p p' : Painted) (dt dt' pr pr' dp dp' : K) :
    Glassy n (splitStroke b p dt pr dp).2 (splitStroke b' p' dt' pr' dp').2 := by
  obtain ⟨m, q, v, rfl, hq⟩ := h
  obtain ⟨t, i, ht⟩ := splitStroke_same b p dt pr dp
  obtain ⟨t', i', ht'⟩ := splitStroke_same (glassOver n q v b) p' dt' pr' dp'
  rw [ht, ht']
  exact ⟨⟨m.1, m.2⟩, { q with idle := i', total := t' }, v, rfl, hq⟩

theorem moveTo_glass {e : Env K R σ} (L : GlassLaws e) {P : σ → σ → Prop} (hP : DrawsGlass e n P) {b b' : Brush K R}
    (h : Glassy n b b') (fuel : Nat) {surf surf' : σ} (hs : P surf surf') (ev : Event K) (x y dt : K) :
    Alike (ResGlass n P) (moveTo e fuel b surf ev x y dt) (moveTo e fuel b' surf' (glassEvent n ev) (n - x) y dt) := by
  unfold moveTo
  dsimp only
  obtain ⟨k1, k2⟩ := countDabs_glass L h x y dt
  have k3 : b'.st.partialDabs = b.st.partialDabs := by
    obtain ⟨-, p, v, rfl, -⟩ := h
    rfl
  rw [k1, k3]
  refine Alike.bind (dabLoop_glass L hP ev x y fuel ⟨k2, hs, rfl, rfl, rfl⟩) ?_
  rintro ⟨b, surf, moved, todo, left, painted⟩ ⟨b', surf', moved', todo', left', painted'⟩ ⟨hb, h1, h2, h3, h4⟩
  dsimp only at hb h1 h2 h3 h4 ⊢
  subst h2 h3 h4
  rw [hb.step]
  refine Alike.bind (update_glass L hb _) ?_
  intro b1 b1' hc
  have hc' : Glassy n { b1 with st := { b1.st with partialDabs := moved' + todo' } }
      { b1' with st := { b1'.st with partialDabs := moved' + todo' } } := by
    obtain ⟨m, ⟨p, rfl, ha⟩, -⟩ := hc
    exact ⟨⟨m.1, m.2⟩, p, _, rfl, .inr (by rw [ha]; exact glassAngle_turns _)⟩
  exact .ok ⟨h1, splitStroke_glass hc' _ _ _ _ _ _ _ _⟩

theorem cursor_glass {e : Env K R σ} {b b' : Brush K R} (h : Glassy n b b') (x y dt : K) :
    (cursor e b' (n - x) y dt).1 = n - (cursor e b x y dt).1 ∧ (cursor e b' (n - x) y dt).2.1 = (cursor e b x y dt).2.1 ∧
      Glassy n (cursor e b x y dt).2.2 (cursor e b' (n - x) y dt).2.2 := by
  have h' := h
  obtain ⟨m, p, v, rfl, -⟩ := h
  have z : b.baseval sTrackingNoise = 0 := m.settings.steady
  have z' : (glassOver n p v b).baseval sTrackingNoise = 0 := z
  unfold cursor
  dsimp only
  rw [z, z']
  simp only [ne_eq, not_true_eq_false, false_and, if_false]
  exact ⟨glass_approach' _ _ _, rfl, h'⟩

theorem startOver_glass {e : Env K R σ} {b b' : Brush K R} (h : Glassy n b b') (x y p : K) :
    Alike (Glassy n) (startOver e b x y p) (startOver e b' (n - x) y p) := by
  obtain ⟨m, q, v, rfl, -⟩ := h
  unfold startOver brushReset
  simp only [bind_assoc]
  refine Alike.bind (P := Eq) (Alike.same (P := Eq) (resetBuckets b.buckets) fun _ _ => rfl) ?_
  rintro bk _ rfl
  refine .ok ⟨⟨m.1, ?_⟩, ⟨0, 0, 0, 0, q.idle, q.total⟩, v, ?_, .inl ?_⟩
  · show (0 : K) ≤ 1 / 1000
    norm_num
  · unfold glassOver glassState
    dsimp only [State.cleared]
    rw [neg_zero]
  · show (0 : K) ≤ 1
    norm_num

theorem strokeEvent_glass {e : Env K R σ} (L : GlassLaws e) {P : σ → σ → Prop} (hP : DrawsGlass e n P) {b b' : Brush K R}
    (h : Glassy n b b') (fuel : Nat) {surf surf' : σ} (hs : P surf surf') (ev : Event K) :
    Alike (ResGlass n P) (strokeEvent e fuel b surf ev) (strokeEvent e fuel b' surf' (glassEvent n ev)) := by
  have hr : b'.resetRequested = b.resetRequested ∧ b'.skip ≤ 1 / 1000 := by
    obtain ⟨m, p, v, rfl, -⟩ := h
    exact ⟨rfl, m.skip⟩
  unfold strokeEvent
  rw [show (glassEvent n ev).x = n - ev.x from rfl, show (glassEvent n ev).y = ev.y from rfl,
    show (glassEvent n ev).dtime = ev.dtime from rfl, show (glassEvent n ev).pressure = ev.pressure from rfl]
  dsimp only
  rw [skipStage_grow h.1.skip, skipStage_grow hr.2, hr.1]
  dsimp only
  simp only [Bool.false_eq_true, if_false]
  obtain ⟨c1, c2, c3⟩ := cursor_glass (e := e) h ev.x ev.y ev.dtime
  rw [c1, c2]
  by_cases hz : ev.dtime > 5 ∨ b.resetRequested = true
  · rw [if_pos hz, if_pos hz]
    refine Alike.bind (startOver_glass c3 _ _ _) ?_
    intro b1 b1' h1
    exact .ok ⟨hs, h1⟩
  · rw [if_neg hz, if_neg hz]
    exact moveTo_glass L hP c3 fuel hs ev _ _ _

theorem sanitise_glass {e : Env K R σ} {m : Motion K} (h : m.Near) (h' : (m.glass n).Near) :
    Alike (fun ev ev' => ev' = glassEvent n ev ∧ (workaroundMotion ev).Near ∧ ((workaroundMotion ev).glass n).Near)
      (sanitise e m) (sanitise e (m.glass n)) := by
  obtain ⟨mx, my, mp, mt, mt', md, mz, mr, mb, ml⟩ := m
  obtain ⟨hx, hy⟩ := h
  obtain ⟨hx', hy'⟩ := h'
  cases mx with
  | fin x =>
    cases my with
    | fin y =>
      dsimp only [Motion.glass, Flt.Near] at hx hy hx' hy'
      unfold sanitise Motion.glass
      dsimp only
      refine Alike.bind (Alike.same (P := Eq) _ fun _ _ => rfl) ?_
      rintro t _ rfl
      rw [sane_near hx, sane_near hy, sane_near hx']
      dsimp only
      have k : ∀ {x y : K}, |x| < 10 ^ 8 → |y| < 10 ^ 8 → x < 10 ^ 8 ∧ y < 10 ^ 8 ∧ x > -10 ^ 8 ∧ y > -10 ^ 8 := by
        intro x y hx hy
        rw [abs_lt] at hx hy
        exact ⟨hx.2, hy.2, hx.1, hy.1⟩
      rw [if_pos (k hx hy), if_pos (k hx' hy)]
      exact .ok ⟨rfl, ⟨hx, hy⟩, hx', hy⟩
    | _ => exact absurd hy (by simp [Flt.Near])
  | _ => exact absurd hx (by simp [Flt.Near])

theorem strokeTo_glass {e : Env K R σ} (L : GlassLaws e) {P : σ → σ → Prop} (hP : DrawsGlass e n P) {b b' : Brush K R}
    (h : Glassy n b b') (fuel : Nat) {surf surf' : σ} (hs : P surf surf') {m : Motion K} (hm : m.Near) (hm' : (m.glass n).Near) :
    Alike (ResGlass n P) (strokeTo e fuel b surf m) (strokeTo e fuel b' surf' (m.glass n)) := by
  unfold strokeTo
  have hp : b'.st.pressure = b.st.pressure := by
    obtain ⟨-, p, v, rfl, -⟩ := h
    rfl
  refine Alike.bind (sanitise_glass hm hm') ?_
  rintro ev _ ⟨rfl, n1, n2⟩
  rw [hp]
  by_cases hc : ev.dtime > 1 / 10 ∧ ev.pressure ≠ 0 ∧ b.st.pressure = 0
  · rw [if_pos hc, if_pos (show (glassEvent n ev).dtime > 1 / 10 ∧ (glassEvent n ev).pressure ≠ 0 ∧ b.st.pressure = 0 from hc)]
    refine Alike.bind (sanitise_glass n1 n2) ?_
    rintro i _ ⟨rfl, -, -⟩
    refine Alike.bind (strokeEvent_glass L hP h fuel hs i) ?_
    rintro r r' ⟨r1, r2⟩
    exact strokeEvent_glass L hP r2 fuel r1 { ev with dtime := 1 / 10000 }
  · rw [if_neg hc, if_neg (show ¬ ((glassEvent n ev).dtime > 1 / 10 ∧ (glassEvent n ev).pressure ≠ 0 ∧ b.st.pressure = 0) from hc)]
    exact strokeEvent_glass L hP h fuel hs ev

theorem strokes_glass {e : Env K R σ} (L : GlassLaws e) {P : σ → σ → Prop} (hP : DrawsGlass e n P) (fuel : Nat)
    (ms : List (Motion K)) : ∀ {b b' : Brush K R} {surf surf' : σ}, Glassy n b b' → P surf surf' →
      (∀ m ∈ ms, m.Near ∧ (m.glass n).Near) →
      Alike (fun r r' => P r.2 r'.2 ∧ Glassy n r.1 r'.1) (strokes e fuel b surf ms)
        (strokes e fuel b' surf' (ms.map (Motion.glass n))) := by
  induction ms with
  | nil => intro b b' surf surf' h hs _; exact .ok ⟨hs, h⟩
  | cons m ms ih =>
    intro b b' surf surf' h hs hm
    rw [List.map_cons]
    unfold strokes
    obtain ⟨m1, m2⟩ := hm m List.mem_cons_self
    refine Alike.bind (strokeTo_glass L hP h fuel hs m1 m2) ?_
    rintro r r' ⟨r1, r2⟩
    exact ih r2 r1 fun m q => hm m (List.mem_cons_of_mem _ q)

end
end Verif.Engine
