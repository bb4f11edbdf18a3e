import Verif.Lemmas.EngineTwin
import Verif.Spec.Angle
import Mathlib.Tactic.Ring

/-!
# A brush whose angle does not matter

Two runs of the engine that differ only in the setting for the angle of the dabs, where the angles are the same after all, or
all dabs are round and large.
-/

namespace Verif.Engine
open Verif.Mask Verif.Color Verif.Spectral Verif.Map Verif.Dab

section
variable {K R σ : Type} [Field K] [LinearOrder K] [IsStrictOrderedRing K] [FloorRing K]

/-- The surface does not see the angle of large round dabs. -/
def Dull (e : Env K R σ) : Prop :=
  ∀ s (a : Args K) α, a.aspect ≤ 1 → 3 ≤ a.radius → e.draw s { a with angle := α } = e.draw s a

/-- Another setting, value and state. -/
structure Spin (K : Type) where
  m : Mapping K
  w : K
  a : K

def spinVals (w : K) (v : Nat → K) : Nat → K := fun id => if id = sEllipticalDabAngle then w else v id

def spinBrush (p : Spin K) (b : Brush K R) : Brush K R :=
  { b with settings := turnSetting p.m b.settings, vals := spinVals p.w b.vals, st := { b.st with angle := p.a } }

/-- The angle does not matter. -/
structure Level (e : Env K R σ) (p : Spin K) (b : Brush K R) : Prop where
  zoom : usesInput (turnSetting p.m b.settings) iViewzoom = usesInput b.settings iViewzoom
  same : (HalfTurns (b.settings sEllipticalDabAngle) p.m ∧ p.a = b.st.angle) ∨
    (Dull e ∧ RoundBrush e b.settings ∧ b.st.ratio ≤ 1)

/-- Between steps. -/
def Spun (e : Env K R σ) (b b' : Brush K R) : Prop := ∃ p, Level e p b ∧ b' = spinBrush p b

/-- What holds after a step. -/
def Large (e : Env K R σ) (b : Brush K R) : Prop :=
  RoundBrush e b.settings → 3 ≤ b.st.actualRadius ∧ b.vals sRadiusByRandom = 0 ∧ b.vals sSnapToPixel ≤ 0

def SpunOn (e : Env K R σ) (b b' : Brush K R) : Prop := Spun e b b' ∧ Large e b

omit [IsStrictOrderedRing K] [FloorRing K] in
theorem settingValues_spin (m : Mapping K) (s : Load.Brush K) (i : Inputs K) :
    settingValues (turnSetting m s) i = spinVals (calculate m i.get) (settingValues s i) := by
  funext id
  unfold spinVals settingValues turnSetting
  by_cases h : id = sEllipticalDabAngle
  · rw [if_pos h, if_pos h]
  · rw [if_neg h, if_neg h]

theorem modArith_halves (a : K) (k : ℤ) : modArith (a + 180 * k) 180 = modArith a 180 := by
  unfold modArith
  have h : (a + 180 * (k : K)) / 180 = a / 180 + k := by ring
  rw [h, Int.floor_add_intCast]
  push_cast
  ring

omit [IsStrictOrderedRing K] [FloorRing K] in
theorem finalRadius_large [IsStrictOrderedRing K] {e : Env K R σ} {v : K} (h : 3 ≤ e.exp v) : 3 ≤ finalRadius e v := by
  unfold finalRadius
  dsimp only
  have h1 : ¬ e.exp v < 1 / 5 := by
    have : (1 / 5 : K) ≤ 3 := by norm_num
    linarith
  rw [if_neg h1]
  split_ifs with q
  · norm_num
  · exact h

theorem update_spin {e : Env K R σ} {b b' : Brush K R} (h : Spun e b b') (s : Step K) :
    Alike (SpunOn e) (update e b s) (update e b' s) := by
  obtain ⟨p, m, rfl⟩ := h
  have hm : moveStates e (spinBrush p b) s = { moveStates e b s with angle := p.a } := rfl
  have hi : inputsOf e (spinBrush p b) { moveStates e b s with angle := p.a } = inputsOf e b (moveStates e b s) := rfl
  unfold update
  dsimp only
  rw [show usesInput (spinBrush p b).settings iViewzoom = usesInput b.settings iViewzoom from m.zoom, hm, hi]
  by_cases hz : s.viewzoom ≤ 0 ∧ usesInput b.settings iViewzoom = true
  · rw [if_pos hz, if_pos hz]
    exact .error _
  · rw [if_neg hz, if_neg hz]
    rw [show (spinBrush p b).settings = turnSetting p.m b.settings from rfl, settingValues_spin]
    generalize hI : inputsOf e b (moveStates e b s) = I
    refine .ok ⟨⟨⟨p.m, calculate p.m I.get, modArith (calculate p.m I.get - (moveStates e b s).viewrotation + 180) 180 - 180⟩,
      ⟨m.zoom, ?_⟩, rfl⟩, ?_⟩
    · rcases m.same with ⟨h1, h2⟩ | ⟨h1, h2, h3⟩
      · refine .inl ⟨h1, ?_⟩
        obtain ⟨k, hk⟩ := h1 I.get
        show modArith (calculate p.m I.get - (moveStates e b s).viewrotation + 180) 180 - 180 =
          modArith (calculate (b.settings sEllipticalDabAngle) I.get - (moveStates e b s).viewrotation + 180) 180 - 180
        rw [hk, show calculate (b.settings sEllipticalDabAngle) I.get + 180 * (k : K) - (moveStates e b s).viewrotation + 180 =
          (calculate (b.settings sEllipticalDabAngle) I.get - (moveStates e b s).viewrotation + 180) + 180 * k by ring,
          modArith_halves]
      · exact .inr ⟨h1, h2, h2.ratio _⟩
    · intro hr
      exact ⟨finalRadius_large (hr.radius _), hr.random _, hr.snap _⟩

theorem dabPosition_spin {e : Env K R σ} {b b' : Brush K R} (h : SpunOn e b b') :
    Alike (fun r r' => r'.1 = r.1 ∧ r'.2.1 = r.2.1 ∧ SpunOn e r.2.2 r'.2.2) (dabPosition e b) (dabPosition e b') := by
  obtain ⟨⟨p, m, rfl⟩, hi⟩ := h
  have hd : ∀ r f, directionalOffsets e (spinBrush p b) r f = directionalOffsets e b r f := fun r f => rfl
  unfold dabPosition
  dsimp only
  rw [hd]
  by_cases hz : b.vals sOffsetBySpeed ≠ 0 ∧ b.st.viewzoom = 0
  · rw [if_pos hz, if_pos (show (spinBrush p b).vals sOffsetBySpeed ≠ 0 ∧ (spinBrush p b).st.viewzoom = 0 from hz)]
    exact .error _
  · rw [if_neg hz, if_neg (show ¬ ((spinBrush p b).vals sOffsetBySpeed ≠ 0 ∧ (spinBrush p b).st.viewzoom = 0) from hz)]
    by_cases hr : b.vals sOffsetByRandom ≠ 0
    · rw [if_pos hr, if_pos (show (spinBrush p b).vals sOffsetByRandom ≠ 0 from hr)]
      exact .ok ⟨rfl, rfl, ⟨p, ⟨m.zoom, m.same⟩, rfl⟩, hi⟩
    · rw [if_neg hr, if_neg (show ¬ (spinBrush p b).vals sOffsetByRandom ≠ 0 from hr)]
      exact .ok ⟨rfl, rfl, ⟨p, m, rfl⟩, hi⟩

omit [FloorRing K] in
theorem dabRadius_spin {e : Env K R σ} {b b' : Brush K R} (h : SpunOn e b b') (o : K) :
    (dabRadius e b' o).1 = (dabRadius e b o).1 ∧ (dabRadius e b' o).2.1 = (dabRadius e b o).2.1 ∧
      SpunOn e (dabRadius e b o).2.2 (dabRadius e b' o).2.2 ∧ (RoundBrush e b.settings → 3 ≤ (dabRadius e b o).1) ∧
      (dabRadius e b o).2.2.settings = b.settings := by
  obtain ⟨⟨p, m, rfl⟩, hi⟩ := h
  unfold dabRadius
  dsimp only
  by_cases hr : b.vals sRadiusByRandom ≠ 0
  · rw [if_pos hr, if_pos (show (spinBrush p b).vals sRadiusByRandom ≠ 0 from hr)]
    exact ⟨rfl, rfl, ⟨⟨p, ⟨m.zoom, m.same⟩, rfl⟩, hi⟩, fun q => absurd (hi q).2.1 hr, rfl⟩
  · rw [if_neg hr, if_neg (show ¬ (spinBrush p b).vals sRadiusByRandom ≠ 0 from hr)]
    exact ⟨rfl, rfl, ⟨⟨p, m, rfl⟩, hi⟩, fun q => (hi q).1, rfl⟩

omit [IsStrictOrderedRing K] in
theorem fetchSmudge_spin (p : Spin K) (b : Brush K R) :
    fetchSmudge (spinBrush p b) = ((fetchSmudge b).1, spinBrush p (fetchSmudge b).2) := by
  unfold fetchSmudge
  by_cases h : b.buckets.mem.isEmpty = true ∨ b.buckets.num = 0
  · rw [if_pos h, if_pos (show (spinBrush p b).buckets.mem.isEmpty = true ∨ (spinBrush p b).buckets.num = 0 from h)]
  · rw [if_neg h, if_neg (show ¬ ((spinBrush p b).buckets.mem.isEmpty = true ∨ (spinBrush p b).buckets.num = 0) from h)]
    rfl

omit [IsStrictOrderedRing K] [FloorRing K] in
theorem loadSmudge_spin (p : Spin K) (b : Brush K R) (o : Option Int) : loadSmudge (spinBrush p b) o = loadSmudge b o := by
  cases o <;> rfl

theorem smudgeStage_spin {e : Env K R σ} {b b' : Brush K R} (h : SpunOn e b b') (s : σ) (x y radius : K) :
    Alike (fun r r' => r'.1 = r.1 ∧ r'.2.2 = r.2.2 ∧ SpunOn e r.2.1 r'.2.1 ∧ r.2.1.settings = b.settings)
      (smudgeStage e b s x y radius) (smudgeStage e b' s x y radius) := by
  obtain ⟨⟨p, m, rfl⟩, hi⟩ := h
  unfold smudgeStage
  by_cases hc : b.vals sSmudgeLength < 1 ∧ (b.vals sSmudge ≠ 0 ∨ isConstant (b.settings sSmudge) = false)
  · rw [if_pos hc, if_pos (show (spinBrush p b).vals sSmudgeLength < 1 ∧
      ((spinBrush p b).vals sSmudge ≠ 0 ∨ isConstant ((spinBrush p b).settings sSmudge) = false) from hc)]
    dsimp only
    rw [fetchSmudge_spin]
    dsimp only
    rw [loadSmudge_spin]
    have hf := fetchSmudge_same b
    generalize fetchSmudge b = f at hf ⊢
    obtain ⟨o, fb⟩ := f
    dsimp only at hf ⊢
    have z1 := m.zoom
    have z2 := m.same
    have e1 : fb.settings = b.settings := by rw [hf]
    have e2 : fb.st = b.st := by rw [hf]
    have e3 : fb.vals = b.vals := by rw [hf]
    refine Alike.bind (Alike.same (P := Eq) _ fun _ _ => rfl) ?_
    rintro v _ rfl
    refine Alike.bind (Alike.same (P := Eq) _ fun _ _ => rfl) ?_
    rintro px _ rfl
    refine Alike.bind (Alike.same (P := Eq) _ fun _ _ => rfl) ?_
    rintro py _ rfl
    have hu : updateSmudge e (spinBrush p fb) s v px py radius = updateSmudge e fb s v px py radius := rfl
    rw [hu]
    generalize updateSmudge e fb s v px py radius = u
    have hl : ∀ b1 : Brush K R, b1.settings = fb.settings → b1.vals = fb.vals → b1.st.angle = fb.st.angle →
        b1.st.ratio = fb.st.ratio → b1.st.actualRadius = fb.st.actualRadius → Level e p b1 ∧ Large e b1 := by
      intro b1 k1 k2 k3 k4 k5
      refine ⟨⟨by rw [k1, e1]; exact z1, by rw [k1, k3, k4, e1, e2]; exact z2⟩, ?_⟩
      unfold Large
      rw [k1, k2, k5, e1, e2, e3]
      exact hi
    cases o with
    | none =>
      obtain ⟨q1, q2⟩ := hl { fb with st := { fb.st with smudge := u.2.1 }, mix := u.2.2.2 } rfl rfl rfl rfl rfl
      exact .ok ⟨rfl, rfl, ⟨⟨p, q1, rfl⟩, q2⟩, e1⟩
    | some o =>
      unfold storeSmudge
      dsimp only
      rw [show (spinBrush p fb).buckets = fb.buckets from rfl]
      cases writeBucket fb.buckets.mem o u.2.1 with
      | error f => exact .error f
      | ok mem =>
        obtain ⟨q1, q2⟩ := hl { fb with buckets := { fb.buckets with mem := mem }, mix := u.2.2.2 } rfl rfl rfl rfl rfl
        exact .ok ⟨rfl, rfl, ⟨⟨p, q1, rfl⟩, q2⟩, e1⟩
  · rw [if_neg hc, if_neg (show ¬ ((spinBrush p b).vals sSmudgeLength < 1 ∧
      ((spinBrush p b).vals sSmudge ≠ 0 ∨ isConstant ((spinBrush p b).settings sSmudge) = false)) from hc)]
    exact .ok ⟨rfl, rfl, ⟨⟨p, m, rfl⟩, hi⟩, rfl⟩

theorem smudgeColor_spin {e : Env K R σ} {b b' : Brush K R} (h : SpunOn e b b') (c : Rgb K) :
    Alike (fun r r' => r'.1 = r.1 ∧ r'.2.1 = r.2.1 ∧ SpunOn e r.2.2 r'.2.2 ∧ r.2.2.settings = b.settings)
      (smudgeColor e b c) (smudgeColor e b' c) := by
  obtain ⟨⟨p, m, rfl⟩, hi⟩ := h
  unfold smudgeColor
  by_cases hc : b.vals sSmudge > 0
  · rw [if_pos hc, if_pos (show (spinBrush p b).vals sSmudge > 0 from hc)]
    dsimp only
    rw [fetchSmudge_spin]
    dsimp only
    rw [loadSmudge_spin]
    have hf := fetchSmudge_same b
    generalize fetchSmudge b = f at hf ⊢
    obtain ⟨o, fb⟩ := f
    dsimp only at hf ⊢
    have z1 := m.zoom
    have z2 := m.same
    have e1 : fb.settings = b.settings := by rw [hf]
    have e2 : fb.st = b.st := by rw [hf]
    have e3 : fb.vals = b.vals := by rw [hf]
    refine Alike.bind (Alike.same (P := Eq) _ fun _ _ => rfl) ?_
    rintro v _ rfl
    have hu : applySmudge e (spinBrush p fb) v c = applySmudge e fb v c := rfl
    rw [hu]
    refine .ok ⟨rfl, rfl, ⟨⟨p, ⟨?_, ?_⟩, rfl⟩, ?_⟩, e1⟩
    · show usesInput (turnSetting p.m fb.settings) iViewzoom = usesInput fb.settings iViewzoom
      rw [e1]; exact z1
    · show (HalfTurns (fb.settings sEllipticalDabAngle) p.m ∧ p.a = fb.st.angle) ∨
        (Dull e ∧ RoundBrush e fb.settings ∧ fb.st.ratio ≤ 1)
      rw [e1, e2]; exact z2
    · show RoundBrush e fb.settings → 3 ≤ fb.st.actualRadius ∧ fb.vals sRadiusByRandom = 0 ∧ fb.vals sSnapToPixel ≤ 0
      rw [e1, e2, e3]; exact hi
  · rw [if_neg hc, if_neg (show ¬ (spinBrush p b).vals sSmudge > 0 from hc)]
    exact .ok ⟨rfl, rfl, ⟨⟨p, m, rfl⟩, hi⟩, rfl⟩

omit [FloorRing K] in
/-- Anti-aliasing never makes a dab smaller. -/
theorem antiAlias_grows (b : Brush K R) {h r : K} (h0 : 0 ≤ h) (hr : 0 < r) (h1 : h ≤ 1) : r ≤ (antiAlias b h r).2 := by
  unfold antiAlias
  dsimp only
  split_ifs with q
  · generalize b.vals sAntiAliasing = f at q ⊢
    have hf : 0 < f := lt_of_le_of_lt (mul_nonneg hr.le (by linarith)) q
    have hO : 0 < r - (1 - h) * r / 2 := by nlinarith
    set o := r - (1 - h) * r / 2 with ho
    have hp : 0 < o + f / 2 := by linarith
    have e1 : 1 - (o - f / 2) / (o + f / 2) = f / (o + f / 2) := by field_simp; ring
    dsimp only
    rw [e1, div_div_eq_mul_div, mul_comm f, mul_div_assoc, div_self hf.ne', mul_one, ho]
    linarith
  · exact le_refl _

theorem drawDab_spin {e : Env K R σ} {b b' : Brush K R} (h : SpunOn e b b') (s : σ) (lin : Bool) :
    Alike (fun r r' => r'.1 = r.1 ∧ r'.2.2 = r.2.2 ∧ SpunOn e r.2.1 r'.2.1) (drawDab e b s lin) (drawDab e b' s lin) := by
  have ho : dabOpacity e b' = dabOpacity e b := by
    obtain ⟨⟨p, -, rfl⟩, -⟩ := h
    rfl
  have hcol : ∀ id, b'.baseval id = b.baseval id ∨ id = sEllipticalDabAngle := by
    obtain ⟨⟨p, -, rfl⟩, -⟩ := h
    intro id
    by_cases q : id = sEllipticalDabAngle
    · exact .inr q
    · left
      show (turnSetting p.m b.settings id).base = (b.settings id).base
      unfold turnSetting
      rw [if_neg q]
  unfold drawDab
  rw [ho, (hcol sColorH).resolve_right (by decide), (hcol sColorS).resolve_right (by decide),
    (hcol sColorV).resolve_right (by decide)]
  refine Alike.bind (Alike.same (P := Eq) _ fun _ _ => rfl) ?_
  rintro o _ rfl
  refine Alike.bind (dabPosition_spin h) ?_
  rintro ⟨x, y, b1⟩ ⟨x', y', b1'⟩ ⟨h1, h2, h3⟩
  dsimp only at h1 h2 h3 ⊢
  subst h1 h2
  obtain ⟨r1, r2, r3, r4, r5⟩ := dabRadius_spin (e := e) h3 o
  rw [r1, r2]
  refine Alike.bind (smudgeStage_spin r3 s _ _ _) ?_
  rintro ⟨st, b2, s2⟩ ⟨st', b2', s2'⟩ ⟨h4, h5, h6, k6⟩
  dsimp only at h4 h5 h6 k6 ⊢
  subst h4 h5
  by_cases hst : st' = true
  · rw [if_pos hst, if_pos hst]
    exact .ok ⟨rfl, rfl, h6⟩
  rw [if_neg hst, if_neg hst]
  refine Alike.bind (smudgeColor_spin h6 _) ?_
  rintro ⟨t, c, b3⟩ ⟨t', c', b3'⟩ ⟨h7, h8, h9, k9⟩
  dsimp only at h7 h8 h9 k9 ⊢
  subst h7 h8
  have hd : e.draw s2' (dabArgs e b3' lin x' y' (dabRadius e b1 o).1 (dabRadius e b1 o).2.1 t' c') =
      e.draw s2' (dabArgs e b3 lin x' y' (dabRadius e b1 o).1 (dabRadius e b1 o).2.1 t' c') := by
    obtain ⟨⟨p, m, rfl⟩, hL⟩ := h9
    have ha : ∀ x y r o t c, dabArgs e (spinBrush p b3) lin x y r o t c =
        { dabArgs e b3 lin x y r o t c with angle := p.a } := by
      intros; rfl
    rw [ha]
    rcases m.same with ⟨-, q⟩ | ⟨q1, q2, q3⟩
    · rw [q]; rfl
    · refine q1 _ _ _ q3 ?_
      have g := r4 (by rw [← r5, ← k6, ← k9]; exact q2)
      obtain ⟨-, -, g3⟩ := hL q2
      show 3 ≤ (snap b3 x' y' (antiAlias b3 (clampK (b3.vals sHardness) 0 1) (dabRadius e b1 o).1).2).2.2
      unfold snap
      dsimp only
      rw [if_neg (not_lt.mpr g3)]
      have c1 : 0 ≤ clampK (b3.vals sHardness) 0 1 ∧ clampK (b3.vals sHardness) 0 1 ≤ 1 := by
        unfold clampK
        split_ifs with a1 a2
        · exact ⟨zero_le_one, le_refl _⟩
        · exact ⟨le_refl _, zero_le_one⟩
        · exact ⟨not_lt.mp a2, not_lt.mp a1⟩
      exact g.trans (antiAlias_grows b3 c1.1 (by linarith) c1.2)
  rw [hd]
  exact .ok ⟨rfl, rfl, h9⟩

/-! ### Sessions -/

omit [FloorRing K] in
theorem countDabs_spin {e : Env K R σ} {b b' : Brush K R} (h : Spun e b b') (x y dt : K) :
    (countDabs e b' x y dt).1 = (countDabs e b x y dt).1 ∧ Spun e (countDabs e b x y dt).2 (countDabs e b' x y dt).2 := by
  obtain ⟨p, m, rfl⟩ := h
  have z := m.same
  have key : countDabs e (spinBrush p b) x y dt = ((countDabs e b x y dt).1, spinBrush p (countDabs e b x y dt).2) := by
    unfold countDabs
    dsimp only
    by_cases q : b.st.actualRadius = 0
    · rw [if_pos q, if_pos (show (spinBrush p b).st.actualRadius = 0 from q)]
      dsimp only
      rcases z with ⟨-, hz⟩ | ⟨-, -, hz⟩
      · rw [show (spinBrush p b).st = b.st by show { b.st with angle := p.a } = b.st; rw [hz]]
        simp only [spinBrush, hz]
        rfl
      · rw [if_neg (not_lt.mpr hz), if_neg (show ¬ (spinBrush p b).st.ratio > 1 from not_lt.mpr hz)]
        rfl
    · rw [if_neg q, if_neg (show ¬ (spinBrush p b).st.actualRadius = 0 from q)]
      rcases z with ⟨-, hz⟩ | ⟨-, -, hz⟩
      · rw [show (spinBrush p b).st = b.st by show { b.st with angle := p.a } = b.st; rw [hz]]
        simp only [spinBrush, hz]
        rfl
      · rw [if_neg (not_lt.mpr hz), if_neg (show ¬ (spinBrush p b).st.ratio > 1 from not_lt.mpr hz)]
        rfl
  rw [key]
  refine ⟨rfl, p, ?_, rfl⟩
  have hs : (countDabs e b x y dt).2.settings = b.settings ∧ (countDabs e b x y dt).2.st.angle = b.st.angle ∧
      (countDabs e b x y dt).2.st.ratio = b.st.ratio := by
    unfold countDabs
    dsimp only
    split_ifs <;> exact ⟨rfl, rfl, rfl⟩
  obtain ⟨s1, s2, s3⟩ := hs
  exact ⟨by rw [s1]; exact m.zoom, by rw [s1, s2, s3]; exact z⟩

structure LoopSpun (e : Env K R σ) (l l' : Loop K R σ) : Prop where
  b : Spun e l.b l'.b
  surf : l'.surf = l.surf
  moved : l'.moved = l.moved
  todo : l'.todo = l.todo
  left : l'.dtimeLeft = l.dtimeLeft
  painted : l'.painted = l.painted

omit [FloorRing K] in
theorem SpunOn.flip {e : Env K R σ} {b b' : Brush K R} (h : SpunOn e b b') :
    SpunOn e { b with st := { b.st with flip := b.st.flip * -1 } } { b' with st := { b'.st with flip := b'.st.flip * -1 } } := by
  obtain ⟨⟨p, m, rfl⟩, hi⟩ := h
  exact ⟨⟨p, ⟨m.zoom, m.same⟩, rfl⟩, hi⟩

omit [FloorRing K] in
theorem SpunOn.next {e : Env K R σ} {b b' : Brush K R} (h : SpunOn e b b') :
    Spun e { b with random := (e.next b.rng).1, rng := (e.next b.rng).2 }
      { b' with random := (e.next b'.rng).1, rng := (e.next b'.rng).2 } := by
  obtain ⟨⟨p, m, rfl⟩, hi⟩ := h
  exact ⟨p, ⟨m.zoom, m.same⟩, rfl⟩

theorem Spun.step {e : Env K R σ} {b b' : Brush K R} (h : Spun e b b') (ev : Event K) (x y d f t : K) :
    stepTo b'.st ev x y d f t = stepTo b.st ev x y d f t := by
  obtain ⟨p, -, rfl⟩ := h
  rfl

theorem dabStep_spin {e : Env K R σ} {l l' : Loop K R σ} (h : LoopSpun e l l')
    (ev : Event K) (x y : K) : Alike (LoopSpun e) (dabStep e ev x y l) (dabStep e ev x y l') := by
  obtain ⟨b, surf, moved, todo, left, painted⟩ := l
  obtain ⟨b', surf', moved', todo', left', painted'⟩ := l'
  obtain ⟨hb, h1, h2, h3, h4, h5⟩ := h
  dsimp only at hb h1 h2 h3 h4 h5
  subst h1 h2 h3 h4 h5
  unfold dabStep
  dsimp only
  by_cases hz : todo' = 0
  · rw [if_pos hz, if_pos hz]; exact .error _
  · rw [if_neg hz, if_neg hz]
    rw [hb.step ev x y (if moved' > 0 then 1 - moved' else 1) ((if moved' > 0 then 1 - moved' else 1) / todo') left']
    refine Alike.bind (update_spin hb _) ?_
    intro b1 b1' hc
    refine Alike.bind (drawDab_spin hc.flip _ _) ?_
    rintro ⟨d, b2, s2⟩ ⟨d', b2', s2'⟩ ⟨g1, g2, g3⟩
    dsimp only at g1 g2 g3 ⊢
    subst g1 g2
    obtain ⟨k1, k2⟩ := countDabs_spin (e := e) (g3.next (e := e)) x y
      (left' - (stepTo b.st ev x y (if moved' > 0 then 1 - moved' else 1)
        ((if moved' > 0 then 1 - moved' else 1) / todo') left').dtime)
    exact .ok ⟨k2, rfl, rfl, k1, rfl, rfl⟩

theorem dabLoop_spin {e : Env K R σ} (ev : Event K) (x y : K) (fuel : Nat) :
    ∀ {l l' : Loop K R σ}, LoopSpun e l l' →
      Alike (LoopSpun e) (dabLoop e ev x y fuel l) (dabLoop e ev x y fuel l') := by
  induction fuel with
  | zero =>
    intro l l' h
    unfold dabLoop
    rw [h.moved, h.todo]
    by_cases hc : l.moved + l.todo ≥ 1
    · rw [if_pos hc, if_pos hc]; exact .error _
    · rw [if_neg hc, if_neg hc]; exact .ok h
  | succ fuel ih =>
    intro l l' h
    unfold dabLoop
    rw [h.moved, h.todo]
    by_cases hc : l.moved + l.todo ≥ 1
    · rw [if_pos hc, if_pos hc]
      exact Alike.bind (dabStep_spin h ev x y) fun a a' ha => ih ha
    · rw [if_neg hc, if_neg hc]; exact .ok h

/-- The results of an event. -/
def ResSpun (e : Env K R σ) (r r' : Bool × Brush K R × σ) : Prop := r'.1 = r.1 ∧ r'.2.2 = r.2.2 ∧ Spun e r.2.1 r'.2.1

omit [FloorRing K] in
theorem splitStroke_spin {e : Env K R σ} {b b' : Brush K R} (h : Spun e b b') (p : Painted) (dt pr dp : K) :
    Spun e (splitStroke b p dt pr dp).2 (splitStroke b' p dt pr dp).2 ∧
      (splitStroke b' p dt pr dp).1 = (splitStroke b p dt pr dp).1 := by
  obtain ⟨q, m, rfl⟩ := h
  have e2 : splitStroke (spinBrush q b) p dt pr dp =
      ((splitStroke b p dt pr dp).1, spinBrush q (splitStroke b p dt pr dp).2) := by
    unfold splitStroke
    dsimp only
    by_cases hp : (if p = .unknown then (if b.idle > 0 ∨ b.total = 0 then Painted.no else .yes) else p) = .yes
    · rw [if_pos hp, if_pos (show (if p = .unknown then (if (spinBrush q b).idle > 0 ∨
        (spinBrush q b).total = 0 then Painted.no else .yes) else p) = .yes from hp)]
      rfl
    · rw [if_neg hp, if_neg (show ¬ (if p = .unknown then (if (spinBrush q b).idle > 0 ∨
        (spinBrush q b).total = 0 then Painted.no else .yes) else p) = .yes from hp)]
      by_cases hz : b.total = 0
      · rw [if_pos hz, if_pos (show (spinBrush q b).total = 0 from hz)]
        rfl
      · rw [if_neg hz, if_neg (show ¬ (spinBrush q b).total = 0 from hz)]
        rfl
  rw [e2]
  obtain ⟨t, i, ht⟩ := splitStroke_same b p dt pr dp
  rw [ht]
  exact ⟨⟨q, ⟨m.zoom, m.same⟩, rfl⟩, rfl⟩

theorem moveTo_spin {e : Env K R σ} {b b' : Brush K R} (h : Spun e b b') (fuel : Nat)
    (s : σ) (ev : Event K) (x y dt : K) :
    Alike (ResSpun e) (moveTo e fuel b s ev x y dt) (moveTo e fuel b' s ev x y dt) := by
  unfold moveTo
  dsimp only
  obtain ⟨k1, k2⟩ := countDabs_spin (e := e) h x y dt
  have k3 : b'.st.partialDabs = b.st.partialDabs := by
    obtain ⟨p, -, rfl⟩ := h
    rfl
  rw [k1, k3]
  refine Alike.bind (dabLoop_spin (e := e) ev x y fuel ⟨k2, rfl, rfl, rfl, rfl, rfl⟩) ?_
  rintro ⟨b, surf, moved, todo, left, painted⟩ ⟨b', surf', moved', todo', left', painted'⟩ ⟨hb, h1, h2, h3, h4, h5⟩
  dsimp only at hb h1 h2 h3 h4 h5 ⊢
  subst h1 h2 h3 h4 h5
  rw [hb.step ev x y todo' 1 left']
  refine Alike.bind (update_spin hb _) ?_
  intro b1 b1' hc
  have hc' : Spun e { b1 with st := { b1.st with partialDabs := moved' + todo' } }
      { b1' with st := { b1'.st with partialDabs := moved' + todo' } } := by
    obtain ⟨⟨p, m, rfl⟩, hi⟩ := hc
    exact ⟨p, ⟨m.zoom, m.same⟩, rfl⟩
  obtain ⟨s1, s2⟩ := splitStroke_spin hc' painted' dt ev.pressure (stepTo b.st ev x y todo' 1 left').dpressure
  exact .ok ⟨s2, rfl, s1⟩

omit [FloorRing K] in
theorem skipStage_spin {e : Env K R σ} {b b' : Brush K R} (h : Spun e b b') (x y dt : K) :
    (skipStage e b' x y dt).2 = (skipStage e b x y dt).2 ∧ Spun e (skipStage e b x y dt).1 (skipStage e b' x y dt).1 := by
  have h' := h
  obtain ⟨p, m, rfl⟩ := h
  unfold skipStage
  dsimp only
  by_cases h1 : b.skip > 1 / 1000
  · rw [if_pos h1, if_pos (show (spinBrush p b).skip > 1 / 1000 from h1)]
    by_cases h2 : b.skip - hypot e (b.skipX - x) (b.skipY - y) > 1 / 1000 ∧
        ¬ (b.skippedTime + dt > 5 ∨ b.resetRequested = true)
    · rw [if_pos h2, if_pos (show (spinBrush p b).skip -
        hypot e ((spinBrush p b).skipX - x) ((spinBrush p b).skipY - y) > 1 / 1000 ∧
        ¬ ((spinBrush p b).skippedTime + dt > 5 ∨ (spinBrush p b).resetRequested = true) from h2)]
      exact ⟨rfl, p, ⟨m.zoom, m.same⟩, rfl⟩
    · rw [if_neg h2, if_neg (show ¬ ((spinBrush p b).skip -
        hypot e ((spinBrush p b).skipX - x) ((spinBrush p b).skipY - y) > 1 / 1000 ∧
        ¬ ((spinBrush p b).skippedTime + dt > 5 ∨ (spinBrush p b).resetRequested = true)) from h2)]
      exact ⟨rfl, p, ⟨m.zoom, m.same⟩, rfl⟩
  · rw [if_neg h1, if_neg (show ¬ (spinBrush p b).skip > 1 / 1000 from h1)]
    exact ⟨rfl, h'⟩

omit [FloorRing K] in
theorem cursor_spin {e : Env K R σ} {b b' : Brush K R} (h : Spun e b b') (x y dt : K) :
    (cursor e b' x y dt).1 = (cursor e b x y dt).1 ∧ (cursor e b' x y dt).2.1 = (cursor e b x y dt).2.1 ∧
      Spun e (cursor e b x y dt).2.2 (cursor e b' x y dt).2.2 := by
  have h' := h
  obtain ⟨p, m, rfl⟩ := h
  unfold cursor
  dsimp only
  by_cases z : b.baseval sTrackingNoise ≠ 0 ∧ e.exp (b.baseval sRadiusLogarithmic) * b.baseval sTrackingNoise > 1 / 1000
  · rw [if_pos z, if_pos (show (spinBrush p b).baseval sTrackingNoise ≠ 0 ∧
      e.exp ((spinBrush p b).baseval sRadiusLogarithmic) * (spinBrush p b).baseval sTrackingNoise > 1 / 1000 from z)]
    exact ⟨rfl, rfl, p, ⟨m.zoom, m.same⟩, rfl⟩
  · rw [if_neg z, if_neg (show ¬ ((spinBrush p b).baseval sTrackingNoise ≠ 0 ∧
      e.exp ((spinBrush p b).baseval sRadiusLogarithmic) * (spinBrush p b).baseval sTrackingNoise > 1 / 1000) from z)]
    exact ⟨rfl, rfl, h'⟩

omit [FloorRing K] in
theorem startOver_spin {e : Env K R σ} {b b' : Brush K R} (h : Spun e b b') (x y p : K) :
    Alike (Spun e) (startOver e b x y p) (startOver e b' x y p) := by
  obtain ⟨q, m, rfl⟩ := h
  unfold startOver brushReset
  simp only [bind_assoc]
  refine Alike.bind (P := Eq) (Alike.same (P := Eq) (resetBuckets b.buckets) fun _ _ => rfl) ?_
  rintro bk _ rfl
  refine .ok ⟨{ q with a := (State.cleared (K := K)).angle }, ⟨m.zoom, ?_⟩, rfl⟩
  rcases m.same with ⟨h1, -⟩ | ⟨h1, h2, -⟩
  · exact .inl ⟨h1, rfl⟩
  · exact .inr ⟨h1, h2, (zero_le_one : (0 : K) ≤ 1)⟩

theorem strokeEvent_spin {e : Env K R σ} {b b' : Brush K R} (h : Spun e b b') (fuel : Nat) (s : σ) (ev : Event K) :
    Alike (ResSpun e) (strokeEvent e fuel b s ev) (strokeEvent e fuel b' s ev) := by
  unfold strokeEvent
  dsimp only
  obtain ⟨k1, k2⟩ := skipStage_spin (e := e) h ev.x ev.y ev.dtime
  have hr : b'.resetRequested = b.resetRequested := by
    obtain ⟨p, -, rfl⟩ := h
    rfl
  rw [k1, hr]
  generalize skipStage e b ev.x ev.y ev.dtime = sk at k2 ⊢
  generalize (skipStage e b' ev.x ev.y ev.dtime).1 = sb' at k2 ⊢
  by_cases hk : sk.2.2 = true
  · rw [if_pos hk, if_pos hk]
    exact .ok ⟨rfl, rfl, k2⟩
  · rw [if_neg hk, if_neg hk]
    obtain ⟨c1, c2, c3⟩ := cursor_spin (e := e) k2 ev.x ev.y sk.2.1
    rw [c1, c2]
    by_cases hz : sk.2.1 > 5 ∨ b.resetRequested = true
    · rw [if_pos hz, if_pos hz]
      refine Alike.bind (startOver_spin c3 _ _ _) ?_
      intro b1 b1' h1
      exact .ok ⟨rfl, rfl, h1⟩
    · rw [if_neg hz, if_neg hz]
      exact moveTo_spin c3 fuel s ev _ _ _

theorem strokeTo_spin {e : Env K R σ} {b b' : Brush K R} (h : Spun e b b') (fuel : Nat) (s : σ) (m : Motion K) :
    Alike (ResSpun e) (strokeTo e fuel b s m) (strokeTo e fuel b' s m) := by
  unfold strokeTo
  have hp : b'.st.pressure = b.st.pressure := by
    obtain ⟨p, -, rfl⟩ := h
    rfl
  refine Alike.bind (Alike.same (P := Eq) _ fun _ _ => rfl) ?_
  rintro ev _ rfl
  rw [hp]
  by_cases hc : ev.dtime > 1 / 10 ∧ ev.pressure ≠ 0 ∧ b.st.pressure = 0
  · rw [if_pos hc, if_pos hc]
    refine Alike.bind (Alike.same (P := Eq) _ fun _ _ => rfl) ?_
    rintro i _ rfl
    refine Alike.bind (strokeEvent_spin h fuel s i) ?_
    rintro ⟨t, b1, s1⟩ ⟨t', b1', s1'⟩ ⟨-, r1, r2⟩
    dsimp only at r1 r2 ⊢
    subst r1
    exact strokeEvent_spin r2 fuel _ _
  · rw [if_neg hc, if_neg hc]
    exact strokeEvent_spin h fuel s ev

theorem strokes_spin {e : Env K R σ} (fuel : Nat) (ms : List (Motion K)) :
    ∀ {b b' : Brush K R} (s : σ), Spun e b b' →
      Alike (fun r r' => r'.2 = r.2 ∧ Spun e r.1 r'.1) (strokes e fuel b s ms) (strokes e fuel b' s ms) := by
  induction ms with
  | nil => intro b b' s h; exact .ok ⟨rfl, h⟩
  | cons m ms ih =>
    intro b b' s h
    unfold strokes
    refine Alike.bind (strokeTo_spin h fuel s m) ?_
    rintro ⟨t, b1, s1⟩ ⟨t', b1', s1'⟩ ⟨-, r1, r2⟩
    dsimp only at r1 r2 ⊢
    subst r1
    exact ih _ r2

end
end Verif.Engine
