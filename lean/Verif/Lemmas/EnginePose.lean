import Verif.Lemmas.EngineTwin
import Verif.Spec.Pose
import Verif.Props.C61_Smudge
import Mathlib.Tactic.Ring

/-!
# A brush that does not use the tilt or the rotation of the pen

Two runs of the engine that differ only in how the pen is held.
-/

namespace Verif.Engine
open Verif.Mask Verif.Color Verif.Spectral Verif.Map

section
variable {K R σ : Type} [Field K] [LinearOrder K] [IsStrictOrderedRing K] [FloorRing K]

/-- How the pen is held. -/
structure Pose (K : Type) where
  dec : K
  asc : K
  decX : K
  decY : K
  barrel : K

def poseState (p : Pose K) (st : State K) : State K :=
  { st with declination := p.dec, ascension := p.asc, declinationX := p.decX, declinationY := p.decY
            barrelRotation := p.barrel }

def poseBrush (p : Pose K) (b : Brush K R) : Brush K R := { b with st := poseState p b.st }

def poseStep (p : Pose K) (s : Step K) : Step K :=
  { s with declination := p.dec, ascension := p.asc, declinationX := p.decX, declinationY := p.decY
           barrelRotation := p.barrel }

def poseEvent (p : Pose K) (ev : Event K) : Event K :=
  { ev with declination := p.dec, ascension := p.asc, declinationX := p.decX, declinationY := p.decY
            barrel := p.barrel }

/-- Between steps. -/
def Posed (b b' : Brush K R) : Prop := IgnoresPose b.settings ∧ ∃ p, b' = poseBrush p b

/-- After a step. -/
def PosedOn (b b' : Brush K R) : Prop := Posed b b' ∧ ∃ i, b.vals = fun id => calculate (b.settings id) i

omit [IsStrictOrderedRing K] [FloorRing K] in
theorem posed_iff {b b' : Brush K R} : Posed b b' ↔ IgnoresPose b.settings ∧ SameBrush b b' := by
  constructor
  · rintro ⟨h, p, rfl⟩
    exact ⟨h, _, _, _, _, _, rfl⟩
  · rintro ⟨h, d, a, x, y, r, rfl⟩
    exact ⟨h, ⟨d, a, x, y, r⟩, rfl⟩

omit [IsStrictOrderedRing K] [FloorRing K] in
/-- A curve that is not there does not matter. -/
theorem calculate_pose {s : Load.Brush K} (h : IgnoresPose s) (id : Nat) {i j : Nat → K}
    (hij : ∀ k, k ∉ poseInputs → i k = j k) : calculate (s id) i = calculate (s id) j := by
  unfold calculate
  by_cases hu : (s id).used = 0
  · rw [if_pos hu, if_pos hu]
  · rw [if_neg hu, if_neg hu]
    congr 1
    funext r k
    by_cases hk : k ∈ poseInputs
    · simp only [h.curves id k hk, ne_eq, not_true_eq_false, if_false]
    · rw [hij k hk]

omit [IsStrictOrderedRing K] in
theorem moveStates_pose (e : Env K R σ) (b : Brush K R) (p q : Pose K) (s : Step K) :
    ∃ p', moveStates e (poseBrush p b) (poseStep q s) = poseState p' (moveStates e b s) :=
  ⟨⟨p.dec + q.dec, p.asc + q.asc, p.decX + q.decX, p.decY + q.decY, p.barrel + q.barrel⟩, rfl⟩

omit [IsStrictOrderedRing K] in
theorem update_pose {e : Env K R σ} {b b' : Brush K R} (h : Posed b b') (q : Pose K) (s : Step K) :
    Alike PosedOn (update e b s) (update e b' (poseStep q s)) := by
  obtain ⟨m, p, rfl⟩ := h
  obtain ⟨p', hm⟩ := moveStates_pose e b p q s
  have key : settingValues b.settings (inputsOf e (poseBrush p b) (poseState p' (moveStates e b s))) =
      settingValues b.settings (inputsOf e b (moveStates e b s)) := by
    funext id
    refine calculate_pose m id (fun k hk => ?_)
    simp only [poseInputs, List.mem_cons, List.not_mem_nil, or_false, not_or] at hk
    obtain ⟨k1, k2, k3, k4, k5, k6⟩ := hk
    unfold Inputs.get
    simp only [k1, k2, k3, k4, k5, k6, if_false]
    rfl
  unfold update
  dsimp only
  by_cases hz : s.viewzoom ≤ 0 ∧ usesInput b.settings iViewzoom = true
  · rw [if_pos hz, if_pos (show (poseStep q s).viewzoom ≤ 0 ∧ usesInput (poseBrush p b).settings iViewzoom = true from hz)]
    exact .error _
  · rw [if_neg hz, if_neg (show ¬ ((poseStep q s).viewzoom ≤ 0 ∧
      usesInput (poseBrush p b).settings iViewzoom = true) from hz)]
    rw [hm, show (poseBrush p b).settings = b.settings from rfl, key]
    exact .ok ⟨⟨m, p', rfl⟩, _, rfl⟩

theorem directionalOffsets_pose (e : Env K R σ) {b : Brush K R} (m : IgnoresPose b.settings) {i : Nat → K}
    (hi : b.vals = fun id => calculate (b.settings id) i) (p : Pose K) (r f : K) :
    directionalOffsets e (poseBrush p b) r f = directionalOffsets e b r f := by
  have h1 : b.vals sOffsetAngleAsc = 0 := by
    rw [hi]
    exact (calculate_constant m.offset.1 i).trans m.offset.2
  have h2 : maxC 0 (b.vals sOffsetAngle2Asc) = 0 := by
    rw [hi]
    have : calculate (b.settings sOffsetAngle2Asc) i ≤ 0 := (calculate_constant m.mirrored.1 i).trans_le m.mirrored.2
    unfold maxC
    dsimp only
    split_ifs with q
    · rfl
    · first | exact le_antisymm this (not_lt.mp q) | exact le_antisymm this (le_of_lt (not_le.mp q)) | exact absurd this (not_le.mpr (by simpa using q))
  unfold directionalOffsets
  dsimp only [poseBrush, poseState]
  rw [h1, h2]
  simp only [mul_zero, add_zero]

theorem dabPosition_pose {e : Env K R σ} {b b' : Brush K R} (h : PosedOn b b') :
    Alike (fun r r' => r'.1 = r.1 ∧ r'.2.1 = r.2.1 ∧ PosedOn r.2.2 r'.2.2) (dabPosition e b) (dabPosition e b') := by
  obtain ⟨⟨m, p, rfl⟩, i, hi⟩ := h
  unfold dabPosition
  dsimp only
  rw [directionalOffsets_pose e m hi]
  by_cases hz : b.vals sOffsetBySpeed ≠ 0 ∧ b.st.viewzoom = 0
  · rw [if_pos hz, if_pos (show (poseBrush p b).vals sOffsetBySpeed ≠ 0 ∧ (poseBrush p b).st.viewzoom = 0 from hz)]
    exact .error _
  · rw [if_neg hz, if_neg (show ¬ ((poseBrush p b).vals sOffsetBySpeed ≠ 0 ∧ (poseBrush p b).st.viewzoom = 0) from hz)]
    by_cases hr : b.vals sOffsetByRandom ≠ 0
    · rw [if_pos hr, if_pos (show (poseBrush p b).vals sOffsetByRandom ≠ 0 from hr)]
      exact .ok ⟨rfl, rfl, ⟨m, p, rfl⟩, i, hi⟩
    · rw [if_neg hr, if_neg (show ¬ (poseBrush p b).vals sOffsetByRandom ≠ 0 from hr)]
      exact .ok ⟨rfl, rfl, ⟨m, p, rfl⟩, i, hi⟩

omit [IsStrictOrderedRing K] [FloorRing K] in
theorem dabRadius_pose {e : Env K R σ} {b b' : Brush K R} (h : PosedOn b b') (o : K) :
    (dabRadius e b' o).1 = (dabRadius e b o).1 ∧ (dabRadius e b' o).2.1 = (dabRadius e b o).2.1 ∧
      PosedOn (dabRadius e b o).2.2 (dabRadius e b' o).2.2 := by
  obtain ⟨⟨m, p, rfl⟩, i, hi⟩ := h
  unfold dabRadius
  dsimp only
  by_cases hr : b.vals sRadiusByRandom ≠ 0
  · rw [if_pos hr, if_pos (show (poseBrush p b).vals sRadiusByRandom ≠ 0 from hr)]
    exact ⟨rfl, rfl, ⟨m, p, rfl⟩, i, hi⟩
  · rw [if_neg hr, if_neg (show ¬ (poseBrush p b).vals sRadiusByRandom ≠ 0 from hr)]
    exact ⟨rfl, rfl, ⟨m, p, rfl⟩, i, hi⟩

omit [IsStrictOrderedRing K] in
theorem fetchSmudge_pose (p : Pose K) (b : Brush K R) :
    fetchSmudge (poseBrush p b) = ((fetchSmudge b).1, poseBrush p (fetchSmudge b).2) := by
  unfold fetchSmudge
  by_cases h : b.buckets.mem.isEmpty = true ∨ b.buckets.num = 0
  · rw [if_pos h, if_pos (show (poseBrush p b).buckets.mem.isEmpty = true ∨ (poseBrush p b).buckets.num = 0 from h)]
  · rw [if_neg h, if_neg (show ¬ ((poseBrush p b).buckets.mem.isEmpty = true ∨ (poseBrush p b).buckets.num = 0) from h)]
    rfl

omit [IsStrictOrderedRing K] [FloorRing K] in
theorem loadSmudge_pose (p : Pose K) (b : Brush K R) (o : Option Int) : loadSmudge (poseBrush p b) o = loadSmudge b o := by
  cases o <;> rfl

theorem smudgeStage_pose {e : Env K R σ} {b b' : Brush K R} (h : PosedOn b b') (surf : σ) (x y radius : K) :
    Alike (fun r r' => r'.1 = r.1 ∧ r'.2.2 = r.2.2 ∧ PosedOn r.2.1 r'.2.1) (smudgeStage e b surf x y radius)
      (smudgeStage e b' surf x y radius) := by
  obtain ⟨⟨m, p, rfl⟩, i, hi⟩ := h
  unfold smudgeStage
  by_cases hc : b.vals sSmudgeLength < 1 ∧ (b.vals sSmudge ≠ 0 ∨ isConstant (b.settings sSmudge) = false)
  · rw [if_pos hc, if_pos (show (poseBrush p b).vals sSmudgeLength < 1 ∧
      ((poseBrush p b).vals sSmudge ≠ 0 ∨ isConstant ((poseBrush p b).settings sSmudge) = false) from hc)]
    dsimp only
    rw [fetchSmudge_pose]
    dsimp only
    rw [loadSmudge_pose]
    have hf := fetchSmudge_same b
    generalize fetchSmudge b = f at hf ⊢
    obtain ⟨o, fb⟩ := f
    dsimp only at hf ⊢
    have m' : IgnoresPose fb.settings := by rw [hf]; exact m
    have hi' : fb.vals = fun id => calculate (fb.settings id) i := by rw [hf]; exact hi
    refine Alike.bind (Alike.same (P := Eq) _ fun _ _ => rfl) ?_
    rintro v _ rfl
    refine Alike.bind (Alike.same (P := Eq) _ fun _ _ => rfl) ?_
    rintro px _ rfl
    refine Alike.bind (Alike.same (P := Eq) _ fun _ _ => rfl) ?_
    rintro py _ rfl
    have hu : updateSmudge e (poseBrush p fb) surf v px py radius = updateSmudge e fb surf v px py radius := rfl
    rw [hu]
    generalize updateSmudge e fb surf v px py radius = u
    cases o with
    | none => exact .ok ⟨rfl, rfl, ⟨m', p, rfl⟩, i, hi'⟩
    | some o =>
      unfold storeSmudge
      dsimp only
      rw [show (poseBrush p fb).buckets = fb.buckets from rfl]
      cases writeBucket fb.buckets.mem o u.2.1 with
      | error f => exact .error f
      | ok mem => exact .ok ⟨rfl, rfl, ⟨m', p, rfl⟩, i, hi'⟩
  · rw [if_neg hc, if_neg (show ¬ ((poseBrush p b).vals sSmudgeLength < 1 ∧
      ((poseBrush p b).vals sSmudge ≠ 0 ∨ isConstant ((poseBrush p b).settings sSmudge) = false)) from hc)]
    exact .ok ⟨rfl, rfl, ⟨m, p, rfl⟩, i, hi⟩

theorem smudgeColor_pose {e : Env K R σ} {b b' : Brush K R} (h : PosedOn b b') (c : Rgb K) :
    Alike (fun r r' => r'.1 = r.1 ∧ r'.2.1 = r.2.1 ∧ PosedOn r.2.2 r'.2.2) (smudgeColor e b c) (smudgeColor e b' c) := by
  obtain ⟨⟨m, p, rfl⟩, i, hi⟩ := h
  unfold smudgeColor
  by_cases hc : b.vals sSmudge > 0
  · rw [if_pos hc, if_pos (show (poseBrush p b).vals sSmudge > 0 from hc)]
    dsimp only
    rw [fetchSmudge_pose]
    dsimp only
    rw [loadSmudge_pose]
    have hf := fetchSmudge_same b
    generalize fetchSmudge b = f at hf ⊢
    obtain ⟨o, fb⟩ := f
    dsimp only at hf ⊢
    refine Alike.bind (Alike.same (P := Eq) _ fun _ _ => rfl) ?_
    rintro v _ rfl
    refine .ok ⟨rfl, rfl, ⟨?_, p, rfl⟩, i, ?_⟩
    · show IgnoresPose fb.settings
      rw [hf]; exact m
    · show fb.vals = fun id => calculate (fb.settings id) i
      rw [hf]; exact hi
  · rw [if_neg hc, if_neg (show ¬ (poseBrush p b).vals sSmudge > 0 from hc)]
    exact .ok ⟨rfl, rfl, ⟨m, p, rfl⟩, i, hi⟩

theorem drawDab_pose {e : Env K R σ} {b b' : Brush K R} (h : PosedOn b b') (surf : σ) (lin : Bool) :
    Alike (fun r r' => r'.1 = r.1 ∧ r'.2.2 = r.2.2 ∧ PosedOn r.2.1 r'.2.1) (drawDab e b surf lin) (drawDab e b' surf lin) := by
  have ho : dabOpacity e b' = dabOpacity e b := by
    obtain ⟨⟨-, p, rfl⟩, -⟩ := h
    rfl
  have hb : b'.settings = b.settings := by
    obtain ⟨⟨-, p, rfl⟩, -⟩ := h
    rfl
  unfold drawDab
  rw [ho]
  refine Alike.bind (Alike.same (P := Eq) _ fun _ _ => rfl) ?_
  rintro o _ rfl
  refine Alike.bind (dabPosition_pose h) ?_
  rintro ⟨x, y, b1⟩ ⟨x', y', b1'⟩ ⟨h1, h2, h3⟩
  dsimp only at h1 h2 h3 ⊢
  subst h1 h2
  obtain ⟨r1, r2, r3⟩ := dabRadius_pose (e := e) h3 o
  rw [r1, r2]
  refine Alike.bind (smudgeStage_pose r3 _ _ _ _) ?_
  rintro ⟨st, b2, s2⟩ ⟨st', b2', s2'⟩ ⟨h4, h5, h6⟩
  dsimp only at h4 h5 h6 ⊢
  subst h4 h5
  by_cases hst : st' = true
  · rw [if_pos hst, if_pos hst]
    exact .ok ⟨rfl, rfl, h6⟩
  rw [if_neg hst, if_neg hst]
  have hcol : (⟨b'.baseval sColorH, b'.baseval sColorS, b'.baseval sColorV⟩ : Hue K) =
      ⟨b.baseval sColorH, b.baseval sColorS, b.baseval sColorV⟩ := by
    unfold Brush.baseval; rw [hb]
  rw [hcol]
  refine Alike.bind (smudgeColor_pose h6 _) ?_
  rintro ⟨t, c, b3⟩ ⟨t', c', b3'⟩ ⟨h7, h8, h9⟩
  dsimp only at h7 h8 h9 ⊢
  subst h7 h8
  have ha : ∀ x y r o t c, dabArgs e b3' lin x y r o t c = dabArgs e b3 lin x y r o t c := by
    obtain ⟨⟨-, p, rfl⟩, -⟩ := h9
    intros; rfl
  rw [ha]
  exact .ok ⟨rfl, rfl, h9⟩

/-! ### Sessions -/

omit [FloorRing K] in
theorem countDabs_pose {e : Env K R σ} {b b' : Brush K R} (h : Posed b b') (x y dt : K) :
    (countDabs e b' x y dt).1 = (countDabs e b x y dt).1 ∧ Posed (countDabs e b x y dt).2 (countDabs e b' x y dt).2 := by
  obtain ⟨m, p, rfl⟩ := h
  have key : countDabs e (poseBrush p b) x y dt = ((countDabs e b x y dt).1, poseBrush p (countDabs e b x y dt).2) := by
    unfold countDabs
    dsimp only
    by_cases q : b.st.actualRadius = 0
    · rw [if_pos q, if_pos (show (poseBrush p b).st.actualRadius = 0 from q)]
      rfl
    · rw [if_neg q, if_neg (show ¬ (poseBrush p b).st.actualRadius = 0 from q)]
      rfl
  rw [key]
  obtain ⟨r, hr⟩ := countDabs_same e b x y dt
  rw [hr]
  exact ⟨rfl, m, p, rfl⟩

structure LoopPosed (l l' : Loop K R σ) : Prop where
  b : Posed l.b l'.b
  surf : l'.surf = l.surf
  moved : l'.moved = l.moved
  todo : l'.todo = l.todo
  left : l'.dtimeLeft = l.dtimeLeft
  painted : l'.painted = l.painted

omit [FloorRing K] in
theorem PosedOn.flip {b b' : Brush K R} (h : PosedOn b b') :
    PosedOn { b with st := { b.st with flip := b.st.flip * -1 } } { b' with st := { b'.st with flip := b'.st.flip * -1 } } := by
  obtain ⟨⟨m, p, rfl⟩, i, hi⟩ := h
  exact ⟨⟨m, p, rfl⟩, i, hi⟩

omit [FloorRing K] in
theorem PosedOn.next {e : Env K R σ} {b b' : Brush K R} (h : PosedOn b b') :
    Posed { b with random := (e.next b.rng).1, rng := (e.next b.rng).2 }
      { b' with random := (e.next b'.rng).1, rng := (e.next b'.rng).2 } := by
  obtain ⟨⟨m, p, rfl⟩, i, hi⟩ := h
  exact ⟨m, p, rfl⟩

theorem Posed.step {b b' : Brush K R} (h : Posed b b') (q : Pose K) (ev : Event K) (x y d f t : K) :
    ∃ q', stepTo b'.st (poseEvent q ev) x y d f t = poseStep q' (stepTo b.st ev x y d f t) := by
  obtain ⟨-, p, rfl⟩ := h
  exact ⟨⟨_, _, _, _, _⟩, rfl⟩

theorem dabStep_pose {e : Env K R σ} {l l' : Loop K R σ} (h : LoopPosed l l') (q : Pose K) (ev : Event K) (x y : K) :
    Alike LoopPosed (dabStep e ev x y l) (dabStep e (poseEvent q ev) x y l') := by
  obtain ⟨b, surf, moved, todo, left, painted⟩ := l
  obtain ⟨b', surf', moved', todo', left', painted'⟩ := l'
  obtain ⟨hb, h1, h2, h3, h4, h5⟩ := h
  dsimp only at hb h1 h2 h3 h4 h5
  subst h1 h2 h3 h4 h5
  unfold dabStep
  dsimp only
  by_cases hz : todo' = 0
  · rw [if_pos hz, if_pos hz]; exact .error _
  · rw [if_neg hz, if_neg hz]
    obtain ⟨q', hq⟩ := hb.step q ev x y (if moved' > 0 then 1 - moved' else 1)
      ((if moved' > 0 then 1 - moved' else 1) / todo') left'
    rw [hq]
    refine Alike.bind (update_pose hb q' _) ?_
    intro b1 b1' hc
    refine Alike.bind (drawDab_pose hc.flip surf' _) ?_
    rintro ⟨d, b2, s2⟩ ⟨d', b2', s2'⟩ ⟨g1, g2, g3⟩
    dsimp only at g1 g2 g3 ⊢
    subst g1 g2
    obtain ⟨k1, k2⟩ := countDabs_pose (e := e) (g3.next (e := e)) x y
      (left' - (stepTo b.st ev x y (if moved' > 0 then 1 - moved' else 1)
        ((if moved' > 0 then 1 - moved' else 1) / todo') left').dtime)
    exact .ok ⟨k2, rfl, rfl, k1, rfl, rfl⟩

theorem dabLoop_pose {e : Env K R σ} (q : Pose K) (ev : Event K) (x y : K) (fuel : Nat) :
    ∀ {l l' : Loop K R σ}, LoopPosed l l' →
      Alike LoopPosed (dabLoop e ev x y fuel l) (dabLoop e (poseEvent q ev) x y fuel l') := by
  induction fuel with
  | zero =>
    intro l l' h
    unfold dabLoop
    rw [h.moved, h.todo]
    by_cases hc : l.moved + l.todo ≥ 1
    · rw [if_pos hc, if_pos hc]; exact .error _
    · rw [if_neg hc, if_neg hc]; exact .ok h
  | succ fuel ih =>
    intro l l' h
    unfold dabLoop
    rw [h.moved, h.todo]
    by_cases hc : l.moved + l.todo ≥ 1
    · rw [if_pos hc, if_pos hc]
      exact Alike.bind (dabStep_pose h q ev x y) fun a a' ha => ih ha
    · rw [if_neg hc, if_neg hc]; exact .ok h

/-- The results of an event. -/
def ResPosed (r r' : Bool × Brush K R × σ) : Prop := r'.1 = r.1 ∧ r'.2.2 = r.2.2 ∧ Posed r.2.1 r'.2.1

omit [FloorRing K] in
theorem splitStroke_pose {b b' : Brush K R} (h : Posed b b') (p : Painted) (dt pr dp : K) :
    Posed (splitStroke b p dt pr dp).2 (splitStroke b' p dt pr dp).2 ∧
      (splitStroke b' p dt pr dp).1 = (splitStroke b p dt pr dp).1 := by
  obtain ⟨m, q, rfl⟩ := h
  have e2 : splitStroke (poseBrush q b) p dt pr dp =
      ((splitStroke b p dt pr dp).1, poseBrush q (splitStroke b p dt pr dp).2) := by
    unfold splitStroke
    dsimp only
    by_cases hp : (if p = .unknown then (if b.idle > 0 ∨ b.total = 0 then Painted.no else .yes) else p) = .yes
    · rw [if_pos hp, if_pos (show (if p = .unknown then (if (poseBrush q b).idle > 0 ∨
        (poseBrush q b).total = 0 then Painted.no else .yes) else p) = .yes from hp)]
      rfl
    · rw [if_neg hp, if_neg (show ¬ (if p = .unknown then (if (poseBrush q b).idle > 0 ∨
        (poseBrush q b).total = 0 then Painted.no else .yes) else p) = .yes from hp)]
      by_cases hz : b.total = 0
      · rw [if_pos hz, if_pos (show (poseBrush q b).total = 0 from hz)]
        rfl
      · rw [if_neg hz, if_neg (show ¬ (poseBrush q b).total = 0 from hz)]
        rfl
  rw [e2]
  obtain ⟨t, i, ht⟩ := splitStroke_same b p dt pr dp
  rw [ht]
  exact ⟨⟨m, q, rfl⟩, rfl⟩

theorem moveTo_pose {e : Env K R σ} {b b' : Brush K R} (h : Posed b b') (fuel : Nat) (surf : σ) (q : Pose K) (ev : Event K)
    (x y dt : K) :
    Alike ResPosed (moveTo e fuel b surf ev x y dt) (moveTo e fuel b' surf (poseEvent q ev) x y dt) := by
  unfold moveTo
  dsimp only
  obtain ⟨k1, k2⟩ := countDabs_pose (e := e) h x y dt
  have k3 : b'.st.partialDabs = b.st.partialDabs := by
    obtain ⟨-, p, rfl⟩ := h
    rfl
  rw [k1, k3]
  refine Alike.bind (dabLoop_pose (e := e) q ev x y fuel ⟨k2, rfl, rfl, rfl, rfl, rfl⟩) ?_
  rintro ⟨b, surf, moved, todo, left, painted⟩ ⟨b', surf', moved', todo', left', painted'⟩ ⟨hb, h1, h2, h3, h4, h5⟩
  dsimp only at hb h1 h2 h3 h4 h5 ⊢
  subst h1 h2 h3 h4 h5
  obtain ⟨q', hq⟩ := hb.step q ev x y todo' 1 left'
  rw [hq]
  refine Alike.bind (update_pose hb q' _) ?_
  intro b1 b1' hc
  have hc' : Posed { b1 with st := { b1.st with partialDabs := moved' + todo' } }
      { b1' with st := { b1'.st with partialDabs := moved' + todo' } } := by
    obtain ⟨⟨m, p, rfl⟩, i, hi⟩ := hc
    exact ⟨m, p, rfl⟩
  obtain ⟨s1, s2⟩ := splitStroke_pose hc' painted' dt ev.pressure (stepTo b.st ev x y todo' 1 left').dpressure
  exact .ok ⟨s2, rfl, s1⟩

omit [FloorRing K] in
theorem skipStage_pose {e : Env K R σ} {b b' : Brush K R} (h : Posed b b') (x y dt : K) :
    (skipStage e b' x y dt).2 = (skipStage e b x y dt).2 ∧ Posed (skipStage e b x y dt).1 (skipStage e b' x y dt).1 := by
  have h' := h
  obtain ⟨m, p, rfl⟩ := h
  unfold skipStage
  dsimp only
  by_cases h1 : b.skip > 1 / 1000
  · rw [if_pos h1, if_pos (show (poseBrush p b).skip > 1 / 1000 from h1)]
    by_cases h2 : b.skip - hypot e (b.skipX - x) (b.skipY - y) > 1 / 1000 ∧
        ¬ (b.skippedTime + dt > 5 ∨ b.resetRequested = true)
    · rw [if_pos h2, if_pos (show (poseBrush p b).skip -
        hypot e ((poseBrush p b).skipX - x) ((poseBrush p b).skipY - y) > 1 / 1000 ∧
        ¬ ((poseBrush p b).skippedTime + dt > 5 ∨ (poseBrush p b).resetRequested = true) from h2)]
      exact ⟨rfl, m, p, rfl⟩
    · rw [if_neg h2, if_neg (show ¬ ((poseBrush p b).skip -
        hypot e ((poseBrush p b).skipX - x) ((poseBrush p b).skipY - y) > 1 / 1000 ∧
        ¬ ((poseBrush p b).skippedTime + dt > 5 ∨ (poseBrush p b).resetRequested = true)) from h2)]
      exact ⟨rfl, m, p, rfl⟩
  · rw [if_neg h1, if_neg (show ¬ (poseBrush p b).skip > 1 / 1000 from h1)]
    exact ⟨rfl, h'⟩

omit [FloorRing K] in
theorem cursor_pose {e : Env K R σ} {b b' : Brush K R} (h : Posed b b') (x y dt : K) :
    (cursor e b' x y dt).1 = (cursor e b x y dt).1 ∧ (cursor e b' x y dt).2.1 = (cursor e b x y dt).2.1 ∧
      Posed (cursor e b x y dt).2.2 (cursor e b' x y dt).2.2 := by
  have h' := h
  obtain ⟨m, p, rfl⟩ := h
  unfold cursor
  dsimp only
  by_cases z : b.baseval sTrackingNoise ≠ 0 ∧ e.exp (b.baseval sRadiusLogarithmic) * b.baseval sTrackingNoise > 1 / 1000
  · rw [if_pos z, if_pos (show (poseBrush p b).baseval sTrackingNoise ≠ 0 ∧
      e.exp ((poseBrush p b).baseval sRadiusLogarithmic) * (poseBrush p b).baseval sTrackingNoise > 1 / 1000 from z)]
    exact ⟨rfl, rfl, m, p, rfl⟩
  · rw [if_neg z, if_neg (show ¬ ((poseBrush p b).baseval sTrackingNoise ≠ 0 ∧
      e.exp ((poseBrush p b).baseval sRadiusLogarithmic) * (poseBrush p b).baseval sTrackingNoise > 1 / 1000) from z)]
    exact ⟨rfl, rfl, h'⟩

omit [FloorRing K] in
theorem startOver_pose {e : Env K R σ} {b b' : Brush K R} (h : Posed b b') (x y p : K) :
    Alike Posed (startOver e b x y p) (startOver e b' x y p) := by
  obtain ⟨m, q, rfl⟩ := h
  unfold startOver brushReset
  simp only [bind_assoc]
  refine Alike.bind (P := Eq) (Alike.same (P := Eq) (resetBuckets b.buckets) fun _ _ => rfl) ?_
  rintro bk _ rfl
  exact .ok ⟨m, ⟨0, 0, 0, 0, 0⟩, rfl⟩

theorem strokeEvent_pose {e : Env K R σ} {b b' : Brush K R} (h : Posed b b') (fuel : Nat) (surf : σ) (q : Pose K)
    (ev : Event K) : Alike ResPosed (strokeEvent e fuel b surf ev) (strokeEvent e fuel b' surf (poseEvent q ev)) := by
  unfold strokeEvent
  dsimp only [poseEvent]
  obtain ⟨k1, k2⟩ := skipStage_pose (e := e) h ev.x ev.y ev.dtime
  have hr : b'.resetRequested = b.resetRequested := by
    obtain ⟨-, p, rfl⟩ := h
    rfl
  rw [k1, hr]
  generalize skipStage e b ev.x ev.y ev.dtime = sk at k2 ⊢
  generalize (skipStage e b' ev.x ev.y ev.dtime).1 = sb' at k2 ⊢
  by_cases hk : sk.2.2 = true
  · rw [if_pos hk, if_pos hk]
    exact .ok ⟨rfl, rfl, k2⟩
  · rw [if_neg hk, if_neg hk]
    obtain ⟨c1, c2, c3⟩ := cursor_pose (e := e) k2 ev.x ev.y sk.2.1
    rw [c1, c2]
    by_cases hz : sk.2.1 > 5 ∨ b.resetRequested = true
    · rw [if_pos hz, if_pos hz]
      refine Alike.bind (startOver_pose c3 _ _ _) ?_
      intro b1 b1' h1
      exact .ok ⟨rfl, rfl, h1⟩
    · rw [if_neg hz, if_neg hz]
      exact moveTo_pose c3 fuel surf q ev _ _ _

omit [FloorRing K] in
theorem tilt_number (e : Env K R σ) {xt yt : Flt K} (hx : xt ≠ .nan) (hy : yt ≠ .nan) : ∃ t, tilt e xt yt = .ok t := by
  unfold tilt
  by_cases h : xt ≠ .fin 0 ∨ yt ≠ .fin 0
  · rw [if_pos h]
    have k : ∀ f : Flt K, f ≠ .nan → ∃ v, clampTilt f = .ok v := by
      intro f hf
      cases f with
      | nan => exact absurd rfl hf
      | _ => exact ⟨_, rfl⟩
    obtain ⟨v, hv⟩ := k xt hx
    obtain ⟨w, hw⟩ := k yt hy
    rw [hv, hw]
    exact ⟨_, rfl⟩
  · rw [if_neg h]
    exact ⟨_, rfl⟩

omit [FloorRing K] in
theorem sanitise_pose {e : Env K R σ} {m m' : Motion K} (h : SameMotion m m') :
    Alike (fun ev ev' => ∃ q, ev' = poseEvent q ev) (sanitise e m) (sanitise e m') := by
  obtain ⟨h1, ⟨n1, n2⟩, n1', n2'⟩ := h
  obtain ⟨t, ht⟩ := tilt_number e n1 n2
  obtain ⟨t', ht'⟩ := tilt_number e n1' n2'
  unfold sanitise
  rw [ht, ht']
  have hx : m'.x = m.x := by rw [h1]
  have hy : m'.y = m.y := by rw [h1]
  have hp : m'.pressure = m.pressure := by rw [h1]
  have hd : m'.dtime = m.dtime := by rw [h1]
  have hz : m'.viewzoom = m.viewzoom := by rw [h1]
  have hr : m'.viewrotation = m.viewrotation := by rw [h1]
  have hl : m'.linear = m.linear := by rw [h1]
  rw [hx, hy, hp, hd, hz, hr, hl]
  simp only [bind, Except.bind]
  cases sane m.x with
  | none => exact .ok ⟨⟨_, _, _, _, _⟩, rfl⟩
  | some x =>
    cases sane m.y with
    | none => exact .ok ⟨⟨_, _, _, _, _⟩, rfl⟩
    | some y =>
      dsimp only
      by_cases hc : x < 10 ^ 8 ∧ y < 10 ^ 8 ∧ x > -10 ^ 8 ∧ y > -10 ^ 8
      · rw [if_pos hc, if_pos hc]
        exact .ok ⟨⟨_, _, _, _, _⟩, rfl⟩
      · rw [if_neg hc, if_neg hc]
        exact .error _

theorem strokeTo_pose {e : Env K R σ} {b b' : Brush K R} (h : Posed b b') (fuel : Nat) (surf : σ) {m m' : Motion K}
    (hm : SameMotion m m') : Alike ResPosed (strokeTo e fuel b surf m) (strokeTo e fuel b' surf m') := by
  unfold strokeTo
  have hp : b'.st.pressure = b.st.pressure := by
    obtain ⟨-, p, rfl⟩ := h
    rfl
  refine Alike.bind (sanitise_pose hm) ?_
  rintro ev _ ⟨q, rfl⟩
  rw [hp]
  by_cases hc : ev.dtime > 1 / 10 ∧ ev.pressure ≠ 0 ∧ b.st.pressure = 0
  · rw [if_pos hc, if_pos (show (poseEvent q ev).dtime > 1 / 10 ∧
      (poseEvent q ev).pressure ≠ 0 ∧ b.st.pressure = 0 from hc)]
    rw [show workaroundMotion (poseEvent q ev) = workaroundMotion ev from rfl]
    refine Alike.bind (Alike.same (P := Eq) _ fun _ _ => rfl) ?_
    rintro i _ rfl
    refine Alike.bind (strokeEvent_pose h fuel surf ⟨i.declination, i.ascension, i.declinationX, i.declinationY, i.barrel⟩ i) ?_
    rintro r r' ⟨-, r1, r2⟩
    rw [r1]
    exact strokeEvent_pose r2 fuel _ q { ev with dtime := 1 / 10000 }
  · rw [if_neg hc, if_neg (show ¬ ((poseEvent q ev).dtime > 1 / 10 ∧
      (poseEvent q ev).pressure ≠ 0 ∧ b.st.pressure = 0) from hc)]
    exact strokeEvent_pose h fuel surf q ev

theorem strokes_pose {e : Env K R σ} (fuel : Nat) {ms ms' : List (Motion K)} (hm : List.Forall₂ SameMotion ms ms') :
    ∀ {b b' : Brush K R} (surf : σ), Posed b b' →
      Alike (fun r r' => r'.2 = r.2 ∧ Posed r.1 r'.1) (strokes e fuel b surf ms) (strokes e fuel b' surf ms') := by
  induction hm with
  | nil => intro b b' surf h; exact .ok ⟨rfl, h⟩
  | cons hx _ ih =>
    intro b b' surf h
    unfold strokes
    refine Alike.bind (strokeTo_pose h fuel surf hx) ?_
    rintro r r' ⟨-, r1, r2⟩
    rw [r1]
    exact ih _ r2

end
end Verif.Engine
