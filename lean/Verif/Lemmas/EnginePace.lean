import Verif.Lemmas.EngineTwin
import Verif.Lemmas.EngineLoop
import Verif.Spec.Pace
import Verif.Props.C61_Smudge
import Mathlib.Tactic.Ring

/-!
# A brush that does not use the speed of the pen

Two runs of the engine that differ in the times of the events, and in the zoom.
-/

namespace Verif.Engine
open Verif.Mask Verif.Color Verif.Spectral Verif.Map

section
variable {K R σ : Type} [Field K] [LinearOrder K] [IsStrictOrderedRing K] [FloorRing K] {T Z : Prop}

/-- What the runs may differ in. -/
structure Pace (K : Type) where
  speed1 : K
  speed2 : K
  dx : K
  dy : K
  idle : K
  total : K
  zoom : K
  dirX : K
  dirY : K
  angX : K
  angY : K

def paceState (p : Pace K) (st : State K) : State K :=
  { st with normSpeed1Slow := p.speed1, normSpeed2Slow := p.speed2, normDxSlow := p.dx, normDySlow := p.dy
            viewzoom := p.zoom, directionDx := p.dirX, directionDy := p.dirY, directionAngleDx := p.angX
            directionAngleDy := p.angY }

def paceBrush (p : Pace K) (b : Brush K R) : Brush K R := { b with st := paceState p b.st, idle := p.idle, total := p.total }

def paceStep (t z : K) (s : Step K) : Step K := { s with dtime := t, viewzoom := z }

def paceEvent (t z : K) (ev : Event K) : Event K := { ev with dtime := t, viewzoom := z }

/-- The directions are the same, unless the zoom may differ. -/
structure Kept (Z : Prop) (p : Pace K) (st : State K) : Prop where
  zoom : p.zoom = st.viewzoom ∨ Z
  dirX : p.dirX = st.directionDx ∨ Z
  dirY : p.dirY = st.directionDy ∨ Z
  angX : p.angX = st.directionAngleDx ∨ Z
  angY : p.angY = st.directionAngleDy ∨ Z

/-- Without slow tracking, noise and dabs by the second, if the times may differ. -/
structure Prepared (T : Prop) (b : Brush K R) : Prop where
  skip : T → b.skip ≤ 1 / 1000
  dabs : T → b.st.dabsPerSecond = 0

/-- Between steps. -/
def Paced (T Z : Prop) (b b' : Brush K R) : Prop :=
  IgnoresPace T Z b.settings ∧ Prepared T b ∧ ∃ p, Kept Z p b.st ∧ b' = paceBrush p b

/-- After a step. -/
def PacedOn (T Z : Prop) (b b' : Brush K R) : Prop := Paced T Z b b' ∧ ∃ i, b.vals = fun id => calculate (b.settings id) i

omit [IsStrictOrderedRing K] [FloorRing K] in
/-- A curve that is not there does not matter. -/
theorem calculate_curves {m : Mapping K} {i j : Nat → K} (hij : ∀ k, (m.pts k).n ≠ 0 → i k = j k) :
    calculate m i = calculate m j := by
  unfold calculate
  by_cases hu : m.used = 0
  · rw [if_pos hu, if_pos hu]
  · rw [if_neg hu, if_neg hu]
    congr 1
    funext r k
    by_cases hk : (m.pts k).n ≠ 0
    · rw [hij k hk]
    · simp only [hk, if_false]

omit [IsStrictOrderedRing K] in
theorem moveStates_pace (e : Env K R σ) (b : Brush K R) (p : Pace K) (t z : K) (s : Step K) :
    moveStates e (paceBrush p b) (paceStep t z s) = paceState { p with zoom := z } (moveStates e b s) := rfl

omit [IsStrictOrderedRing K] in
theorem inputs_pace (e : Env K R σ) (b : Brush K R) (m : IgnoresPace T Z b.settings) (p p' : Pace K) (st : State K)
    (hk : Kept Z p' st) :
    settingValues b.settings (inputsOf e (paceBrush p b) (paceState p' st)) = settingValues b.settings (inputsOf e b st) := by
  funext id
  refine calculate_curves fun k hn => ?_
  have k1 : k ≠ iSpeed1 := by rintro rfl; exact hn (m.speed id).1
  have k2 : k ≠ iSpeed2 := by rintro rfl; exact hn (m.speed id).2
  by_cases hz : Z
  · have h := m.view hz id
    have k3 : k ≠ iDirection := by rintro rfl; exact hn (h _ (by simp [viewInputs]))
    have k4 : k ≠ iDirectionAngle := by rintro rfl; exact hn (h _ (by simp [viewInputs]))
    have k5 : k ≠ iAttackAngle := by rintro rfl; exact hn (h _ (by simp [viewInputs]))
    have k6 : k ≠ iViewzoom := by rintro rfl; exact hn (h _ (by simp [viewInputs]))
    unfold Inputs.get
    simp only [k1, k2, k3, k4, k5, k6, if_false]
    rfl
  · obtain ⟨a1, a2, a3, a4, a5, a6, a7, a8, a9, a10, a11⟩ := p'
    obtain ⟨h1, h2, h3, h4, h5⟩ := hk
    dsimp only at h1 h2 h3 h4 h5
    obtain rfl := h1.resolve_right hz
    obtain rfl := h2.resolve_right hz
    obtain rfl := h3.resolve_right hz
    obtain rfl := h4.resolve_right hz
    obtain rfl := h5.resolve_right hz
    unfold Inputs.get
    simp only [k1, k2, if_false]
    rfl

/-- What is used of the square root. -/
def ScaleLaw (e : Env K R σ) : Prop := ∀ c a b : K, 0 < c → hypot e (c * a) (c * b) = c * hypot e a b

omit [FloorRing K] in
theorem stepTime_above (t : K) : 0 < stepTime t := by
  unfold stepTime
  split_ifs with h1 h2
  · norm_num
  · norm_num
  · exact lt_of_le_of_ne (not_lt.mp h1) (Ne.symm h2)

theorem normDist_pace {e : Env K R σ} (hh : ScaleLaw e) (a b r t : K) :
    hypot e (a / stepTime t / r) (b / stepTime t / r) * stepTime t = hypot e (a / r) (b / r) := by
  have h0 := stepTime_above t
  generalize stepTime t = c at h0
  have e1 : ∀ v : K, v / c / r = c⁻¹ * (v / r) := fun v => by rw [div_eq_mul_inv v c]; ring
  rw [e1, e1, hh _ _ _ (inv_pos.mpr h0), mul_comm (c⁻¹), mul_assoc, inv_mul_cancel₀ h0.ne', mul_one]

theorem followStates_pace {e : Env K R σ} (hh : ScaleLaw e) (b : Brush K R) (p p' : Pace K) (st : State K) (hk : Kept Z p' st)
    (vals : Nat → K) (t z : K) (s : Step K) :
    ∃ q, q.idle = p.idle ∧ q.total = p.total ∧ Kept Z q (followStates e b st vals s) ∧
      followStates e (paceBrush p b) (paceState p' st) vals (paceStep t z s) = paceState q (followStates e b st vals s) := by
  have hf : ∃ q, q.idle = p.idle ∧ q.total = p.total ∧
      followStates e (paceBrush p b) (paceState p' st) vals (paceStep t z s) = paceState q (followStates e b st vals s) ∧
      q.zoom = p'.zoom ∧ q.dirX = (followStates e b (paceState p' st) vals s).directionDx ∧
      q.dirY = (followStates e b (paceState p' st) vals s).directionDy ∧
      q.angX = (followStates e b (paceState p' st) vals s).directionAngleDx ∧
      q.angY = (followStates e b (paceState p' st) vals s).directionAngleDy := by
    refine ⟨⟨(followStates e (paceBrush p b) (paceState p' st) vals (paceStep t z s)).normSpeed1Slow,
      (followStates e (paceBrush p b) (paceState p' st) vals (paceStep t z s)).normSpeed2Slow,
      (followStates e (paceBrush p b) (paceState p' st) vals (paceStep t z s)).normDxSlow,
      (followStates e (paceBrush p b) (paceState p' st) vals (paceStep t z s)).normDySlow,
      p.idle, p.total, p'.zoom, _, _, _, _⟩, rfl, rfl, ?_, rfl, rfl, rfl, rfl, rfl⟩
    unfold followStates
    dsimp only
    rw [normDist_pace hh, normDist_pace hh]
    rfl
  obtain ⟨q, q1, q2, q3, q4, q5, q6, q7, q8⟩ := hf
  refine ⟨q, q1, q2, ?_, q3⟩
  by_cases hz : Z
  · exact ⟨.inr hz, .inr hz, .inr hz, .inr hz, .inr hz⟩
  · obtain ⟨a1, a2, a3, a4, a5, a6, a7, a8, a9, a10, a11⟩ := p'
    obtain ⟨h1, h2, h3, h4, h5⟩ := hk
    dsimp only at h1 h2 h3 h4 h5
    obtain rfl := h1.resolve_right hz
    obtain rfl := h2.resolve_right hz
    obtain rfl := h3.resolve_right hz
    obtain rfl := h4.resolve_right hz
    obtain rfl := h5.resolve_right hz
    exact ⟨.inl q4, .inl q5, .inl q6, .inl q7, .inl q8⟩

theorem unused_zoom {s : Load.Brush K} (h : ∀ id, ((s id).pts iViewzoom).n = 0) : usesInput s iViewzoom = false := by
  unfold usesInput
  rw [List.any_eq_false]
  intro x _
  simp [h x]

theorem update_pace {e : Env K R σ} (hh : ScaleLaw e) {b b' : Brush K R} (h : Paced T Z b b') {t z : K} {s : Step K}
    (hz : z = s.viewzoom ∨ Z) : Alike (PacedOn T Z) (update e b s) (update e b' (paceStep t z s)) := by
  obtain ⟨m, hp, p, hk, rfl⟩ := h
  have hk' : Kept Z { p with zoom := z } (moveStates e b s) := ⟨hz, hk.dirX, hk.dirY, hk.angX, hk.angY⟩
  have key := inputs_pace e b m p { p with zoom := z } (moveStates e b s) hk'
  have hd : T → ∀ i, calculate (b.settings sDabsPerSecond) i = 0 := fun ht i =>
    (calculate_constant (m.dabs ht).1 i).trans (m.dabs ht).2
  have fin : Alike (PacedOn T Z)
      (.ok { b with st := followStates e b (moveStates e b s) (settingValues b.settings (inputsOf e b (moveStates e b s))) s
                    vals := settingValues b.settings (inputsOf e b (moveStates e b s)) } : Except Fault (Brush K R))
      (.ok { paceBrush p b with
        st := followStates e (paceBrush p b) (paceState { p with zoom := z } (moveStates e b s))
          (settingValues b.settings (inputsOf e b (moveStates e b s))) (paceStep t z s)
        vals := settingValues b.settings (inputsOf e b (moveStates e b s)) }) := by
    obtain ⟨q, q1, q2, q3, q4⟩ := followStates_pace hh b p _ _ hk' (settingValues b.settings (inputsOf e b (moveStates e b s))) t z s
    refine .ok ⟨⟨m, ⟨hp.skip, fun ht => hd ht _⟩, q, q3, ?_⟩, _, rfl⟩
    rw [q4]
    unfold paceBrush
    rw [q1, q2]
  unfold update
  dsimp only
  rw [moveStates_pace, show (paceBrush p b).settings = b.settings from rfl, key]
  by_cases hZ : Z
  · have hu := unused_zoom fun id => m.view hZ id iViewzoom (by simp [viewInputs])
    rw [if_neg (by rw [hu]; simp), if_neg (by rw [hu]; simp)]
    exact fin
  · have ez := hz.resolve_right hZ
    subst ez
    by_cases hc : s.viewzoom ≤ 0 ∧ usesInput b.settings iViewzoom = true
    · rw [if_pos hc, if_pos (show (paceStep t s.viewzoom s).viewzoom ≤ 0 ∧ usesInput b.settings iViewzoom = true from hc)]
      exact .error _
    · rw [if_neg hc, if_neg (show ¬ ((paceStep t s.viewzoom s).viewzoom ≤ 0 ∧ usesInput b.settings iViewzoom = true) from hc)]
      exact fin

theorem directionalOffsets_pace (e : Env K R σ) {b : Brush K R} (m : IgnoresPace T Z b.settings) {i : Nat → K}
    (hi : b.vals = fun id => calculate (b.settings id) i) {p : Pace K} (hk : Kept Z p b.st) (r f : K) :
    directionalOffsets e (paceBrush p b) r f = directionalOffsets e b r f := by
  by_cases hZ : Z
  · have h1 : b.vals sOffsetAngle = 0 := by
      rw [hi]
      exact (calculate_constant (m.offset hZ).1 i).trans (m.offset hZ).2
    have h2 : maxC 0 (b.vals sOffsetAngle2) = 0 := by
      rw [hi]
      have : calculate (b.settings sOffsetAngle2) i ≤ 0 := (calculate_constant (m.mirrored hZ).1 i).trans_le (m.mirrored hZ).2
      unfold maxC
      dsimp only
      split_ifs with q
      · rfl
      · first | exact le_antisymm this (not_lt.mp q) | exact le_antisymm this (le_of_lt (not_le.mp q))
    unfold directionalOffsets
    dsimp only [paceBrush, paceState]
    rw [h1, h2]
    simp only [mul_zero, add_zero, zero_mul]
  · obtain ⟨a1, a2, a3, a4, a5, a6, a7, a8, a9, a10, a11⟩ := p
    obtain ⟨h1, h2, h3, h4, h5⟩ := hk
    dsimp only at h1 h2 h3 h4 h5
    obtain rfl := h1.resolve_right hZ
    obtain rfl := h2.resolve_right hZ
    obtain rfl := h3.resolve_right hZ
    obtain rfl := h4.resolve_right hZ
    obtain rfl := h5.resolve_right hZ
    rfl

theorem dabPosition_pace {e : Env K R σ} {b b' : Brush K R} (h : PacedOn T Z b b') :
    Alike (fun r r' => r'.1 = r.1 ∧ r'.2.1 = r.2.1 ∧ PacedOn T Z r.2.2 r'.2.2) (dabPosition e b) (dabPosition e b') := by
  obtain ⟨⟨m, hp, p, hk, rfl⟩, i, hi⟩ := h
  have h0 : b.vals sOffsetBySpeed = 0 := by
    rw [hi]
    exact (calculate_constant m.bySpeed.1 i).trans m.bySpeed.2
  unfold dabPosition
  dsimp only
  rw [directionalOffsets_pace e m hi hk, show (paceBrush p b).vals = b.vals from rfl, h0]
  simp only [ne_eq, not_true_eq_false, false_and, if_false]
  by_cases hr : ¬ b.vals sOffsetByRandom = 0
  · rw [if_pos hr, if_pos hr]
    exact .ok ⟨rfl, rfl, ⟨m, ⟨hp.skip, hp.dabs⟩, p, hk, rfl⟩, i, hi⟩
  · rw [if_neg hr, if_neg hr]
    exact .ok ⟨rfl, rfl, ⟨m, ⟨hp.skip, hp.dabs⟩, p, hk, rfl⟩, i, hi⟩

omit [IsStrictOrderedRing K] [FloorRing K] in
theorem dabRadius_pace {e : Env K R σ} {b b' : Brush K R} (h : PacedOn T Z b b') (o : K) :
    (dabRadius e b' o).1 = (dabRadius e b o).1 ∧ (dabRadius e b' o).2.1 = (dabRadius e b o).2.1 ∧
      PacedOn T Z (dabRadius e b o).2.2 (dabRadius e b' o).2.2 := by
  obtain ⟨⟨m, hp, p, hk, rfl⟩, i, hi⟩ := h
  unfold dabRadius
  dsimp only
  by_cases hr : b.vals sRadiusByRandom ≠ 0
  · rw [if_pos hr, if_pos (show (paceBrush p b).vals sRadiusByRandom ≠ 0 from hr)]
    exact ⟨rfl, rfl, ⟨m, ⟨hp.skip, hp.dabs⟩, p, hk, rfl⟩, i, hi⟩
  · rw [if_neg hr, if_neg (show ¬ (paceBrush p b).vals sRadiusByRandom ≠ 0 from hr)]
    exact ⟨rfl, rfl, ⟨m, ⟨hp.skip, hp.dabs⟩, p, hk, rfl⟩, i, hi⟩

omit [IsStrictOrderedRing K] in
theorem fetchSmudge_pace (p : Pace K) (b : Brush K R) :
    fetchSmudge (paceBrush p b) = ((fetchSmudge b).1, paceBrush p (fetchSmudge b).2) := by
  unfold fetchSmudge
  by_cases h : b.buckets.mem.isEmpty = true ∨ b.buckets.num = 0
  · rw [if_pos h, if_pos (show (paceBrush p b).buckets.mem.isEmpty = true ∨ (paceBrush p b).buckets.num = 0 from h)]
  · rw [if_neg h, if_neg (show ¬ ((paceBrush p b).buckets.mem.isEmpty = true ∨ (paceBrush p b).buckets.num = 0) from h)]
    rfl

omit [IsStrictOrderedRing K] [FloorRing K] in
theorem loadSmudge_pace (p : Pace K) (b : Brush K R) (o : Option Int) : loadSmudge (paceBrush p b) o = loadSmudge b o := by
  cases o <;> rfl

theorem smudgeStage_pace {e : Env K R σ} {b b' : Brush K R} (h : PacedOn T Z b b') (surf : σ) (x y radius : K) :
    Alike (fun r r' => r'.1 = r.1 ∧ r'.2.2 = r.2.2 ∧ PacedOn T Z r.2.1 r'.2.1) (smudgeStage e b surf x y radius)
      (smudgeStage e b' surf x y radius) := by
  obtain ⟨⟨m, hp, p, hk, rfl⟩, i, hi⟩ := h
  unfold smudgeStage
  by_cases hc : b.vals sSmudgeLength < 1 ∧ (b.vals sSmudge ≠ 0 ∨ isConstant (b.settings sSmudge) = false)
  · rw [if_pos hc, if_pos (show (paceBrush p b).vals sSmudgeLength < 1 ∧
      ((paceBrush p b).vals sSmudge ≠ 0 ∨ isConstant ((paceBrush p b).settings sSmudge) = false) from hc)]
    dsimp only
    rw [fetchSmudge_pace]
    dsimp only
    rw [loadSmudge_pace]
    have hf := fetchSmudge_same b
    generalize fetchSmudge b = f at hf ⊢
    obtain ⟨o, fb⟩ := f
    dsimp only at hf ⊢
    have m' : IgnoresPace T Z fb.settings := by rw [hf]; exact m
    have hp' : Prepared T fb := by rw [hf]; exact ⟨hp.skip, hp.dabs⟩
    have hk' : Kept Z p fb.st := by rw [hf]; exact hk
    have hi' : fb.vals = fun id => calculate (fb.settings id) i := by rw [hf]; exact hi
    refine Alike.bind (Alike.same (P := Eq) _ fun _ _ => rfl) ?_
    rintro v _ rfl
    refine Alike.bind (Alike.same (P := Eq) _ fun _ _ => rfl) ?_
    rintro px _ rfl
    refine Alike.bind (Alike.same (P := Eq) _ fun _ _ => rfl) ?_
    rintro py _ rfl
    have hu : updateSmudge e (paceBrush p fb) surf v px py radius = updateSmudge e fb surf v px py radius := rfl
    rw [hu]
    generalize updateSmudge e fb surf v px py radius = u
    cases o with
    | none => exact .ok ⟨rfl, rfl, ⟨m', ⟨hp'.skip, hp'.dabs⟩, p, ⟨hk'.1, hk'.2, hk'.3, hk'.4, hk'.5⟩, rfl⟩, i, hi'⟩
    | some o =>
      unfold storeSmudge
      dsimp only
      rw [show (paceBrush p fb).buckets = fb.buckets from rfl]
      cases writeBucket fb.buckets.mem o u.2.1 with
      | error f => exact .error f
      | ok mem => exact .ok ⟨rfl, rfl, ⟨m', ⟨hp'.skip, hp'.dabs⟩, p, ⟨hk'.1, hk'.2, hk'.3, hk'.4, hk'.5⟩, rfl⟩, i, hi'⟩
  · rw [if_neg hc, if_neg (show ¬ ((paceBrush p b).vals sSmudgeLength < 1 ∧
      ((paceBrush p b).vals sSmudge ≠ 0 ∨ isConstant ((paceBrush p b).settings sSmudge) = false)) from hc)]
    exact .ok ⟨rfl, rfl, ⟨m, ⟨hp.skip, hp.dabs⟩, p, hk, rfl⟩, i, hi⟩

theorem smudgeColor_pace {e : Env K R σ} {b b' : Brush K R} (h : PacedOn T Z b b') (c : Rgb K) :
    Alike (fun r r' => r'.1 = r.1 ∧ r'.2.1 = r.2.1 ∧ PacedOn T Z r.2.2 r'.2.2) (smudgeColor e b c) (smudgeColor e b' c) := by
  obtain ⟨⟨m, hp, p, hk, rfl⟩, i, hi⟩ := h
  unfold smudgeColor
  by_cases hc : b.vals sSmudge > 0
  · rw [if_pos hc, if_pos (show (paceBrush p b).vals sSmudge > 0 from hc)]
    dsimp only
    rw [fetchSmudge_pace]
    dsimp only
    rw [loadSmudge_pace]
    have hf := fetchSmudge_same b
    generalize fetchSmudge b = f at hf ⊢
    obtain ⟨o, fb⟩ := f
    dsimp only at hf ⊢
    refine Alike.bind (Alike.same (P := Eq) _ fun _ _ => rfl) ?_
    rintro v _ rfl
    have hp' : Prepared T fb := by rw [hf]; exact ⟨hp.skip, hp.dabs⟩
    have hk' : Kept Z p fb.st := by rw [hf]; exact hk
    refine .ok ⟨rfl, rfl, ⟨?_, ⟨hp'.skip, hp'.dabs⟩, p, ⟨hk'.1, hk'.2, hk'.3, hk'.4, hk'.5⟩, rfl⟩, i, ?_⟩
    · show IgnoresPace T Z fb.settings
      rw [hf]; exact m
    · show fb.vals = fun id => calculate (fb.settings id) i
      rw [hf]; exact hi
  · rw [if_neg hc, if_neg (show ¬ (paceBrush p b).vals sSmudge > 0 from hc)]
    exact .ok ⟨rfl, rfl, ⟨m, ⟨hp.skip, hp.dabs⟩, p, hk, rfl⟩, i, hi⟩

theorem drawDab_pace {e : Env K R σ} {b b' : Brush K R} (h : PacedOn T Z b b') (surf : σ) (lin : Bool) :
    Alike (fun r r' => r'.1 = r.1 ∧ r'.2.2 = r.2.2 ∧ PacedOn T Z r.2.1 r'.2.1) (drawDab e b surf lin) (drawDab e b' surf lin) := by
  have ho : dabOpacity e b' = dabOpacity e b := by
    obtain ⟨⟨-, -, p, -, rfl⟩, -⟩ := h
    rfl
  have hb : b'.settings = b.settings := by
    obtain ⟨⟨-, -, p, -, rfl⟩, -⟩ := h
    rfl
  unfold drawDab
  rw [ho]
  refine Alike.bind (Alike.same (P := Eq) _ fun _ _ => rfl) ?_
  rintro o _ rfl
  refine Alike.bind (dabPosition_pace h) ?_
  rintro ⟨x, y, b1⟩ ⟨x', y', b1'⟩ ⟨h1, h2, h3⟩
  dsimp only at h1 h2 h3 ⊢
  subst h1 h2
  obtain ⟨r1, r2, r3⟩ := dabRadius_pace (e := e) h3 o
  rw [r1, r2]
  refine Alike.bind (smudgeStage_pace r3 _ _ _ _) ?_
  rintro ⟨st, b2, s2⟩ ⟨st', b2', s2'⟩ ⟨h4, h5, h6⟩
  dsimp only at h4 h5 h6 ⊢
  subst h4 h5
  by_cases hst : st' = true
  · rw [if_pos hst, if_pos hst]
    exact .ok ⟨rfl, rfl, h6⟩
  rw [if_neg hst, if_neg hst]
  have hcol : (⟨b'.baseval sColorH, b'.baseval sColorS, b'.baseval sColorV⟩ : Hue K) =
      ⟨b.baseval sColorH, b.baseval sColorS, b.baseval sColorV⟩ := by
    unfold Brush.baseval; rw [hb]
  rw [hcol]
  refine Alike.bind (smudgeColor_pace h6 _) ?_
  rintro ⟨t, c, b3⟩ ⟨t', c', b3'⟩ ⟨h7, h8, h9⟩
  dsimp only at h7 h8 h9 ⊢
  subst h7 h8
  have ha : ∀ x y r o t c, dabArgs e b3' lin x y r o t c = dabArgs e b3 lin x y r o t c := by
    obtain ⟨⟨-, -, p, -, rfl⟩, -⟩ := h9
    intros; rfl
  rw [ha]
  exact .ok ⟨rfl, rfl, h9⟩

/-! ### Sessions -/

omit [FloorRing K] in
theorem countDabs_pace {e : Env K R σ} {b b' : Brush K R} (h : Paced T Z b b') (x y : K) {dt dt' : K} (ht : dt' = dt ∨ T) :
    (countDabs e b' x y dt').1 = (countDabs e b x y dt).1 ∧
      Paced T Z (countDabs e b x y dt).2 (countDabs e b' x y dt').2 := by
  obtain ⟨m, hp, p, hk, rfl⟩ := h
  have hd : dt' * b.st.dabsPerSecond = dt * b.st.dabsPerSecond := by
    rcases ht with rfl | ht
    · rfl
    · rw [hp.dabs ht, mul_zero, mul_zero]
  have key : countDabs e (paceBrush p b) x y dt' = ((countDabs e b x y dt).1, paceBrush p (countDabs e b x y dt).2) := by
    unfold countDabs
    dsimp only
    by_cases q : b.st.actualRadius = 0
    · rw [if_pos q, if_pos (show (paceBrush p b).st.actualRadius = 0 from q)]
      dsimp only [paceBrush, paceState]
      simp only [hd]
      rfl
    · rw [if_neg q, if_neg (show ¬ (paceBrush p b).st.actualRadius = 0 from q)]
      dsimp only [paceBrush, paceState]
      simp only [hd]
      rfl
  rw [key]
  obtain ⟨r, hr⟩ := countDabs_same e b x y dt
  rw [hr]
  exact ⟨rfl, m, ⟨hp.skip, hp.dabs⟩, p, ⟨hk.1, hk.2, hk.3, hk.4, hk.5⟩, rfl⟩

structure LoopPaced (T Z : Prop) (l l' : Loop K R σ) : Prop where
  b : Paced T Z l.b l'.b
  surf : l'.surf = l.surf
  moved : l'.moved = l.moved
  todo : l'.todo = l.todo
  left : l'.dtimeLeft = l.dtimeLeft ∨ T
  painted : l'.painted = l.painted

omit [FloorRing K] in
theorem PacedOn.flip {b b' : Brush K R} (h : PacedOn T Z b b') :
    PacedOn T Z { b with st := { b.st with flip := b.st.flip * -1 } } { b' with st := { b'.st with flip := b'.st.flip * -1 } } := by
  obtain ⟨⟨m, hp, p, hk, rfl⟩, i, hi⟩ := h
  exact ⟨⟨m, ⟨hp.skip, hp.dabs⟩, p, ⟨hk.1, hk.2, hk.3, hk.4, hk.5⟩, rfl⟩, i, hi⟩

omit [FloorRing K] in
theorem PacedOn.next {e : Env K R σ} {b b' : Brush K R} (h : PacedOn T Z b b') :
    Paced T Z { b with random := (e.next b.rng).1, rng := (e.next b.rng).2 }
      { b' with random := (e.next b'.rng).1, rng := (e.next b'.rng).2 } := by
  obtain ⟨⟨m, hp, p, hk, rfl⟩, i, hi⟩ := h
  exact ⟨m, ⟨hp.skip, hp.dabs⟩, p, hk, rfl⟩

theorem Paced.step {b b' : Brush K R} (h : Paced T Z b b') (t z : K) (ev : Event K) (x y d f tl tl' : K) :
    stepTo b'.st (paceEvent t z ev) x y d f tl' = paceStep (f * tl') z (stepTo b.st ev x y d f tl) := by
  obtain ⟨-, -, p, -, rfl⟩ := h
  rfl

theorem dabStep_pace {e : Env K R σ} (hh : ScaleLaw e) {l l' : Loop K R σ} (h : LoopPaced T Z l l') (t : K) {z : K} {ev : Event K}
    (hz : z = ev.viewzoom ∨ Z) (x y : K) :
    Alike (LoopPaced T Z) (dabStep e ev x y l) (dabStep e (paceEvent t z ev) x y l') := by
  obtain ⟨b, surf, moved, todo, left, painted⟩ := l
  obtain ⟨b', surf', moved', todo', left', painted'⟩ := l'
  obtain ⟨hb, h1, h2, h3, h4, h5⟩ := h
  dsimp only at hb h1 h2 h3 h4 h5
  subst h1 h2 h3 h5
  unfold dabStep
  dsimp only
  by_cases h0 : todo' = 0
  · rw [if_pos h0, if_pos h0]; exact .error _
  · rw [if_neg h0, if_neg h0]
    rw [hb.step t z ev x y (if moved' > 0 then 1 - moved' else 1) ((if moved' > 0 then 1 - moved' else 1) / todo') left left']
    refine Alike.bind (update_pace hh hb hz) ?_
    intro b1 b1' hc
    refine Alike.bind (drawDab_pace hc.flip surf' _) ?_
    rintro ⟨d, b2, s2⟩ ⟨d', b2', s2'⟩ ⟨g1, g2, g3⟩
    dsimp only at g1 g2 g3 ⊢
    subst g1 g2
    have hl : left' - (paceStep ((if moved' > 0 then 1 - moved' else 1) / todo' * left') z (stepTo b.st ev x y (if moved' > 0 then 1 - moved' else 1)
        ((if moved' > 0 then 1 - moved' else 1) / todo') left)).dtime = left - (stepTo b.st ev x y (if moved' > 0 then 1 - moved' else 1)
        ((if moved' > 0 then 1 - moved' else 1) / todo') left).dtime ∨ T := by
      rcases h4 with rfl | q
      · exact .inl rfl
      · exact .inr q
    obtain ⟨k1, k2⟩ := countDabs_pace (e := e) (g3.next (e := e)) x y hl
    exact .ok ⟨k2, rfl, rfl, k1, hl, rfl⟩

theorem dabLoop_pace {e : Env K R σ} (hh : ScaleLaw e) (t : K) {z : K} {ev : Event K} (hz : z = ev.viewzoom ∨ Z) (x y : K) (fuel : Nat) :
    ∀ {l l' : Loop K R σ}, LoopPaced T Z l l' →
      Alike (LoopPaced T Z) (dabLoop e ev x y fuel l) (dabLoop e (paceEvent t z ev) x y fuel l') := by
  induction fuel with
  | zero =>
    intro l l' h
    unfold dabLoop
    rw [h.moved, h.todo]
    by_cases hc : l.moved + l.todo ≥ 1
    · rw [if_pos hc, if_pos hc]; exact .error _
    · rw [if_neg hc, if_neg hc]; exact .ok h
  | succ fuel ih =>
    intro l l' h
    unfold dabLoop
    rw [h.moved, h.todo]
    by_cases hc : l.moved + l.todo ≥ 1
    · rw [if_pos hc, if_pos hc]
      exact Alike.bind (dabStep_pace hh h t hz x y) fun a a' ha => ih ha
    · rw [if_neg hc, if_neg hc]; exact .ok h

/-- The results of an event; the answer to whether the stroke is to be split depends on the clocks. -/
def ResPaced (T Z : Prop) (r r' : Bool × Brush K R × σ) : Prop := r'.2.2 = r.2.2 ∧ Paced T Z r.2.1 r'.2.1

omit [FloorRing K] in
theorem splitStroke_pace {b b' : Brush K R} (h : Paced T Z b b') (p p' : Painted) (dt dt' pr pr' dp dp' : K) :
    Paced T Z (splitStroke b p dt pr dp).2 (splitStroke b' p' dt' pr' dp').2 := by
  obtain ⟨m, hp, q, hk, rfl⟩ := h
  obtain ⟨t, i, ht⟩ := splitStroke_same b p dt pr dp
  obtain ⟨t', i', ht'⟩ := splitStroke_same (paceBrush q b) p' dt' pr' dp'
  rw [ht, ht']
  exact ⟨m, ⟨hp.skip, hp.dabs⟩, { q with idle := i', total := t' }, ⟨hk.1, hk.2, hk.3, hk.4, hk.5⟩, rfl⟩

theorem moveTo_pace {e : Env K R σ} (hh : ScaleLaw e) {b b' : Brush K R} (h : Paced T Z b b') (fuel : Nat) (surf : σ) (t : K) {z : K}
    {ev : Event K} (hz : z = ev.viewzoom ∨ Z) (x y : K) {dt dt' : K} (ht : dt' = dt ∨ T) :
    Alike (ResPaced T Z) (moveTo e fuel b surf ev x y dt) (moveTo e fuel b' surf (paceEvent t z ev) x y dt') := by
  unfold moveTo
  dsimp only
  obtain ⟨k1, k2⟩ := countDabs_pace (e := e) h x y ht
  have k3 : b'.st.partialDabs = b.st.partialDabs := by
    obtain ⟨-, -, p, -, rfl⟩ := h
    rfl
  rw [k1, k3]
  refine Alike.bind (dabLoop_pace (e := e) hh t hz x y fuel ⟨k2, rfl, rfl, rfl, ht, rfl⟩) ?_
  rintro ⟨b, surf, moved, todo, left, painted⟩ ⟨b', surf', moved', todo', left', painted'⟩ ⟨hb, h1, h2, h3, h4, h5⟩
  dsimp only at hb h1 h2 h3 h4 h5 ⊢
  subst h1 h2 h3 h5
  rw [hb.step t z ev x y todo' 1 left left']
  refine Alike.bind (update_pace hh hb hz) ?_
  intro b1 b1' hc
  have hc' : Paced T Z { b1 with st := { b1.st with partialDabs := moved' + todo' } }
      { b1' with st := { b1'.st with partialDabs := moved' + todo' } } := by
    obtain ⟨⟨m, hp, p, hk, rfl⟩, i, hi⟩ := hc
    exact ⟨m, ⟨hp.skip, hp.dabs⟩, p, ⟨hk.1, hk.2, hk.3, hk.4, hk.5⟩, rfl⟩
  exact .ok ⟨rfl, splitStroke_pace hc' _ _ _ _ _ _ _ _⟩

omit [FloorRing K] in
theorem skipStage_pace {e : Env K R σ} {b b' : Brush K R} (h : Paced T Z b b') (x y : K) {dt dt' : K} (ht : dt' = dt ∨ T)
    (h5 : dt > 5 ↔ dt' > 5) :
    (skipStage e b' x y dt').2.2 = (skipStage e b x y dt).2.2 ∧
      ((skipStage e b' x y dt').2.1 = (skipStage e b x y dt).2.1 ∨ T) ∧
      ((skipStage e b x y dt).2.1 > 5 ↔ (skipStage e b' x y dt').2.1 > 5) ∧
      Paced T Z (skipStage e b x y dt).1 (skipStage e b' x y dt').1 := by
  have h' := h
  obtain ⟨m, hp, p, hk, rfl⟩ := h
  by_cases hT : T
  · have e1 : skipStage e b x y dt = (b, dt, false) := by
      unfold skipStage
      rw [if_neg (not_lt.mpr (hp.skip hT))]
    have e2 : skipStage e (paceBrush p b) x y dt' = (paceBrush p b, dt', false) := by
      unfold skipStage
      rw [if_neg (show ¬ (paceBrush p b).skip > 1 / 1000 from not_lt.mpr (hp.skip hT))]
    rw [e1, e2]
    exact ⟨rfl, .inr hT, h5, h'⟩
  · obtain rfl := ht.resolve_right hT
    have key : (skipStage e (paceBrush p b) x y dt').2 = (skipStage e b x y dt').2 ∧
        Paced T Z (skipStage e b x y dt').1 (skipStage e (paceBrush p b) x y dt').1 := by
      unfold skipStage
      dsimp only
      by_cases h1 : b.skip > 1 / 1000
      · rw [if_pos h1, if_pos (show (paceBrush p b).skip > 1 / 1000 from h1)]
        by_cases h2 : b.skip - hypot e (b.skipX - x) (b.skipY - y) > 1 / 1000 ∧
            ¬ (b.skippedTime + dt' > 5 ∨ b.resetRequested = true)
        · rw [if_pos h2, if_pos (show (paceBrush p b).skip -
            hypot e ((paceBrush p b).skipX - x) ((paceBrush p b).skipY - y) > 1 / 1000 ∧
            ¬ ((paceBrush p b).skippedTime + dt' > 5 ∨ (paceBrush p b).resetRequested = true) from h2)]
          exact ⟨rfl, m, ⟨fun q => absurd q hT, fun q => absurd q hT⟩, p, hk, rfl⟩
        · rw [if_neg h2, if_neg (show ¬ ((paceBrush p b).skip -
            hypot e ((paceBrush p b).skipX - x) ((paceBrush p b).skipY - y) > 1 / 1000 ∧
            ¬ ((paceBrush p b).skippedTime + dt' > 5 ∨ (paceBrush p b).resetRequested = true)) from h2)]
          exact ⟨rfl, m, ⟨fun q => absurd q hT, fun q => absurd q hT⟩, p, hk, rfl⟩
      · rw [if_neg h1, if_neg (show ¬ (paceBrush p b).skip > 1 / 1000 from h1)]
        exact ⟨rfl, h'⟩
    rw [key.1]
    exact ⟨rfl, .inl rfl, Iff.rfl, key.2⟩

omit [FloorRing K] in
theorem cursor_pace {e : Env K R σ} {b b' : Brush K R} (h : Paced T Z b b') (x y : K) {dt dt' : K} (ht : dt' = dt ∨ T) :
    (cursor e b' x y dt').1 = (cursor e b x y dt).1 ∧ (cursor e b' x y dt').2.1 = (cursor e b x y dt).2.1 ∧
      Paced T Z (cursor e b x y dt).2.2 (cursor e b' x y dt').2.2 := by
  have h' := h
  obtain ⟨m, hp, p, hk, rfl⟩ := h
  have hx : expDecay e (b.baseval sSlowTracking) (100 * dt') = expDecay e (b.baseval sSlowTracking) (100 * dt) := by
    rcases ht with rfl | hT
    · rfl
    · unfold expDecay
      rw [if_pos (show b.baseval sSlowTracking ≤ 1 / 1000 from (m.tracking hT).1), if_pos (show b.baseval sSlowTracking ≤ 1 / 1000 from (m.tracking hT).1)]
  unfold cursor
  dsimp only
  rw [show (paceBrush p b).baseval = b.baseval from rfl, hx]
  by_cases z : b.baseval sTrackingNoise ≠ 0 ∧ e.exp (b.baseval sRadiusLogarithmic) * b.baseval sTrackingNoise > 1 / 1000
  · rw [if_pos z, if_pos z]
    exact ⟨rfl, rfl, m, ⟨fun q => absurd (m.tracking q).2 z.1, hp.dabs⟩, p, hk, rfl⟩
  · rw [if_neg z, if_neg z]
    exact ⟨rfl, rfl, h'⟩

omit [FloorRing K] in
theorem startOver_pace {e : Env K R σ} {b b' : Brush K R} (h : Paced T Z b b') (x y p : K) :
    Alike (Paced T Z) (startOver e b x y p) (startOver e b' x y p) := by
  obtain ⟨m, hp, q, hk, rfl⟩ := h
  unfold startOver brushReset
  simp only [bind_assoc]
  refine Alike.bind (P := Eq) (Alike.same (P := Eq) (resetBuckets b.buckets) fun _ _ => rfl) ?_
  rintro bk _ rfl
  refine .ok ⟨m, ⟨fun _ => ?_, fun _ => rfl⟩, ⟨0, 0, 0, 0, q.idle, q.total, 0, 0, 0, 0, 0⟩,
    ⟨.inl rfl, .inl rfl, .inl rfl, .inl rfl, .inl rfl⟩, rfl⟩
  show (0 : K) ≤ 1 / 1000
  norm_num

theorem strokeEvent_pace {e : Env K R σ} (hh : ScaleLaw e) {b b' : Brush K R} (h : Paced T Z b b') (fuel : Nat) (surf : σ) {t z : K}
    {ev : Event K} (ht : t = ev.dtime ∨ T) (h5 : ev.dtime > 5 ↔ t > 5) (hz : z = ev.viewzoom ∨ Z) :
    Alike (ResPaced T Z) (strokeEvent e fuel b surf ev) (strokeEvent e fuel b' surf (paceEvent t z ev)) := by
  unfold strokeEvent
  dsimp only [paceEvent]
  obtain ⟨k1, k2, k3, k4⟩ := skipStage_pace (e := e) h ev.x ev.y ht h5
  have hr : b'.resetRequested = b.resetRequested := by
    obtain ⟨-, -, p, -, rfl⟩ := h
    rfl
  rw [k1, hr]
  generalize skipStage e b ev.x ev.y ev.dtime = sk at k1 k2 k3 k4 ⊢
  generalize skipStage e b' ev.x ev.y t = sk' at k1 k2 k3 k4 ⊢
  by_cases hk : sk.2.2 = true
  · rw [if_pos hk, if_pos hk]
    exact .ok ⟨rfl, k4⟩
  · rw [if_neg hk, if_neg hk]
    obtain ⟨c1, c2, c3⟩ := cursor_pace (e := e) k4 ev.x ev.y k2
    rw [c1, c2]
    by_cases h0 : sk.2.1 > 5 ∨ b.resetRequested = true
    · rw [if_pos h0, if_pos (h0.imp_left k3.mp)]
      refine Alike.bind (startOver_pace c3 _ _ _) ?_
      intro b1 b1' h1
      exact .ok ⟨rfl, h1⟩
    · rw [if_neg h0, if_neg (fun q => h0 (q.imp_left k3.mpr))]
      exact moveTo_pace hh c3 fuel surf t hz _ _ k2

/-- The time after the first checks. -/
def someTime (t : K) : K := if t ≤ 0 then 1 / 10000 else t

omit [FloorRing K] in
theorem sanitise_pace {e : Env K R σ} {m m' : Motion K} (h1 : m' = { m with dtime := m'.dtime, viewzoom := m'.viewzoom })
    (hz : m'.viewzoom = m.viewzoom ∨ Z) :
    Alike (fun ev ev' => ∃ z, ev' = paceEvent (someTime m'.dtime) z ev ∧ ev.dtime = someTime m.dtime ∧ (z = ev.viewzoom ∨ Z))
      (sanitise e m) (sanitise e m') := by
  have hx : m'.x = m.x := by rw [h1]
  have hy : m'.y = m.y := by rw [h1]
  have hp : m'.pressure = m.pressure := by rw [h1]
  have hd : m'.xtilt = m.xtilt := by rw [h1]
  have hd2 : m'.ytilt = m.ytilt := by rw [h1]
  have hr : m'.viewrotation = m.viewrotation := by rw [h1]
  have hl : m'.linear = m.linear := by rw [h1]
  have hb : m'.barrel = m.barrel := by rw [h1]
  unfold sanitise
  rw [hx, hy, hp, hd, hd2, hr, hl, hb]
  refine Alike.bind (Alike.same (P := Eq) _ fun _ _ => rfl) ?_
  rintro t _ rfl
  cases sane m.x with
  | none => exact .ok ⟨0, rfl, rfl, .inl rfl⟩
  | some x =>
    cases sane m.y with
    | none => exact .ok ⟨0, rfl, rfl, .inl rfl⟩
    | some y =>
      dsimp only
      by_cases hc : x < 10 ^ 8 ∧ y < 10 ^ 8 ∧ x > -10 ^ 8 ∧ y > -10 ^ 8
      · rw [if_pos hc, if_pos hc]
        exact .ok ⟨m'.viewzoom, rfl, rfl, hz⟩
      · rw [if_neg hc, if_neg hc]
        exact .error _

omit [FloorRing K] in
theorem someTime_gt {c : K} (hc : 1 / 10000 ≤ c) (t : K) : someTime t > c ↔ t > c := by
  unfold someTime
  split_ifs with h
  · constructor <;> intro q <;> linarith
  · exact Iff.rfl

theorem strokeTo_pace {e : Env K R σ} (hh : ScaleLaw e) {b b' : Brush K R} (h : Paced T Z b b') (fuel : Nat) (surf : σ) {m m' : Motion K}
    (hm : SameWay T Z m m') : Alike (ResPaced T Z) (strokeTo e fuel b surf m) (strokeTo e fuel b' surf m') := by
  unfold strokeTo
  have hp : b'.st.pressure = b.st.pressure := by
    obtain ⟨-, -, p, -, rfl⟩ := h
    rfl
  obtain ⟨hsame, htime, ⟨p1, p2, p3⟩, hzoom⟩ := hm
  refine Alike.bind (sanitise_pace hsame hzoom) ?_
  rintro ev _ ⟨z, rfl, hd, hz⟩
  rw [hp]
  have ht : someTime m'.dtime = ev.dtime ∨ T := by
    rw [hd]
    exact htime.imp_left fun q => by rw [q]
  have c1 : ev.dtime > 1 / 10 ↔ someTime m'.dtime > 1 / 10 := by
    rw [hd, someTime_gt (by norm_num), someTime_gt (by norm_num)]; exact p1
  have c2 : ev.dtime > 5 ↔ someTime m'.dtime > 5 := by
    rw [hd, someTime_gt (by norm_num), someTime_gt (by norm_num)]; exact p2
  have c3 : ev.dtime - 1 / 10000 > 5 ↔ someTime m'.dtime - 1 / 10000 > 5 := by
    have k : ∀ v : K, v - 1 / 10000 > 5 ↔ v > 5 + 1 / 10000 := fun v => by constructor <;> intro q <;> linarith
    rw [k, k, hd, someTime_gt (by norm_num), someTime_gt (by norm_num), ← k, ← k]; exact p3
  by_cases hc : ev.dtime > 1 / 10 ∧ ev.pressure ≠ 0 ∧ b.st.pressure = 0
  · rw [if_pos hc, if_pos (show (paceEvent (someTime m'.dtime) z ev).dtime > 1 / 10 ∧
      (paceEvent (someTime m'.dtime) z ev).pressure ≠ 0 ∧ b.st.pressure = 0 from ⟨c1.mp hc.1, hc.2⟩)]
    refine Alike.bind (sanitise_pace (m := workaroundMotion ev) (m' := workaroundMotion (paceEvent (someTime m'.dtime) z ev)) rfl hz) ?_
    rintro i _ ⟨z', rfl, hd', hz'⟩
    have w1 : (workaroundMotion (paceEvent (someTime m'.dtime) z ev)).dtime = someTime m'.dtime - 1 / 10000 := rfl
    have w2 : (workaroundMotion ev).dtime = ev.dtime - 1 / 10000 := rfl
    refine Alike.bind (strokeEvent_pace hh h fuel surf (t := someTime (workaroundMotion (paceEvent (someTime m'.dtime) z ev)).dtime) ?_ ?_ hz') ?_
    · rw [hd', w1, w2]
      exact ht.imp_left fun q => by rw [q]
    · rw [hd', w1, w2, someTime_gt (by norm_num), someTime_gt (by norm_num)]; exact c3
    rintro r r' ⟨r1, r2⟩
    rw [r1]
    exact strokeEvent_pace hh r2 fuel _ (t := 1 / 10000) (ev := { ev with dtime := 1 / 10000 }) (.inl rfl) Iff.rfl hz
  · rw [if_neg hc, if_neg (show ¬ ((paceEvent (someTime m'.dtime) z ev).dtime > 1 / 10 ∧
      (paceEvent (someTime m'.dtime) z ev).pressure ≠ 0 ∧ b.st.pressure = 0) from fun q => hc ⟨c1.mpr q.1, q.2⟩)]
    exact strokeEvent_pace hh h fuel surf ht c2 hz

theorem strokes_pace {e : Env K R σ} (hh : ScaleLaw e) (fuel : Nat) {ms ms' : List (Motion K)} (hm : List.Forall₂ (SameWay T Z) ms ms') :
    ∀ {b b' : Brush K R} (surf : σ), Paced T Z b b' →
      Alike (fun r r' => r'.2 = r.2 ∧ Paced T Z r.1 r'.1) (strokes e fuel b surf ms) (strokes e fuel b' surf ms') := by
  induction hm with
  | nil => intro b b' surf h; exact .ok ⟨rfl, h⟩
  | cons hx _ ih =>
    intro b b' surf h
    unfold strokes
    refine Alike.bind (strokeTo_pace hh h fuel surf hx) ?_
    rintro r r' ⟨r1, r2⟩
    rw [r1]
    exact ih _ r2

end
end Verif.Engine
