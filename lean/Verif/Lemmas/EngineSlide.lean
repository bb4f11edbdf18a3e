import Verif.Lemmas.EngineTwin
import Verif.Lemmas.EngineSafe
import Verif.Spec.Slide
import Mathlib.Tactic.Ring

/-!
# The engine does not know where it is

Two runs of the engine, one with all positions moved by a whole number of pixels.
-/

namespace Verif.Engine
open Verif.Mask Verif.Color Verif.Spectral Verif.Map

section
variable {K R σ : Type} [Field K] [LinearOrder K] [IsStrictOrderedRing K] [FloorRing K]

/-- The state somewhere else. -/
def slideState (u w gx gy : K) (st : State K) : State K :=
  { st with x := st.x + u, y := st.y + w, actualX := st.actualX + u, actualY := st.actualY + w
            gridmapX := gx, gridmapY := gy }

/-- The brush somewhere else. -/
def slideBrush (u w gx gy sx sy : K) (b : Brush K R) : Brush K R :=
  { b with st := slideState u w gx gy b.st, skipX := sx, skipY := sy }

/-- What the settings must be like. -/
structure Movable (s : Load.Brush K) : Prop where
  grid : NoGridmap s
  samples : NeverSamples s

/-- Between steps. -/
def Slid (u w : K) (b b' : Brush K R) : Prop :=
  Movable b.settings ∧ ∃ gx gy sx sy, b' = slideBrush u w gx gy sx sy b ∧
    (b.skip > 1 / 1000 → sx = b.skipX + u ∧ sy = b.skipY + w)

omit [IsStrictOrderedRing K] [FloorRing K] in
theorem slid_iff {u w : K} {b b' : Brush K R} : Slid u w b b' ↔ Movable b.settings ∧ Elsewhere u w b b' := Iff.rfl

/-- After a step. -/
def SlidOn (u w : K) (b b' : Brush K R) : Prop :=
  Slid u w b b' ∧ ∃ i, b.vals = fun id => calculate (b.settings id) i

omit [IsStrictOrderedRing K] [FloorRing K] in
theorem approach_slide (v t f u : K) : approach (v + u) (t + u) f = approach v t f + u := by
  unfold approach; ring

omit [IsStrictOrderedRing K] in
theorem moveStates_slide (e : Env K R σ) (b : Brush K R) (u w gx gy sx sy : K) (s : Step K) :
    ∃ gx' gy', moveStates e (slideBrush u w gx gy sx sy b) s = slideState u w gx' gy' (moveStates e b s) := by
  refine ⟨gridmap (e.exp (b.vals sGridmapScale) * 256) (b.vals sGridmapScaleX) (b.st.actualX + u),
    gridmap (e.exp (b.vals sGridmapScale) * 256) (b.vals sGridmapScaleY) (b.st.actualY + w), ?_⟩
  unfold moveStates slideBrush slideState
  dsimp only
  rw [add_right_comm b.st.x u s.dx, add_right_comm b.st.y w s.dy]
  rfl

omit [IsStrictOrderedRing K] in
theorem followStates_slide (e : Env K R σ) (b : Brush K R) (u w gx gy sx sy gx' gy' : K) (st : State K) (vals : Nat → K)
    (s : Step K) :
    followStates e (slideBrush u w gx gy sx sy b) (slideState u w gx' gy' st) vals s =
      slideState u w gx' gy' (followStates e b st vals s) := by
  unfold followStates
  dsimp only [slideState]
  rw [approach_slide, approach_slide]
  rfl

omit [IsStrictOrderedRing K] in
theorem update_slide {e : Env K R σ} {u w : K} {b b' : Brush K R} (h : Slid u w b b') (s : Step K) :
    Alike (SlidOn u w) (update e b s) (update e b' s) := by
  obtain ⟨m, gx, gy, sx, sy, rfl, hs⟩ := h
  obtain ⟨gx', gy', hm⟩ := moveStates_slide e b u w gx gy sx sy s
  have key : settingValues b.settings (inputsOf e (slideBrush u w gx gy sx sy b) (slideState u w gx' gy' (moveStates e b s))) =
      settingValues b.settings (inputsOf e b (moveStates e b s)) := by
    funext id
    refine m.grid id _ _ (fun k k1 k2 => ?_)
    unfold Inputs.get
    simp only [k1, k2, if_false]
    rfl
  unfold update
  dsimp only
  by_cases hz : s.viewzoom ≤ 0 ∧ usesInput b.settings iViewzoom = true
  · rw [if_pos hz, if_pos (show s.viewzoom ≤ 0 ∧ usesInput (slideBrush u w gx gy sx sy b).settings iViewzoom = true from hz)]
    exact .error _
  · rw [if_neg hz, if_neg (show ¬ (s.viewzoom ≤ 0 ∧
      usesInput (slideBrush u w gx gy sx sy b).settings iViewzoom = true) from hz)]
    rw [hm, show (slideBrush u w gx gy sx sy b).settings = b.settings from rfl, key, followStates_slide]
    exact .ok ⟨⟨m, gx', gy', sx, sy, rfl, hs⟩, _, rfl⟩

omit [IsStrictOrderedRing K] in
theorem dabPosition_slide {e : Env K R σ} {u w : K} {b b' : Brush K R} (h : SlidOn u w b b') :
    Alike (fun r r' => r'.1 = r.1 + u ∧ r'.2.1 = r.2.1 + w ∧ SlidOn u w r.2.2 r'.2.2) (dabPosition e b) (dabPosition e b') := by
  obtain ⟨⟨m, gx, gy, sx, sy, rfl, hs⟩, i, hi⟩ := h
  unfold dabPosition
  dsimp only
  have ho : ∀ r f, directionalOffsets e (slideBrush u w gx gy sx sy b) r f = directionalOffsets e b r f := fun _ _ => rfl
  rw [ho]
  by_cases hz : b.vals sOffsetBySpeed ≠ 0 ∧ b.st.viewzoom = 0
  · rw [if_pos hz, if_pos (show (slideBrush u w gx gy sx sy b).vals sOffsetBySpeed ≠ 0 ∧
      (slideBrush u w gx gy sx sy b).st.viewzoom = 0 from hz)]
    exact .error _
  · rw [if_neg hz, if_neg (show ¬ ((slideBrush u w gx gy sx sy b).vals sOffsetBySpeed ≠ 0 ∧
      (slideBrush u w gx gy sx sy b).st.viewzoom = 0) from hz)]
    have hx : ∀ z v a : K, (if (slideBrush u w gx gy sx sy b).vals sOffsetBySpeed ≠ 0 then v + u + a + z else v + u + a) =
        (if b.vals sOffsetBySpeed ≠ 0 then v + a + z else v + a) + u := by
      intro z v a
      by_cases hb : b.vals sOffsetBySpeed ≠ 0
      · rw [if_pos hb, if_pos (show (slideBrush u w gx gy sx sy b).vals sOffsetBySpeed ≠ 0 from hb)]; ring
      · rw [if_neg hb, if_neg (show ¬ (slideBrush u w gx gy sx sy b).vals sOffsetBySpeed ≠ 0 from hb)]; ring
    have hy : ∀ z v a : K, (if (slideBrush u w gx gy sx sy b).vals sOffsetBySpeed ≠ 0 then v + w + a + z else v + w + a) =
        (if b.vals sOffsetBySpeed ≠ 0 then v + a + z else v + a) + w := by
      intro z v a
      by_cases hb : b.vals sOffsetBySpeed ≠ 0
      · rw [if_pos hb, if_pos (show (slideBrush u w gx gy sx sy b).vals sOffsetBySpeed ≠ 0 from hb)]; ring
      · rw [if_neg hb, if_neg (show ¬ (slideBrush u w gx gy sx sy b).vals sOffsetBySpeed ≠ 0 from hb)]; ring
    rw [show (slideBrush u w gx gy sx sy b).st.actualX = b.st.actualX + u from rfl,
      show (slideBrush u w gx gy sx sy b).st.actualY = b.st.actualY + w from rfl, hx, hy]
    by_cases hr : b.vals sOffsetByRandom ≠ 0
    · rw [if_pos hr, if_pos (show (slideBrush u w gx gy sx sy b).vals sOffsetByRandom ≠ 0 from hr)]
      refine .ok ⟨?_, ?_, ⟨m, gx, gy, sx, sy, rfl, hs⟩, i, hi⟩
      · exact add_right_comm _ _ _
      · exact add_right_comm _ _ _
    · rw [if_neg hr, if_neg (show ¬ (slideBrush u w gx gy sx sy b).vals sOffsetByRandom ≠ 0 from hr)]
      exact .ok ⟨rfl, rfl, ⟨m, gx, gy, sx, sy, rfl, hs⟩, i, hi⟩

omit [IsStrictOrderedRing K] [FloorRing K] in
theorem dabRadius_slide {e : Env K R σ} {u w : K} {b b' : Brush K R} (h : SlidOn u w b b') (o : K) :
    (dabRadius e b' o).1 = (dabRadius e b o).1 ∧ (dabRadius e b' o).2.1 = (dabRadius e b o).2.1 ∧
      SlidOn u w (dabRadius e b o).2.2 (dabRadius e b' o).2.2 := by
  obtain ⟨⟨m, gx, gy, sx, sy, rfl, hs⟩, i, hi⟩ := h
  unfold dabRadius
  dsimp only
  by_cases hr : b.vals sRadiusByRandom ≠ 0
  · rw [if_pos hr, if_pos (show (slideBrush u w gx gy sx sy b).vals sRadiusByRandom ≠ 0 from hr)]
    exact ⟨rfl, rfl, ⟨m, gx, gy, sx, sy, rfl, hs⟩, i, hi⟩
  · rw [if_neg hr, if_neg (show ¬ (slideBrush u w gx gy sx sy b).vals sRadiusByRandom ≠ 0 from hr)]
    exact ⟨rfl, rfl, ⟨m, gx, gy, sx, sy, rfl, hs⟩, i, hi⟩

omit [IsStrictOrderedRing K] in
theorem smudgeStage_slide {e : Env K R σ} {u w : K} {b b' : Brush K R} (h : SlidOn u w b b') (surf surf' : σ)
    (x y x' y' r : K) :
    smudgeStage e b surf x y r = .ok (false, b, surf) ∧ smudgeStage e b' surf' x' y' r = .ok (false, b', surf') := by
  obtain ⟨⟨m, gx, gy, sx, sy, rfl, hs⟩, i, hi⟩ := h
  have hn : ¬ (b.vals sSmudgeLength < 1 ∧ (b.vals sSmudge ≠ 0 ∨ isConstant (b.settings sSmudge) = false)) := by
    rw [hi]; exact m.samples i
  constructor
  · unfold smudgeStage
    rw [if_neg hn]
    rfl
  · unfold smudgeStage
    rw [if_neg (show ¬ ((slideBrush u w gx gy sx sy b).vals sSmudgeLength < 1 ∧
      ((slideBrush u w gx gy sx sy b).vals sSmudge ≠ 0 ∨
        isConstant ((slideBrush u w gx gy sx sy b).settings sSmudge) = false)) from hn)]
    rfl

omit [IsStrictOrderedRing K] in
theorem fetchSmudge_slide (u w gx gy sx sy : K) (b : Brush K R) :
    fetchSmudge (slideBrush u w gx gy sx sy b) =
      ((fetchSmudge b).1, slideBrush u w gx gy sx sy (fetchSmudge b).2) := by
  unfold fetchSmudge
  by_cases h : b.buckets.mem.isEmpty = true ∨ b.buckets.num = 0
  · rw [if_pos h, if_pos (show (slideBrush u w gx gy sx sy b).buckets.mem.isEmpty = true ∨
      (slideBrush u w gx gy sx sy b).buckets.num = 0 from h)]
  · rw [if_neg h, if_neg (show ¬ ((slideBrush u w gx gy sx sy b).buckets.mem.isEmpty = true ∨
      (slideBrush u w gx gy sx sy b).buckets.num = 0) from h)]
    rfl

theorem smudgeColor_slide {e : Env K R σ} {u w : K} {b b' : Brush K R} (h : SlidOn u w b b') (c : Rgb K) :
    Alike (fun r r' => r'.1 = r.1 ∧ r'.2.1 = r.2.1 ∧ SlidOn u w r.2.2 r'.2.2) (smudgeColor e b c) (smudgeColor e b' c) := by
  obtain ⟨⟨m, gx, gy, sx, sy, rfl, hs⟩, i, hi⟩ := h
  unfold smudgeColor
  by_cases hc : b.vals sSmudge > 0
  · rw [if_pos hc, if_pos (show (slideBrush u w gx gy sx sy b).vals sSmudge > 0 from hc)]
    dsimp only
    rw [fetchSmudge_slide]
    dsimp only
    have hl : ∀ (b : Brush K R) o, loadSmudge (slideBrush u w gx gy sx sy b) o = loadSmudge b o := by
      intro b o; cases o <;> rfl
    rw [hl]
    have hf := fetchSmudge_same b
    generalize fetchSmudge b = f at hf ⊢
    obtain ⟨o, fb⟩ := f
    dsimp only at hf ⊢
    refine Alike.bind (Alike.same (P := Eq) _ fun _ _ => rfl) ?_
    rintro v _ rfl
    refine .ok ⟨rfl, rfl, ⟨?_, gx, gy, sx, sy, rfl, ?_⟩, i, ?_⟩
    · show Movable fb.settings
      rw [hf]; exact m
    · show fb.skip > 1 / 1000 → sx = fb.skipX + u ∧ sy = fb.skipY + w
      rw [hf]; exact hs
    · show fb.vals = fun id => calculate (fb.settings id) i
      rw [hf]; exact hi
  · rw [if_neg hc, if_neg (show ¬ (slideBrush u w gx gy sx sy b).vals sSmudge > 0 from hc)]
    exact .ok ⟨rfl, rfl, ⟨m, gx, gy, sx, sy, rfl, hs⟩, i, hi⟩

theorem snap_slide (b : Brush K R) (u w : Int) (x y r : K) :
    snap b (x + u) (y + w) r = ((snap b x y r).1 + u, (snap b x y r).2.1 + w, (snap b x y r).2.2) := by
  unfold snap
  dsimp only
  by_cases h : b.vals sSnapToPixel > 0
  · rw [if_pos h, if_pos h, Int.floor_add_intCast, Int.floor_add_intCast]
    push_cast
    refine Prod.ext ?_ (Prod.ext ?_ rfl)
    · dsimp only; ring
    · dsimp only; ring
  · rw [if_neg h, if_neg h]

theorem dabArgs_slide (e : Env K R σ) (b : Brush K R) (gx gy sx sy : K) (lin : Bool) (u w : Int) (x y r o t : K) (c : Rgb K) :
    dabArgs e (slideBrush (u : K) (w : K) gx gy sx sy b) lin (x + u) (y + w) r o t c =
      slideDab (u : K) (w : K) (dabArgs e b lin x y r o t c) := by
  unfold dabArgs
  dsimp only
  have h1 : ∀ x y r, snap (slideBrush (u : K) (w : K) gx gy sx sy b) x y r = snap b x y r := fun _ _ _ => rfl
  rw [h1, snap_slide]
  rfl

/-- Drawing a dab somewhere else keeps the surfaces related. -/
def Draws (e : Env K R σ) (u w : K) (P : σ → σ → Prop) : Prop :=
  ∀ s s' a, P s s' → (e.draw s' (slideDab u w a)).1 = (e.draw s a).1 ∧ P (e.draw s a).2 (e.draw s' (slideDab u w a)).2

theorem drawDab_slide {e : Env K R σ} {u w : Int} {P : σ → σ → Prop} (hP : Draws e (u : K) (w : K) P) {b b' : Brush K R}
    (h : SlidOn (u : K) (w : K) b b') {surf surf' : σ} (hs : P surf surf') (lin : Bool) :
    Alike (fun r r' => r'.1 = r.1 ∧ P r.2.2 r'.2.2 ∧ SlidOn (u : K) (w : K) r.2.1 r'.2.1) (drawDab e b surf lin)
      (drawDab e b' surf' lin) := by
  have ho : dabOpacity e b' = dabOpacity e b := by
    obtain ⟨⟨-, gx, gy, sx, sy, rfl, -⟩, -⟩ := h
    rfl
  have hb : b'.settings = b.settings := by
    obtain ⟨⟨-, gx, gy, sx, sy, rfl, -⟩, -⟩ := h
    rfl
  unfold drawDab
  rw [ho]
  refine Alike.bind (Alike.same (P := Eq) _ fun _ _ => rfl) ?_
  rintro o _ rfl
  refine Alike.bind (dabPosition_slide h) ?_
  rintro ⟨x, y, b1⟩ ⟨x', y', b1'⟩ ⟨h1, h2, h3⟩
  dsimp only at h1 h2 h3 ⊢
  subst h1 h2
  obtain ⟨r1, r2, r3⟩ := dabRadius_slide (e := e) h3 o
  rw [r1, r2]
  obtain ⟨q1, q2⟩ := smudgeStage_slide (e := e) r3 surf surf' x y (x + u) (y + w) (dabRadius e b1 o).1
  rw [q1, q2]
  simp only [bind, Except.bind, Bool.false_eq_true, if_false]
  have hcol : (⟨b'.baseval sColorH, b'.baseval sColorS, b'.baseval sColorV⟩ : Hue K) =
      ⟨b.baseval sColorH, b.baseval sColorS, b.baseval sColorV⟩ := by
    unfold Brush.baseval; rw [hb]
  rw [hcol]
  refine Alike.bind (smudgeColor_slide r3 _) ?_
  rintro ⟨t, c, b3⟩ ⟨t', c', b3'⟩ ⟨h7, h8, h9⟩
  dsimp only at h7 h8 h9 ⊢
  subst h7 h8
  have ha : dabArgs e b3' lin (x + u) (y + w) (dabRadius e b1 o).1 (dabRadius e b1 o).2.1 t' c' =
      slideDab (u : K) (w : K) (dabArgs e b3 lin x y (dabRadius e b1 o).1 (dabRadius e b1 o).2.1 t' c') := by
    obtain ⟨⟨-, gx, gy, sx, sy, rfl, -⟩, -⟩ := h9
    exact dabArgs_slide e b3 gx gy sx sy lin u w x y _ _ _ _
  rw [ha]
  obtain ⟨p1, p2⟩ := hP surf surf' (dabArgs e b3 lin x y (dabRadius e b1 o).1 (dabRadius e b1 o).2.1 t' c') hs
  exact .ok ⟨p1, p2, h9⟩

/-! ### Sessions -/

omit [FloorRing K] in
theorem countDabs_slide {e : Env K R σ} {u w : K} {b b' : Brush K R} (h : Slid u w b b') (x y dt : K) :
    (countDabs e b' (x + u) (y + w) dt).1 = (countDabs e b x y dt).1 ∧
      Slid u w (countDabs e b x y dt).2 (countDabs e b' (x + u) (y + w) dt).2 := by
  obtain ⟨m, gx, gy, sx, sy, rfl, hs⟩ := h
  have key : countDabs e (slideBrush u w gx gy sx sy b) (x + u) (y + w) dt =
      ((countDabs e b x y dt).1, slideBrush u w gx gy sx sy (countDabs e b x y dt).2) := by
    unfold countDabs
    dsimp only
    by_cases q : b.st.actualRadius = 0
    · rw [if_pos q, if_pos (show (slideBrush u w gx gy sx sy b).st.actualRadius = 0 from q)]
      dsimp only [slideBrush, slideState]
      simp only [add_sub_add_right_eq_sub]
      rfl
    · rw [if_neg q, if_neg (show ¬ (slideBrush u w gx gy sx sy b).st.actualRadius = 0 from q)]
      dsimp only [slideBrush, slideState]
      simp only [add_sub_add_right_eq_sub]
      rfl
  rw [key]
  obtain ⟨r, hr⟩ := countDabs_same e b x y dt
  rw [hr]
  exact ⟨rfl, m, gx, gy, sx, sy, rfl, hs⟩

/-- The same for the dab loop. -/
structure LoopSlid (u w : K) (P : σ → σ → Prop) (l l' : Loop K R σ) : Prop where
  b : Slid u w l.b l'.b
  surf : P l.surf l'.surf
  moved : l'.moved = l.moved
  todo : l'.todo = l.todo
  left : l'.dtimeLeft = l.dtimeLeft
  painted : l'.painted = l.painted

omit [FloorRing K] in
theorem SlidOn.flip {u w : K} {b b' : Brush K R} (h : SlidOn u w b b') :
    SlidOn u w { b with st := { b.st with flip := b.st.flip * -1 } } { b' with st := { b'.st with flip := b'.st.flip * -1 } } := by
  obtain ⟨⟨m, gx, gy, sx, sy, rfl, hs⟩, i, hi⟩ := h
  exact ⟨⟨m, gx, gy, sx, sy, rfl, hs⟩, i, hi⟩

omit [FloorRing K] in
theorem SlidOn.next {e : Env K R σ} {u w : K} {b b' : Brush K R} (h : SlidOn u w b b') :
    Slid u w { b with random := (e.next b.rng).1, rng := (e.next b.rng).2 }
      { b' with random := (e.next b'.rng).1, rng := (e.next b'.rng).2 } := by
  obtain ⟨⟨m, gx, gy, sx, sy, rfl, hs⟩, i, hi⟩ := h
  exact ⟨m, gx, gy, sx, sy, rfl, hs⟩

/-- The event somewhere else. -/
def slideEvent (u w : K) (ev : Event K) : Event K := { ev with x := ev.x + u, y := ev.y + w }

theorem Slid.step {u w : K} {b b' : Brush K R} (h : Slid u w b b') (ev : Event K) (x y d f t : K) :
    stepTo b'.st (slideEvent (u : K) (w : K) ev) (x + u) (y + w) d f t = stepTo b.st ev x y d f t := by
  obtain ⟨-, gx, gy, sx, sy, rfl, -⟩ := h
  unfold stepTo
  dsimp only [slideBrush, slideState, slideEvent]
  rw [add_sub_add_right_eq_sub, add_sub_add_right_eq_sub]

theorem dabStep_slide {e : Env K R σ} {u w : Int} {P : σ → σ → Prop} (hP : Draws e (u : K) (w : K) P) {l l' : Loop K R σ}
    (h : LoopSlid (u : K) (w : K) P l l') (ev : Event K) (x y : K) :
    Alike (LoopSlid (u : K) (w : K) P) (dabStep e ev x y l) (dabStep e (slideEvent (u : K) (w : K) ev) (x + u) (y + w) l') := by
  obtain ⟨b, surf, moved, todo, left, painted⟩ := l
  obtain ⟨b', surf', moved', todo', left', painted'⟩ := l'
  obtain ⟨hb, h1, h2, h3, h4, h5⟩ := h
  dsimp only at hb h1 h2 h3 h4 h5
  subst h2 h3 h4 h5
  unfold dabStep
  dsimp only
  by_cases hz : todo' = 0
  · rw [if_pos hz, if_pos hz]; exact .error _
  · rw [if_neg hz, if_neg hz, hb.step]
    refine Alike.bind (update_slide hb _) ?_
    intro b1 b1' hc
    refine Alike.bind (drawDab_slide hP hc.flip h1 _) ?_
    rintro ⟨d, b2, s2⟩ ⟨d', b2', s2'⟩ ⟨g1, g2, g3⟩
    dsimp only at g1 g2 g3 ⊢
    subst g1
    obtain ⟨k1, k2⟩ := countDabs_slide (e := e) (g3.next (e := e)) x y
      (left' - (stepTo b.st ev x y (if moved' > 0 then 1 - moved' else 1)
        ((if moved' > 0 then 1 - moved' else 1) / todo') left').dtime)
    exact .ok ⟨k2, g2, rfl, k1, rfl, rfl⟩

theorem dabLoop_slide {e : Env K R σ} {u w : Int} {P : σ → σ → Prop} (hP : Draws e (u : K) (w : K) P) (ev : Event K) (x y : K)
    (fuel : Nat) : ∀ {l l' : Loop K R σ}, LoopSlid (u : K) (w : K) P l l' →
      Alike (LoopSlid (u : K) (w : K) P) (dabLoop e ev x y fuel l) (dabLoop e (slideEvent (u : K) (w : K) ev) (x + u) (y + w) fuel l') := by
  induction fuel with
  | zero =>
    intro l l' h
    unfold dabLoop
    rw [h.moved, h.todo]
    by_cases hc : l.moved + l.todo ≥ 1
    · rw [if_pos hc, if_pos hc]; exact .error _
    · rw [if_neg hc, if_neg hc]; exact .ok h
  | succ fuel ih =>
    intro l l' h
    unfold dabLoop
    rw [h.moved, h.todo]
    by_cases hc : l.moved + l.todo ≥ 1
    · rw [if_pos hc, if_pos hc]
      exact Alike.bind (dabStep_slide hP h ev x y) fun a a' ha => ih ha
    · rw [if_neg hc, if_neg hc]; exact .ok h

/-- The results of an event. -/
def ResSlid (u w : K) (P : σ → σ → Prop) (r r' : Bool × Brush K R × σ) : Prop :=
  P r.2.2 r'.2.2 ∧ Slid u w r.2.1 r'.2.1 ∧ r'.1 = r.1

omit [FloorRing K] in
theorem splitStroke_slide {u w : K} {b b' : Brush K R} (h : Slid u w b b') (p : Painted) (dt pr dp : K) :
    Slid u w (splitStroke b p dt pr dp).2 (splitStroke b' p dt pr dp).2 ∧
      (splitStroke b' p dt pr dp).1 = (splitStroke b p dt pr dp).1 := by
  obtain ⟨m, gx, gy, sx, sy, rfl, hs⟩ := h
  have e2 : splitStroke (slideBrush u w gx gy sx sy b) p dt pr dp =
      ((splitStroke b p dt pr dp).1, slideBrush u w gx gy sx sy (splitStroke b p dt pr dp).2) := by
    unfold splitStroke
    dsimp only
    by_cases hp : (if p = .unknown then (if b.idle > 0 ∨ b.total = 0 then Painted.no else .yes) else p) = .yes
    · rw [if_pos hp, if_pos (show (if p = .unknown then (if (slideBrush u w gx gy sx sy b).idle > 0 ∨
        (slideBrush u w gx gy sx sy b).total = 0 then Painted.no else .yes) else p) = .yes from hp)]
      rfl
    · rw [if_neg hp, if_neg (show ¬ (if p = .unknown then (if (slideBrush u w gx gy sx sy b).idle > 0 ∨
        (slideBrush u w gx gy sx sy b).total = 0 then Painted.no else .yes) else p) = .yes from hp)]
      by_cases hz : b.total = 0
      · rw [if_pos hz, if_pos (show (slideBrush u w gx gy sx sy b).total = 0 from hz)]
        rfl
      · rw [if_neg hz, if_neg (show ¬ (slideBrush u w gx gy sx sy b).total = 0 from hz)]
        rfl
  rw [e2]
  obtain ⟨t, i, ht⟩ := splitStroke_same b p dt pr dp
  rw [ht]
  exact ⟨⟨m, gx, gy, sx, sy, rfl, hs⟩, rfl⟩

theorem moveTo_slide {e : Env K R σ} {u w : Int} {P : σ → σ → Prop} (hP : Draws e (u : K) (w : K) P) {b b' : Brush K R}
    (h : Slid (u : K) (w : K) b b') (fuel : Nat) {surf surf' : σ} (hs : P surf surf') (ev : Event K) (x y dt : K) :
    Alike (ResSlid (u : K) (w : K) P) (moveTo e fuel b surf ev x y dt)
      (moveTo e fuel b' surf' (slideEvent (u : K) (w : K) ev) (x + u) (y + w) dt) := by
  unfold moveTo
  dsimp only
  obtain ⟨k1, k2⟩ := countDabs_slide (e := e) h x y dt
  have k3 : b'.st.partialDabs = b.st.partialDabs := by
    obtain ⟨-, gx, gy, sx, sy, rfl, -⟩ := h
    rfl
  rw [k1, k3]
  refine Alike.bind (dabLoop_slide (e := e) hP ev x y fuel ⟨k2, hs, rfl, rfl, rfl, rfl⟩) ?_
  rintro ⟨b, surf, moved, todo, left, painted⟩ ⟨b', surf', moved', todo', left', painted'⟩ ⟨hb, h1, h2, h3, h4, h5⟩
  dsimp only at hb h1 h2 h3 h4 h5 ⊢
  subst h2 h3 h4 h5
  rw [hb.step]
  refine Alike.bind (update_slide hb _) ?_
  intro b1 b1' hc
  have hc' : Slid (u : K) (w : K) { b1 with st := { b1.st with partialDabs := moved' + todo' } }
      { b1' with st := { b1'.st with partialDabs := moved' + todo' } } := by
    obtain ⟨⟨m, gx, gy, sx, sy, rfl, hs⟩, i, hi⟩ := hc
    exact ⟨m, gx, gy, sx, sy, rfl, hs⟩
  obtain ⟨s1, s2⟩ := splitStroke_slide hc' painted' dt ev.pressure (stepTo b.st ev x y todo' 1 left').dpressure
  exact .ok ⟨h1, s1, s2⟩

omit [FloorRing K] in
theorem skipStage_slide {e : Env K R σ} {u w : K} {b b' : Brush K R} (h : Slid u w b b') (x y dt : K) :
    (skipStage e b' (x + u) (y + w) dt).2 = (skipStage e b x y dt).2 ∧
      Slid u w (skipStage e b x y dt).1 (skipStage e b' (x + u) (y + w) dt).1 := by
  have h' := h
  obtain ⟨m, gx, gy, sx, sy, rfl, hs⟩ := h
  unfold skipStage
  dsimp only
  by_cases h1 : b.skip > 1 / 1000
  · rw [if_pos h1, if_pos (show (slideBrush u w gx gy sx sy b).skip > 1 / 1000 from h1)]
    obtain ⟨e1, e2⟩ := hs h1
    subst e1 e2
    have hd : hypot e ((slideBrush u w gx gy (b.skipX + u) (b.skipY + w) b).skipX - (x + u))
        ((slideBrush u w gx gy (b.skipX + u) (b.skipY + w) b).skipY - (y + w)) = hypot e (b.skipX - x) (b.skipY - y) := by
      dsimp only [slideBrush]
      simp only [add_sub_add_right_eq_sub]
    rw [hd]
    by_cases h2 : b.skip - hypot e (b.skipX - x) (b.skipY - y) > 1 / 1000 ∧
        ¬ (b.skippedTime + dt > 5 ∨ b.resetRequested = true)
    · rw [if_pos h2, if_pos (show (slideBrush u w gx gy (b.skipX + u) (b.skipY + w) b).skip -
        hypot e (b.skipX - x) (b.skipY - y) > 1 / 1000 ∧
        ¬ ((slideBrush u w gx gy (b.skipX + u) (b.skipY + w) b).skippedTime + dt > 5 ∨
          (slideBrush u w gx gy (b.skipX + u) (b.skipY + w) b).resetRequested = true) from h2)]
      exact ⟨rfl, m, gx, gy, _, _, rfl, fun _ => ⟨rfl, rfl⟩⟩
    · rw [if_neg h2, if_neg (show ¬ ((slideBrush u w gx gy (b.skipX + u) (b.skipY + w) b).skip -
        hypot e (b.skipX - x) (b.skipY - y) > 1 / 1000 ∧
        ¬ ((slideBrush u w gx gy (b.skipX + u) (b.skipY + w) b).skippedTime + dt > 5 ∨
          (slideBrush u w gx gy (b.skipX + u) (b.skipY + w) b).resetRequested = true)) from h2)]
      refine ⟨rfl, m, gx, gy, 0, 0, rfl, fun h => ?_⟩
      dsimp only at h
      norm_num at h
  · rw [if_neg h1, if_neg (show ¬ (slideBrush u w gx gy sx sy b).skip > 1 / 1000 from h1)]
    exact ⟨rfl, h'⟩

omit [FloorRing K] in
theorem cursor_slide {e : Env K R σ} {u w : K} {b b' : Brush K R} (h : Slid u w b b') (x y dt : K) :
    (cursor e b' (x + u) (y + w) dt).1 = (cursor e b x y dt).1 + u ∧
      (cursor e b' (x + u) (y + w) dt).2.1 = (cursor e b x y dt).2.1 + w ∧
      Slid u w (cursor e b x y dt).2.2 (cursor e b' (x + u) (y + w) dt).2.2 := by
  have h' := h
  obtain ⟨m, gx, gy, sx, sy, rfl, hs⟩ := h
  unfold cursor
  dsimp only
  by_cases z : b.baseval sTrackingNoise ≠ 0 ∧ e.exp (b.baseval sRadiusLogarithmic) * b.baseval sTrackingNoise > 1 / 1000
  · rw [if_pos z, if_pos (show (slideBrush u w gx gy sx sy b).baseval sTrackingNoise ≠ 0 ∧
      e.exp ((slideBrush u w gx gy sx sy b).baseval sRadiusLogarithmic) *
        (slideBrush u w gx gy sx sy b).baseval sTrackingNoise > 1 / 1000 from z)]
    refine ⟨?_, ?_, m, gx, gy, x + u, y + w, rfl, fun _ => ⟨rfl, rfl⟩⟩
    · dsimp only
      rw [add_right_comm x]
      exact approach_slide _ _ _ _
    · dsimp only
      rw [add_right_comm y]
      exact approach_slide _ _ _ _
  · rw [if_neg z, if_neg (show ¬ ((slideBrush u w gx gy sx sy b).baseval sTrackingNoise ≠ 0 ∧
      e.exp ((slideBrush u w gx gy sx sy b).baseval sRadiusLogarithmic) *
        (slideBrush u w gx gy sx sy b).baseval sTrackingNoise > 1 / 1000) from z)]
    exact ⟨approach_slide _ _ _ _, approach_slide _ _ _ _, h'⟩

omit [FloorRing K] in
theorem startOver_slide {e : Env K R σ} {u w : K} {b b' : Brush K R} (hm : Movable b.settings)
    (h : ∃ st sx sy, b' = { b with st := st, skipX := sx, skipY := sy }) (x y p : K) :
    Alike (Slid u w) (startOver e b x y p) (startOver e b' (x + u) (y + w) p) := by
  obtain ⟨st, sx, sy, rfl⟩ := h
  unfold startOver brushReset
  simp only [bind_assoc]
  refine Alike.bind (P := Eq) (Alike.same (P := Eq) (resetBuckets b.buckets) fun _ _ => rfl) ?_
  rintro bk _ rfl
  refine .ok ⟨hm, 0, 0, 0, 0, rfl, fun h => ?_⟩
  simp only [pure_bind] at h
  exact absurd h (by norm_num)

/-- Brushes at corresponding places, or the same brush about to start over without slow tracking. -/
def Aligned (u w : K) (b b' : Brush K R) : Prop :=
  Slid u w b b' ∨ (b' = b ∧ Movable b.settings ∧ Fresh b)

omit [FloorRing K] in
/-- Without slow tracking the cursor is at the pointer. -/
theorem cursor_start (e : Env K R σ) (b : Brush K R) (x y dt u w : K) (h : b.baseval sSlowTracking ≤ 1 / 1000) :
    (cursor e b (x + u) (y + w) dt).1 = (cursor e b x y dt).1 + u ∧
      (cursor e b (x + u) (y + w) dt).2.1 = (cursor e b x y dt).2.1 + w ∧
      (cursor e b x y dt).2.2.settings = b.settings ∧
      ∃ st sx sy, (cursor e b (x + u) (y + w) dt).2.2 = { (cursor e b x y dt).2.2 with st := st, skipX := sx, skipY := sy } := by
  have hf : 1 - expDecay e (b.baseval sSlowTracking) (100 * dt) = 1 := by
    unfold expDecay
    rw [if_pos h, sub_zero]
  have ha : ∀ v t : K, approach v t 1 = t := by intro v t; unfold approach; ring
  unfold cursor
  dsimp only
  rw [hf]
  simp only [ha]
  by_cases z : b.baseval sTrackingNoise ≠ 0 ∧ e.exp (b.baseval sRadiusLogarithmic) * b.baseval sTrackingNoise > 1 / 1000
  · rw [if_pos z, if_pos z]
    exact ⟨add_right_comm _ _ _, add_right_comm _ _ _, rfl, _, x + u, y + w, rfl⟩
  · rw [if_neg z, if_neg z]
    exact ⟨rfl, rfl, rfl, _, _, _, rfl⟩

theorem strokeEvent_slide {e : Env K R σ} {u w : Int} {P : σ → σ → Prop} (hP : Draws e (u : K) (w : K) P) {b b' : Brush K R}
    (h : Aligned (u : K) (w : K) b b') (fuel : Nat) {surf surf' : σ} (hs : P surf surf') (ev : Event K) :
    Alike (ResSlid (u : K) (w : K) P) (strokeEvent e fuel b surf ev) (strokeEvent e fuel b' surf' (slideEvent (u : K) (w : K) ev)) := by
  rcases h with h | ⟨rfl, hm, hr, h0, hsl⟩
  · unfold strokeEvent
    dsimp only [slideEvent]
    obtain ⟨k1, k2⟩ := skipStage_slide (e := e) h ev.x ev.y ev.dtime
    have hr : b'.resetRequested = b.resetRequested := by
      obtain ⟨-, gx, gy, sx, sy, rfl, -⟩ := h
      rfl
    rw [k1, hr]
    generalize skipStage e b ev.x ev.y ev.dtime = sk at k2 ⊢
    generalize (skipStage e b' (ev.x + u) (ev.y + w) ev.dtime).1 = sb' at k2 ⊢
    by_cases hk : sk.2.2 = true
    · rw [if_pos hk, if_pos hk]
      exact .ok ⟨hs, k2, rfl⟩
    · rw [if_neg hk, if_neg hk]
      obtain ⟨c1, c2, c3⟩ := cursor_slide (e := e) k2 ev.x ev.y sk.2.1
      rw [c1, c2]
      by_cases hz : sk.2.1 > 5 ∨ b.resetRequested = true
      · rw [if_pos hz, if_pos hz]
        obtain ⟨m, gx, gy, sx, sy, e1, -⟩ := c3
        refine Alike.bind (startOver_slide m ⟨_, sx, sy, e1⟩ _ _ _) ?_
        intro b1 b1' h1
        exact .ok ⟨hs, h1, rfl⟩
      · rw [if_neg hz, if_neg hz]
        exact moveTo_slide hP c3 fuel hs ev _ _ _
  · have hsk : ∀ x y dt, skipStage e b' x y dt = (b', dt, false) := by
      intro x y dt
      unfold skipStage
      rw [if_neg]
      rw [h0]
      norm_num
    unfold strokeEvent
    dsimp only [slideEvent]
    rw [hsk, hsk]
    dsimp only
    rw [if_neg Bool.false_ne_true, if_neg Bool.false_ne_true, if_pos (Or.inr hr), if_pos (Or.inr hr)]
    obtain ⟨c1, c2, c3, c4⟩ := cursor_start e b' ev.x ev.y ev.dtime u w hsl
    rw [c1, c2]
    refine Alike.bind (startOver_slide (by rw [c3]; exact hm) c4 _ _ _) ?_
    intro b1 b1' h1
    exact .ok ⟨hs, h1, rfl⟩

omit [FloorRing K] in
theorem sane_near {v : K} (h : |v| < 10 ^ 8) : sane (.fin v) = some v := by
  rw [abs_lt] at h
  show (if v > 10 ^ 10 ∨ v < -10 ^ 10 then none else some v) = some v
  rw [if_neg]
  rintro (q | q)
  · linarith [h.2]
  · linarith [h.1]

omit [FloorRing K] in
theorem sanitise_slide {e : Env K R σ} {u w : K} {m : Motion K} (h : m.Near) (h' : (m.slide u w).Near) :
    Alike (fun ev ev' => ev' = slideEvent u w ev ∧ (workaroundMotion ev).Near ∧ ((workaroundMotion ev).slide u w).Near)
      (sanitise e m) (sanitise e (m.slide u w)) := by
  obtain ⟨mx, my, mp, mt, mt', md, mz, mr, mb, ml⟩ := m
  obtain ⟨hx, hy⟩ := h
  obtain ⟨hx', hy'⟩ := h'
  dsimp only [Motion.slide] at hx hy hx' hy'
  cases mx with
  | fin x =>
    cases my with
    | fin y =>
      dsimp only [Flt.slide, Flt.Near] at hx hy hx' hy'
      unfold sanitise Motion.slide
      dsimp only [Flt.slide]
      refine Alike.bind (Alike.same (P := Eq) _ fun _ _ => rfl) ?_
      rintro t _ rfl
      rw [sane_near hx, sane_near hy, sane_near hx', sane_near hy']
      dsimp only
      have k : ∀ {x y : K}, |x| < 10 ^ 8 → |y| < 10 ^ 8 → x < 10 ^ 8 ∧ y < 10 ^ 8 ∧ x > -10 ^ 8 ∧ y > -10 ^ 8 := by
        intro x y hx hy
        rw [abs_lt] at hx hy
        exact ⟨hx.2, hy.2, hx.1, hy.1⟩
      rw [if_pos (k hx hy), if_pos (k hx' hy')]
      exact .ok ⟨rfl, ⟨hx, hy⟩, hx', hy'⟩
    | _ => exact absurd hy (by simp [Flt.Near])
  | _ => exact absurd hx (by simp [Flt.Near])

theorem strokeTo_slide {e : Env K R σ} {u w : Int} {P : σ → σ → Prop} (hP : Draws e (u : K) (w : K) P) {b b' : Brush K R}
    (h : Aligned (u : K) (w : K) b b') (fuel : Nat) {surf surf' : σ} (hs : P surf surf') {m : Motion K} (hm : m.Near)
    (hm' : (m.slide (u : K) (w : K)).Near) :
    Alike (ResSlid (u : K) w P) (strokeTo e fuel b surf m) (strokeTo e fuel b' surf' (m.slide (u : K) (w : K))) := by
  unfold strokeTo
  have hp : b'.st.pressure = b.st.pressure := by
    rcases h with ⟨-, gx, gy, sx, sy, rfl, -⟩ | ⟨rfl, -⟩ <;> rfl
  refine Alike.bind (sanitise_slide hm hm') ?_
  rintro ev _ ⟨rfl, n1, n2⟩
  rw [hp]
  by_cases hc : ev.dtime > 1 / 10 ∧ ev.pressure ≠ 0 ∧ b.st.pressure = 0
  · rw [if_pos hc, if_pos (show (slideEvent (u : K) (w : K) ev).dtime > 1 / 10 ∧
      (slideEvent (u : K) (w : K) ev).pressure ≠ 0 ∧ b.st.pressure = 0 from hc)]
    refine Alike.bind (sanitise_slide n1 n2) ?_
    rintro i _ ⟨rfl, -, -⟩
    refine Alike.bind (strokeEvent_slide hP h fuel hs i) ?_
    rintro r r' ⟨r1, r2, -⟩
    exact strokeEvent_slide hP (.inl r2) fuel r1 { ev with dtime := 1 / 10000 }
  · rw [if_neg hc, if_neg (show ¬ ((slideEvent (u : K) (w : K) ev).dtime > 1 / 10 ∧
      (slideEvent (u : K) (w : K) ev).pressure ≠ 0 ∧ b.st.pressure = 0) from hc)]
    exact strokeEvent_slide hP h fuel hs ev

theorem strokes_slide {e : Env K R σ} {u w : Int} {P : σ → σ → Prop} (hP : Draws e (u : K) (w : K) P) (fuel : Nat)
    (ms : List (Motion K)) : ∀ {b b' : Brush K R} {surf surf' : σ}, Aligned (u : K) (w : K) b b' → P surf surf' →
      (∀ m ∈ ms, m.Near ∧ (m.slide (u : K) (w : K)).Near) →
      Alike (fun r r' => P r.2 r'.2 ∧ Aligned (u : K) (w : K) r.1 r'.1) (strokes e fuel b surf ms)
        (strokes e fuel b' surf' (ms.map (Motion.slide (u : K) (w : K)))) := by
  induction ms with
  | nil => intro b b' surf surf' h hs _; exact .ok ⟨hs, h⟩
  | cons m ms ih =>
    intro b b' surf surf' h hs hm
    rw [List.map_cons]
    unfold strokes
    obtain ⟨m1, m2⟩ := hm m List.mem_cons_self
    refine Alike.bind (strokeTo_slide hP h fuel hs m1 m2) ?_
    rintro r r' ⟨r1, r2, -⟩
    exact ih (.inl r2) r1 fun m q => hm m (List.mem_cons_of_mem _ q)

end
end Verif.Engine
