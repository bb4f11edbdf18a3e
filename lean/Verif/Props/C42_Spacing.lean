import Verif.Props.C44_Input
import Verif.Lemmas.EngineLoop
import Mathlib.Algebra.Order.Floor.Ring
import Mathlib.Tactic.FinCases

/-!
# C42: dab spacing does not depend on how a motion is chopped into events

For a brush with constant rates, shape, and radius, that draws its dabs where the pen is, the dabs of a movement from
`A` to `C` lie on the line at equal distances, and are the same for every way of chopping the movement into events.
-/

namespace Verif.Engine
open Verif.Mask Verif.Color Verif.Spectral Verif.Map

variable {K R σ : Type} [Field K] [LinearOrder K]

/-- The same surface, which also writes down where each dab is. -/
def locate (e : Env K R σ) : Env K R (σ × List (K × K)) where
  exp := e.exp
  log := e.log
  sqrt := e.sqrt
  pow := e.pow
  atan2 := e.atan2
  cos := e.cos
  sin := e.sin
  degrees := e.degrees
  next := e.next
  gauss := e.gauss
  draw s a := ((e.draw s.1 a).1, (e.draw s.1 a).2, s.2 ++ [(a.x, a.y)])
  getColor s x y r p := ((e.getColor s.1 x y r p).1, (e.getColor s.1 x y r p).2, s.2)

/-- A setting without dynamics. -/
def NoDynamics (s : Load.Brush K) (id : Nat) : Prop := ∀ i, calculate (s id) i = (s id).base

/-- The settings that move dabs away from the pen. -/
def displacing : List Nat :=
  [sOffsetX, sOffsetY, sOffsetAngle, sOffsetAngleAsc, sOffsetAngleView, sOffsetAngle2, sOffsetAngle2Asc,
    sOffsetAngle2View, sOffsetBySpeed, sOffsetByRandom, sSnapToPixel, sSlowTrackingPerDab, sSlowTracking, sTrackingNoise]

/-- A brush with constant rates, shape and radius that draws its dabs where the pen is. Every other setting may have any
dynamics. -/
structure Steady (s : Load.Brush K) : Prop where
  constant : ∀ id ∈ [sDabsPerActualRadius, sDabsPerBasicRadius, sDabsPerSecond, sRadiusLogarithmic, sEllipticalDabRatio,
    sEllipticalDabAngle] ++ displacing, NoDynamics s id
  still : ∀ id ∈ displacing, (s id).base = 0
  samples : NeverSamples s

variable [FloorRing K]

/-- The angle of the dabs under the view rotation `rot`. -/
def steadyAngle (e : Env K R σ) (s : Load.Brush K) (rot : K) : K :=
  modArith ((s sEllipticalDabAngle).base - viewRotation e rot + 180) 180 - 180

/-- The brush has taken over its settings: it has moved before. -/
structure Settled (e : Env K R σ) (b : Brush K R) (rot : K) : Prop where
  steady : Steady b.settings
  actual : b.st.dabsPerActualRadius = (b.settings sDabsPerActualRadius).base
  basic : b.st.dabsPerBasicRadius = (b.settings sDabsPerBasicRadius).base
  second : b.st.dabsPerSecond = (b.settings sDabsPerSecond).base
  radius : b.st.actualRadius = finalRadius e (b.settings sRadiusLogarithmic).base
  ratio : b.st.ratio = (b.settings sEllipticalDabRatio).base
  angle : b.st.angle = steadyAngle e b.settings rot

/-- The dabs due on the way `(dx, dy)` in the time `dt`, as a number with a fraction. -/
def due (e : Env K R σ) (s : Load.Brush K) (rot dx dy dt : K) : K :=
  max 0 (ellipse e (s sEllipticalDabRatio).base (steadyAngle e s rot) dx dy /
        finalRadius e (s sRadiusLogarithmic).base * (s sDabsPerActualRadius).base +
      ellipse e (s sEllipticalDabRatio).base (steadyAngle e s rot) dx dy /
        clampK (e.exp (s sRadiusLogarithmic).base) (1 / 5) 1000 * (s sDabsPerBasicRadius).base +
      dt * (s sDabsPerSecond).base)

/-- The specification: `m` dabs are pending (less than one) and `w` are due on the way from `A` to `C`. The dabs are where
the count reaches the whole numbers. -/
def dabsOnLine (A C : K × K) (m w : K) : List (K × K) :=
  (List.range ⌊m + w⌋.toNat).map fun (k : Nat) =>
    (A.1 + ((k : K) + 1 - m) / w * (C.1 - A.1), A.2 + ((k : K) + 1 - m) / w * (C.2 - A.2))

variable [IsStrictOrderedRing K]

theorem due_nonneg (e : Env K R σ) (s : Load.Brush K) (rot dx dy dt : K) : 0 ≤ due e s rot dx dy dt := le_max_left _ _

theorem due_scale {e : Env K R σ} (L : Laws e) (s : Load.Brush K) (rot dx dy dt : K) {c : K} (hc : 0 ≤ c) :
    due e s rot (c * dx) (c * dy) (c * dt) = c * due e s rot dx dy dt := by
  unfold due
  rw [ellipse_scale L hc, mul_max_of_nonneg _ _ hc, mul_zero]
  congr 1
  ring

theorem finalRadius_pos (e : Env K R σ) (r : K) : 1 / 5 ≤ finalRadius e r := by
  unfold finalRadius
  dsimp only
  split_ifs
  · norm_num
  · exact le_refl _
  · norm_num
  · exact not_lt.mp ‹_›

theorem countDabs_settled {e : Env K R σ} {b : Brush K R} {rot : K} (h : Settled e b rot) (x y dt : K) :
    countDabs e b x y dt = (due e b.settings rot (x - b.st.x) (y - b.st.y) dt, b) := by
  have hr : b.st.actualRadius ≠ 0 := by
    have := finalRadius_pos e (b.settings sRadiusLogarithmic).base
    rw [h.radius]; intro h0; rw [h0] at this; norm_num at this
  have h2 : (countDabs e b x y dt).2 = b := by rw [countDabs_st, if_neg hr]
  have h1 := countDabs_eq e b x y dt
  rw [h2, h.radius, h.ratio, h.angle, h.actual, h.basic, h.second] at h1
  exact Prod.ext h1 h2

omit [LinearOrder K] [FloorRing K] [IsStrictOrderedRing K] [Field K] in
theorem mem_constant_of_displacing {id : Nat} (h : id ∈ displacing) :
    id ∈ [sDabsPerActualRadius, sDabsPerBasicRadius, sDabsPerSecond, sRadiusLogarithmic, sEllipticalDabRatio,
      sEllipticalDabAngle] ++ displacing := List.mem_append_right _ h

omit [FloorRing K] [IsStrictOrderedRing K] in
theorem Steady.zero {s : Load.Brush K} (h : Steady s) {id : Nat} (hid : id ∈ displacing) (i : Nat → K) :
    calculate (s id) i = 0 := by
  rw [h.constant id (mem_constant_of_displacing hid) i, h.still id hid]

/-- A step keeps the brush settled and moves it, and its dabs, by the given way. -/
theorem update_settled {e : Env K R σ} {b b' : Brush K R} {s : Step K} {rot : K} (hb : Steady b.settings)
    (hs : s.viewrotation = rot) (h : update e b s = .ok b') :
    Settled e b' rot ∧ b'.settings = b.settings ∧ b'.st.x = b.st.x + s.dx ∧ b'.st.y = b.st.y + s.dy ∧
      b'.st.actualX = b.st.x + s.dx ∧ b'.st.actualY = b.st.y + s.dy ∧ ∃ i : Inputs K, b'.vals = settingValues b.settings i := by
  have c : ∀ id ∈ [sDabsPerActualRadius, sDabsPerBasicRadius, sDabsPerSecond, sRadiusLogarithmic, sEllipticalDabRatio,
    sEllipticalDabAngle], NoDynamics b.settings id := fun id hid => hb.constant id (List.mem_append_left _ hid)
  have z := hb.zero (id := sSlowTrackingPerDab) (by decide)
  rw [update_eq h]
  refine ⟨⟨hb, c _ (by decide) _, c _ (by decide) _, c _ (by decide) _, ?_, c _ (by decide) _, ?_⟩, rfl, rfl, rfl, ?_, ?_,
    _, rfl⟩
  · show finalRadius e (calculate (b.settings sRadiusLogarithmic) _) = _
    rw [c sRadiusLogarithmic (by decide)]
  · show modArith (calculate (b.settings sEllipticalDabAngle) _ - viewRotation e s.viewrotation + 180) 180 - 180 = _
    rw [c sEllipticalDabAngle (by decide), hs]; rfl
  · show approach b.st.actualX (b.st.x + s.dx) (1 - expDecay e (calculate (b.settings sSlowTrackingPerDab) _) _) = _
    rw [z]
    unfold expDecay
    rw [if_pos (by norm_num)]
    unfold approach; ring
  · show approach b.st.actualY (b.st.y + s.dy) (1 - expDecay e (calculate (b.settings sSlowTrackingPerDab) _) _) = _
    rw [z]
    unfold expDecay
    rw [if_pos (by norm_num)]
    unfold approach; ring

/-- The dab is drawn where the brush is. -/
theorem drawDab_place {e : Env K R σ} {b : Brush K R} (hb : Steady b.settings) {i : Inputs K}
    (hv : b.vals = settingValues b.settings i) {surf : σ × List (K × K)} {lin : Bool}
    {p : Bool × Brush K R × (σ × List (K × K))} (h : drawDab (locate e) b surf lin = .ok p) :
    p.2.2.2 = surf.2 ++ [(b.st.actualX, b.st.actualY)] := by
  have z : ∀ id ∈ displacing, b.vals id = 0 := by
    intro id hid
    rw [hv]; exact hb.zero hid _
  unfold drawDab at h
  obtain ⟨o, -, h⟩ := bind_ok h
  obtain ⟨pos, hp, h⟩ := bind_ok h
  have off : directionalOffsets (locate e) b ((locate e).exp (b.baseval sRadiusLogarithmic)) b.st.flip = (0, 0) := by
    unfold directionalOffsets
    dsimp only
    rw [z sOffsetX (by decide), z sOffsetY (by decide), z sOffsetAngle (by decide), z sOffsetAngleAsc (by decide),
      z sOffsetAngleView (by decide), z sOffsetAngle2 (by decide), z sOffsetAngle2Asc (by decide),
      z sOffsetAngle2View (by decide)]
    simp only [maxC, clampK, mul_zero, add_zero, zero_mul, lt_irrefl, if_false, gt_iff_lt]
    norm_num
  have ph : pos = (b.st.actualX, b.st.actualY, b) := by
    unfold dabPosition at hp
    dsimp only at hp
    rw [off, z sOffsetBySpeed (by decide), z sOffsetByRandom (by decide)] at hp
    simp only [ne_eq, not_true_eq_false, false_and, if_false, add_zero] at hp
    exact (Except.ok.inj hp).symm
  dsimp only at h
  obtain ⟨sm, hs, h⟩ := bind_ok h
  have f1 := dabRadius_frame (locate e) pos.2.2 o
  have f : Frame b (dabRadius (locate e) pos.2.2 o).2.2 := by rw [ph] at f1; rw [ph]; exact f1
  have hsm : sm = (false, (dabRadius (locate e) pos.2.2 o).2.2, surf) := by
    unfold smudgeStage at hs
    rw [if_neg] at hs
    · exact (Except.ok.inj hs).symm
    · rw [f.vals, f.settings, hv]
      exact hb.samples i.get
  rw [hsm] at h
  simp only [Bool.false_eq_true, if_false] at h
  obtain ⟨col, hc, h⟩ := bind_ok h
  have f2 := smudgeColor_frame hc
  rw [← Except.ok.inj h]
  show surf.2 ++ [_] = _
  congr 2
  have hsnap : col.2.2.vals sSnapToPixel = 0 := by rw [f2.vals, f.vals]; exact z _ (by decide)
  show ((snap col.2.2 pos.1 pos.2.1 _).1, (snap col.2.2 pos.1 pos.2.1 _).2.1) = _
  unfold snap
  dsimp only
  rw [hsnap, if_neg (lt_irrefl _), ph]

/-! ### The dabs of one movement -/

/-- What is known after some turns of the loop: `k` dabs have been drawn. -/
structure OnLine (e : Env K R σ) (s : Load.Brush K) (rot : K) (A C : K × K) (T m w : K) (log : List (K × K))
    (l : Loop K R (σ × List (K × K))) (k : Nat) : Prop where
  settled : Settled (locate e) l.b rot
  settings : l.b.settings = s
  moved : (k = 0 ∧ l.moved = m) ∨ (0 < k ∧ l.moved = 0)
  x : l.b.st.x = A.1 + (k - (m - l.moved)) / w * (C.1 - A.1)
  y : l.b.st.y = A.2 + (k - (m - l.moved)) / w * (C.2 - A.2)
  todo : l.todo = w - (k - (m - l.moved))
  time : l.dtimeLeft = T - (k - (m - l.moved)) / w * T
  log : l.surf.2 = log ++ (List.range k).map fun (j : Nat) =>
    (A.1 + ((j : K) + 1 - m) / w * (C.1 - A.1), A.2 + ((j : K) + 1 - m) / w * (C.2 - A.2))

omit [Field K] [LinearOrder K] [FloorRing K] [IsStrictOrderedRing K] in
theorem locate_laws [Field K] [LinearOrder K] {e : Env K R σ} (L : Laws e) : Laws (locate e) :=
  ⟨L.exp_pos, L.sqrt_nonneg, L.sqrt_sq, L.trig, L.atan2_range, L.next_range, L.pow_range⟩

theorem onLine_step {e : Env K R σ} (L : Laws e) {ev : Event K} {s : Load.Brush K} {A C : K × K} {T m w : K}
    {log : List (K × K)} (hm0 : 0 ≤ m) (hm1 : m < 1)
    (hw : w = due (locate e) s ev.viewrotation (C.1 - A.1) (C.2 - A.2) T)
    {l l' : Loop K R (σ × List (K × K))} {k : Nat} (hl : OnLine e s ev.viewrotation A C T m w log l k)
    (hc : l.moved + l.todo ≥ 1) (h : dabStep (locate e) ev C.1 C.2 l = .ok l') :
    OnLine e s ev.viewrotation A C T m w log l' (k + 1) := by
  obtain ⟨hz, b1, p, b2, hu, hd, hb2, e1⟩ := dabStep_eq h
  have hmv : 0 ≤ l.moved ∧ l.moved < 1 := by
    rcases hl.moved with ⟨-, q⟩ | ⟨-, q⟩
    · rw [q]; exact ⟨hm0, hm1⟩
    · rw [q]; exact ⟨le_refl _, zero_lt_one⟩
  have hdd : (if l.moved > 0 then 1 - l.moved else 1) = 1 - l.moved := by
    split_ifs with q
    · rfl
    · have : l.moved = 0 := le_antisymm (not_lt.mp q) hmv.1
      rw [this]; ring
  have hmn : (if l.moved > 0 then 0 else l.moved) = 0 := by
    split_ifs with q
    · rfl
    · exact le_antisymm (not_lt.mp q) hmv.1
  rw [hdd] at hu
  -- the progress before and after
  set g : K := k - (m - l.moved) with hg
  have hg0 : 0 ≤ g := by
    rw [hg]
    rcases hl.moved with ⟨q1, q2⟩ | ⟨q1, q2⟩
    · rw [q1, q2]; simp
    · rw [q2]
      have : (1 : K) ≤ k := by exact_mod_cast q1
      linarith
  have htodo := hl.todo
  have ht1 : 1 - l.moved ≤ l.todo := by linarith
  have htp : 0 < l.todo := by linarith [hmv.2]
  have hwp : 0 < w := by rw [← hg] at htodo; linarith
  have hg' : ((k + 1 : ℕ) : K) - (m - 0) = g + (1 - l.moved) := by rw [hg]; push_cast; ring
  obtain ⟨u1, u2, u3, u4, u5, u6, i, u7⟩ := update_settled hl.settled.steady (s := stepTo l.b.st ev C.1 C.2 _ _ _) rfl hu
  have hpos : ∀ a c : K, a + g / w * (c - a) + (1 - l.moved) / l.todo * (c - (a + g / w * (c - a))) =
      a + (g + (1 - l.moved)) / w * (c - a) := by
    intro a c
    rw [← hg] at htodo
    have hne : w - g ≠ 0 := by rw [← htodo]; exact htp.ne'
    rw [htodo]
    field_simp
    ring
  have x1 : b1.st.x = A.1 + (g + (1 - l.moved)) / w * (C.1 - A.1) := by
    rw [u3]
    show l.b.st.x + (1 - l.moved) / l.todo * (C.1 - l.b.st.x) = _
    rw [hl.x, ← hg, hpos]
  have y1 : b1.st.y = A.2 + (g + (1 - l.moved)) / w * (C.2 - A.2) := by
    rw [u4]
    show l.b.st.y + (1 - l.moved) / l.todo * (C.2 - l.b.st.y) = _
    rw [hl.y, ← hg, hpos]
  have left : l.dtimeLeft - (1 - l.moved) / l.todo * l.dtimeLeft = T - (g + (1 - l.moved)) / w * T := by
    rw [hl.time, ← hg]
    have := hpos 0 T
    have := hpos T 0
    simp only [sub_zero, zero_add, zero_sub] at this
    linear_combination this
  have f := drawDab_frame hd
  have fst := f.st
  have hb2s : b2.settings = s := by
    rw [hb2]; simp only; rw [f.settings]; show b1.settings = s; rw [u2, hl.settings]
  have st2 : Settled (locate e) b2 ev.viewrotation := by
    refine ⟨by rw [hb2s, ← hl.settings]; exact hl.settled.steady, ?_, ?_, ?_, ?_, ?_, ?_⟩
    · rw [hb2]; simp only; rw [fst, f.settings]; exact u1.actual
    · rw [hb2]; simp only; rw [fst, f.settings]; exact u1.basic
    · rw [hb2]; simp only; rw [fst, f.settings]; exact u1.second
    · rw [hb2]; simp only; rw [fst, f.settings]; exact u1.radius
    · rw [hb2]; simp only; rw [fst, f.settings]; exact u1.ratio
    · rw [hb2]; simp only; rw [fst, f.settings]; exact u1.angle
  have x2 : b2.st.x = b1.st.x := by rw [hb2]; simp only; rw [fst]
  have y2 : b2.st.y = b1.st.y := by rw [hb2]; simp only; rw [fst]
  have cd := countDabs_settled st2 C.1 C.2 (l.dtimeLeft - (1 - l.moved) / l.todo * l.dtimeLeft)
  rw [hdd, hmn, cd] at e1
  have lg : p.2.2.2 = l.surf.2 ++ [(b1.st.x, b1.st.y)] := by
    have q := drawDab_place (b := { b1 with st := { b1.st with flip := b1.st.flip * -1 } })
      (by show Steady b1.settings; rw [u2]; exact hl.settled.steady) (i := i)
      (by show b1.vals = settingValues b1.settings i; rw [u2]; exact u7) hd
    rw [q]
    show l.surf.2 ++ [(b1.st.actualX, b1.st.actualY)] = _
    rw [u5, u6, u3, u4]
  have hgw : g + (1 - l.moved) ≤ w := by rw [← hg] at htodo; linarith
  refine ⟨?_, ?_, .inr ⟨Nat.succ_pos k, ?_⟩, ?_, ?_, ?_, ?_, ?_⟩
  · rw [e1]; exact st2
  · rw [e1]; exact hb2s
  · rw [e1]
  · rw [e1]; simp only; rw [hg', x2, x1]
  · rw [e1]; simp only; rw [hg', y2, y1]
  · rw [e1]; simp only
    rw [hg', x2, y2, x1, y1, left, hb2s]
    have hc0 : 0 ≤ 1 - (g + (1 - l.moved)) / w := by
      rw [sub_nonneg, div_le_one hwp]; exact hgw
    have a1 : C.1 - (A.1 + (g + (1 - l.moved)) / w * (C.1 - A.1)) = (1 - (g + (1 - l.moved)) / w) * (C.1 - A.1) := by ring
    have a2 : C.2 - (A.2 + (g + (1 - l.moved)) / w * (C.2 - A.2)) = (1 - (g + (1 - l.moved)) / w) * (C.2 - A.2) := by ring
    have a3 : T - (g + (1 - l.moved)) / w * T = (1 - (g + (1 - l.moved)) / w) * T := by ring
    rw [a1, a2, a3, due_scale (locate_laws L) _ _ _ _ _ hc0, ← hw]
    field_simp
  · rw [e1]; simp only; rw [hg', left]
  · rw [e1]; simp only
    rw [lg, hl.log, List.range_succ, List.map_append, List.map_singleton, List.append_assoc, x1, y1]
    have : g + (1 - l.moved) = (k : K) + 1 - m := by rw [hg]; ring
    rw [this]

theorem dabStep_keeps {e : Env K R σ} {ev : Event K} {x y : K} {l l' : Loop K R σ} (h : dabStep e ev x y l = .ok l') :
    l'.b.skip = l.b.skip ∧ l'.b.resetRequested = l.b.resetRequested ∧ 0 ≤ l'.todo := by
  obtain ⟨-, b1, p, b2, hu, hd, h2, e1⟩ := dabStep_eq h
  have f := drawDab_frame hd
  refine ⟨?_, ?_, ?_⟩
  · rw [e1]; simp only; rw [countDabs_st, h2]; simp only; rw [f, update_eq hu]
  · rw [e1]; simp only; rw [countDabs_st, h2]; simp only; rw [f, update_eq hu]
  · rw [e1]; exact countDabs_nonneg _ _ _ _ _

/-- The dabs of one movement of a settled brush. -/
theorem move_dabs {e : Env K R σ} (L : Laws e) {fuel : Nat} {b : Brush K R} {surf : σ} {log : List (K × K)}
    {ev : Event K} {C : K × K} {T : K} (hb : Settled (locate e) b ev.viewrotation) (hp : PendingOk b)
    {r : Bool × Brush K R × (σ × List (K × K))}
    (h : moveTo (locate e) fuel b (surf, log) ev C.1 C.2 T = .ok r) :
    Settled (locate e) r.2.1 ev.viewrotation ∧ r.2.1.settings = b.settings ∧ r.2.1.st.x = C.1 ∧ r.2.1.st.y = C.2 ∧
      r.2.1.skip = b.skip ∧ r.2.1.resetRequested = b.resetRequested ∧
      r.2.1.st.partialDabs = Int.fract (b.st.partialDabs +
        due (locate e) b.settings ev.viewrotation (C.1 - b.st.x) (C.2 - b.st.y) T) ∧
      r.2.2.2 = log ++ dabsOnLine (b.st.x, b.st.y) C b.st.partialDabs
        (due (locate e) b.settings ev.viewrotation (C.1 - b.st.x) (C.2 - b.st.y) T) := by
  obtain ⟨l, b1, hl, hu, -, h2, h3⟩ := moveTo_eq h
  rw [countDabs_settled hb] at hl
  simp only at hl
  obtain ⟨w, hw⟩ : ∃ w, w = due (locate e) b.settings ev.viewrotation (C.1 - b.st.x) (C.2 - b.st.y) T := ⟨_, rfl⟩
  obtain ⟨m, hm⟩ : ∃ m, m = b.st.partialDabs := ⟨_, rfl⟩
  rw [← hw, ← hm] at hl ⊢
  have hm0 : 0 ≤ m := by rw [hm]; exact hp.1
  have hm1 : m < 1 := by rw [hm]; exact hp.2
  have hw0 : 0 ≤ w := by rw [hw]; exact due_nonneg _ _ _ _ _ _
  have init : OnLine e b.settings ev.viewrotation (b.st.x, b.st.y) C T m w log
      { b := b, surf := (surf, log), moved := m, todo := w, dtimeLeft := T, painted := .unknown } 0 := by
    refine ⟨hb, rfl, .inl ⟨rfl, rfl⟩, ?_, ?_, ?_, ?_, ?_⟩ <;>
      simp only [Nat.cast_zero, sub_self, zero_div, zero_mul, add_zero, sub_zero, List.range_zero, List.map_nil,
        List.append_nil]
  let P : Loop K R (σ × List (K × K)) → Prop := fun l =>
    (∃ k, OnLine e b.settings ev.viewrotation (b.st.x, b.st.y) C T m w log l k) ∧
      l.b.skip = b.skip ∧ l.b.resetRequested = b.resetRequested ∧ 0 ≤ l.todo
  have step : ∀ l l' : Loop K R (σ × List (K × K)), l.moved + l.todo ≥ 1 → dabStep (locate e) ev C.1 C.2 l = .ok l' →
      P l → P l' := by
    rintro l l' hc hst ⟨⟨k, hk⟩, q1, q2, -⟩
    obtain ⟨k1, k2, k3⟩ := dabStep_keeps hst
    exact ⟨⟨k + 1, onLine_step (A := (b.st.x, b.st.y)) L hm0 hm1 hw hk hc hst⟩, k1.trans q1, k2.trans q2, k3⟩
  have start : P { b := b, surf := (surf, log), moved := m, todo := w, dtimeLeft := T, painted := .unknown } :=
    ⟨⟨0, init⟩, rfl, rfl, hw0⟩
  have key := dabLoop_induct P step fuel _ _ hl start
  obtain ⟨⟨⟨k, hk⟩, q1, q2, q3⟩, hend⟩ := key
  have hfl : ⌊m + w⌋ = k := by
    rw [Int.floor_eq_iff]
    have := hk.todo
    push_cast
    rcases hk.moved with ⟨k0, k1⟩ | ⟨k0, k1⟩
    · rw [k1] at this hend
      rw [k0] at this ⊢
      simp only [Nat.cast_zero, sub_self, sub_zero] at this ⊢
      constructor <;> linarith
    · rw [k1] at this hend
      constructor <;> linarith
  obtain ⟨u1, u2, u3, u4, -, -, -⟩ := update_settled hk.settled.steady
    (s := stepTo l.b.st ev C.1 C.2 l.todo 1 l.dtimeLeft) rfl hu
  have hub := update_eq hu
  rw [h2, splitStroke_eq]
  refine ⟨⟨u1.steady, u1.actual, u1.basic, u1.second, u1.radius, u1.ratio, u1.angle⟩, ?_, ?_, ?_, ?_, ?_, ?_, ?_⟩
  · show b1.settings = _; rw [u2, hk.settings]
  · show b1.st.x = _; rw [u3]; show l.b.st.x + 1 * (C.1 - l.b.st.x) = _; ring
  · show b1.st.y = _; rw [u4]; show l.b.st.y + 1 * (C.2 - l.b.st.y) = _; ring
  · show b1.skip = _; rw [hub]; exact q1
  · show b1.resetRequested = _; rw [hub]; exact q2
  · show l.moved + l.todo = _
    rw [Int.fract, hfl, hk.todo]; push_cast; ring
  · rw [h3, hk.log]
    unfold dabsOnLine
    rw [hfl]
    rfl

/-! ### Chopping -/

/-- The events `ms` lead from the fraction `s` of the way from `A` to `C` straight to `C`, each taking its share of the
time `T`. Pressure and tilt may change along the way, the pen stays down. -/
def Along (A C : K × K) (T rot : K) : K → List (Motion K) → Prop
  | s, [] => s = 1
  | s, m :: ms => ∃ f, 0 < f ∧ m.x = .fin (A.1 + (s + f) * (C.1 - A.1)) ∧ m.y = .fin (A.2 + (s + f) * (C.2 - A.2)) ∧
      m.dtime = f * T ∧ m.viewrotation = rot ∧ 0 < m.pressure ∧ Along A C T rot (s + f) ms

omit [FloorRing K] in
theorem Along.le {A C : K × K} {T rot : K} {ms : List (Motion K)} : ∀ {s : K}, Along A C T rot s ms → s ≤ 1 := by
  induction ms with
  | nil => intro s h; exact le_of_eq h
  | cons m ms ih =>
    rintro s ⟨f, hf, -, -, -, -, -, h⟩
    have := ih h
    linarith

/-- The dabs number `n + 1` to `n + k`. -/
def someDabs (A C : K × K) (m w : K) (n k : Nat) : List (K × K) :=
  (List.range' n k).map fun (k : Nat) =>
    (A.1 + ((k : K) + 1 - m) / w * (C.1 - A.1), A.2 + ((k : K) + 1 - m) / w * (C.2 - A.2))

/-- The dabs of a part of the way are some of the dabs of the whole way. -/
theorem part_of_line {A C : K × K} {m w s f : K} (hm : 0 ≤ m) (hw : 0 ≤ w) (hs : 0 ≤ s) (hf : 0 < f) :
    dabsOnLine (A.1 + s * (C.1 - A.1), A.2 + s * (C.2 - A.2)) (A.1 + (s + f) * (C.1 - A.1), A.2 + (s + f) * (C.2 - A.2))
        (Int.fract (m + s * w)) (f * w) =
      someDabs A C m w ⌊m + s * w⌋.toNat (⌊m + (s + f) * w⌋.toNat - ⌊m + s * w⌋.toNat) := by
  have n0 : 0 ≤ ⌊m + s * w⌋ := Int.floor_nonneg.mpr (add_nonneg hm (mul_nonneg hs hw))
  have fl : ⌊Int.fract (m + s * w) + f * w⌋ = ⌊m + (s + f) * w⌋ - ⌊m + s * w⌋ := by
    rw [← Int.floor_sub_intCast]
    congr 1
    unfold Int.fract; ring
  have cnt : ⌊Int.fract (m + s * w) + f * w⌋.toNat = ⌊m + (s + f) * w⌋.toNat - ⌊m + s * w⌋.toNat := by
    rw [fl]; omega
  unfold dabsOnLine someDabs
  rw [cnt, List.range'_eq_map_range, List.map_map]
  refine List.map_congr_left fun k hk => ?_
  have hw' : w ≠ 0 := by
    intro h0
    rw [← cnt, h0, List.mem_range] at hk
    have : ⌊Int.fract (m + s * 0) + f * 0⌋ = 0 := by
      rw [mul_zero, mul_zero, add_zero, add_zero, Int.floor_fract]
    rw [this] at hk
    exact absurd hk (by simp)
  have nc : ((⌊m + s * w⌋.toNat : ℕ) : K) = (⌊m + s * w⌋ : K) := by
    have : ((⌊m + s * w⌋.toNat : ℤ) : K) = (⌊m + s * w⌋ : K) := by rw [Int.toNat_of_nonneg n0]
    rw [← this]; push_cast; rfl
  have key : ∀ a c : K, a + s * (c - a) + ((k : K) + 1 - Int.fract (m + s * w)) / (f * w) *
        (a + (s + f) * (c - a) - (a + s * (c - a))) =
      a + (((⌊m + s * w⌋.toNat + 1 * k : ℕ) : K) + 1 - m) / w * (c - a) := by
    intro a c
    push_cast
    rw [nc]
    unfold Int.fract
    field_simp
    ring
  exact Prod.ext (by simpa using key A.1 C.1) (by simpa using key A.2 C.2)

omit [FloorRing K] in
theorem someDabs_append (A C : K × K) (m w : K) {a b c : Nat} (h1 : a ≤ b) (h2 : b ≤ c) :
    someDabs A C m w a (b - a) ++ someDabs A C m w b (c - b) = someDabs A C m w a (c - a) := by
  unfold someDabs
  rw [← List.map_append]
  congr 1
  have := List.range'_append (s := a) (m := b - a) (n := c - b) (step := 1)
  rw [show a + 1 * (b - a) = b by omega] at this
  rw [this]
  congr 1
  omega

omit [FloorRing K] in
theorem between_abs {a c B t : K} (ha : |a| < B) (hc : |c| < B) (h0 : 0 ≤ t) (h1 : t ≤ 1) : |a + t * (c - a)| < B := by
  rw [abs_lt] at *
  have e1 : a + t * (c - a) = (1 - t) * a + t * c := by ring
  rw [e1]
  rcases h0.eq_or_lt with h | h
  · rw [← h]; constructor <;> linarith
  · constructor <;> nlinarith [mul_nonneg (sub_nonneg.mpr h1) (by linarith : 0 ≤ B - a),
      mul_nonneg (sub_nonneg.mpr h1) (by linarith : 0 ≤ B + a), mul_pos h (by linarith : 0 < B - c),
      mul_pos h (by linarith : 0 < B + c)]

/-- The dabs of the rest of the way, when `s` of it is done. -/
theorem rest_of_line {e : Env K R σ} (L : Laws e) {fuel : Nat} {A C : K × K} {T rot m w : K} {st : Load.Brush K}
    (hA : |A.1| < 10 ^ 8 ∧ |A.2| < 10 ^ 8) (hC : |C.1| < 10 ^ 8 ∧ |C.2| < 10 ^ 8)
    (hT0 : 0 < T) (hT5 : T ≤ 5) (hm : 0 ≤ m) (hw : w = due (locate e) st rot (C.1 - A.1) (C.2 - A.2) T)
    {ms : List (Motion K)} : ∀ {s : K} {b : Brush K R} {surf : σ} {log : List (K × K)} {r : Brush K R × (σ × List (K × K))},
      Along A C T rot s ms → 0 ≤ s → Settled (locate e) b rot → b.settings = st → PendingOk b → b.skip ≤ 1 / 1000 →
      b.resetRequested = false → 0 < b.st.pressure →
      b.st.x = A.1 + s * (C.1 - A.1) → b.st.y = A.2 + s * (C.2 - A.2) → b.st.partialDabs = Int.fract (m + s * w) →
      strokes (locate e) fuel b (surf, log) ms = .ok r →
      r.2.2 = log ++ someDabs A C m w ⌊m + s * w⌋.toNat (⌊m + w⌋.toNat - ⌊m + s * w⌋.toNat) ∧
        r.1.st.x = C.1 ∧ r.1.st.y = C.2 ∧ r.1.st.partialDabs = Int.fract (m + w) := by
  have hw0 : 0 ≤ w := by rw [hw]; exact due_nonneg _ _ _ _ _ _
  induction ms with
  | nil =>
    intro s b surf log r ha hs hb hst hp hk hr hpr hx hy hd h
    have hs1 : s = 1 := ha
    rw [← Except.ok.inj h, hs1]
    rw [hs1, one_mul] at hx hy hd
    refine ⟨?_, by simp only; rw [hx]; ring, by simp only; rw [hy]; ring, hd⟩
    rw [one_mul, Nat.sub_self]
    simp [someDabs]
  | cons mo ms ih =>
    rintro s b surf log r ⟨f, hf, mx, my, mt, mr, mp, hrest⟩ hs hb hst hp hk hr hpr hx hy hd h
    obtain ⟨r1, h1, h2⟩ := bind_ok (x := strokeTo (locate e) fuel b (surf, log) mo) h
    have hsf := hrest.le
    obtain ⟨ev, hev, hcase⟩ := strokeTo_cases h1
    have dt0 : 0 < f * T := mul_pos hf hT0
    have dt5 : f * T ≤ 5 := by nlinarith
    -- what the checks leave of the event
    have hevp : ev.x = A.1 + (s + f) * (C.1 - A.1) ∧ ev.y = A.2 + (s + f) * (C.2 - A.2) ∧ ev.dtime = f * T ∧
        ev.viewrotation = rot ∧ ev.pressure = mo.pressure := by
      have bx := between_abs hA.1 hC.1 (by linarith : 0 ≤ s + f) hsf
      have by' := between_abs hA.2 hC.2 (by linarith : 0 ≤ s + f) hsf
      have big : (10 : K) ^ 8 < 10 ^ 10 := by norm_num
      obtain ⟨x, ex, sx⟩ := sane_some (f := mo.x) (by rw [mx]; exact fun q => absurd (lt_trans bx big) (not_lt.mpr q.le))
      obtain ⟨y, ey, sy⟩ := sane_some (f := mo.y) (by rw [my]; exact fun q => absurd (lt_trans by' big) (not_lt.mpr q.le))
      rw [mx] at ex
      rw [my] at ey
      cases ex
      cases ey
      unfold sanitise at hev
      obtain ⟨t, -, hev⟩ := bind_ok hev
      dsimp only at hev
      rw [sx, sy] at hev
      dsimp only at hev
      rw [if_neg (not_le.mpr mp), if_neg (show ¬ mo.dtime ≤ 0 by rw [mt]; exact not_le.mpr dt0)] at hev
      split_ifs at hev
      rw [← Except.ok.inj hev]
      exact ⟨rfl, rfl, mt, mr, rfl⟩
    obtain ⟨ex, ey, et, er, ep⟩ := hevp
    rcases hcase with ⟨-, h3⟩ | ⟨hwk, -⟩
    swap
    · exact absurd hwk.2.2 hpr.ne'
    have sk : skipStage (locate e) b ev.x ev.y ev.dtime = (b, ev.dtime, false) := by
      unfold skipStage
      rw [if_neg (not_lt.mpr hk)]
    have cu : cursor (locate e) b ev.x ev.y ev.dtime = (ev.x, ev.y, b) := by
      unfold cursor
      dsimp only
      have b1 : b.baseval sTrackingNoise = 0 := hb.steady.still _ (by decide)
      have b2 : b.baseval sSlowTracking = 0 := hb.steady.still _ (by decide)
      rw [b1, if_neg (by simp)]
      unfold expDecay
      rw [b2, if_pos (by norm_num)]
      unfold approach
      simp
    rcases strokeEvent_cases h3 with ⟨q, -⟩ | ⟨-, q, -⟩ | ⟨-, -, h3⟩
    · rw [sk] at q; cases q
    · rw [sk] at q
      rcases q with q | q
      · have q' : ev.dtime > 5 := q
        rw [et] at q'
        exact absurd dt5 (not_le.mpr q')
      · rw [hr] at q; cases q
    simp only [sk, cu] at h3
    obtain ⟨g1, g2, g3, g4, g5, g6, g7, g8⟩ := move_dabs (C := (ev.x, ev.y)) L (er ▸ hb) hp h3
    have gp := (move_ends_at_target (by rw [ep]; exact mp.le) h3).2.2.1
    have wpart : due (locate e) b.settings ev.viewrotation ((ev.x, ev.y).1 - b.st.x) ((ev.x, ev.y).2 - b.st.y) ev.dtime =
        f * w := by
      simp only
      rw [ex, ey, hx, hy, et, er, hst, show A.1 + (s + f) * (C.1 - A.1) - (A.1 + s * (C.1 - A.1)) = f * (C.1 - A.1) by ring,
        show A.2 + (s + f) * (C.2 - A.2) - (A.2 + s * (C.2 - A.2)) = f * (C.2 - A.2) by ring,
        due_scale (locate_laws L) _ _ _ _ _ hf.le, ← hw]
    rw [wpart] at g7 g8
    have frac : Int.fract (Int.fract (m + s * w) + f * w) = Int.fract (m + (s + f) * w) := by
      rw [Int.fract_eq_fract]
      refine ⟨-⌊m + s * w⌋, ?_⟩
      unfold Int.fract
      push_cast; ring
    rw [hd, frac] at g7
    have g8' : r1.2.2.2 = log ++ someDabs A C m w ⌊m + s * w⌋.toNat (⌊m + (s + f) * w⌋.toNat - ⌊m + s * w⌋.toNat) := by
      rw [g8, hd, hx, hy, ex, ey, part_of_line hm hw0 hs hf]
    have pend : PendingOk r1.2.1 := by
      unfold PendingOk
      rw [g7]; exact ⟨Int.fract_nonneg _, Int.fract_lt_one _⟩
    obtain ⟨t1, t2⟩ := ih (surf := r1.2.2.1) (log := r1.2.2.2) hrest (by linarith) (er ▸ g1) (g2.trans hst) pend
      (by rw [g5]; exact hk) (by rw [g6]; exact hr) (by rw [gp, ep]; exact mp) (by rw [g3]; exact ex) (by rw [g4]; exact ey)
      g7 h2
    refine ⟨?_, t2⟩
    have mono1 : ⌊m + s * w⌋.toNat ≤ ⌊m + (s + f) * w⌋.toNat :=
      Int.toNat_le_toNat (Int.floor_le_floor (by linarith [mul_nonneg hf.le hw0]))
    have mono2 : ⌊m + (s + f) * w⌋.toNat ≤ ⌊m + w⌋.toNat :=
      Int.toNat_le_toNat (Int.floor_le_floor (by linarith [mul_le_mul_of_nonneg_right hsf hw0]))
    rw [t1, g8', List.append_assoc, someDabs_append A C m w mono1 mono2]

/-- C42: the dabs of a motion from `A` to `C`, however it is chopped into events, are those of the specification. Afterwards
the brush is at `C` and the pending fraction is the same. -/
theorem dabs_of_motion {e : Env K R σ} (L : Laws e) {fuel : Nat} {b : Brush K R} {surf : σ} {C : K × K} {T rot : K}
    (hA : |b.st.x| < 10 ^ 8 ∧ |b.st.y| < 10 ^ 8) (hC : |C.1| < 10 ^ 8 ∧ |C.2| < 10 ^ 8) (hT0 : 0 < T) (hT5 : T ≤ 5)
    (hb : Settled (locate e) b rot) (hp : PendingOk b) (hk : b.skip ≤ 1 / 1000) (hr : b.resetRequested = false)
    (hpr : 0 < b.st.pressure) {ms : List (Motion K)} (hms : Along (b.st.x, b.st.y) C T rot 0 ms)
    {r : Brush K R × (σ × List (K × K))} (h : strokes (locate e) fuel b (surf, []) ms = .ok r) :
    r.2.2 = dabsOnLine (b.st.x, b.st.y) C b.st.partialDabs
        (due (locate e) b.settings rot (C.1 - b.st.x) (C.2 - b.st.y) T) ∧
      r.1.st.x = C.1 ∧ r.1.st.y = C.2 ∧
      r.1.st.partialDabs = Int.fract (b.st.partialDabs +
        due (locate e) b.settings rot (C.1 - b.st.x) (C.2 - b.st.y) T) := by
  have z : Int.fract (b.st.partialDabs + 0 * due (locate e) b.settings rot (C.1 - b.st.x) (C.2 - b.st.y) T) =
      b.st.partialDabs := by
    rw [zero_mul, add_zero, Int.fract_eq_self]; exact hp
  obtain ⟨h1, h2⟩ := rest_of_line (A := (b.st.x, b.st.y)) (m := b.st.partialDabs) L hA hC hT0 hT5 hp.1 rfl hms (le_refl _)
    hb rfl hp hk hr hpr (by simp) (by simp) z.symm h
  refine ⟨?_, h2⟩
  have f0 : ⌊b.st.partialDabs⌋ = 0 := by
    rw [Int.floor_eq_iff]; exact ⟨by exact_mod_cast hp.1, by simpa using hp.2⟩
  rw [h1, List.nil_append, zero_mul, add_zero, f0]
  unfold someDabs dabsOnLine
  simp [List.range_eq_range']

/-- C42: two ways of chopping the same motion draw the same dabs and leave the brush with the same pending fraction. -/
theorem chopping_does_not_matter {e : Env K R σ} (L : Laws e) {fuel fuel' : Nat} {b : Brush K R} {surf surf' : σ}
    {C : K × K} {T rot : K} (hA : |b.st.x| < 10 ^ 8 ∧ |b.st.y| < 10 ^ 8) (hC : |C.1| < 10 ^ 8 ∧ |C.2| < 10 ^ 8)
    (hT0 : 0 < T) (hT5 : T ≤ 5) (hb : Settled (locate e) b rot) (hp : PendingOk b) (hk : b.skip ≤ 1 / 1000)
    (hr : b.resetRequested = false) (hpr : 0 < b.st.pressure) {ms ms' : List (Motion K)}
    (hms : Along (b.st.x, b.st.y) C T rot 0 ms) (hms' : Along (b.st.x, b.st.y) C T rot 0 ms')
    {r r' : Brush K R × (σ × List (K × K))} (h : strokes (locate e) fuel b (surf, []) ms = .ok r)
    (h' : strokes (locate e) fuel' b (surf', []) ms' = .ok r') :
    r.2.2 = r'.2.2 ∧ r.1.st.x = r'.1.st.x ∧ r.1.st.y = r'.1.st.y ∧ r.1.st.partialDabs = r'.1.st.partialDabs := by
  obtain ⟨a1, a2, a3, a4⟩ := dabs_of_motion L hA hC hT0 hT5 hb hp hk hr hpr hms h
  obtain ⟨b1, b2, b3, b4⟩ := dabs_of_motion L hA hC hT0 hT5 hb hp hk hr hpr hms' h'
  exact ⟨a1.trans b1.symm, a2.trans b2.symm, a3.trans b3.symm, a4.trans b4.symm⟩

/-- After its first movement a steady brush is settled. -/
theorem settled_after_move {e : Env K R σ} {fuel : Nat} {b : Brush K R} {surf : σ} {ev : Event K} {x y T : K}
    (hs : Steady b.settings) {r : Bool × Brush K R × σ} (h : moveTo e fuel b surf ev x y T = .ok r) :
    Settled e r.2.1 ev.viewrotation := by
  obtain ⟨l, b1, hl, hu, -, h2, -⟩ := moveTo_eq h
  have ls : l.b.settings = b.settings := by
    have ks := dabLoop_induct (fun l : Loop K R σ => l.b.settings = b.settings)
      (fun l l' _ hst hp => by rw [(dabStep_xy hst).2.2, hp]) _ _ _ hl (by simp only; rw [countDabs_st])
    exact ks.1
  obtain ⟨u1, -⟩ := update_settled (by rw [ls]; exact hs) (s := stepTo l.b.st ev x y l.todo 1 l.dtimeLeft) rfl hu
  rw [h2, splitStroke_eq]
  exact ⟨u1.steady, u1.actual, u1.basic, u1.second, u1.radius, u1.ratio, u1.angle⟩

/-! ### Examples -/

section examples
open Demo

/-- The default settings are steady. -/
theorem demo_steady : Steady Demo.settings where
  constant id _ i := rfl
  still := by decide +kernel
  samples i := by
    show ¬ ((Demo.settings sSmudgeLength).base < 1 ∧
      ((Demo.settings sSmudge).base ≠ 0 ∨ isConstant (Demo.settings sSmudge) = false))
    decide +kernel

/-- Reset, one movement to settle, then the same motion in one event and in three. -/
def chopped (ms : List (Motion ℚ)) : Option (List (ℚ × ℚ) × ℚ) :=
  look (fun r => (r.2.2, r.1.st.partialDabs)) (strokes (locate env) 100 brush ([], [])
    ([motion 0 0 1 (1 / 10), motion 3 4 1 (1 / 10)] ++ ms))

example : chopped [motion 15 20 1 1] = chopped [motion 6 8 (1 / 3) (1 / 4), motion 9 12 (2 / 3) (1 / 4), motion 15 20 1 (1 / 2)] ∧
    (chopped [motion 15 20 1 1]).map (fun r => r.1.length) = some 13 := by decide +kernel

/-- These are two ways along the same line. -/
example : Along ((3, 4) : ℚ × ℚ) (15, 20) 1 0 0 [motion 15 20 1 1] ∧
    Along ((3, 4) : ℚ × ℚ) (15, 20) 1 0 0
      [motion 6 8 (1 / 3) (1 / 4), motion 9 12 (2 / 3) (1 / 4), motion 15 20 1 (1 / 2)] := by
  refine ⟨⟨1, ?_⟩, ⟨1 / 4, ?_⟩⟩
  · norm_num [motion, Along]
  · refine ⟨by norm_num, by norm_num [motion], by norm_num [motion], by norm_num [motion], rfl, by norm_num [motion], 1 / 4,
      by norm_num, by norm_num [motion], by norm_num [motion], by norm_num [motion], rfl, by norm_num [motion], 1 / 2,
      by norm_num, by norm_num [motion], by norm_num [motion], by norm_num [motion], rfl, by norm_num [motion], ?_⟩
    norm_num [Along]

/-- The state of a settled brush, for the functions of the real numbers. -/
example (draw : Unit → Dab.Args ℝ → Bool × Unit) (getColor : Unit → Int → Int → ℝ → ℝ → Rgba ℝ × Unit) :
    let e := locate (realEnv (fun r : ℕ => (1 / 2, r + 1)) (fun r => (0, r + 1)) draw getColor)
    ∃ b : Brush ℝ ℕ, b.settings = steadySettings ∧ Settled e b 0 ∧ PendingOk b ∧ b.resetRequested = false ∧
      0 < b.st.pressure ∧ 0 < due e b.settings 0 3 4 1 := by
  intro e
  have st : Steady steadySettings := by
    refine ⟨fun id _ i => rfl, ?_, ?_⟩
    · intro id hid
      fin_cases hid <;> norm_num [steadySettings, sDabsPerActualRadius, sDabsPerSecond, sEllipticalDabRatio, sOffsetX,
        sOffsetY, sOffsetAngle, sOffsetAngleAsc, sOffsetAngleView, sOffsetAngle2, sOffsetAngle2Asc, sOffsetAngle2View,
        sOffsetBySpeed, sOffsetByRandom, sSnapToPixel, sSlowTrackingPerDab, sSlowTracking, sTrackingNoise]
    · intro i
      show ¬ (_ ∧ ((steadySettings sSmudge).base ≠ 0 ∨ isConstant (steadySettings sSmudge) = false))
      rintro ⟨-, h | h⟩
      · apply h
        norm_num [steadySettings, sDabsPerActualRadius, sDabsPerSecond, sEllipticalDabRatio, sSmudge]
      · cases h
  refine ⟨{ total := 0, idle := 0, buckets := ⟨[], 0, 0, 0⟩, random := 0, skip := 0, skipX := 0, skipY := 0
            skippedTime := 0, rng := 0, settings := steadySettings, vals := fun _ => 0, resetRequested := false
            mix := ⟨0, 0, 0, 0⟩
            st := { State.cleared with
              pressure := 1
              dabsPerActualRadius := (steadySettings sDabsPerActualRadius).base
              dabsPerBasicRadius := (steadySettings sDabsPerBasicRadius).base
              dabsPerSecond := (steadySettings sDabsPerSecond).base
              actualRadius := finalRadius e (steadySettings sRadiusLogarithmic).base
              ratio := (steadySettings sEllipticalDabRatio).base
              angle := steadyAngle e steadySettings 0 } }, rfl, ⟨st, rfl, rfl, rfl, rfl, rfl, rfl⟩,
    ⟨le_refl _, zero_lt_one⟩, rfl, one_pos, ?_⟩
  have h1 := ellipse_nonneg (locate_laws (realEnv_laws (fun r : ℕ => ((1 / 2 : ℝ), r + 1)) (fun r => (0, r + 1)) draw getColor
    (fun _ => ⟨by norm_num, by norm_num⟩))) (steadySettings sEllipticalDabRatio).base (steadyAngle e steadySettings 0) 3 4
  have h2 : 0 ≤ ellipse e (steadySettings sEllipticalDabRatio).base (steadyAngle e steadySettings 0) 3 4 /
      finalRadius e (steadySettings sRadiusLogarithmic).base :=
    div_nonneg h1 (le_trans (by norm_num) (finalRadius_pos e _))
  unfold due
  rw [lt_max_iff]
  right
  have b1 : (steadySettings sDabsPerActualRadius).base = 2 := by norm_num [steadySettings]
  have b2 : (steadySettings sDabsPerBasicRadius).base = 0 := by
    norm_num [steadySettings, sDabsPerActualRadius, sDabsPerBasicRadius, sDabsPerSecond, sEllipticalDabRatio]
  have b3 : (steadySettings sDabsPerSecond).base = 10 := by
    norm_num [steadySettings, sDabsPerActualRadius, sDabsPerSecond]
  rw [b1, b2, b3]
  linarith

end examples

end Verif.Engine
