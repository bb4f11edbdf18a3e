import Verif.Props.C115_Leaning

/-!
# C116: offsets that follow the stroke lie beside it

The settings `offset_angle` and `offset_angle_2` shift the dabs to the side of the stroke: the first one all to the same side, the second
one in turn to both sides.
-/

namespace Verif.Engine
open Verif.Map Verif.Mask Verif.Color

section
variable {K R σ : Type} [Field K] [LinearOrder K] [IsStrictOrderedRing K] [FloorRing K]

/-! ## Specification -/

/-- The angle a right angle less than that of a unit vector is that of the normal. -/
structure NormalLaws (e : Env K R σ) : Prop where
  normal : ∀ x y, x * x + y * y = 1 → e.cos (e.atan2 y x - 90) = y ∧ e.sin (e.atan2 y x - 90) = -x
  turns : ∀ t (k : ℤ), e.cos (t + 360 * k) = e.cos t ∧ e.sin (t + 360 * k) = e.sin t

/-- A brush whose dabs are shifted by `o` to the one side and by `m` to both sides, in pixels, and otherwise are where the brush is. -/
structure Sideways (e : Env K R σ) (s : Load.Brush K) (o m : K) : Prop where
  side : ∀ i, calculate (s sOffsetAngle) i * (e.exp (s sRadiusLogarithmic).base * e.exp (calculate (s sOffsetMultiplier) i)) = o
  sides : ∀ i, maxC 0 (calculate (s sOffsetAngle2) i) * (e.exp (s sRadiusLogarithmic).base * e.exp (calculate (s sOffsetMultiplier) i)) = m
  limit : |o| + |m| ≤ 3240
  adjust : ∀ i, calculate (s sOffsetAngleAdj) i = 0
  axes : ∀ i, calculate (s sOffsetX) i = 0 ∧ calculate (s sOffsetY) i = 0
  tilt : ∀ i, calculate (s sOffsetAngleAsc) i = 0 ∧ calculate (s sOffsetAngle2Asc) i ≤ 0
  view : ∀ i, calculate (s sOffsetAngleView) i = 0 ∧ calculate (s sOffsetAngle2View) i ≤ 0
  scatter : NoScatter s
  free : ∀ i, calculate (s sSnapToPixel) i ≤ 0

/-- A point beside the line through `(px, py)` in the direction of the unit vector `(ux, uy)`, by `d` to the right, seen with the y axis
upwards. -/
def Beside (px py ux uy d x y : K) : Prop := ∃ k, x = px + k * ux + d * uy ∧ y = py + k * uy - d * ux

/-- The dabs lie in turn beside the line by `o + f * m` and by `o - f * m`. -/
def InTurn (px py ux uy o m : K) : K → List (Dab.Args K) → Prop
  | _, [] => True
  | f, a :: l => Beside px py ux uy (o + f * m) a.x a.y ∧ InTurn px py ux uy o m (-f) l

/-! ## Proof -/

/-- The sign after `n` changes. -/
def sideAfter (f : K) (n : Nat) : K := f * (-1) ^ n

omit [LinearOrder K] [IsStrictOrderedRing K] [FloorRing K] in
theorem inTurn_append {px py ux uy o m : K} (a : Dab.Args K) : ∀ (l : List (Dab.Args K)) (f : K), InTurn px py ux uy o m f l →
    Beside px py ux uy (o + sideAfter f l.length * m) a.x a.y → InTurn px py ux uy o m f (l ++ [a])
  | [], f, _, h => by
    refine ⟨?_, trivial⟩
    simpa [sideAfter] using h
  | c :: l, f, h, h' => by
    refine ⟨h.1, inTurn_append a l (-f) h.2 ?_⟩
    have : sideAfter (-f) l.length = sideAfter f (c :: l).length := by
      unfold sideAfter
      rw [List.length_cons, pow_succ]
      ring
    rw [this]
    exact h'

/-- The offset of a brush that moves ahead. -/
theorem offset_sideways {e : Env K R σ} (N : NormalLaws e) {ux uy : K} (hu : ux * ux + uy * uy = 1) (A : AngleLaws e)
    {b : Brush K R} {o m : K} (hs : Sideways e b.settings o m) {i : Nat → K} (hv : b.vals = fun id => calculate (b.settings id) i)
    (ha : Ahead ux uy b.st) {f : K} (hf : |f| ≤ 1) :
    directionalOffsets e b (e.exp (b.baseval sRadiusLogarithmic)) f = ((o + f * m) * uy, -((o + f * m) * ux)) := by
  obtain ⟨c, c0, h1, h2⟩ := ha
  have vd : ∀ id, b.vals id = calculate (b.settings id) i := fun id => by rw [hv]
  have hang : e.atan2 b.st.directionAngleDy b.st.directionAngleDx = e.atan2 uy ux := by rw [h1, h2, A.scale c uy ux c0]
  obtain ⟨k, hk⟩ := fmod_congruent (e.atan2 uy ux - 90)
  have hc : e.cos (fmod (e.atan2 uy ux - 90) 360) = uy := by
    rw [hk, mul_comm, (N.turns _ k).1, (N.normal ux uy hu).1]
  have hsn : e.sin (fmod (e.atan2 uy ux - 90) 360) = -ux := by
    rw [hk, mul_comm, (N.turns _ k).2, (N.normal ux uy hu).2]
  have hux : |ux| ≤ 1 := by
    rw [abs_le]; constructor <;> nlinarith [mul_self_nonneg uy, mul_self_nonneg (ux + 1), mul_self_nonneg (ux - 1)]
  have huy : |uy| ≤ 1 := by
    rw [abs_le]; constructor <;> nlinarith [mul_self_nonneg ux, mul_self_nonneg (uy + 1), mul_self_nonneg (uy - 1)]
  have hom : |o + f * m| ≤ 3240 := by
    refine (abs_add_le _ _).trans (le_trans ?_ hs.limit)
    rw [abs_mul]
    have := mul_le_of_le_one_left (abs_nonneg m) hf
    linarith
  have lim : ∀ t : K, |t| ≤ 1 → |(o + f * m) * t| ≤ 3240 := by
    intro t ht
    rw [abs_mul]
    exact (mul_le_of_le_one_right (abs_nonneg _) ht).trans hom
  have q1 := hs.side i
  have q2 := hs.sides i
  unfold directionalOffsets
  simp only [vd, hs.adjust i, (hs.axes i).1, (hs.axes i).2, (hs.tilt i).1, (hs.view i).1, maxC_nonpos (hs.tilt i).2,
    maxC_nonpos (hs.view i).2, hang, zero_mul, mul_zero, zero_add, add_zero, hc, hsn]
  rw [show e.exp (b.baseval sRadiusLogarithmic) = e.exp (b.settings sRadiusLogarithmic).base from rfl]
  set M := e.exp (b.settings sRadiusLogarithmic).base * e.exp (calculate (b.settings sOffsetMultiplier) i) with hM
  refine Prod.ext ?_ ?_
  · dsimp only
    rw [show (uy * calculate (b.settings sOffsetAngle) i + uy * (maxC 0 (calculate (b.settings sOffsetAngle2) i) * f)) * M =
      (o + f * m) * uy by rw [← q1, ← q2]; ring]
    exact clampK_within (lim _ huy)
  · dsimp only
    rw [show (-ux * calculate (b.settings sOffsetAngle) i + -ux * (maxC 0 (calculate (b.settings sOffsetAngle2) i) * f)) * M =
      -((o + f * m) * ux) by rw [← q1, ← q2]; ring]
    refine clampK_within ?_
    rw [abs_neg]
    exact lim _ hux

/-- One dab. -/
theorem drawDab_sideways {e : Env K R σ} (N : NormalLaws e) (A : AngleLaws e) {px py ux uy : K} (hu : ux * ux + uy * uy = 1)
    {b : Brush K R} {surf : σ × List (Dab.Args K)} {lin : Bool}
    {p : Bool × Brush K R × (σ × List (Dab.Args K))} {i : Nat → K} (hv : b.vals = fun id => calculate (b.settings id) i)
    {o m : K} (hs : Sideways e b.settings o m) (hn : NeverSamples b.settings) (ha : Ahead ux uy b.st) (hf : |b.st.flip| ≤ 1)
    (h1 : OnTheLine px py ux uy b.st.actualX b.st.actualY) (hd : drawDab (recordDabs e) b surf lin = .ok p) :
    ∃ a, p.2.2.2 = surf.2 ++ [a] ∧ Beside px py ux uy (o + b.st.flip * m) a.x a.y := by
  have vd : ∀ id, b.vals id = calculate (b.settings id) i := fun id => by rw [hv]
  obtain ⟨op, pos, sm, -, hpos, hsm, -, h⟩ := drawDab_cases hd
  have hpos' : pos.1 = b.st.actualX + (o + b.st.flip * m) * uy ∧ pos.2.1 = b.st.actualY - (o + b.st.flip * m) * ux ∧
      pos.2.2 = b := by
    have q1 : b.vals sOffsetBySpeed = 0 := by rw [vd]; exact hs.scatter.speed i
    have q2 : b.vals sOffsetByRandom = 0 := by rw [vd]; exact hs.scatter.random i
    have q3 := offset_sideways (e := recordDabs e) (f := b.st.flip) ⟨N.normal, N.turns⟩ hu ⟨A.scale, A.turn⟩
      ⟨hs.side, hs.sides, hs.limit, hs.adjust, hs.axes, hs.tilt, hs.view, hs.scatter, hs.free⟩ hv ha hf
    unfold dabPosition at hpos
    dsimp only at hpos
    rw [q1, q2, q3] at hpos
    simp only [ne_eq, not_true, false_and, if_false] at hpos
    rw [← Except.ok.inj hpos]
    exact ⟨rfl, by ring, rfl⟩
  have hfr : (dabRadius (recordDabs e) pos.2.2 op).2.2.vals = b.vals ∧ (dabRadius (recordDabs e) pos.2.2 op).2.2.settings = b.settings := by
    have k := dabRadius_frame (recordDabs e) pos.2.2 op
    rw [hpos'.2.2] at k ⊢
    exact ⟨k.vals, k.settings⟩
  have hsm' : smudgeStage (recordDabs e) (dabRadius (recordDabs e) pos.2.2 op).2.2 surf pos.1 pos.2.1
      (dabRadius (recordDabs e) pos.2.2 op).1 = .ok (false, (dabRadius (recordDabs e) pos.2.2 op).2.2, surf) := by
    unfold smudgeStage
    rw [if_neg (by rw [hfr.1, hfr.2, vd, vd]; exact hn i)]
    rfl
  rw [hsm'] at hsm
  have hsm := Except.ok.inj hsm
  subst hsm
  rcases h with ⟨q, -⟩ | ⟨-, col, -, fr, hp⟩
  · cases q
  · refine ⟨_, by rw [hp]; rfl, ?_⟩
    have sn : ∀ r, snap col.2.2 pos.1 pos.2.1 r = (pos.1, pos.2.1, r) := by
      intro r
      unfold snap
      dsimp only
      rw [if_neg (not_lt.mpr (by rw [fr.vals, vd]; exact hs.free i))]
    unfold dabArgs
    simp only
    rw [sn]
    obtain ⟨k, k1, k2⟩ := h1
    exact ⟨k, by dsimp only; rw [hpos'.1, k1], by dsimp only; rw [hpos'.2.1, k2]⟩

/-- What is kept: the brush is on the line, and the dabs are beside it. -/
structure OnBothSides (e : Env K R σ) (px py ux uy o m f : K) (b : Brush K R) (l : List (Dab.Args K)) : Prop where
  settings : Sideways e b.settings o m ∧ NeverSamples b.settings
  slow : OnTheLine px py ux uy b.st.actualX b.st.actualY
  flip : b.st.flip = sideAfter (-f) l.length
  dabs : InTurn px py ux uy o m f l

theorem bothSides_invariant {e : Env K R σ} (L : Laws e) (he : Decays e) (A : AngleLaws e) (N : NormalLaws e) {V : K → Prop}
    {px py ux uy k' : K} (hu : ux * ux + uy * uy = 1) {s0 : Load.Brush K} (hf : Filters e s0)
    (hslow : (s0 sSlowTracking).base ≤ 1 / 1000) {o m f : K} (hf1 : |f| ≤ 1) :
    Invariant (recordDabs e) (AheadEvent V px py ux uy k') (fun x y => x = px + k' * ux ∧ y = py + k' * uy)
      (fun b s => AheadBrush px py ux uy k' s0 b ∧ (Ahead ux uy b.st ∧ OnBothSides e px py ux uy o m f b s.2))
      (fun b s => (AheadBrush px py ux uy k' s0 b ∧ (Ahead ux uy b.st ∧ OnBothSides e px py ux uy o m f b s.2)) ∧
        ∃ i, b.vals = fun id => calculate (b.settings id) i) :=
  have hu0 : uy ≠ 0 ∨ ux ≠ 0 := by
    by_contra q
    push_neg at q
    rw [q.1, q.2] at hu
    norm_num at hu
  have hdab : ∀ s : σ × List (Dab.Args K), ∀ a ∈ (s.1, ([] : List (Dab.Args K))).2, FullyDirectedDab e V s0 (e.atan2 uy ux) a := by
    intro s a ha; cases ha
  have H := ahead_invariant (V := V) (px := px) (py := py) (k' := k') L he A hu0 hf hslow
  have W := region_invariant (line_convex px py ux uy) (recordDabs e) he
  have onl : ∀ {k x y : K}, x = px + k * ux ∧ y = py + k * uy → OnTheLine px py ux uy x y := fun {k _ _} h => ⟨k, h⟩
  { skip := fun b s ev _ h => by rw [steady_skip h.1.steady]; exact h
    pull := fun b s ev _ _ h => by rw [steady_skip h.1.steady, steady_cursor h.1.steady]; exact h
    target := fun b s ev hev hdt h => H.target b (s.1, []) ev hev hdt ⟨⟨h.1, h.2.1⟩, hdab s⟩
    start := fun b s ev x y b' hev hx h hq hs => by
      exfalso
      rcases hq with q | ⟨b0, q0, q⟩
      · rw [h.1.steady.reset] at q; cases q
      · rw [steady_skip q0.1.steady] at q
        exact absurd q (not_lt.mpr hev.time)
    count := fun b s x y dt h => by
      have k := H.count b (s.1, []) x y dt ⟨⟨h.1, h.2.1⟩, hdab s⟩
      refine ⟨k.1.1, k.1.2, ?_⟩
      rw [countDabs_st]
      exact ⟨h.2.2.settings, h.2.2.slow, h.2.2.flip, h.2.2.dabs⟩
    step := fun b s ev x y d f' t b' hev hx hd f0 f1 ht h hb => by
      have k := H.step b (s.1, []) ev x y d f' t b' hev hx hd f0 f1 ht ⟨⟨h.1, h.2.1⟩, hdab s⟩ hb
      have hbi : BrushIn (OnTheLine px py ux uy) b := by
        obtain ⟨k0, -, q⟩ := h.1.place
        exact ⟨⟨k0, q⟩, h.2.2.slow⟩
      have w := W.step b s ev x y d f' t b' ⟨k', hev.x, hev.y⟩ (onl hx) hd f0 f1 ht ⟨h.2.2.settings.1.scatter, hbi⟩ hb
      have est : b'.settings = b.settings := by rw [update_eq hb]
      refine ⟨⟨k.1.1.1, k.1.1.2, ⟨by rw [est]; exact h.2.2.settings, w.1.2.slow, ?_, h.2.2.dabs⟩⟩, w.2⟩
      rw [← h.2.2.flip, update_eq hb]
      rfl
    draw := fun b s lin p h hp => by
      obtain ⟨⟨h1, h2, h3⟩, i, hv⟩ := h
      have fr := drawDab_frame hp
      have est : p.2.1.settings = b.settings := fr.settings
      have esk : p.2.1.skip = b.skip := by rw [fr]
      have ers : p.2.1.resetRequested = b.resetRequested := by rw [fr]
      have ex : p.2.1.st.x = b.st.x := by rw [fr]
      have ey : p.2.1.st.y = b.st.y := by rw [fr]
      have eax : p.2.1.st.actualX = b.st.actualX := by rw [fr]
      have eay : p.2.1.st.actualY = b.st.actualY := by rw [fr]
      have edx : p.2.1.st.directionAngleDx = b.st.directionAngleDx := by rw [fr]
      have edy : p.2.1.st.directionAngleDy = b.st.directionAngleDy := by rw [fr]
      have efl : p.2.1.st.flip = b.st.flip * -1 := by rw [fr]
      have hflip : b.st.flip * -1 = sideAfter f s.2.length := by
        rw [h3.flip]; unfold sideAfter; ring
      have habs : |b.st.flip * -1| ≤ 1 := by
        rw [hflip]
        unfold sideAfter
        rw [abs_mul, abs_pow, abs_neg, abs_one, one_pow, mul_one]
        exact hf1
      obtain ⟨a, q1, q2⟩ := drawDab_sideways (b := { b with st := { b.st with flip := b.st.flip * -1 } }) (i := i) N A hu hv
        h3.settings.1 h3.settings.2 h2 habs h3.slow hp
      refine ⟨⟨est.trans h1.settings, ⟨by show (p.2.1.settings _).base = 0; rw [est]; exact h1.steady.noise,
        by show p.2.1.skip ≤ _; rw [esk]; exact h1.steady.skip, by show p.2.1.resetRequested = _; rw [ers]; exact h1.steady.reset⟩,
        ?_, ?_⟩, ?_, ⟨?_, ?_, ?_, ?_⟩⟩
      · show ∃ k, k ≤ k' ∧ p.2.1.st.x = px + k * ux ∧ p.2.1.st.y = py + k * uy
        rw [ex, ey]; exact h1.place
      · show ∃ c, 0 ≤ c ∧ p.2.1.st.directionAngleDx = c * ux ∧ p.2.1.st.directionAngleDy = c * uy
        rw [edx, edy]; exact h1.way
      · show ∃ c, 0 < c ∧ p.2.1.st.directionAngleDx = c * ux ∧ p.2.1.st.directionAngleDy = c * uy
        rw [edx, edy]; exact h2
      · show Sideways e p.2.1.settings o m ∧ NeverSamples p.2.1.settings
        rw [est]; exact h3.settings
      · show OnTheLine px py ux uy p.2.1.st.actualX p.2.1.st.actualY
        rw [eax, eay]; exact h3.slow
      · show p.2.1.st.flip = _
        rw [efl, hflip, q1, List.length_append, List.length_singleton]
        unfold sideAfter
        rw [pow_succ]; ring
      · show InTurn px py ux uy o m f p.2.2.2
        rw [q1]
        refine inTurn_append a _ _ h3.dabs ?_
        rw [← hflip]
        exact q2
    finish := fun b s n total idle h => ⟨⟨h.1.1.settings, ⟨h.1.1.steady.noise, h.1.1.steady.skip, h.1.1.steady.reset⟩,
      h.1.1.place, h.1.1.way⟩, h.1.2.1, ⟨h.1.2.2.settings, h.1.2.2.slow, h.1.2.2.flip, h.1.2.2.dabs⟩⟩ }

/-- **C116**. The pen moves ahead on a straight line, and so has the brush before; the brush shifts its dabs by `o` pixels to one side of
the stroke and by `m` to both sides. Then the dabs lie in turn on the two sides, `o + m` and `o - m` pixels from the line. -/
theorem dabs_beside_the_stroke {e : Env K R σ} (L : Laws e) (he : Decays e) (A : AngleLaws e) (N : NormalLaws e) {V : K → Prop}
    {px py ux uy k : K} (hu : ux * ux + uy * uy = 1) {fuel : Nat} (ms : List (Motion K)) (hm : MovesAhead V px py ux uy k ms)
    {b : Brush K R} (hb : Underway b) (hs : Undisturbed b) (hslow : (b.settings sSlowTracking).base ≤ 1 / 1000) (hf : Filters e b.settings)
    (hx : b.st.x = px + k * ux) (hy : b.st.y = py + k * uy) (ha : Ahead ux uy b.st)
    (h0 : OnTheLine px py ux uy b.st.actualX b.st.actualY) (hfl : b.st.flip = 1 ∨ b.st.flip = -1) {o m : K}
    (hw : Sideways e b.settings o m) (hn : NeverSamples b.settings) (surf : σ) {r : Brush K R × (σ × List (Dab.Args K))}
    (h : strokes (recordDabs e) fuel b (surf, []) ms = .ok r) :
    InTurn px py ux uy o m (-b.st.flip) r.2.2 := by
  have hf1 : |-b.st.flip| ≤ 1 := by
    rcases hfl with q | q <;> rw [q] <;> norm_num
  have k := ahead_keeps (e := recordDabs e) (s0 := b.settings)
    (Q := fun b' s => Ahead ux uy b'.st ∧ OnBothSides e px py ux uy o m (-b.st.flip) b' s.2)
    (fun k' => bothSides_invariant (V := V) (px := px) (py := py) (k' := k') L he A N hu hf hslow hf1) ms hm hb
    ⟨rfl, hs, ⟨k, le_refl _, hx, hy⟩, by obtain ⟨c, c0, h1, h2⟩ := ha; exact ⟨c, c0.le, h1, h2⟩⟩
    (surf := (surf, [])) ⟨ha, ⟨⟨hw, hn⟩, h0, by unfold sideAfter; simp, trivial⟩⟩ h
  exact k.2.dabs

end

/-! ### Examples -/

namespace Demo

open Real in
theorem realEnv_normal {R σ : Type} (next gauss : R → ℝ × R) (draw : σ → Dab.Args ℝ → Bool × σ)
    (getColor : σ → Int → Int → ℝ → ℝ → Color.Rgba ℝ × σ) : NormalLaws (realEnv next gauss draw getColor) where
  normal x y h := by
    have h0 : (⟨x, y⟩ : ℂ) ≠ 0 := by
      intro q
      have q1 : x = 0 := congrArg Complex.re q
      have q2 : y = 0 := congrArg Complex.im q
      rw [q1, q2] at h
      norm_num at h
    have n1 : ‖(⟨x, y⟩ : ℂ)‖ = 1 := by
      have : ‖(⟨x, y⟩ : ℂ)‖ ^ 2 = 1 := by
        rw [Complex.sq_norm, Complex.normSq_mk, h]
      have p := norm_nonneg (⟨x, y⟩ : ℂ)
      nlinarith
    have c : Real.cos (Complex.arg ⟨x, y⟩) = x := by rw [Complex.cos_arg h0, n1, div_one]
    have s : Real.sin (Complex.arg ⟨x, y⟩) = y := by rw [Complex.sin_arg, n1, div_one]
    have e1 : (Complex.arg ⟨x, y⟩ * (180 / π) - 90) * (π / 180) = Complex.arg ⟨x, y⟩ - π / 2 := by
      have := Real.pi_ne_zero
      field_simp
      ring
    constructor
    · show Real.cos ((Complex.arg ⟨x, y⟩ * (180 / π) - 90) * (π / 180)) = y
      rw [e1, Real.cos_sub_pi_div_two, s]
    · show Real.sin ((Complex.arg ⟨x, y⟩ * (180 / π) - 90) * (π / 180)) = -x
      rw [e1, Real.sin_sub_pi_div_two, c]
  turns t k := by
    have e1 : (t + 360 * k) * (π / 180) = t * (π / 180) + k * (2 * π) := by ring
    constructor
    · show Real.cos ((t + 360 * k) * (π / 180)) = Real.cos (t * (π / 180))
      rw [e1, Real.cos_add_int_mul_two_pi]
    · show Real.sin ((t + 360 * k) * (π / 180)) = Real.sin (t * (π / 180))
      rw [e1, Real.sin_add_int_mul_two_pi]

/-- A brush on the y axis that has moved upwards; the dabs go to both sides. -/
noncomputable def zigzag : Brush ℝ Nat :=
  { upright with settings := fun i =>
      { base := if i = sDirectionFilter then 2 else if i = sOffsetAngle2 then 3 else 0, inputs := 18,
        pts := fun _ => ⟨fun _ => 0, fun _ => 0, 0⟩, used := 0 } }

theorem zigzag_sideways {σ : Type} (next gauss : Nat → ℝ × Nat) (draw : σ → Dab.Args ℝ → Bool × σ)
    (getColor : σ → Int → Int → ℝ → ℝ → Color.Rgba ℝ × σ) :
    Sideways (realEnv next gauss draw getColor) zigzag.settings 0 3 ∧ NeverSamples zigzag.settings ∧
      Filters (realEnv next gauss draw getColor) zigzag.settings := by
  have c : ∀ id i, calculate (zigzag.settings id) i = if id = sDirectionFilter then 2 else if id = sOffsetAngle2 then 3 else 0 := by
    intro id i
    rfl
  refine ⟨⟨?_, ?_, ?_, ?_, ?_, ?_, ?_, ⟨?_, ?_, ?_⟩, ?_⟩, ?_, ?_⟩
  · intro i; rw [c]; norm_num
  · intro i
    rw [c, c]
    show maxC 0 (if sOffsetAngle2 = sDirectionFilter then 2 else if sOffsetAngle2 = sOffsetAngle2 then 3 else 0) *
      (Real.exp (if sRadiusLogarithmic = sDirectionFilter then 2 else if sRadiusLogarithmic = sOffsetAngle2 then 3 else 0) *
        Real.exp (if sOffsetMultiplier = sDirectionFilter then 2 else if sOffsetMultiplier = sOffsetAngle2 then 3 else 0)) = (3 : ℝ)
    norm_num [maxC]
  · norm_num
  · intro i; rw [c]; norm_num
  · intro i; rw [c, c]; norm_num
  · intro i; rw [c, c]; norm_num
  · intro i; rw [c, c]; norm_num
  · rfl
  · intro i; rw [c]; norm_num
  · intro i; rw [c]; norm_num
  · intro i; rw [c]; norm_num
  · rintro i ⟨-, k | k⟩
    · apply k
      rw [c]; norm_num
    · cases k
  · intro i
    rw [c]
    show (1 / 1000 : ℝ) < Real.exp (2 * (1 / 2)) - 1
    have := Real.add_one_le_exp (2 * (1 / 2) : ℝ)
    linarith

/-- A stroke upwards along the y axis: the dabs have x coordinates 3, -3, 3, … -/
example {σ : Type} (next gauss : Nat → ℝ × Nat) (draw : σ → Dab.Args ℝ → Bool × σ)
    (getColor : σ → Int → Int → ℝ → ℝ → Color.Rgba ℝ × σ) (hn : ∀ r, 0 ≤ (next r).1 ∧ (next r).1 < 1) {fuel : Nat} (surf : σ)
    {r : Brush ℝ Nat × (σ × List (Dab.Args ℝ))}
    (h : strokes (recordDabs (realEnv next gauss draw getColor)) fuel zigzag (surf, []) upwards = .ok r) :
    ∀ j (hj : j < r.2.2.length), (r.2.2[j]).x = 3 * (-1) ^ j := by
  obtain ⟨w1, w2, w3⟩ := zigzag_sideways next gauss draw getColor
  obtain ⟨-, -, -, -, -, h6, -, -⟩ := upright_ready next gauss draw getColor
  have k := dabs_beside_the_stroke (V := (· = 0)) (px := 0) (py := 0) (ux := 0) (uy := 1) (k := 0)
    (realEnv_laws next gauss draw getColor hn) (realEnv_decays next gauss draw getColor)
    (realEnv_angles next gauss draw getColor) (realEnv_normal next gauss draw getColor) (by norm_num) upwards
    ⟨30, by norm_num, ⟨congrArg Flt.fin (by norm_num), congrArg Flt.fin (by norm_num)⟩, by unfold OnCanvas; norm_num, by norm_num,
    by norm_num, rfl, 30, by norm_num, ⟨congrArg Flt.fin (by norm_num), congrArg Flt.fin (by norm_num)⟩,
    by unfold OnCanvas; norm_num, by norm_num, by norm_num, rfl, trivial⟩
    (b := zigzag) ⟨⟨le_refl _, zero_lt_one⟩, le_refl _⟩ ⟨rfl, by show (0 : ℝ) ≤ _; norm_num, rfl⟩ (by show (0 : ℝ) ≤ _; norm_num) w3
    (by show (0 : ℝ) = 0 + 0 * 0; norm_num) (by show (0 : ℝ) = 0 + 0 * 1; norm_num) h6
    ⟨0, by show (0 : ℝ) = 0 + 0 * 0; norm_num, by show (0 : ℝ) = 0 + 0 * 1; norm_num⟩ (.inr rfl) w1 w2 surf h
  have key : ∀ (l : List (Dab.Args ℝ)) (f : ℝ), InTurn 0 0 0 1 0 3 f l → ∀ j (hj : j < l.length), (l[j]).x = f * (3 * (-1) ^ j) := by
    intro l
    induction l with
    | nil => intro f _ j hj; cases hj
    | cons a l ih =>
      intro f hf j hj
      cases j with
      | zero =>
        obtain ⟨⟨k, q, -⟩, -⟩ := hf
        rw [List.getElem_cons_zero, q]; ring
      | succ j =>
        rw [List.getElem_cons_succ, ih _ hf.2 j, pow_succ]; ring
  intro j hj
  rw [key _ _ k j hj]
  show -(-1 : ℝ) * _ = _
  ring

/-- Upwards along the y axis, in exact numbers; the brush has been moving before. -/
def ziggy : Brush ℚ Nat :=
  let b := set (set (set (set (set brush sOffsetAngle2 1) sOffsetAngle (1 / 2)) sDirectionFilter 2) sSpeed1Slowness 0) sSpeed2Slowness 0
  { b with resetRequested := false, st := { b.st with directionAngleDy := 1 } }

example : look (fun r => r.2.map fun a => (a.x, a.y)) (strokes cross 100 ziggy [] climb) =
    some [(9 / 2, 17 / 8), (-3 / 2, 29 / 8), (9 / 2, 41 / 8), (-3 / 2, 53 / 8)] := by
  decide +kernel

end Demo
end Verif.Engine
