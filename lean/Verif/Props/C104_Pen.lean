import Verif.Props.C103_Direction

/-!
# C104: pressure, tilt and rotation of the pen reach the dabs, interpolated along the way

Between two events the library moves the brush in steps of one dab. Each dab reads the pressure, the tilt and the rotation at the
part of the way where it is drawn.
-/

namespace Verif.Engine
open Verif.Mask Verif.Color Verif.Spectral Verif.Map

section
variable {K R σ : Type} [Field K] [LinearOrder K] [IsStrictOrderedRing K] [FloorRing K]

/-! ## Specification -/

/-- The value at the part `t` of the way from `a` to `b`. -/
def part (t a b : K) : K := a + t * (b - a)

/-- The angle at the part `t` of the way from `a` to `b`, turning the shorter way. -/
def turnedPart (t a b : K) : K := a + t * smallestDiff a b

/-- What the pen, or the brush that follows it, reads: where it is, its pressure, its tilt and its rotation about its axis (angles in
degrees). -/
structure Reading (K : Type) where
  x : K
  y : K
  pressure : K
  ascension : K
  declination : K
  declinationX : K
  declinationY : K
  rotation : K

/-- The event `m` reports the pen `A`: a place on the canvas, the pressure, not below 0, the tilt, upright or leaning by
`(xt, yt)`, and the rotation in turns. -/
structure ReportsPen (e : Env K R σ) (m : Motion K) (A : Reading K) : Prop where
  place : RestsAt A.x A.y m
  canvas : OnCanvas A.x A.y
  pressure : A.pressure = max m.pressure 0
  upright : m.xtilt = .fin 0 → m.ytilt = .fin 0 →
    A.ascension = 0 ∧ A.declination = 90 ∧ A.declinationX = 90 ∧ A.declinationY = 90
  leaning : ¬ (m.xtilt = .fin 0 ∧ m.ytilt = .fin 0) → ∃ xt yt, m.xtilt = .fin xt ∧ m.ytilt = .fin yt ∧
    -1 ≤ xt ∧ xt ≤ 1 ∧ -1 ≤ yt ∧ yt ≤ 1 ∧ A.ascension = e.atan2 (-xt) yt ∧ A.declination = 90 - 60 * hypot e xt yt ∧
    A.declinationX = 60 * xt ∧ A.declinationY = 60 * yt
  rotation : A.rotation = 360 * m.barrel

/-- The inputs at the part `t` of the way from `A` to `B`, on a view with the given zoom and rotation. -/
structure PenInputs (e : Env K R σ) (s : Load.Brush K) (A B : Reading K) (zoom rot t : K) (i : Nat → K) : Prop where
  pressure : i iPressure = part t A.pressure B.pressure * e.exp (s sPressureGainLog).base
  declination : i iTiltDeclination = part t A.declination B.declination
  declinationX : i iTiltDeclinationx = part t A.declinationX B.declinationX
  declinationY : i iTiltDeclinationy = part t A.declinationY B.declinationY
  /-- The ascension relative to the view, from -180 to 180. -/
  ascension : i iTiltAscension = modArith (turnedPart t A.ascension B.ascension + viewRotation e rot + 180) 360 - 180
  /-- The rotation, from 0 to 360. -/
  rotation : i iBarrelRotation = modArith (turnedPart t A.rotation B.rotation) 360
  /-- The angle from the pen to the stroke, from -180 to 180. -/
  attack : -180 ≤ i iAttackAngle ∧ i iAttackAngle < 180 ∧
    Congruent 360 (i iAttackAngle) (i iDirectionAngle - viewRotation e rot + 90 - turnedPart t A.ascension B.ascension)
  radius : i iBrushRadius = (s sRadiusLogarithmic).base
  /-- The zoom, as a logarithm. -/
  zoom : (∀ r, e.log (e.exp r / zoom) = r - e.log zoom) → i iViewzoom = e.log zoom

/-- A brush whose dabs are where the brush is. -/
structure OnTheSpot (s : Load.Brush K) : Prop where
  scatter : NoScatter s
  offset : NoOffset s
  slow : ∀ i, calculate (s sSlowTrackingPerDab) i ≤ 1 / 1000
  snap : ∀ i, calculate (s sSnapToPixel) i ≤ 0

/-- A dab at the part `t` of the way from `A` to `B`: its shape is the one the settings ask for, for the inputs at that part, and it
is drawn at that part. -/
def DabOnWay (e : Env K R σ) (s : Load.Brush K) (A B : Reading K) (zoom rot t : K) (a : Dab.Args K) : Prop :=
  ∃ i, PenInputs e s A B zoom rot t i ∧ DabShape e s i a ∧ (OnTheSpot s → a.x = part t A.x B.x ∧ a.y = part t A.y B.y)

/-- The dabs are drawn one after the other on the way. -/
def DabsOnWay (e : Env K R σ) (s : Load.Brush K) (A B : Reading K) (zoom rot : K) (l : List (Dab.Args K)) : Prop :=
  ∃ ts : List K, List.Forall₂ (DabOnWay e s A B zoom rot) ts l ∧ ts.Pairwise (· ≤ ·) ∧ ∀ t ∈ ts, 0 ≤ t ∧ t ≤ 1

/-- What the brush reads. -/
def State.reading (st : State K) : Reading K :=
  ⟨st.x, st.y, st.pressure, st.ascension, st.declination, st.declinationX, st.declinationY, st.barrelRotation⟩

/-- A brush without tracking noise and with less than one dab pending. -/
structure Placid (b : Brush K R) : Prop where
  pending : PendingOk b
  noise : (b.settings sTrackingNoise).base = 0
  skip : b.skip ≤ 1 / 1000
  pressure : 0 ≤ b.st.pressure

/-- The pen touches the canvas after a pause of more than 0.1 seconds. -/
def TouchesAfterPause (A B : Reading K) (dtime : K) : Prop := 1 / 10 < dtime ∧ B.pressure ≠ 0 ∧ A.pressure = 0

/-- What is read at the end of such a pause: the pen is where it will touch, without pressure, laid over to one side, not rotated. -/
def paused (e : Env K R σ) (B : Reading K) : Reading K :=
  ⟨B.x, B.y, 0, e.atan2 (-1) 0, 90 - 60 * hypot e 1 0, 60, 0, 0⟩

/-- The event, pulling the brush to `(X, Y)`. -/
def Event.pulls (ev : Event K) (X Y : K) : Reading K :=
  ⟨X, Y, ev.pressure, ev.ascension, ev.declination, ev.declinationX, ev.declinationY, ev.barrel * 360⟩

/-- The brush at the part `t` of the way. -/
structure OnWay (A B : Reading K) (t : K) (st : State K) : Prop where
  x : st.x = part t A.x B.x
  y : st.y = part t A.y B.y
  pressure : st.pressure = part t A.pressure B.pressure
  declination : st.declination = part t A.declination B.declination
  declinationX : st.declinationX = part t A.declinationX B.declinationX
  declinationY : st.declinationY = part t A.declinationY B.declinationY
  ascension : st.ascension = turnedPart t A.ascension B.ascension
  rotation : st.barrelRotation = turnedPart t A.rotation B.rotation

/-! ## Proof -/

omit [LinearOrder K] [IsStrictOrderedRing K] [FloorRing K] in
theorem part_zero (a b : K) : part 0 a b = a := by unfold part; ring

omit [LinearOrder K] [IsStrictOrderedRing K] [FloorRing K] in
theorem part_step (t f a b : K) : part t a b + f * (b - part t a b) = part (t + f * (1 - t)) a b := by unfold part; ring

/-- What is left of a turn. -/
theorem turn_left {t : K} (t0 : 0 ≤ t) (t1 : t ≤ 1) (a b : K) :
    smallestDiff (turnedPart t a b) b = (1 - t) * smallestDiff a b := by
  obtain ⟨h1, h2, ⟨n, hn⟩, -⟩ := smallestDiff_spec a b
  obtain ⟨k1, k2, ⟨n', hn'⟩, -⟩ := smallestDiff_spec (turnedPart t a b) b
  unfold turnedPart at *
  generalize smallestDiff (a + t * smallestDiff a b) b = s at *
  generalize smallestDiff a b = d at *
  have b1 : -180 ≤ (1 - t) * d := by nlinarith
  have b2 : (1 - t) * d < 180 := by
    by_cases q : 0 ≤ d
    · nlinarith
    · nlinarith
  have e1 : s - (1 - t) * d = 360 * ((n' - n : ℤ) : K) := by push_cast; linarith
  have c1 : ((n' - n : ℤ) : K) < 1 := by linarith
  have c2 : (-1 : K) < ((n' - n : ℤ) : K) := by linarith
  have z : n' - n = 0 := by
    have q1 : n' - n < 1 := by exact_mod_cast c1
    have q2 : -1 < n' - n := by exact_mod_cast c2
    omega
  rw [z] at e1
  push_cast at e1
  linarith

theorem turnedPart_step {t : K} (t0 : 0 ≤ t) (t1 : t ≤ 1) (f a b : K) :
    turnedPart t a b + f * smallestDiff (turnedPart t a b) b = turnedPart (t + f * (1 - t)) a b := by
  rw [turn_left t0 t1]
  unfold turnedPart
  ring

theorem onWay_start (st : State K) (ev : Event K) (X Y : K) : OnWay st.reading (ev.pulls X Y) 0 st := by
  constructor <;> first | (rw [part_zero]; rfl) | (unfold turnedPart; rw [zero_mul, add_zero]; rfl)

/-- A step on the way. -/
theorem moveStates_onWay {e : Env K R σ} {st : State K} {ev : Event K} {X Y t : K} (t0 : 0 ≤ t) (t1 : t ≤ 1)
    (hp : 0 ≤ st.pressure) (hq : 0 ≤ ev.pressure) {b : Brush K R} (hb : OnWay st.reading (ev.pulls X Y) t b.st) {d f dt : K} (f0 : 0 ≤ f)
    (f1 : f ≤ 1) : OnWay st.reading (ev.pulls X Y) (t + f * (1 - t)) (moveStates e b (stepTo b.st ev X Y d f dt)) := by
  constructor
  · show b.st.x + f * (X - b.st.x) = _; rw [show b.st.x = part t st.x X from hb.x, part_step]; rfl
  · show b.st.y + f * (Y - b.st.y) = _; rw [show b.st.y = part t st.y Y from hb.y, part_step]; rfl
  · show (if b.st.pressure + f * (ev.pressure - b.st.pressure) ≤ 0 then 0
      else b.st.pressure + f * (ev.pressure - b.st.pressure)) = _
    rw [show b.st.pressure = part t st.pressure ev.pressure from hb.pressure, part_step]
    show _ = part (t + f * (1 - t)) st.pressure ev.pressure
    have k : 0 ≤ part (t + f * (1 - t)) st.pressure ev.pressure := by
      have l0 : 0 ≤ t + f * (1 - t) := add_nonneg t0 (mul_nonneg f0 (by linarith))
      have l1 : t + f * (1 - t) ≤ 1 := by nlinarith
      unfold part
      generalize t + f * (1 - t) = l at *
      have := mul_nonneg l0 hq
      have := mul_nonneg (sub_nonneg.mpr l1) hp
      linarith
    split_ifs with h
    · exact le_antisymm k h
    · rfl
  · show b.st.declination + f * (ev.declination - b.st.declination) = _; rw [show b.st.declination = part t st.declination ev.declination from hb.declination, part_step]; rfl
  · show b.st.declinationX + f * (ev.declinationX - b.st.declinationX) = _; rw [show b.st.declinationX = part t st.declinationX ev.declinationX from hb.declinationX, part_step]; rfl
  · show b.st.declinationY + f * (ev.declinationY - b.st.declinationY) = _; rw [show b.st.declinationY = part t st.declinationY ev.declinationY from hb.declinationY, part_step]; rfl
  · show b.st.ascension + f * smallestDiff b.st.ascension ev.ascension = _; rw [show b.st.ascension = turnedPart t st.ascension ev.ascension from hb.ascension, turnedPart_step t0 t1]; rfl
  · show b.st.barrelRotation + f * smallestDiff b.st.barrelRotation (ev.barrel * 360) = _
    rw [show b.st.barrelRotation = turnedPart t st.barrelRotation (ev.barrel * 360) from hb.rotation, turnedPart_step t0 t1]; rfl

/-- The states that are interpolated do not change but in `moveStates`. -/
theorem OnWay.of_eq {A B : Reading K} {t : K} {s s' : State K} (h : OnWay A B t s) (h1 : s'.x = s.x)
    (h2 : s'.y = s.y) (h3 : s'.pressure = s.pressure) (h4 : s'.declination = s.declination) (h5 : s'.declinationX = s.declinationX)
    (h6 : s'.declinationY = s.declinationY) (h7 : s'.ascension = s.ascension) (h8 : s'.barrelRotation = s.barrelRotation) :
    OnWay A B t s' :=
  ⟨h1.trans h.x, h2.trans h.y, h3.trans h.pressure, h4.trans h.declination, h5.trans h.declinationX, h6.trans h.declinationY,
    h7.trans h.ascension, h8.trans h.rotation⟩

/-- The settings are those of the start, and nothing is pending. -/
structure Unaltered (s0 : Load.Brush K) (b : Brush K R) : Prop where
  settings : b.settings = s0
  still : Undisturbed b

/-- What holds between the dabs: the brush is at a part of the way, and so are the dabs, at earlier parts. -/
def MidWay (e : Env K R σ) (s0 : Load.Brush K) (st : State K) (ev : Event K) (X Y : K) (old : List (Dab.Args K)) (b : Brush K R)
    (l : List (Dab.Args K)) : Prop :=
  Unaltered s0 b ∧ ∃ t, 0 ≤ t ∧ t ≤ 1 ∧ OnWay st.reading (ev.pulls X Y) t b.st ∧ ∃ new ts, l = old ++ new ∧
    List.Forall₂ (DabOnWay e s0 st.reading (ev.pulls X Y) ev.viewzoom ev.viewrotation) ts new ∧ ts.Pairwise (· ≤ ·) ∧ ∀ t' ∈ ts, 0 ≤ t' ∧ t' ≤ t

theorem fmod_congruent (a : K) : Congruent 360 (fmod a 360) a := by
  unfold fmod
  split_ifs
  · exact (modArith_spec a 360 (by norm_num)).2.2
  · obtain ⟨-, -, n, h⟩ := modArith_spec (-a) (360 : K) (by norm_num)
    exact ⟨-n, by rw [h]; push_cast; ring⟩

/-- What an update leaves. -/
theorem update_onWay {e : Env K R σ} {s0 : Load.Brush K} {st : State K} {ev : Event K} {X Y t : K} (t0 : 0 ≤ t) (t1 : t ≤ 1)
    (hp : 0 ≤ st.pressure) (hq : 0 ≤ ev.pressure) {b b' : Brush K R} (hs : Unaltered s0 b) (hb : OnWay st.reading (ev.pulls X Y) t b.st) {d f dt : K}
    (f0 : 0 ≤ f) (f1 : f ≤ 1) (h : update e b (stepTo b.st ev X Y d f dt) = .ok b') :
    Unaltered s0 b' ∧ OnWay st.reading (ev.pulls X Y) (t + f * (1 - t)) b'.st ∧ ∃ i, i = (inputsOf e b (moveStates e b (stepTo b.st ev X Y d f dt))).get ∧
      PenInputs e s0 st.reading (ev.pulls X Y) ev.viewzoom ev.viewrotation (t + f * (1 - t)) i ∧
      (b'.vals = fun id => calculate (b'.settings id) i) ∧
      b'.st.actualRadius = askedRadius e (calculate (b'.settings sRadiusLogarithmic) i) ∧
      b'.st.ratio = calculate (b'.settings sEllipticalDabRatio) i ∧
      (OnTheSpot s0 → b'.st.actualX = b'.st.x ∧ b'.st.actualY = b'.st.y) := by
  have k := moveStates_onWay (e := e) t0 t1 hp hq hb (d := d) (dt := dt) f0 f1
  have est : b'.settings = b.settings := by rw [update_eq h]
  refine ⟨⟨est.trans hs.settings, by rw [est]; exact hs.still.noise, by rw [update_eq h]; exact hs.still.skip,
    by rw [update_eq h]; exact hs.still.reset⟩, ?_, _, rfl, ?_, ?_, ?_, ?_, ?_⟩
  · rw [update_eq h]
    exact k.of_eq rfl rfl rfl rfl rfl rfl rfl rfl
  · constructor
    · rw [← k.pressure, ← hs.settings]; rfl
    · rw [← k.declination]; rfl
    · rw [← k.declinationX]; rfl
    · rw [← k.declinationY]; rfl
    · rw [← k.ascension]; rfl
    · rw [← k.rotation]; rfl
    · rw [← k.ascension]
      obtain ⟨h1, h2, ⟨n1, h3⟩, -⟩ := smallestDiff_spec (moveStates e b (stepTo b.st ev X Y d f dt)).ascension
        (modArith (e.atan2 (moveStates e b (stepTo b.st ev X Y d f dt)).directionAngleDy
          (moveStates e b (stepTo b.st ev X Y d f dt)).directionAngleDx + 90) 360)
      obtain ⟨-, -, n2, h4⟩ := modArith_spec (e.atan2 (moveStates e b (stepTo b.st ev X Y d f dt)).directionAngleDy
          (moveStates e b (stepTo b.st ev X Y d f dt)).directionAngleDx + 90) 360 (by norm_num)
      obtain ⟨n3, h5⟩ := fmod_congruent (e.atan2 (moveStates e b (stepTo b.st ev X Y d f dt)).directionAngleDy
          (moveStates e b (stepTo b.st ev X Y d f dt)).directionAngleDx + viewRotation e ev.viewrotation + 360)
      refine ⟨h1, h2, n1 + n2 - n3 - 1, h3.trans ?_⟩
      rw [h4]
      refine Eq.trans ?_ (congrArg (fun q => q - viewRotation e ev.viewrotation + 90 -
        (moveStates e b (stepTo b.st ev X Y d f dt)).ascension + ((n1 + n2 - n3 - 1 : ℤ) : K) * 360) h5.symm)
      push_cast
      ring
    · rw [← hs.settings]; rfl
    · intro hl
      show b.baseval sRadiusLogarithmic - e.log (e.exp (b.baseval sRadiusLogarithmic) / ev.viewzoom) = _
      rw [hl]
      ring
  · rw [update_eq h]; rfl
  · rw [update_eq h, ← finalRadius_eq]; rfl
  · rw [update_eq h]; rfl
  · intro ho
    have hv : b'.vals sSlowTrackingPerDab ≤ 1 / 1000 := by
      rw [update_eq h]
      show calculate (b.settings _) _ ≤ _
      rw [hs.settings]
      exact ho.slow _
    have ap : ∀ a c : K, approach a c (1 - expDecay e (b'.vals sSlowTrackingPerDab) d) = c := by
      intro a c
      unfold expDecay
      rw [if_pos hv]
      unfold approach
      ring
    constructor
    · refine Eq.trans ?_ (ap b.st.actualX b'.st.x)
      rw [update_eq h]; rfl
    · refine Eq.trans ?_ (ap b.st.actualY b'.st.y)
      rw [update_eq h]; rfl

/-- The dab that is drawn is where the brush is. -/
theorem drawDab_spot {e : Env K R σ} {b : Brush K R} {surf : σ × List (Dab.Args K)} {lin : Bool}
    {p : Bool × Brush K R × (σ × List (Dab.Args K))} {i : Nat → K} (hv : b.vals = fun id => calculate (b.settings id) i)
    (ho : OnTheSpot b.settings) (h1 : b.st.actualX = b.st.x) (h2 : b.st.actualY = b.st.y)
    (hd : drawDab (recordDabs e) { b with st := { b.st with flip := b.st.flip * -1 } } surf lin = .ok p) :
    p.2.2.2 = surf.2 ∨ ∃ a, p.2.2.2 = surf.2 ++ [a] ∧ a.x = b.st.x ∧ a.y = b.st.y := by
  rcases drawDab_oneDab hd with h | ⟨o, pos, sm, col, -, hpos, -, -, -, fr2, -, h⟩
  · exact .inl h
  · refine .inr ⟨_, h, ?_⟩
    have hv2 : col.2.2.vals sSnapToPixel ≤ 0 := by
      rw [fr2.vals]
      show b.vals sSnapToPixel ≤ 0
      rw [hv]
      exact ho.snap i
    obtain ⟨px, py, hc, -, -, k⟩ := dabPosition_at (C := fun x y => x = b.st.x ∧ y = b.st.y)
      (b := { b with st := { b.st with flip := b.st.flip * -1 } }) (i := i) hv ho.scatter ⟨⟨rfl, rfl⟩, ⟨h1, h2⟩⟩ hpos
    obtain ⟨k1, k2⟩ := k ho.offset
    have sn : ∀ r, snap col.2.2 pos.1 pos.2.1 r = (pos.1, pos.2.1, r) := by
      intro r
      unfold snap
      dsimp only
      rw [if_neg (not_lt.mpr hv2)]
    unfold dabArgs
    simp only
    rw [sn]
    exact ⟨k1.trans hc.1, k2.trans hc.2⟩

/-- One turn of the dab loop. -/
theorem dabStep_midWay {e : Env K R σ} {s0 : Load.Brush K} {st : State K} {ev : Event K} {X Y : K} {old : List (Dab.Args K)}
    (hp : 0 ≤ st.pressure) (hq : 0 ≤ ev.pressure) {l l' : Loop K R (σ × List (Dab.Args K))} (hl : LoopRange l)
    (hi : MidWay e s0 st ev X Y old l.b l.surf.2) (hc : l.moved + l.todo ≥ 1) (h : dabStep (recordDabs e) ev X Y l = .ok l') :
    LoopRange l' ∧ MidWay e s0 st ev X Y old l'.b l'.surf.2 := by
  obtain ⟨f0, f1⟩ := fraction_ok hl hc
  obtain ⟨hz, b1, p, b2, hu, hd, h2, e1⟩ := dabStep_eq h
  obtain ⟨hsame, t, t0, t1, hb, new, ts, hnew, hall, hts, hle⟩ := hi
  obtain ⟨k1, k2, i, -, k3, k4, k5, k6, k7⟩ := update_onWay t0 t1 hp hq hsame hb f0 f1 hu
  have m0 := hl.moved0
  have m1 := hl.moved1
  have tm := hl.time0
  clear hu hc
  generalize (if l.moved > 0 then 1 - l.moved else 1) / l.todo = f at *
  obtain ⟨u, hu⟩ : ∃ u, u = t + f * (1 - t) := ⟨_, rfl⟩
  rw [← hu] at k2 k3
  have u0 : t ≤ u := by have := mul_nonneg f0 (sub_nonneg.mpr t1); linarith
  have u1 : u ≤ 1 := by rw [hu]; nlinarith
  have fr := drawDab_frame hd
  have est : p.2.1.settings = b1.settings := fr.settings
  rw [e1]
  refine ⟨⟨?_, ?_, countDabs_nonneg _ _ _ _ _, ?_⟩, ?_⟩
  · simp only
    split_ifs
    · exact le_refl _
    · exact m0
  · simp only
    split_ifs
    · exact zero_lt_one
    · exact m1
  · simp only
    have := mul_nonneg (sub_nonneg.mpr f1) tm
    linarith
  · simp only
    rw [countDabs_st, h2]
    refine ⟨⟨est.trans k1.settings, by show (p.2.1.settings _).base = 0; rw [est]; exact k1.still.noise,
      by show p.2.1.skip ≤ _; rw [fr]; exact k1.still.skip, by show p.2.1.resetRequested = _; rw [fr]; exact k1.still.reset⟩,
      u, t0.trans u0, u1, ?_, ?_⟩
    · refine k2.of_eq ?_ ?_ ?_ ?_ ?_ ?_ ?_ ?_ <;> (simp only; rw [fr])
    · rcases drawDab_new (e := e) k4 k5 k6 hd with q | ⟨a, q, q1, -⟩
      · exact ⟨new, ts, by rw [q]; exact hnew, hall, hts, fun t' ht' => ⟨(hle t' ht').1, (hle t' ht').2.trans u0⟩⟩
      · refine ⟨new ++ [a], ts ++ [u], by rw [q, hnew, List.append_assoc], ?_, ?_, ?_⟩
        · refine List.rel_append hall (.cons ⟨i, ⟨k3.pressure, k3.declination, k3.declinationX, k3.declinationY, k3.ascension, k3.rotation, k3.attack, k3.radius, k3.zoom⟩, by rw [← k1.settings]; exact q1, fun ho => ?_⟩ .nil)
          rcases drawDab_spot (e := e) k4 (by rw [k1.settings]; exact ho) (k7 ho).1 (k7 ho).2 hd with g | ⟨a', g, g1, g2⟩
          · rw [q] at g
            have := congrArg List.length g
            simp at this
          · rw [q] at g
            have ea := List.singleton_inj.mp (List.append_cancel_left g)
            rw [ea, g1, g2]
            exact ⟨k2.x, k2.y⟩
        · refine List.pairwise_append.mpr ⟨hts, List.pairwise_singleton _ _, fun a ha b hb => ?_⟩
          rw [List.mem_singleton.mp hb]
          exact (hle a ha).2.trans u0
        · intro t' ht'
          rcases List.mem_append.mp ht' with g | g
          · exact ⟨(hle t' g).1, (hle t' g).2.trans u0⟩
          · rw [List.mem_singleton.mp g]; exact ⟨t0.trans u0, le_refl _⟩

theorem moveTo_onWay {e : Env K R σ} {fuel : Nat} {b : Brush K R} (hu : PendingOk b) (hs : Undisturbed b) (hp : 0 ≤ b.st.pressure)
    {ev : Event K} (hq : 0 ≤ ev.pressure) {surf : σ × List (Dab.Args K)} {X Y dt : K} (hdt : 0 ≤ dt)
    {r : Bool × Brush K R × (σ × List (Dab.Args K))} (h : moveTo (recordDabs e) fuel b surf ev X Y dt = .ok r) :
    Unaltered b.settings r.2.1 ∧ OnWay b.st.reading (ev.pulls X Y) 1 r.2.1.st ∧
      ∃ new, r.2.2.2 = surf.2 ++ new ∧ DabsOnWay e b.settings b.st.reading (ev.pulls X Y) ev.viewzoom ev.viewrotation new := by
  obtain ⟨l, b1, hl, hu', -, h2, h3⟩ := moveTo_eq h
  have k := (dabLoop_induct
    (fun l : Loop K R (σ × List (Dab.Args K)) => LoopRange l ∧ MidWay e b.settings b.st ev X Y surf.2 l.b l.surf.2)
    (fun l l' hc hst hi => dabStep_midWay hp hq hi.1 hi.2 hc hst) _ _ _ hl
    ⟨⟨hu.1, hu.2, countDabs_nonneg _ b X Y dt, hdt⟩, ⟨by simp only; rw [countDabs_st], by
      simp only; rw [countDabs_st]; exact ⟨hs.noise, hs.skip, hs.reset⟩⟩, 0, le_refl _, zero_le_one, by
      simp only; rw [countDabs_st]; exact (onWay_start b.st ev X Y).of_eq rfl rfl rfl rfl rfl rfl rfl rfl,
      [], [], (List.append_nil _).symm, .nil, .nil, by simp⟩).1
  obtain ⟨k0, hsame, t, t0, t1, hb, new, ts, hnew, hall, hts, hle⟩ := k
  obtain ⟨k1, k2, -⟩ := update_onWay (e := recordDabs e) t0 t1 hp hq hsame hb zero_le_one (le_refl _) hu'
  rw [h2, h3, splitStroke_eq]
  rw [show t + 1 * (1 - t) = 1 by ring] at k2
  exact ⟨⟨k1.settings, k1.still.noise, k1.still.skip, k1.still.reset⟩, k2.of_eq rfl rfl rfl rfl rfl rfl rfl rfl,
    new, hnew, ts, hall, hts, fun t' ht' => ⟨(hle t' ht').1, (hle t' ht').2.trans t1⟩⟩

/-- An event. -/
theorem strokeEvent_onWay {e : Env K R σ} {fuel : Nat} {b : Brush K R} (hu : PendingOk b) (hs : Undisturbed b)
    (hp : 0 ≤ b.st.pressure) {ev : Event K} (hq : 0 ≤ ev.pressure) (h0 : 0 ≤ ev.dtime) (h5 : ev.dtime ≤ 5)
    {surf : σ × List (Dab.Args K)} {r : Bool × Brush K R × (σ × List (Dab.Args K))}
    (h : strokeEvent (recordDabs e) fuel b surf ev = .ok r) :
    Unaltered b.settings r.2.1 ∧
      OnWay b.st.reading (ev.pulls (followed e (b.settings sSlowTracking).base (100 * ev.dtime) b.st.x ev.x)
        (followed e (b.settings sSlowTracking).base (100 * ev.dtime) b.st.y ev.y)) 1 r.2.1.st ∧
      ∃ new, r.2.2.2 = surf.2 ++ new ∧
        DabsOnWay e b.settings b.st.reading (ev.pulls (followed e (b.settings sSlowTracking).base (100 * ev.dtime) b.st.x ev.x)
          (followed e (b.settings sSlowTracking).base (100 * ev.dtime) b.st.y ev.y)) ev.viewzoom ev.viewrotation new := by
  have sk : skipStage (recordDabs e) b ev.x ev.y ev.dtime = (b, ev.dtime, false) := steady_skip hs _ _ _
  have cu := cursor_tracks (e := recordDabs e) (b := b) (T := (b.settings sSlowTracking).base) ⟨rfl, hs.noise, hs.skip⟩ ev.x ev.y ev.dtime
  rcases strokeEvent_cases h with ⟨h1, -⟩ | ⟨-, h1, -⟩ | ⟨-, -, h⟩
  · rw [sk] at h1; cases h1
  · rw [sk, hs.reset] at h1
    rcases h1 with q | q
    · exact absurd q (not_lt.mpr h5)
    · cases q
  · simp only [sk, cu] at h
    exact moveTo_onWay hu hs hp hq h0 h

/-! ### The events -/

theorem ReportsPen.recorded {e : Env K R σ} {m : Motion K} {A : Reading K} (h : ReportsPen e m A) : ReportsPen (recordDabs e) m A :=
  ⟨h.place, h.canvas, h.pressure, h.upright, h.leaning, h.rotation⟩

/-- An event says what the pen reads. -/
theorem sanitise_reports {e : Env K R σ} {m : Motion K} {A : Reading K} (hm : ReportsPen e m A) {ev : Event K}
    (h : sanitise e m = .ok ev) : ev.pulls ev.x ev.y = A ∧ ev.viewzoom = m.viewzoom ∧ ev.viewrotation = m.viewrotation ∧
      ev.dtime = if m.dtime ≤ 0 then 1 / 10000 else m.dtime := by
  obtain ⟨c1, c2, c3, c4⟩ := hm.canvas
  have big : (10 : K) ^ 8 ≤ 10 ^ 10 := by norm_num
  have s : ∀ v : K, -10 ^ 8 < v → v < 10 ^ 8 → sane (.fin v) = some v := by
    intro v h1 h2
    show (if v > 10 ^ 10 ∨ v < -10 ^ 10 then none else some v) = some v
    rw [if_neg]
    rintro (q | q) <;> linarith
  have ht : tilt e m.xtilt m.ytilt = .ok (A.ascension, A.declination, A.declinationX, A.declinationY) := by
    unfold tilt
    by_cases hu : m.xtilt = .fin 0 ∧ m.ytilt = .fin 0
    · obtain ⟨u1, u2, u3, u4⟩ := hm.upright hu.1 hu.2
      rw [if_neg (by rw [hu.1, hu.2]; simp), u1, u2, u3, u4]
      rfl
    · obtain ⟨xt, yt, x1, y1, b1, b2, b3, b4, u1, u2, u3, u4⟩ := hm.leaning hu
      have k : m.xtilt ≠ .fin 0 ∨ m.ytilt ≠ .fin 0 := not_and_or.mp hu
      rw [if_pos k, x1, y1, u1, u2, u3, u4]
      show Except.ok _ = _
      rw [clampK_id b1 b2, clampK_id b3 b4, mul_comm (hypot e xt yt), mul_comm xt, mul_comm yt]
  have hp : (if m.pressure ≤ 0 then 0 else m.pressure) = A.pressure := by
    rw [hm.pressure]
    split_ifs with q
    · rw [max_eq_right q]
    · rw [max_eq_left (not_le.mp q).le]
  unfold sanitise at h
  rw [ht] at h
  simp only [bind, Except.bind, pure, Except.pure] at h
  rw [hm.place.1, hm.place.2, s _ c1 c2, s _ c3 c4, hp] at h
  dsimp only at h
  rw [if_pos ⟨c2, c4, c1, c3⟩] at h
  rw [← Except.ok.inj h]
  refine ⟨?_, rfl, rfl, rfl⟩
  unfold Event.pulls
  dsimp only
  rw [mul_comm, ← hm.rotation]

/-- What the event of a pause says. -/
theorem sanitise_paused {e : Env K R σ} {ev : Event K} (hc : OnCanvas ev.x ev.y) {i : Event K}
    (h : sanitise e (workaroundMotion ev) = .ok i) : i.pulls i.x i.y = paused e (ev.pulls ev.x ev.y) ∧ i.viewzoom = ev.viewzoom ∧
      i.viewrotation = ev.viewrotation := by
  obtain ⟨c1, c2, c3, c4⟩ := hc
  have big : (10 : K) ^ 8 ≤ 10 ^ 10 := by norm_num
  have s : ∀ v : K, -10 ^ 8 < v → v < 10 ^ 8 → sane (.fin v) = some v := by
    intro v h1 h2
    show (if v > 10 ^ 10 ∨ v < -10 ^ 10 then none else some v) = some v
    rw [if_neg]
    rintro (q | q) <;> linarith
  have ht : tilt e (.fin (90 : K)) (.fin 0) = .ok (e.atan2 (-1) 0, 90 - 60 * hypot e 1 0, 60, 0) := by
    have z : clampK (0 : K) (-1) 1 = 0 := clampK_id (by norm_num) (by norm_num)
    have z1 : clampK (90 : K) (-1) 1 = 1 := by
      unfold clampK
      norm_num
    unfold tilt
    rw [if_pos (.inl (by intro q; have := Flt.fin.inj q; norm_num at this))]
    show Except.ok _ = _
    rw [z, z1, mul_comm (hypot e 1 0), one_mul, zero_mul]
  unfold sanitise at h
  rw [show (workaroundMotion ev).xtilt = .fin 90 from rfl, show (workaroundMotion ev).ytilt = .fin 0 from rfl, ht] at h
  simp only [bind, Except.bind, pure, Except.pure] at h
  rw [show (workaroundMotion ev).x = .fin ev.x from rfl, show (workaroundMotion ev).y = .fin ev.y from rfl, s _ c1 c2, s _ c3 c4,
    show (workaroundMotion ev).pressure = 0 from rfl, if_pos (le_refl _)] at h
  dsimp only at h
  rw [if_pos ⟨c2, c4, c1, c3⟩] at h
  rw [← Except.ok.inj h]
  refine ⟨?_, rfl, rfl⟩
  unfold Event.pulls paused
  dsimp only
  rw [show (workaroundMotion ev).barrel = 0 from rfl, zero_mul]

/-- Without slow tracking the brush gets to the pen. -/
theorem followed_at_once (e : Env K R σ) {T : K} (hT : T ≤ 1 / 1000) (t s v : K) : followed e T t s v = v := by
  unfold followed leftOver
  rw [if_pos hT]
  ring

/-! ### Angles that differ by full turns -/

/-- The same readings, but for full turns. -/
structure SameReading (A B : Reading K) : Prop where
  x : A.x = B.x
  y : A.y = B.y
  pressure : A.pressure = B.pressure
  declination : A.declination = B.declination
  declinationX : A.declinationX = B.declinationX
  declinationY : A.declinationY = B.declinationY
  ascension : Congruent 360 A.ascension B.ascension
  rotation : Congruent 360 A.rotation B.rotation

theorem smallestDiff_turns {a a' : K} (h : Congruent 360 a a') (b : K) : smallestDiff a b = smallestDiff a' b := by
  obtain ⟨h1, h2, ⟨n, hn⟩, -⟩ := smallestDiff_spec a b
  obtain ⟨k1, k2, ⟨n', hn'⟩, -⟩ := smallestDiff_spec a' b
  obtain ⟨j, hj⟩ := h
  generalize smallestDiff a b = s at *
  generalize smallestDiff a' b = s' at *
  have e1 : s - s' = 360 * ((n - n' - j : ℤ) : K) := by push_cast; rw [hn, hn', hj]; ring
  have c1 : ((n - n' - j : ℤ) : K) < 1 := by linarith
  have c2 : (-1 : K) < ((n - n' - j : ℤ) : K) := by linarith
  have z : n - n' - j = 0 := by
    have q1 : n - n' - j < 1 := by exact_mod_cast c1
    have q2 : -1 < n - n' - j := by exact_mod_cast c2
    omega
  rw [z] at e1
  push_cast at e1
  linarith

theorem turnedPart_turns {a a' : K} (h : Congruent 360 a a') (t b : K) : Congruent 360 (turnedPart t a b) (turnedPart t a' b) := by
  unfold turnedPart
  rw [smallestDiff_turns h]
  obtain ⟨j, hj⟩ := h
  exact ⟨j, by rw [hj]; ring⟩

theorem PenInputs.turns {e : Env K R σ} {s : Load.Brush K} {A A' B : Reading K} (hA : SameReading A A') {zoom rot t : K} {i : Nat → K}
    (h : PenInputs e s A B zoom rot t i) : PenInputs e s A' B zoom rot t i where
  pressure := by rw [h.pressure, hA.pressure]
  declination := by rw [h.declination, hA.declination]
  declinationX := by rw [h.declinationX, hA.declinationX]
  declinationY := by rw [h.declinationY, hA.declinationY]
  ascension := by
    obtain ⟨j, hj⟩ := turnedPart_turns hA.ascension t B.ascension
    rw [h.ascension, modArith_congr (b := turnedPart t A'.ascension B.ascension + viewRotation e rot + 180) ⟨j, by rw [hj]; ring⟩]
  rotation := by rw [h.rotation, modArith_congr (turnedPart_turns hA.rotation t B.rotation)]
  attack := by
    obtain ⟨h1, h2, n, hn⟩ := h.attack
    obtain ⟨j, hj⟩ := turnedPart_turns hA.ascension t B.ascension
    exact ⟨h1, h2, n - j, by rw [hn, hj]; push_cast; ring⟩
  radius := h.radius
  zoom := h.zoom

theorem DabsOnWay.turns {e : Env K R σ} {s : Load.Brush K} {A A' B : Reading K} (hA : SameReading A A') {zoom rot : K}
    {l : List (Dab.Args K)} (h : DabsOnWay e s A B zoom rot l) : DabsOnWay e s A' B zoom rot l := by
  obtain ⟨ts, h1, h2, h3⟩ := h
  refine ⟨ts, h1.imp ?_, h2, h3⟩
  rintro t a ⟨i, k1, k2, k3⟩
  exact ⟨i, k1.turns hA, k2, fun ho => by rw [← hA.x, ← hA.y]; exact k3 ho⟩

/-- At the end of the way. -/
theorem OnWay.arrived {A B : Reading K} {st : State K} (h : OnWay A B 1 st) : SameReading st.reading B := by
  have p1 : ∀ a b : K, part 1 a b = b := fun a b => by unfold part; ring
  have p2 : ∀ a b : K, Congruent 360 (turnedPart 1 a b) b := fun a b => by
    obtain ⟨-, -, ⟨n, hn⟩, -⟩ := smallestDiff_spec a b
    exact ⟨n, by unfold turnedPart; rw [hn]; ring⟩
  exact ⟨h.x.trans (p1 _ _), h.y.trans (p1 _ _), h.pressure.trans (p1 _ _), h.declination.trans (p1 _ _),
    h.declinationX.trans (p1 _ _), h.declinationY.trans (p1 _ _), by
      show Congruent 360 st.ascension _
      rw [h.ascension]; exact p2 _ _, by
      show Congruent 360 st.barrelRotation _
      rw [h.rotation]; exact p2 _ _⟩

omit [Field K] [LinearOrder K] [IsStrictOrderedRing K] [FloorRing K] in
theorem forall₂_right {α β : Type} {P : α → β → Prop} {l : List α} {l' : List β} (h : List.Forall₂ P l l') {b : β} (hb : b ∈ l') :
    ∃ a ∈ l, P a b := by
  induction h with
  | nil => cases hb
  | cons h1 _ ih =>
    rcases List.mem_cons.mp hb with q | q
    · exact ⟨_, List.mem_cons_self, by rw [q]; exact h1⟩
    · obtain ⟨a, ha, k⟩ := ih q
      exact ⟨a, List.mem_cons_of_mem _ ha, k⟩

/-! ### Calls -/

/-- The brush between two calls. -/
structure Midst (s0 : Load.Brush K) (b : Brush K R) : Prop where
  placid : Placid b
  settings : b.settings = s0
  reset : b.resetRequested = false

theorem Midst.still {s0 : Load.Brush K} {b : Brush K R} (h : Midst s0 b) : Undisturbed b :=
  ⟨h.placid.noise, h.placid.skip, h.reset⟩

/-- Any event. -/
theorem strokeEvent_placid {e : Env K R σ} {fuel : Nat} {b : Brush K R} (hb : Placid b) {ev : Event K} (hq : 0 ≤ ev.pressure)
    (h0 : 0 ≤ ev.dtime) {surf : σ × List (Dab.Args K)} {r : Bool × Brush K R × (σ × List (Dab.Args K))}
    (h : strokeEvent (recordDabs e) fuel b surf ev = .ok r) : Midst b.settings r.2.1 := by
  have sk : skipStage (recordDabs e) b ev.x ev.y ev.dtime = (b, ev.dtime, false) := by
    unfold skipStage
    rw [if_neg (not_lt.mpr hb.skip)]
  have cu := cursor_tracks (e := recordDabs e) (b := b) (T := (b.settings sSlowTracking).base) ⟨rfl, hb.noise, hb.skip⟩ ev.x ev.y ev.dtime
  have pe := strokeEvent_pending h hb.pending
  rcases strokeEvent_cases h with ⟨h1, -⟩ | ⟨-, -, b', h1, h2⟩ | ⟨-, h1, h2⟩
  · rw [sk] at h1; cases h1
  · simp only [sk, cu] at h1
    obtain ⟨bk, -, h3⟩ := startOver_eq h1
    rw [h2] at pe ⊢
    refine ⟨⟨pe, ?_, ?_, ?_⟩, ?_, ?_⟩
    · show (b'.settings _).base = 0; rw [h3]; exact hb.noise
    · show b'.skip ≤ _; rw [h3]; show (0 : K) ≤ _; norm_num
    · show 0 ≤ b'.st.pressure; rw [h3]; exact hq
    · show b'.settings = _; rw [h3]
    · show b'.resetRequested = _; rw [h3]
  · have hr : b.resetRequested = false := by
      cases hh : b.resetRequested
      · rfl
      · exact absurd (.inr hh) h1
    simp only [sk, cu] at h2
    obtain ⟨k1, k2, -⟩ := moveTo_onWay hb.pending ⟨hb.noise, hb.skip, hr⟩ hb.pressure hq h0 h2
    refine ⟨⟨pe, k1.still.noise, k1.still.skip, ?_⟩, k1.settings, k1.still.reset⟩
    have := k2.arrived.pressure
    exact le_of_le_of_eq hq this.symm

theorem strokeTo_placid {e : Env K R σ} {fuel : Nat} {b : Brush K R} (hb : Placid b) {m : Motion K}
    {surf : σ × List (Dab.Args K)} {r : Bool × Brush K R × (σ × List (Dab.Args K))}
    (h : strokeTo (recordDabs e) fuel b surf m = .ok r) : Midst b.settings r.2.1 := by
  obtain ⟨ev, he, ⟨-, h⟩ | ⟨-, inner, r1, hi, h1, h⟩⟩ := strokeTo_cases h
  · exact strokeEvent_placid hb (sanitise_pressure he).1 (sanitise_pressure he).2.le h
  · have k := strokeEvent_placid hb (sanitise_pressure hi).1 (sanitise_pressure hi).2.le h1
    have k' := strokeEvent_placid k.placid (ev := { ev with dtime := 1 / 10000 }) (sanitise_pressure he).1
      (by show (0 : K) ≤ 1 / 10000; norm_num) h
    exact ⟨k'.placid, k'.settings.trans k.settings, k'.reset⟩

/-- Any sequence of calls, then one more. -/
theorem strokes_then {e : Env K R σ} {fuel : Nat} {m1 : Motion K} (ms : List (Motion K)) : ∀ {b : Brush K R}, Placid b →
    (b.resetRequested = false ∨ ms ≠ []) → ∀ {surf : σ × List (Dab.Args K)} {r : Brush K R × (σ × List (Dab.Args K))},
    strokes (recordDabs e) fuel b surf (ms ++ [m1]) = .ok r → ∃ b' surf' r1, Midst b.settings b' ∧
      strokeTo (recordDabs e) fuel b' surf' m1 = .ok r1 ∧ r = r1.2 := by
  induction ms with
  | nil =>
    intro b hb hr surf r h
    have hr' : b.resetRequested = false := by
      rcases hr with q | q
      · exact q
      · exact absurd rfl q
    rw [List.nil_append] at h
    unfold strokes at h
    obtain ⟨r1, h1, h⟩ := bind_ok h
    exact ⟨b, surf, r1, ⟨hb, rfl, hr'⟩, h1, (Except.ok.inj h).symm⟩
  | cons m ms ih =>
    intro b hb _ surf r h
    rw [List.cons_append] at h
    unfold strokes at h
    obtain ⟨r1, h1, h⟩ := bind_ok h
    have k := strokeTo_placid hb h1
    obtain ⟨b', surf', r2, k1, k2, k3⟩ := ih k.placid (.inl k.reset) h
    exact ⟨b', surf', r2, ⟨k1.placid, k1.settings.trans k.settings, k1.reset⟩, k2, k3⟩

/-- One call without a pause before it, or with one. -/
theorem strokeTo_reads {e : Env K R σ} {fuel : Nat} {s0 : Load.Brush K} {b : Brush K R} (hb : Midst s0 b)
    (hT : (s0 sSlowTracking).base ≤ 1 / 1000) {m : Motion K} {B : Reading K} (hm : ReportsPen e m B) (hd : m.dtime ≤ 5)
    {surf : σ × List (Dab.Args K)} {r : Bool × Brush K R × (σ × List (Dab.Args K))}
    (h : strokeTo (recordDabs e) fuel b surf m = .ok r) : Midst s0 r.2.1 ∧ SameReading r.2.1.st.reading B ∧
      ((¬ TouchesAfterPause b.st.reading B m.dtime ∧ ∃ new, r.2.2.2 = surf.2 ++ new ∧
        DabsOnWay e s0 b.st.reading B m.viewzoom m.viewrotation new) ∨
      (TouchesAfterPause b.st.reading B m.dtime ∧ ∃ l1 l2, r.2.2.2 = surf.2 ++ (l1 ++ l2) ∧
        DabsOnWay e s0 b.st.reading (paused e B) m.viewzoom m.viewrotation l1 ∧
        DabsOnWay e s0 (paused e B) B m.viewzoom m.viewrotation l2)) := by
  have kp := strokeTo_placid hb.placid h
  rw [hb.settings] at kp
  refine ⟨kp, ?_⟩
  obtain ⟨ev, he, hc⟩ := strokeTo_cases h
  obtain ⟨e1, e2, e3, e4⟩ := sanitise_reports hm.recorded he
  have pos := sanitise_pressure he
  have h5 : ev.dtime ≤ 5 := by
    rw [e4]
    split_ifs
    · norm_num
    · exact hd
  have hx : ev.x = B.x := by rw [← e1]; rfl
  have hy : ev.y = B.y := by rw [← e1]; rfl
  have hw : Workaround b ev ↔ TouchesAfterPause b.st.reading B m.dtime := by
    unfold Workaround TouchesAfterPause
    rw [show ev.pressure = B.pressure by rw [← e1]; rfl, e4]
    have : (¬ (1 / 10000 : K) > 1 / 10) := by norm_num
    constructor
    · rintro ⟨q1, q2⟩
      split_ifs at q1
      · exact absurd q1 this
      · exact ⟨q1, q2⟩
    · rintro ⟨q1, q2⟩
      have : ¬ m.dtime ≤ 0 := by
        have : (0 : K) < 1 / 10 := by norm_num
        linarith
      rw [if_neg this]
      exact ⟨q1, q2⟩
  rw [← hw]
  rcases hc with ⟨w, h⟩ | ⟨w, inner, r1, hi, h1, h⟩
  · obtain ⟨-, k2, new, k3, k4⟩ := strokeEvent_onWay hb.placid.pending hb.still hb.placid.pressure pos.1 pos.2.le h5 h
    rw [followed_at_once e (by rw [hb.settings]; exact hT), followed_at_once e (by rw [hb.settings]; exact hT), e1] at k2 k4
    rw [hb.settings, e2, e3] at k4
    exact ⟨k2.arrived, .inl ⟨w, new, k3, k4⟩⟩
  · have pi := sanitise_pressure hi
    have di : inner.dtime ≤ 5 := by
      have : inner.dtime = ev.dtime - 1 / 10000 := by
        have w1 : 1 / 10 < ev.dtime := w.1
        refine (sanitise_moved (m := workaroundMotion ev) (X := ev.x) (Y := ev.y) (by rw [hx, hy]; exact hm.canvas) ⟨rfl, rfl⟩ ?_ hi).2.2.1
        show 0 < ev.dtime - 1 / 10000
        have : (1 : K) / 10000 < 1 / 10 := by norm_num
        linarith
      have h0 : (0 : K) < 1 / 10000 := by norm_num
      rw [this]
      linarith
    obtain ⟨i1, i2, i3⟩ := sanitise_paused (by rw [hx, hy]; exact hm.canvas) hi
    rw [e1] at i1
    obtain ⟨k1, k2, l1, k3, k4⟩ := strokeEvent_onWay hb.placid.pending hb.still hb.placid.pressure pi.1 pi.2.le di h1
    rw [followed_at_once e (by rw [hb.settings]; exact hT), followed_at_once e (by rw [hb.settings]; exact hT), i1] at k2 k4
    rw [hb.settings, i2, i3, e2, e3] at k4
    have kb := strokeEvent_placid hb.placid pi.1 pi.2.le h1
    have s1 : r1.2.1.settings = s0 := kb.settings.trans hb.settings
    obtain ⟨-, j2, l2, j3, j4⟩ := strokeEvent_onWay (ev := { ev with dtime := 1 / 10000 }) kb.placid.pending kb.still
      kb.placid.pressure pos.1 (by show (0 : K) ≤ 1 / 10000; norm_num) (by show (1 / 10000 : K) ≤ 5; norm_num) h
    rw [followed_at_once e (by rw [s1]; exact hT), followed_at_once e (by rw [s1]; exact hT)] at j2 j4
    have e1' : Event.pulls { ev with dtime := 1 / 10000 } ev.x ev.y = B := e1
    have e2' : Event.viewzoom { ev with dtime := 1 / 10000 } = m.viewzoom := e2
    have e3' : Event.viewrotation { ev with dtime := 1 / 10000 } = m.viewrotation := e3
    dsimp only at j2 j4 e1'
    rw [e1'] at j2 j4
    rw [s1, e2, e3] at j4
    exact ⟨j2.arrived, .inr ⟨w, l1, l2, by rw [j3, k3, List.append_assoc], k4, j4.turns k2.arrived⟩⟩

/-! ## C104 -/

/-- **C104**. Two events in a row, after any others: the dabs that the second one paints are on the way from the first to the second,
one after the other, and each reads the pressure, the tilt and the rotation at its part of the way. -/
theorem dabs_read_the_pen {e : Env K R σ} {fuel : Nat} (ms : List (Motion K)) {m1 m2 : Motion K} {A B : Reading K}
    (h1 : ReportsPen e m1 A) (d1 : m1.dtime ≤ 5) (h2 : ReportsPen e m2 B) (d2 : m2.dtime ≤ 5) (hp : ¬ TouchesAfterPause A B m2.dtime)
    {b : Brush K R} (hb : Placid b) (h0 : b.resetRequested = false ∨ ms ≠ []) (hT : (b.settings sSlowTracking).base ≤ 1 / 1000)
    {surf : σ × List (Dab.Args K)} {r1 : Brush K R × (σ × List (Dab.Args K))}
    (hs1 : strokes (recordDabs e) fuel b surf (ms ++ [m1]) = .ok r1) {r2 : Bool × Brush K R × (σ × List (Dab.Args K))}
    (hs2 : strokeTo (recordDabs e) fuel r1.1 r1.2 m2 = .ok r2) :
    ∃ new, r2.2.2.2 = r1.2.2 ++ new ∧ DabsOnWay e b.settings A B m2.viewzoom m2.viewrotation new := by
  obtain ⟨b', surf', r', k1, k2, rfl⟩ := strokes_then ms hb h0 hs1
  obtain ⟨j1, j2, -⟩ := strokeTo_reads k1 hT h1 d1 k2
  obtain ⟨-, -, ⟨-, new, q1, q2⟩ | ⟨q, -⟩⟩ := strokeTo_reads j1 hT h2 d2 hs2
  · exact ⟨new, q1, q2.turns j2⟩
  · refine absurd ⟨q.1, q.2.1, ?_⟩ hp
    rw [← j2.pressure]
    exact q.2.2

/-- **C104**. The pen touches the canvas after a pause: the dabs of the pause read a pen without pressure that moves over to where it
will touch, and the others are painted where it touches. -/
theorem dabs_of_a_pause {e : Env K R σ} {fuel : Nat} (ms : List (Motion K)) {m1 m2 : Motion K} {A B : Reading K}
    (h1 : ReportsPen e m1 A) (d1 : m1.dtime ≤ 5) (h2 : ReportsPen e m2 B) (d2 : m2.dtime ≤ 5) (hp : TouchesAfterPause A B m2.dtime)
    {b : Brush K R} (hb : Placid b) (h0 : b.resetRequested = false ∨ ms ≠ []) (hT : (b.settings sSlowTracking).base ≤ 1 / 1000)
    {surf : σ × List (Dab.Args K)} {r1 : Brush K R × (σ × List (Dab.Args K))}
    (hs1 : strokes (recordDabs e) fuel b surf (ms ++ [m1]) = .ok r1) {r2 : Bool × Brush K R × (σ × List (Dab.Args K))}
    (hs2 : strokeTo (recordDabs e) fuel r1.1 r1.2 m2 = .ok r2) :
    ∃ l1 l2, r2.2.2.2 = r1.2.2 ++ (l1 ++ l2) ∧ DabsOnWay e b.settings A (paused e B) m2.viewzoom m2.viewrotation l1 ∧
      DabsOnWay e b.settings (paused e B) B m2.viewzoom m2.viewrotation l2 ∧
      (∀ a ∈ l1, ∃ i, i iPressure = 0 ∧ DabShape e b.settings i a) ∧ (OnTheSpot b.settings → ∀ a ∈ l2, a.x = B.x ∧ a.y = B.y) := by
  obtain ⟨b', surf', r', k1, k2, rfl⟩ := strokes_then ms hb h0 hs1
  obtain ⟨j1, j2, -⟩ := strokeTo_reads k1 hT h1 d1 k2
  obtain ⟨-, -, ⟨q, -⟩ | ⟨-, l1, l2, q1, q2, q3⟩⟩ := strokeTo_reads j1 hT h2 d2 hs2
  · refine absurd ⟨hp.1, hp.2.1, ?_⟩ q
    rw [j2.pressure]
    exact hp.2.2
  · refine ⟨l1, l2, q1, q2.turns j2, q3, fun a ha => ?_, fun ho a ha => ?_⟩
    · obtain ⟨ts, f, -, -⟩ := q2.turns j2
      obtain ⟨t, -, i, g1, g2, -⟩ := forall₂_right f ha
      refine ⟨i, ?_, g2⟩
      rw [g1.pressure, hp.2.2]
      show part t 0 0 * _ = 0
      unfold part
      ring
    · obtain ⟨ts, f, -, -⟩ := q3
      obtain ⟨t, -, i, -, -, g⟩ := forall₂_right f ha
      obtain ⟨g1, g2⟩ := g ho
      rw [g1, g2]
      show part t B.x B.x = _ ∧ part t B.y B.y = _
      unfold part
      constructor <;> ring

/-- **C104** (against the documentation of the inputs "Declination/Tilt X" and "Y": "0 when it's perpendicular to tablet"). While the
pen is upright all the dabs read 90. -/
theorem upright_pen_reads_ninety {e : Env K R σ} {fuel : Nat} (ms : List (Motion K)) {m1 m2 : Motion K} {A B : Reading K}
    (h1 : ReportsPen e m1 A) (d1 : m1.dtime ≤ 5) (u1 : m1.xtilt = .fin 0 ∧ m1.ytilt = .fin 0)
    (h2 : ReportsPen e m2 B) (d2 : m2.dtime ≤ 5) (u2 : m2.xtilt = .fin 0 ∧ m2.ytilt = .fin 0) (hp : ¬ TouchesAfterPause A B m2.dtime)
    {b : Brush K R} (hb : Placid b) (h0 : b.resetRequested = false ∨ ms ≠ []) (hT : (b.settings sSlowTracking).base ≤ 1 / 1000)
    {surf : σ × List (Dab.Args K)} {r1 : Brush K R × (σ × List (Dab.Args K))}
    (hs1 : strokes (recordDabs e) fuel b surf (ms ++ [m1]) = .ok r1) {r2 : Bool × Brush K R × (σ × List (Dab.Args K))}
    (hs2 : strokeTo (recordDabs e) fuel r1.1 r1.2 m2 = .ok r2) :
    ∃ new, r2.2.2.2 = r1.2.2 ++ new ∧
      ∀ a ∈ new, ∃ i, i iTiltDeclinationx = 90 ∧ i iTiltDeclinationy = 90 ∧ DabShape e b.settings i a := by
  obtain ⟨new, k1, ts, f, -, -⟩ := dabs_read_the_pen ms h1 d1 h2 d2 hp hb h0 hT hs1 hs2
  refine ⟨new, k1, fun a ha => ?_⟩
  obtain ⟨t, -, i, g1, g2, -⟩ := forall₂_right f ha
  obtain ⟨-, -, a1, a2⟩ := h1.upright u1.1 u1.2
  obtain ⟨-, -, b1, b2⟩ := h2.upright u2.1 u2.2
  refine ⟨i, ?_, ?_, g2⟩
  · rw [g1.declinationX, a1, b1]; unfold part; ring
  · rw [g1.declinationY, a2, b2]; unfold part; ring

/-- The zoom can be read with the logarithm of the real numbers. -/
example {R σ : Type} (next gauss : R → ℝ × R) (draw : σ → Dab.Args ℝ → Bool × σ) (getColor : σ → Int → Int → ℝ → ℝ → Color.Rgba ℝ × σ)
    {zoom : ℝ} (hz : 0 < zoom) (r : ℝ) : (realEnv next gauss draw getColor).log ((realEnv next gauss draw getColor).exp r / zoom) =
      r - (realEnv next gauss draw getColor).log zoom := by
  show Real.log (Real.exp r / zoom) = r - Real.log zoom
  rw [Real.log_div (Real.exp_ne_zero r) hz.ne', Real.log_exp]

end

namespace Demo

/-- A curve by which the angle of the dabs shows the input `k`. -/
def showing (k : Nat) : Mapping ℚ where
  base := 0
  inputs := 18
  pts i := if i = k then ⟨fun j => if j = 0 then 0 else 90, fun j => if j = 0 then 0 else 90, 2⟩ else ⟨fun _ => 0, fun _ => 0, 0⟩
  used := 1

/-- A brush with elongated dabs that show the input `k`. -/
def gaugeOf (k : Nat) : Brush ℚ Nat :=
  let b := set (set (set brush sEllipticalDabRatio 3) sSpeed1Slowness 0) sSpeed2Slowness 0
  { b with settings := fun i => if i = sEllipticalDabAngle then showing k else b.settings i, resetRequested := false }

/-- The pen on the x axis, leaning by `xt` along it, with pressure `p`, after the time `t`. -/
def leaning (x xt p t : ℚ) : Motion ℚ := ⟨.fin x, .fin 0, p, .fin xt, .fin 0, t, 1, 0, 0, false⟩

/-- What it reads. -/
def leaningReading (x xt p : ℚ) : Reading ℚ :=
  if xt = 0 then ⟨x, 0, p, 0, 90, 90, 90, 0⟩ else ⟨x, 0, p, compass.atan2 (-xt) 0, 90 - 60 * hypot compass xt 0, 60 * xt, 0, 0⟩

theorem leaning_reports {x xt p t : ℚ} (hx : -10 ^ 8 < x ∧ x < 10 ^ 8) (hp : 0 ≤ p) (ht : -1 ≤ xt ∧ xt ≤ 1) :
    ReportsPen compass (leaning x xt p t) (leaningReading x xt p) := by
  unfold leaningReading
  split_ifs with h
  · refine ⟨⟨rfl, rfl⟩, ⟨hx.1, hx.2, by norm_num, by norm_num⟩, (max_eq_left hp).symm, fun _ _ => ⟨rfl, rfl, rfl, rfl⟩, fun q => ?_,
      (mul_zero _).symm⟩
    exact absurd ⟨congrArg Flt.fin h, rfl⟩ q
  · exact ⟨⟨rfl, rfl⟩, ⟨hx.1, hx.2, by norm_num, by norm_num⟩, (max_eq_left hp).symm, fun q _ => absurd (Flt.fin.inj q) h,
      fun _ => ⟨xt, 0, rfl, rfl, ht.1, ht.2, by norm_num, by norm_num, rfl, rfl, rfl, (mul_zero _).symm⟩, (mul_zero _).symm⟩

theorem gaugeOf_placid (k : Nat) : Placid (gaugeOf k) ∧ (gaugeOf k).resetRequested = false ∧
    ((gaugeOf k).settings sSlowTracking).base ≤ 1 / 1000 := by
  refine ⟨⟨⟨?_, ?_⟩, ?_, ?_, ?_⟩, rfl, ?_⟩
  · exact le_refl (0 : ℚ)
  · exact zero_lt_one
  · rfl
  · show (0 : ℚ) ≤ _; norm_num
  · exact le_refl (0 : ℚ)
  · show (0 : ℚ) ≤ _; norm_num

/-- While the pen leans over, the dabs lean over. -/
example : look (fun r => r.2.map fun a => (a.x, a.angle + 180)) (strokes compass 100 (gaugeOf iTiltDeclinationx) []
    [leaning 1 (1 / 60) (1 / 2) (1 / 20), leaning 2 (1 / 60) (1 / 2) (1 / 20), leaning 4 (1 / 2) (1 / 2) (1 / 20)]) =
    some [(3 / 2, 1), (2, 1), (5 / 2, 33 / 4), (3, 31 / 2), (7 / 2, 91 / 4), (4, 30)] := by decide +kernel

/-- The hypotheses hold for it. -/
example {fuel : Nat} {r1 : Brush ℚ Nat × (List (Dab.Args ℚ) × List (Dab.Args ℚ))}
    {r2 : Bool × Brush ℚ Nat × (List (Dab.Args ℚ) × List (Dab.Args ℚ))}
    (h1 : strokes (recordDabs compass) fuel (gaugeOf iTiltDeclinationx) ([], [])
      ([leaning 1 (1 / 60) (1 / 2) (1 / 20)] ++ [leaning 2 (1 / 60) (1 / 2) (1 / 20)]) = .ok r1)
    (h2 : strokeTo (recordDabs compass) fuel r1.1 r1.2 (leaning 4 (1 / 2) (1 / 2) (1 / 20)) = .ok r2) :
    ∃ new, r2.2.2.2 = r1.2.2 ++ new ∧ DabsOnWay compass (gaugeOf iTiltDeclinationx).settings (leaningReading 2 (1 / 60) (1 / 2))
      (leaningReading 4 (1 / 2) (1 / 2)) 1 0 new := by
  obtain ⟨g1, g2, g3⟩ := gaugeOf_placid iTiltDeclinationx
  exact dabs_read_the_pen _ (leaning_reports (by norm_num) (by norm_num) (by norm_num)) (by show (1 / 20 : ℚ) ≤ 5; norm_num)
    (leaning_reports (by norm_num) (by norm_num) (by norm_num)) (by show (1 / 20 : ℚ) ≤ 5; norm_num)
    (by rintro ⟨q, -⟩; revert q; show ¬ (1 / 10 : ℚ) < 1 / 20; norm_num) g1 (.inl g2) g3 h1 h2

/-- An upright pen; the angles are the readings less 180. -/
example : look (fun r => r.2.map fun a => (a.x, a.angle + 180)) (strokes compass 100 (gaugeOf iTiltDeclinationx) []
    [leaning 1 0 (1 / 2) (1 / 20), leaning 2 0 (1 / 2) (1 / 20), leaning 4 0 (1 / 2) (1 / 20)]) =
    some [(3 / 2, 90), (2, 90), (5 / 2, 90), (3, 90), (7 / 2, 90), (4, 90)] := by decide +kernel

/-- **C104** (against the property). The pen is upright all the time and touches the canvas after a pause: the dabs of the pause read a
pen that leans over more and more. -/
theorem pause_tilts_the_pen :
    look (fun r => r.2.map fun a => (a.x, a.angle + 180)) (strokes compass 100 (gaugeOf iTiltDeclination) []
      [leaning 1 0 0 (1 / 20), leaning 2 0 0 (1 / 20), leaning 4 0 (1 / 2) (1 / 5)]) =
      some [(3 / 2, 90), (2, 90), (5 / 2, 75), (3, 60), (7 / 2, 45), (4, 30)] := by decide +kernel

end Demo

end Verif.Engine
