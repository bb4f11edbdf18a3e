import Verif.Props.C93_Rest

/-!
# C95: the speed inputs follow the speed of the pen on the screen, whatever the number of dabs
-/

namespace Verif.Engine
open Verif.Map

variable {K R σ : Type} [Field K] [LinearOrder K] [IsStrictOrderedRing K] [FloorRing K]

/-! ## Specification -/

/-- The exponential turns sums into products. -/
def ExpLaw (e : Env K R σ) : Prop := ∀ a b, e.exp (a + b) = e.exp a * e.exp b

/-- What is left of a difference after the time `t`, with slowness `T`: nothing without slowness. -/
def leftOver (e : Env K R σ) (T t : K) : K := if T ≤ 1 / 1000 then 0 else e.exp (-t / T)

/-- A reading that was `s`, after it has followed `v` for the time `t`. -/
def followed (e : Env K R σ) (T t s v : K) : K := v + (s - v) * leftOver e T t

/-- Velocity on the screen of a movement over the distance `d` on the canvas. -/
def onScreen (d t zoom : K) : K := d / t * zoom

/-- The slowness settings are constant. -/
structure Slowness (s : Load.Brush K) (T1 T2 w : K) : Prop where
  speed1 : ∀ i, calculate (s sSpeed1Slowness) i = T1
  speed2 : ∀ i, calculate (s sSpeed2Slowness) i = T2
  offset : ∀ i, calculate (s sOffsetBySpeedSlowness) i = w

/-- The slowness of the velocity for the offset by speed. -/
def offsetSlowness (e : Env K R σ) (w : K) : K := max (2 / 1000) (e.exp (w / 100) - 1)

/-- The readings after the time `t` at the velocity `(vx, vy)`. -/
structure Readings (e : Env K R σ) (T1 T2 w t vx vy : K) (st st' : State K) : Prop where
  speed1 : st'.normSpeed1Slow = followed e T1 t st.normSpeed1Slow (hypot e vx vy)
  speed2 : st'.normSpeed2Slow = followed e T2 t st.normSpeed2Slow (hypot e vx vy)
  velocityX : st'.normDxSlow = followed e (offsetSlowness e w) t st.normDxSlow vx
  velocityY : st'.normDySlow = followed e (offsetSlowness e w) t st.normDySlow vy

/-- No slow tracking and no tracking noise, and no pending reset. -/
structure Direct (b : Brush K R) : Prop where
  slow : (b.settings sSlowTracking).base ≤ 1 / 1000
  noise : (b.settings sTrackingNoise).base = 0
  skip : b.skip ≤ 1 / 1000
  reset : b.resetRequested = false

/-- A movement of the pen, from `(x, y)` on, in events up to a tenth of a second apart, with the speed `v` on the screen. -/
def AtSpeed (e : Env K R σ) (v : K) : K → K → List (Motion K) → Prop
  | _, _, [] => True
  | x, y, m :: ms => ∃ X Y, RestsAt X Y m ∧ OnCanvas X Y ∧ 0 < m.dtime ∧ m.dtime ≤ 1 / 10 ∧
    hypot e (onScreen (X - x) m.dtime m.viewzoom) (onScreen (Y - y) m.dtime m.viewzoom) = v ∧ AtSpeed e v X Y ms

/-- The event starts with a dab due before `(x, y)`, and when it has ended nothing is left of it for the next dab: it ends
exactly on a dab. -/
def LandsOnDab (e : Env K R σ) (b : Brush K R) (x y t : K) (b' : Brush K R) : Prop :=
  1 ≤ b.st.partialDabs + (countDabs e b x y t).1 ∧ b'.st.partialDabs = 0

/-- No event of the movement ends exactly on a dab. -/
def BetweenDabs (e : Env K R σ) (fuel : Nat) : Brush K R → σ → List (Motion K) → Prop
  | _, _, [] => True
  | b, surf, m :: ms => ∀ X Y r, RestsAt X Y m → strokeTo e fuel b surf m = .ok r →
    ¬ LandsOnDab e b X Y m.dtime r.2.1 ∧ BetweenDabs e fuel r.2.1 r.2.2 ms

/-! ## Proof -/

theorem leftOver_add {e : Env K R σ} (he : ExpLaw e) (T a b : K) : leftOver e T (a + b) = leftOver e T a * leftOver e T b := by
  unfold leftOver
  split_ifs
  · rw [zero_mul]
  · rw [← he]; congr 1; ring

theorem followed_again {e : Env K R σ} (he : ExpLaw e) (T a b s v : K) :
    followed e T b (followed e T a s v) v = followed e T (a + b) s v := by
  unfold followed
  rw [leftOver_add he]; ring

theorem Readings.trans {e : Env K R σ} (he : ExpLaw e) {T1 T2 w a b vx vy : K} {s1 s2 s3 : State K}
    (h1 : Readings e T1 T2 w a vx vy s1 s2) (h2 : Readings e T1 T2 w b vx vy s2 s3) :
    Readings e T1 T2 w (a + b) vx vy s1 s3 :=
  ⟨by rw [h2.1, h1.1, followed_again he], by rw [h2.2, h1.2, followed_again he],
    by rw [h2.3, h1.3, followed_again he], by rw [h2.4, h1.4, followed_again he]⟩

theorem approach_followed (e : Env K R σ) (T t s v : K) : approach s v (1 - expDecay e T t) = followed e T t s v := by
  unfold approach followed leftOver expDecay
  ring

theorem update_readings {e : Env K R σ} {T1 T2 w : K} {b b' : Brush K R} (hs : Slowness b.settings T1 T2 w) {s : Step K}
    (h : update e b s = .ok b') :
    Readings e T1 T2 w (stepTime s.dtime) (onScreen s.dx (stepTime s.dtime) s.viewzoom)
      (onScreen s.dy (stepTime s.dtime) s.viewzoom) b.st b'.st := by
  have hw : ∀ c : K, (if c < 2 / 1000 then 2 / 1000 else c) = max (2 / 1000) c := by
    intro c
    rw [max_def]; split_ifs <;> first | rfl | (exfalso; linarith) | skip
  rw [update_eq h]
  refine ⟨?_, ?_, ?_, ?_⟩
  · rw [← approach_followed, ← hs.speed1]; rfl
  · rw [← approach_followed, ← hs.speed2]; rfl
  · have := hw (e.exp (w * (1 / 100)) - 1)
    rw [← approach_followed]
    unfold offsetSlowness
    rw [show w / 100 = w * (1 / 100) by ring, ← this, ← hs.offset]
    rfl
  · have := hw (e.exp (w * (1 / 100)) - 1)
    rw [← approach_followed]
    unfold offsetSlowness
    rw [show w / 100 = w * (1 / 100) by ring, ← this, ← hs.offset]
    rfl

/-- The brush on its way from `(x0, y0)` to `(x, y)`, with `left` of the time `t` to go. -/
structure OnTheWay (e : Env K R σ) (T1 T2 w x0 y0 x y t zoom D : K) (st0 : State K) (settings : Load.Brush K) (l : Loop K R σ) :
    Prop where
  settings : l.b.settings = settings
  moved : 0 ≤ l.moved ∧ l.moved < 1
  left : 0 ≤ l.dtimeLeft ∧ l.dtimeLeft ≤ t
  done : l.dtimeLeft = 0 → l.moved = 0 ∧ l.todo = 0
  first : l.dtimeLeft = t → l.moved + l.todo = D
  due : l.dtimeLeft ≠ t → 1 ≤ D
  px : x - l.b.st.x = (x - x0) * (l.dtimeLeft / t)
  py : y - l.b.st.y = (y - y0) * (l.dtimeLeft / t)
  readings : (l.dtimeLeft = t ∧ l.b.st.normSpeed1Slow = st0.normSpeed1Slow ∧ l.b.st.normSpeed2Slow = st0.normSpeed2Slow ∧
      l.b.st.normDxSlow = st0.normDxSlow ∧ l.b.st.normDySlow = st0.normDySlow) ∨
    Readings e T1 T2 w (t - l.dtimeLeft) (onScreen (x - x0) t zoom) (onScreen (y - y0) t zoom) st0 l.b.st

theorem Readings.from {e : Env K R σ} (he : ExpLaw e) {T1 T2 w a b vx vy t left : K} {s1 s2 s3 : State K}
    (h1 : (left = t ∧ s2.normSpeed1Slow = s1.normSpeed1Slow ∧ s2.normSpeed2Slow = s1.normSpeed2Slow ∧
      s2.normDxSlow = s1.normDxSlow ∧ s2.normDySlow = s1.normDySlow) ∨ Readings e T1 T2 w (t - left) vx vy s1 s2)
    (h2 : Readings e T1 T2 w b vx vy s2 s3) (hab : a = t - left + b) : Readings e T1 T2 w a vx vy s1 s3 := by
  rcases h1 with ⟨q, q1, q2, q3, q4⟩ | h1
  · rw [hab, q, sub_self, zero_add]
    exact ⟨by rw [h2.1, q1], by rw [h2.2, q2], by rw [h2.3, q3], by rw [h2.4, q4]⟩
  · rw [hab]
    exact h1.trans he h2

theorem steady_velocity {x x0 px t left frac zoom : K} (ht : t ≠ 0) (hl : left ≠ 0) (hf : frac ≠ 0) (hp : x - px = (x - x0) * (left / t)) :
    onScreen (frac * (x - px)) (frac * left) zoom = onScreen (x - x0) t zoom := by
  unfold onScreen
  rw [hp]
  field_simp

theorem stepTime_positive {t : K} (h : 0 < t) : stepTime t = t := by
  unfold stepTime
  rw [if_neg (not_lt.mpr h.le), if_neg h.ne']

theorem onTheWay_step {e : Env K R σ} (he : ExpLaw e) (h0 : e.sqrt 0 = 0) {T1 T2 w x0 y0 x y t D : K} (ht : 0 < t) {st0 : State K}
    {settings : Load.Brush K} (hs : Slowness settings T1 T2 w) {ev : Event K} {l l' : Loop K R σ} (h1 : l.moved + l.todo ≥ 1)
    (h : dabStep e ev x y l = .ok l') (hw : OnTheWay e T1 T2 w x0 y0 x y t ev.viewzoom D st0 settings l) :
    OnTheWay e T1 T2 w x0 y0 x y t ev.viewzoom D st0 settings l' := by
  obtain ⟨h2, b1, p, b2, hu, hd, hb2, e1⟩ := dabStep_eq h
  have f := drawDab_frame hd
  have hl0 : l.dtimeLeft ≠ 0 := by
    intro q
    obtain ⟨q1, q2⟩ := hw.done q
    rw [q1, q2] at h1
    norm_num at h1
  have hl : 0 < l.dtimeLeft := lt_of_le_of_ne hw.left.1 (Ne.symm hl0)
  obtain ⟨d, hd0⟩ : ∃ d, d = (if l.moved > 0 then 1 - l.moved else 1) := ⟨_, rfl⟩
  rw [← hd0] at hu e1
  have hm := hw.moved
  have d1 : 0 < d := by rw [hd0]; split_ifs <;> linarith
  have d2 : d ≤ l.todo := by
    rw [hd0]; split_ifs
    · linarith
    · linarith
  have td : 0 < l.todo := lt_of_lt_of_le d1 d2
  obtain ⟨fr, hfr⟩ : ∃ fr, fr = d / l.todo := ⟨_, rfl⟩
  rw [← hfr] at hu e1
  have f1 : 0 < fr := by rw [hfr]; exact div_pos d1 td
  have f2 : fr ≤ 1 := by rw [hfr]; exact (div_le_one td).mpr d2
  have hr := update_readings (by rw [hw.settings]; exact hs) hu
  have ft : (stepTo l.b.st ev x y d fr l.dtimeLeft).dtime = fr * l.dtimeLeft := rfl
  have fx : (stepTo l.b.st ev x y d fr l.dtimeLeft).dx = fr * (x - l.b.st.x) := rfl
  have fy : (stepTo l.b.st ev x y d fr l.dtimeLeft).dy = fr * (y - l.b.st.y) := rfl
  have fz : (stepTo l.b.st ev x y d fr l.dtimeLeft).viewzoom = ev.viewzoom := rfl
  rw [ft, fx, fy, fz, stepTime_positive (mul_pos f1 hl), steady_velocity ht.ne' hl0 f1.ne' hw.px,
    steady_velocity ht.ne' hl0 f1.ne' hw.py] at hr
  have hb : l'.b.st = { b2.st with actualRadius := l'.b.st.actualRadius } ∧ l'.b.settings = b2.settings := by
    rw [e1]; dsimp only; rw [countDabs_st]; exact ⟨rfl, rfl⟩
  have hb1 : b2.st = { b1.st with flip := b1.st.flip * -1, smudge := p.2.1.st.smudge } := by
    rw [hb2]; exact f.st
  have hx : b1.st.x = l.b.st.x + fr * (x - l.b.st.x) := by rw [update_eq hu]; rfl
  have hy : b1.st.y = l.b.st.y + fr * (y - l.b.st.y) := by rw [update_eq hu]; rfl
  have ex : l'.b.st.x = l.b.st.x + fr * (x - l.b.st.x) := by rw [hb.1, hb1]; exact hx
  have ey : l'.b.st.y = l.b.st.y + fr * (y - l.b.st.y) := by rw [hb.1, hb1]; exact hy
  have el : l'.dtimeLeft = l.dtimeLeft - fr * l.dtimeLeft := by rw [e1]
  have em : l'.moved = if l.moved > 0 then 0 else l.moved := by rw [e1]
  have hm0 : l'.moved = 0 := by
    rw [em]; split_ifs with q
    · rfl
    · exact le_antisymm (not_lt.mp q) hm.1
  have px' : x - l'.b.st.x = (x - x0) * (l'.dtimeLeft / t) := by
    rw [ex, el]
    have : x - (l.b.st.x + fr * (x - l.b.st.x)) = (1 - fr) * (x - l.b.st.x) := by ring
    rw [this, hw.px]; ring
  have py' : y - l'.b.st.y = (y - y0) * (l'.dtimeLeft / t) := by
    rw [ey, el]
    have : y - (l.b.st.y + fr * (y - l.b.st.y)) = (1 - fr) * (y - l.b.st.y) := by ring
    rw [this, hw.py]; ring
  have hlt : l'.dtimeLeft < t := by
    rw [el]
    have := mul_pos f1 hl
    linarith [hw.left.2]
  have hdue : 1 ≤ D := by
    by_cases q : l.dtimeLeft = t
    · rw [← hw.first q]; exact h1
    · exact hw.due q
  refine ⟨?_, by rw [hm0]; exact ⟨le_refl _, one_pos⟩, ?_, ?_, fun q => absurd q hlt.ne, fun _ => hdue, px', py', .inr ?_⟩
  · rw [hb.2, hb2]; dsimp only; rw [f.settings]; dsimp only; rw [update_eq hu]; exact hw.settings
  · rw [el]
    have : fr * l.dtimeLeft ≤ l.dtimeLeft := mul_le_of_le_one_left hl.le f2
    have := mul_nonneg f1.le hl.le
    exact ⟨by linarith, by linarith [hw.left.2]⟩
  · intro q
    refine ⟨hm0, ?_⟩
    rw [q, zero_div, mul_zero] at px' py'
    have ec : l'.todo = (countDabs e b2 x y l'.dtimeLeft).1 := by rw [e1]
    have bx : b2.st.x = x := by
      have : l'.b.st.x = b2.st.x := by rw [hb.1]
      linarith
    have bY : b2.st.y = y := by
      have : l'.b.st.y = b2.st.y := by rw [hb.1]
      linarith
    rw [ec, countDabs_eq, bx, bY, q, sub_self, sub_self, ellipse_zero h0]
    simp
  · have r1 : Readings e T1 T2 w (fr * l.dtimeLeft) (onScreen (x - x0) t ev.viewzoom) (onScreen (y - y0) t ev.viewzoom) l.b.st
        l'.b.st := by
      have q1 : l'.b.st.normSpeed1Slow = b1.st.normSpeed1Slow := by rw [hb.1, hb1]
      have q2 : l'.b.st.normSpeed2Slow = b1.st.normSpeed2Slow := by rw [hb.1, hb1]
      have q3 : l'.b.st.normDxSlow = b1.st.normDxSlow := by rw [hb.1, hb1]
      have q4 : l'.b.st.normDySlow = b1.st.normDySlow := by rw [hb.1, hb1]
      exact ⟨q1.trans hr.1, q2.trans hr.2, q3.trans hr.3, q4.trans hr.4⟩
    exact Readings.from he hw.readings r1 (by rw [el]; ring)

/-- One movement. -/
theorem move_readings {e : Env K R σ} (he : ExpLaw e) (h0 : e.sqrt 0 = 0) {T1 T2 w x y t : K} (ht : 0 < t) {fuel : Nat}
    {b : Brush K R} (hs : Slowness b.settings T1 T2 w) (hp : PendingOk b) {surf : σ} {ev : Event K} {r : Bool × Brush K R × σ}
    (h : moveTo e fuel b surf ev x y t = .ok r) :
    Readings e T1 T2 w t (onScreen (x - b.st.x) t ev.viewzoom) (onScreen (y - b.st.y) t ev.viewzoom) b.st r.2.1.st ∨
      LandsOnDab e b x y t r.2.1 ∧ ∃ st, Readings e T1 T2 w t (onScreen (x - b.st.x) t ev.viewzoom)
        (onScreen (y - b.st.y) t ev.viewzoom) b.st st ∧ Readings e T1 T2 w (1 / 1000) 0 0 st r.2.1.st := by
  obtain ⟨l, b1, hl, hu, -, h2, -⟩ := moveTo_eq h
  have k := (dabLoop_induct (OnTheWay e T1 T2 w b.st.x b.st.y x y t ev.viewzoom (b.st.partialDabs + (countDabs e b x y t).1) b.st b.settings)
    (fun l l' h1 h hw => onTheWay_step he h0 ht hs h1 h hw) fuel _ _ hl ⟨by dsimp only; rw [countDabs_st], hp,
      ⟨ht.le, le_refl _⟩, fun q => absurd q ht.ne', fun _ => rfl, fun q => absurd rfl q, by dsimp only; rw [countDabs_st, div_self ht.ne', mul_one],
      by dsimp only; rw [countDabs_st, div_self ht.ne', mul_one],
      .inl ⟨rfl, by dsimp only; rw [countDabs_st], by dsimp only; rw [countDabs_st], by dsimp only; rw [countDabs_st],
        by dsimp only; rw [countDabs_st]⟩⟩).1
  have hr := update_readings (by rw [k.settings]; exact hs) hu
  have e1 : r.2.1.st = { b1.st with partialDabs := l.moved + l.todo } := by rw [h2, splitStroke_eq]
  have ft : (stepTo l.b.st ev x y l.todo 1 l.dtimeLeft).dtime = 1 * l.dtimeLeft := rfl
  have fx : (stepTo l.b.st ev x y l.todo 1 l.dtimeLeft).dx = 1 * (x - l.b.st.x) := rfl
  have fy : (stepTo l.b.st ev x y l.todo 1 l.dtimeLeft).dy = 1 * (y - l.b.st.y) := rfl
  have fz : (stepTo l.b.st ev x y l.todo 1 l.dtimeLeft).viewzoom = ev.viewzoom := rfl
  rw [ft, fx, fy, fz] at hr
  have q1 : r.2.1.st.normSpeed1Slow = b1.st.normSpeed1Slow := by rw [e1]
  have q2 : r.2.1.st.normSpeed2Slow = b1.st.normSpeed2Slow := by rw [e1]
  have q3 : r.2.1.st.normDxSlow = b1.st.normDxSlow := by rw [e1]
  have q4 : r.2.1.st.normDySlow = b1.st.normDySlow := by rw [e1]
  by_cases hl0 : l.dtimeLeft = 0
  · right
    obtain ⟨m0, t0⟩ := k.done hl0
    refine ⟨⟨k.due (by rw [hl0]; exact ht.ne), by rw [e1]; dsimp only; rw [m0, t0, add_zero]⟩, l.b.st, ?_, ?_⟩
    · have := k.readings
      rw [hl0, sub_zero] at this
      rcases this with ⟨q, -⟩ | this
      · exact absurd q.symm ht.ne'
      · exact this
    · have px := k.px
      have py := k.py
      rw [hl0, zero_div, mul_zero] at px py
      rw [px, py, hl0] at hr
      have s0 : stepTime (1 * (0 : K)) = 1 / 1000 := by unfold stepTime; simp
      rw [s0] at hr
      have z : onScreen (1 * (0 : K)) (1 / 1000) ev.viewzoom = 0 := by unfold onScreen; simp
      rw [z] at hr
      exact ⟨q1.trans hr.1, q2.trans hr.2, q3.trans hr.3, q4.trans hr.4⟩
  · left
    have hlp : 0 < l.dtimeLeft := lt_of_le_of_ne k.left.1 (Ne.symm hl0)
    rw [stepTime_positive (by rw [one_mul]; exact hlp), steady_velocity ht.ne' hl0 one_ne_zero k.px,
      steady_velocity ht.ne' hl0 one_ne_zero k.py] at hr
    have r1 : Readings e T1 T2 w (1 * l.dtimeLeft) (onScreen (x - b.st.x) t ev.viewzoom) (onScreen (y - b.st.y) t ev.viewzoom)
        l.b.st r.2.1.st := ⟨q1.trans hr.1, q2.trans hr.2, q3.trans hr.3, q4.trans hr.4⟩
    exact Readings.from he k.readings r1 (by ring)

theorem sanitise_moved {e : Env K R σ} {X Y : K} (hc : OnCanvas X Y) {m : Motion K} (hm : RestsAt X Y m) (ht : 0 < m.dtime) {ev : Event K}
    (h : sanitise e m = .ok ev) : ev.x = X ∧ ev.y = Y ∧ ev.dtime = m.dtime ∧ ev.viewzoom = m.viewzoom := by
  obtain ⟨c1, c2, c3, c4⟩ := hc
  have big : (10 : K) ^ 8 ≤ 10 ^ 10 := by norm_num
  have s : ∀ v : K, -10 ^ 8 < v → v < 10 ^ 8 → sane (.fin v) = some v := by
    intro v h1 h2
    show (if v > 10 ^ 10 ∨ v < -10 ^ 10 then none else some v) = some v
    rw [if_neg]
    rintro (q | q) <;> linarith
  unfold sanitise at h
  obtain ⟨t, -, h⟩ := bind_ok h
  rw [hm.1, hm.2, s X c1 c2, s Y c3 c4, if_neg (not_le.mpr ht)] at h
  dsimp only at h
  rw [if_pos ⟨c2, c4, c1, c3⟩] at h
  rw [← Except.ok.inj h]
  exact ⟨rfl, rfl, rfl, rfl⟩

/-! ## C95 -/

/-- **C95**. One event of at most a tenth of a second. Either the readings of the speed have followed the velocity of the pen on the
screen for the duration of the event, whatever the number of dabs; or the event ends exactly on a dab, and they have in addition
followed a pen at rest for a millisecond. The brush is at the pen and stays a `Direct` one. -/
theorem event_readings {e : Env K R σ} (he : ExpLaw e) (h0 : e.sqrt 0 = 0) {T1 T2 w X Y : K} {fuel : Nat} {b : Brush K R}
    (hs : Slowness b.settings T1 T2 w) (hd : Direct b) (hu : Underway b) {surf : σ} {m : Motion K} (hm : RestsAt X Y m)
    (hc : OnCanvas X Y) (ht : 0 < m.dtime) (ht' : m.dtime ≤ 1 / 10) {r : Bool × Brush K R × σ}
    (h : strokeTo e fuel b surf m = .ok r) :
    (Readings e T1 T2 w m.dtime (onScreen (X - b.st.x) m.dtime m.viewzoom) (onScreen (Y - b.st.y) m.dtime m.viewzoom) b.st r.2.1.st ∨
      LandsOnDab e b X Y m.dtime r.2.1 ∧ ∃ st, Readings e T1 T2 w m.dtime (onScreen (X - b.st.x) m.dtime m.viewzoom)
        (onScreen (Y - b.st.y) m.dtime m.viewzoom) b.st st ∧ Readings e T1 T2 w (1 / 1000) 0 0 st r.2.1.st) ∧
    r.2.1.st.x = X ∧ r.2.1.st.y = Y ∧ Direct r.2.1 ∧ r.2.1.settings = b.settings ∧ Underway r.2.1 := by
  have h' := h
  unfold strokeTo at h
  obtain ⟨ev, hev, h⟩ := bind_ok h
  obtain ⟨x1, y1, t1, z1⟩ := sanitise_moved hc hm ht hev
  obtain ⟨a1, a2, -⟩ := stroke_to_ends_at_target hev hd.slow hd.noise hd.skip h'
  rw [if_neg (by rw [t1]; intro q; exact absurd q.1 (not_lt.mpr ht'))] at h
  have sk : skipStage e b ev.x ev.y ev.dtime = (b, ev.dtime, false) := by
    unfold skipStage
    rw [if_neg (not_lt.mpr hd.skip)]
  have cu : cursor e b ev.x ev.y ev.dtime = (ev.x, ev.y, b) := by
    unfold cursor
    dsimp only
    have b1 : b.baseval sTrackingNoise = 0 := hd.noise
    rw [b1, if_neg (by simp)]
    unfold expDecay
    rw [if_pos (show b.baseval sSlowTracking ≤ 1 / 1000 from hd.slow)]
    unfold approach
    simp
  rcases strokeEvent_cases h with ⟨h1, -⟩ | ⟨-, h1, -⟩ | ⟨-, -, h2⟩
  · rw [sk] at h1; cases h1
  · rw [sk, hd.reset] at h1
    rcases h1 with h1 | h1
    · dsimp only at h1; rw [t1] at h1; linarith
    · cases h1
  · simp only [sk, cu] at h2
    rw [x1, y1, t1] at h2
    have k := move_readings he h0 ht hs hu.pending h2
    rw [z1] at k
    have ks : Direct r.2.1 ∧ r.2.1.settings = b.settings ∧ r.2.1.skippedTime = b.skippedTime := by
      obtain ⟨l, b1, hl, hup, -, h3, -⟩ := moveTo_eq h2
      have kl := dabLoop_induct (fun l : Loop K R σ => l.b.settings = b.settings ∧ l.b.skip = b.skip ∧
          l.b.resetRequested = b.resetRequested ∧ l.b.skippedTime = b.skippedTime) (by
        intro l l' _ hst hp
        obtain ⟨-, b1, p, b2, hu, hd, h2, e1⟩ := dabStep_eq hst
        have f := drawDab_frame hd
        rw [e1]
        simp only
        rw [countDabs_st, h2]
        simp only
        rw [f, update_eq hu]
        exact hp) fuel _ _ hl (by dsimp only; rw [countDabs_st]; exact ⟨rfl, rfl, rfl, rfl⟩)
      obtain ⟨⟨k1, k2, k3, k4⟩, -⟩ := kl
      rw [h3, splitStroke_eq]
      dsimp only
      rw [update_eq hup]
      dsimp only
      refine ⟨⟨?_, ?_, ?_, ?_⟩, k1, k4⟩
      · dsimp only; rw [k1]; exact hd.slow
      · dsimp only; rw [k1]; exact hd.noise
      · dsimp only; rw [k2]; exact hd.skip
      · dsimp only; rw [k3]; exact hd.reset
    refine ⟨k, a1.trans x1, a2.trans y1, ks.1, ks.2.1, strokeEvent_pending h hu.pending, ?_⟩
    unfold TimeOk
    rw [ks.2.2]
    exact hu.time

/-- **C95** (partial). A movement at a constant speed `v` on the screen, of any number of events and dabs, none of which end exactly on
a dab: the difference between the readings of the speed and `v` fades with the time that has passed and the slowness, and with
nothing else. -/
theorem speed_inputs_follow_partial {e : Env K R σ} (he : ExpLaw e) (h0 : e.sqrt 0 = 0) {T1 T2 w v : K} {fuel : Nat} :
    ∀ (ms : List (Motion K)) {b : Brush K R} {surf : σ}, ms ≠ [] → Slowness b.settings T1 T2 w → Direct b → Underway b →
    AtSpeed e v b.st.x b.st.y ms → BetweenDabs e fuel b surf ms → ∀ {r : Brush K R × σ}, strokes e fuel b surf ms = .ok r →
    r.1.st.normSpeed1Slow = followed e T1 (ms.map Motion.dtime).sum b.st.normSpeed1Slow v ∧
    r.1.st.normSpeed2Slow = followed e T2 (ms.map Motion.dtime).sum b.st.normSpeed2Slow v := by
  intro ms
  induction ms with
  | nil => intro b surf h; exact absurd rfl h
  | cons m ms ih =>
    intro b surf _ hs hd hu ha hb r h
    obtain ⟨X, Y, m1, m2, m3, m4, m5, m6⟩ := ha
    unfold strokes at h
    obtain ⟨r1, h1, h⟩ := bind_ok h
    obtain ⟨k1, k2, k3, k4, k5, k6⟩ := event_readings he h0 hs hd hu m1 m2 m3 m4 h1
    obtain ⟨q1, hb'⟩ := hb X Y r1 m1 h1
    have rd := k1.resolve_right fun q => q1 q.1
    have r1s := rd.speed1
    have r2s := rd.speed2
    rw [m5] at r1s r2s
    cases ms with
    | nil =>
      rw [show strokes e fuel r1.2.1 r1.2.2 [] = .ok r1.2 from rfl] at h
      rw [← Except.ok.inj h, List.map_singleton, List.sum_singleton]
      exact ⟨r1s, r2s⟩
    | cons m' ms =>
      obtain ⟨i1, i2⟩ := ih (by simp) (by rw [k5]; exact hs) k4 k6 (by rw [k2, k3]; exact m6) hb' h
      rw [i1, i2, r1s, r2s, followed_again he, followed_again he, List.map_cons, List.sum_cons]
      exact ⟨rfl, rfl⟩

/-! ### Examples -/

namespace Demo

/-- Replacements for the functions of the C library that satisfy the law. -/
def unitEnv : Env ℚ Nat (List (Dab.Args ℚ)) := { env with exp := fun _ => 1 }

example : ExpLaw unitEnv := fun _ _ => (one_mul 1).symm

example : unitEnv.sqrt 0 = 0 := by decide +kernel

theorem realEnv_exp {R σ : Type} (next gauss : R → ℝ × R) (draw : σ → Dab.Args ℝ → Bool × σ)
    (getColor : σ → Int → Int → ℝ → ℝ → Color.Rgba ℝ × σ) : ExpLaw (realEnv next gauss draw getColor) :=
  fun a b => Real.exp_add a b

/-- The default brush without slowness of the speed. -/
def gauge : Brush ℚ Nat := { set (set brush sSpeed1Slowness 0) sSpeed2Slowness 0 with resetRequested := false }

theorem gauge_slowness : Slowness gauge.settings 0 0 (gauge.settings sOffsetBySpeedSlowness).base :=
  ⟨fun _ => rfl, fun _ => rfl, fun _ => rfl⟩


example : Direct gauge := ⟨by decide +kernel, by decide +kernel, by decide +kernel, rfl⟩

example : Underway gauge := ⟨⟨le_refl _, zero_lt_one⟩, le_refl _⟩

/-- A walk at 25/2 pixels per second, in two events. -/
def walking : List (Motion ℚ) := [motion (5 / 8) 0 (1 / 2) (1 / 20), motion (15 / 8) 0 (1 / 2) (1 / 10)]

example : AtSpeed unitEnv (25 / 2) gauge.st.x gauge.st.y walking :=
  ⟨5 / 8, 0, ⟨rfl, rfl⟩, by unfold OnCanvas; norm_num, by decide +kernel, by decide +kernel, by decide +kernel,
    15 / 8, 0, ⟨rfl, rfl⟩, by unfold OnCanvas; norm_num, by decide +kernel, by decide +kernel, by decide +kernel, trivial⟩

/-- Two dabs were drawn in the second event; the readings are the speed. -/
example : look (fun r => (r.1.st.normSpeed1Slow, r.1.st.normSpeed2Slow, r.1.st.partialDabs, r.2.length))
    (strokes unitEnv 100 gauge [] walking) = some (25 / 2, 25 / 2, 1 / 2, 2) := by decide +kernel

example : BetweenDabs unitEnv 100 gauge [] walking := by
  intro X Y r hm h
  have eX : X = 5 / 8 := (Flt.fin.inj hm.1).symm
  have eY : Y = 0 := (Flt.fin.inj hm.2).symm
  refine ⟨?_, ?_⟩
  · rintro ⟨h1, -⟩
    rw [eX, eY] at h1
    revert h1
    decide +kernel
  · intro X Y r' _ h'
    refine ⟨?_, trivial⟩
    rintro ⟨-, q⟩
    have k : look (fun r => r.1.st.partialDabs) (strokes unitEnv 100 gauge [] walking) = some (1 / 2) := by decide +kernel
    have e1 : strokes unitEnv 100 gauge [] walking = .ok r'.2 := by
      unfold walking strokes
      rw [h]
      show strokes unitEnv 100 r.2.1 r.2.2 [_] = _
      unfold strokes
      rw [h']
      rfl
    rw [e1] at k
    have : r'.2.1.st.partialDabs = 1 / 2 := Option.some.inj k
    rw [q] at this
    norm_num at this

/-- The second event ends on the second dab. -/
def landing : List (Motion ℚ) := [motion (5 / 8) 0 (1 / 2) (1 / 20), motion (13 / 8) 0 (1 / 2) (2 / 25)]

example : AtSpeed unitEnv (25 / 2) gauge.st.x gauge.st.y landing :=
  ⟨5 / 8, 0, ⟨rfl, rfl⟩, by unfold OnCanvas; norm_num, by decide +kernel, by decide +kernel, by decide +kernel,
    13 / 8, 0, ⟨rfl, rfl⟩, by unfold OnCanvas; norm_num, by decide +kernel, by decide +kernel, by decide +kernel, trivial⟩

/-- Without slowness the speed is then read as 0, although the pen moves at 25/2 pixels per second. -/
theorem landing_reads_no_speed :
    look (fun r => (r.1.st.normSpeed1Slow, r.1.st.normSpeed2Slow, r.2.length)) (strokes unitEnv 100 gauge [] landing) =
      some (0, 0, 2) := by decide +kernel

end Demo

end Verif.Engine
