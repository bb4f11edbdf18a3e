import Verif.Props.C95_Speed

/-!
# C102: with slow tracking the brush trails behind the pen, and catches up with it in a time that depends on the setting alone
-/

namespace Verif.Engine
open Verif.Map

variable {K R σ : Type} [Field K] [LinearOrder K] [IsStrictOrderedRing K] [FloorRing K]

/-! ## Specification -/

/-- Slow tracking `T`, no tracking noise. -/
structure Tracks (T : K) (b : Brush K R) : Prop where
  slow : (b.settings sSlowTracking).base = T
  noise : (b.settings sTrackingNoise).base = 0
  skip : b.skip ≤ 1 / 1000

/-- The pen is at the place `(p.1, p.2.1)` a time `p.2.2` after the previous event. -/
structure PenAt (p : K × K × K) (m : Motion K) : Prop where
  place : RestsAt p.1 p.2.1 m
  canvas : OnCanvas p.1 p.2.1
  time : m.dtime = p.2.2
  later : 0 < p.2.2

/-- Where a brush at `q` is after it has trailed behind the pen along these places. -/
def trail (e : Env K R σ) (T : K) (q : K × K) (ps : List (K × K × K)) : K × K :=
  ps.foldl (fun q p => (followed e T (100 * p.2.2) q.1 p.1, followed e T (100 * p.2.2) q.2 p.2.1)) q

/-! ## Proof -/

theorem cursor_tracks {e : Env K R σ} {T : K} {b : Brush K R} (hb : Tracks T b) (x y dt : K) :
    cursor e b x y dt = (followed e T (100 * dt) b.st.x x, followed e T (100 * dt) b.st.y y, b) := by
  unfold cursor
  dsimp only
  have b1 : b.baseval sTrackingNoise = 0 := hb.noise
  have b2 : b.baseval sSlowTracking = T := hb.slow
  rw [b1, if_neg (by simp), b2, approach_followed, approach_followed]

theorem event_trails {e : Env K R σ} {T : K} {fuel : Nat} {b : Brush K R} (hb : Tracks T b) {surf : σ} {ev : Event K}
    (hp : 0 ≤ ev.pressure) {r : Bool × Brush K R × σ} (h : strokeEvent e fuel b surf ev = .ok r) :
    r.2.1.st.x = followed e T (100 * ev.dtime) b.st.x ev.x ∧ r.2.1.st.y = followed e T (100 * ev.dtime) b.st.y ev.y ∧
      Tracks T r.2.1 := by
  have sk : skipStage e b ev.x ev.y ev.dtime = (b, ev.dtime, false) := by
    unfold skipStage
    rw [if_neg (not_lt.mpr hb.skip)]
  rcases strokeEvent_cases h with ⟨h1, -⟩ | ⟨-, h1, b', h2, h⟩ | ⟨-, -, h⟩
  · rw [sk] at h1; cases h1
  · simp only [sk, cursor_tracks hb] at h2
    obtain ⟨bk, -, e1⟩ := startOver_eq h2
    rw [h, e1]
    exact ⟨rfl, rfl, hb.slow, hb.noise, by simp⟩
  · simp only [sk, cursor_tracks hb] at h
    have k := move_ends_at_target hp h
    refine ⟨k.1, k.2.1, ?_⟩
    obtain ⟨l, b1, hl, hu, -, h2, -⟩ := moveTo_eq h
    have ks := dabLoop_induct (fun l : Loop K R σ => l.b.settings = b.settings ∧ l.b.skip = b.skip) (by
      intro l l' _ hst hp
      obtain ⟨-, b1, p, b2, hu, hd, h2, e1⟩ := dabStep_eq hst
      have f := drawDab_frame hd
      rw [e1]
      simp only
      rw [countDabs_st, h2]
      simp only
      rw [f, update_eq hu]
      exact hp) _ _ _ hl (by simp only; rw [countDabs_st]; exact ⟨rfl, rfl⟩)
    rw [h2, splitStroke_eq]
    simp only
    rw [update_eq hu]
    refine ⟨?_, ?_, ?_⟩
    · dsimp only; rw [ks.1.1]; exact hb.slow
    · dsimp only; rw [ks.1.1]; exact hb.noise
    · dsimp only; rw [ks.1.2]; exact hb.skip

/-- One call. -/
theorem call_trails {e : Env K R σ} (he : ExpLaw e) {T : K} {fuel : Nat} {b : Brush K R} (hb : Tracks T b) {surf : σ} {m : Motion K}
    {p : K × K × K} (hm : PenAt p m) {r : Bool × Brush K R × σ} (h : strokeTo e fuel b surf m = .ok r) :
    r.2.1.st.x = followed e T (100 * p.2.2) b.st.x p.1 ∧ r.2.1.st.y = followed e T (100 * p.2.2) b.st.y p.2.1 ∧ Tracks T r.2.1 := by
  obtain ⟨ev, he', ⟨-, h⟩ | ⟨hw, inner, r1, hi, h1, h⟩⟩ := strokeTo_cases h
  · obtain ⟨x1, y1, t1, -⟩ := sanitise_moved hm.canvas hm.place (by rw [hm.time]; exact hm.later) he'
    have k := event_trails hb (sanitise_pressure he').1 h
    rw [x1, y1, t1, hm.time] at k
    exact k
  · obtain ⟨x1, y1, t1, -⟩ := sanitise_moved hm.canvas hm.place (by rw [hm.time]; exact hm.later) he'
    have w : 1 / 10 < ev.dtime := hw.1
    have ht : 0 < (workaroundMotion ev).dtime := by
      show 0 < ev.dtime - 1 / 10000
      have : (1 : K) / 10000 < 1 / 10 := by norm_num
      linarith
    obtain ⟨x2, y2, t2, -⟩ := sanitise_moved (m := workaroundMotion ev) (X := ev.x) (Y := ev.y)
      (by rw [x1, y1]; exact hm.canvas) ⟨rfl, rfl⟩ ht hi
    obtain ⟨k1, k2, k3⟩ := event_trails hb (sanitise_pressure hi).1 h1
    obtain ⟨j1, j2, j3⟩ := event_trails (ev := { ev with dtime := 1 / 10000 }) k3 (sanitise_pressure he').1 h
    dsimp only at j1 j2
    have s : (100 : K) * (ev.dtime - 1 / 10000) + 100 * (1 / 10000) = 100 * p.2.2 := by rw [t1, hm.time]; ring
    have t3 : inner.dtime = ev.dtime - 1 / 10000 := t2
    refine ⟨?_, ?_, j3⟩
    · rw [j1, k1, x2, t3, followed_again he, s, x1]
    · rw [j2, k2, y2, t3, followed_again he, s, y1]

/-! ## C102 -/

/-- **C102**. Any sequence of calls, with or without resets, pauses, pressure and dabs: the brush ends where it gets by trailing
behind the pen, and nothing but the places, the times and the setting matters. -/
theorem brush_trails_pen {e : Env K R σ} (he : ExpLaw e) {T : K} {fuel : Nat} {ps : List (K × K × K)} {ms : List (Motion K)}
    (hm : List.Forall₂ PenAt ps ms) : ∀ {b : Brush K R} {surf : σ}, Tracks T b → ∀ {r : Brush K R × σ},
    strokes e fuel b surf ms = .ok r → (r.1.st.x, r.1.st.y) = trail e T (b.st.x, b.st.y) ps ∧ Tracks T r.1 := by
  induction hm with
  | nil =>
    intro b surf hb r h
    rw [show strokes e fuel b surf [] = .ok (b, surf) from rfl] at h
    rw [← Except.ok.inj h]
    exact ⟨rfl, hb⟩
  | cons h1 _ ih =>
    intro b surf hb r h
    unfold strokes at h
    obtain ⟨r1, h2, h⟩ := bind_ok h
    obtain ⟨k1, k2, k3⟩ := call_trails he hb h1 h2
    obtain ⟨i1, i2⟩ := ih k3 h
    refine ⟨?_, i2⟩
    rw [i1, k1, k2]
    rfl

theorem trail_rest {e : Env K R σ} (he : ExpLaw e) (h0 : e.exp 0 = 1) {T : K} (hT : 1 / 1000 < T) {X Y : K} :
    ∀ (ps : List (K × K × K)) (q : K × K), (∀ p ∈ ps, p.1 = X ∧ p.2.1 = Y) →
    trail e T q ps = (followed e T (100 * (ps.map (·.2.2)).sum) q.1 X, followed e T (100 * (ps.map (·.2.2)).sum) q.2 Y) := by
  intro ps
  induction ps with
  | nil =>
    intro q _
    have z : leftOver e T (100 * (([] : List (K × K × K)).map (·.2.2)).sum) = 1 := by
      unfold leftOver
      rw [if_neg (not_le.mpr hT)]
      simp [h0]
    unfold followed
    rw [z]
    show q = _
    ext <;> simp
  | cons p ps ih =>
    intro q hq
    obtain ⟨p1, p2⟩ := hq p (by simp)
    show trail e T (followed e T (100 * p.2.2) q.1 p.1, followed e T (100 * p.2.2) q.2 p.2.1) ps = _
    rw [ih _ fun p' h => hq p' (by simp [h]), p1, p2]
    dsimp only
    rw [followed_again he, followed_again he, List.map_cons, List.sum_cons, mul_add]

/-- **C102**. While the pen is held at a place, what is left of the way of the brush depends on the time that has passed and the
setting, not on the number of events. -/
theorem held_pen_is_approached {e : Env K R σ} (he : ExpLaw e) (h0 : e.exp 0 = 1) {T : K} (hT : 1 / 1000 < T) {fuel : Nat} {X Y : K}
    {ps : List (K × K × K)} {ms : List (Motion K)} (hm : List.Forall₂ PenAt ps ms) (hp : ∀ p ∈ ps, p.1 = X ∧ p.2.1 = Y)
    {b : Brush K R} {surf : σ} (hb : Tracks T b) {r : Brush K R × σ} (h : strokes e fuel b surf ms = .ok r) :
    r.1.st.x - X = (b.st.x - X) * e.exp (-(100 * (ps.map (·.2.2)).sum) / T) ∧
      r.1.st.y - Y = (b.st.y - Y) * e.exp (-(100 * (ps.map (·.2.2)).sum) / T) := by
  have k := (brush_trails_pen he hm hb h).1
  rw [trail_rest he h0 hT ps _ hp] at k
  obtain ⟨k1, k2⟩ := Prod.mk.inj k
  rw [k1, k2]
  unfold followed leftOver
  rw [if_neg (not_le.mpr hT)]
  constructor <;> ring

/-- **C102**. With the functions of the real numbers: however near, the brush gets there, in a time that can be told beforehand
from the setting and the distance. -/
theorem held_pen_is_reached {R σ : Type} {next gauss : R → ℝ × R} {draw : σ → Dab.Args ℝ → Bool × σ}
    {getColor : σ → Int → Int → ℝ → ℝ → Color.Rgba ℝ × σ} {T : ℝ} (hT : 1 / 1000 < T) {fuel : Nat} {X Y ε : ℝ} (hε : 0 < ε)
    {ps : List (ℝ × ℝ × ℝ)} {ms : List (Motion ℝ)} (hm : List.Forall₂ PenAt ps ms) (hp : ∀ p ∈ ps, p.1 = X ∧ p.2.1 = Y)
    {b : Brush ℝ R} {surf : σ} (hb : Tracks T b) {D : ℝ} (hD : 0 < D) (hx : |b.st.x - X| ≤ D) (hy : |b.st.y - Y| ≤ D)
    (ht : T * Real.log (D / ε) / 100 ≤ (ps.map (·.2.2)).sum) {r : Brush ℝ R × σ}
    (h : strokes (realEnv next gauss draw getColor) fuel b surf ms = .ok r) :
    |r.1.st.x - X| ≤ ε ∧ |r.1.st.y - Y| ≤ ε := by
  obtain ⟨k1, k2⟩ := held_pen_is_approached (e := realEnv next gauss draw getColor) (Demo.realEnv_exp next gauss draw getColor)
    (show Real.exp 0 = 1 from Real.exp_zero) hT hm hp hb h
  have hT0 : 0 < T := lt_trans (by norm_num) hT
  generalize (ps.map (·.2.2)).sum = t at k1 k2 ht
  have e1 : Real.exp (-(100 * t) / T) ≤ ε / D := by
    have : -(100 * t) / T ≤ Real.log (ε / D) := by
      rw [div_le_iff₀ hT0, ← neg_le_neg_iff]
      have l : Real.log (D / ε) = -Real.log (ε / D) := by rw [← Real.log_inv, inv_div]
      rw [l] at ht
      rw [div_le_iff₀ (by norm_num)] at ht
      nlinarith
    calc Real.exp (-(100 * t) / T) ≤ Real.exp (Real.log (ε / D)) := Real.exp_le_exp.mpr this
      _ = ε / D := Real.exp_log (div_pos hε hD)
  have fin : ∀ z : ℝ, |z| ≤ D → |z * Real.exp (-(100 * t) / T)| ≤ ε := by
    intro z hz
    rw [abs_mul, abs_of_pos (Real.exp_pos _)]
    calc |z| * Real.exp (-(100 * t) / T) ≤ D * (ε / D) :=
          mul_le_mul hz e1 (Real.exp_pos _).le hD.le
      _ = ε := by field_simp
  rw [k1, k2]
  exact ⟨fin _ hx, fin _ hy⟩

/-- **C102** (refuted for a moving pen). The same straight movement at the same speed, reported by one event or by two: the brush
ends at different places. -/
theorem trail_depends_on_events {e : Env K R σ} (he : ExpLaw e) {T : K} {X Y t : K} (hX : X ≠ 0)
    (hq0 : leftOver e T (100 * t) ≠ 0) (hq1 : leftOver e T (100 * t) ≠ 1) :
    trail e T (0, 0) [(X / 2, Y / 2, t), (X, Y, t)] ≠ trail e T (0, 0) [(X, Y, 2 * t)] := by
  intro h
  have h1 := congrArg Prod.fst h
  change followed e T (100 * t) (followed e T (100 * t) 0 (X / 2)) X = followed e T (100 * (2 * t)) 0 X at h1
  rw [show 100 * (2 * t) = 100 * t + 100 * t by ring] at h1
  unfold followed at h1
  rw [leftOver_add he] at h1
  generalize leftOver e T (100 * t) = q at *
  have : X * q * (q - 1) = 0 := by linarith
  rcases mul_eq_zero.mp this with h2 | h2
  · rcases mul_eq_zero.mp h2 with h3 | h3
    · exact hX h3
    · exact hq0 h3
  · exact hq1 (by linarith)

/-! ### Examples -/

namespace Demo

/-- A brush with slow tracking. -/
def trailing : Brush ℚ Nat := { set brush sSlowTracking 2 with resetRequested := false }

example : Tracks 2 trailing := ⟨by decide +kernel, by decide +kernel, by decide +kernel⟩

/-- The pen goes to a place and is held there, with a pause before it presses again. -/
def heldPen : List (Motion ℚ) := [motion 8 4 (1 / 2) (1 / 20), motion 8 4 0 (1 / 20), motion 8 4 (1 / 2) (1 / 2)]

example : List.Forall₂ PenAt [(8, 4, 1 / 20), (8, 4, 1 / 20), (8, 4, 1 / 2)] heldPen :=
  .cons ⟨⟨rfl, rfl⟩, by unfold OnCanvas; norm_num, rfl, by norm_num⟩
    (.cons ⟨⟨rfl, rfl⟩, by unfold OnCanvas; norm_num, rfl, by norm_num⟩
      (.cons ⟨⟨rfl, rfl⟩, by unfold OnCanvas; norm_num, rfl, by norm_num⟩ .nil))

/-- The calls succeed. -/
example : (look (fun _ => ()) (strokes unitEnv 100 trailing [] heldPen)).isSome = true := by decide +kernel

/-- The hypotheses of `trail_depends_on_events` hold for the exponential function. -/
example {R σ : Type} (next gauss : R → ℝ × R) (draw : σ → Dab.Args ℝ → Bool × σ)
    (getColor : σ → Int → Int → ℝ → ℝ → Color.Rgba ℝ × σ) :
    trail (realEnv next gauss draw getColor) 2 (0, 0) [(10 / 2, 0 / 2, 1 / 100), (10, 0, 1 / 100)] ≠
      trail (realEnv next gauss draw getColor) 2 (0, 0) [(10, 0, 2 * (1 / 100))] := by
  have l : leftOver (realEnv next gauss draw getColor) 2 (100 * (1 / 100)) = Real.exp (-(100 * (1 / 100)) / 2) := by
    unfold leftOver
    rw [if_neg (by norm_num)]
    rfl
  refine trail_depends_on_events (realEnv_exp next gauss draw getColor) (by norm_num) ?_ ?_
  · rw [l]; exact (Real.exp_pos _).ne'
  · rw [l]
    intro h
    rw [Real.exp_eq_one_iff] at h
    norm_num at h

end Demo

end Verif.Engine
