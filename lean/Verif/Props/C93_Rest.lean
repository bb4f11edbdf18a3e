import Verif.Props.C56_Feedback
import Verif.Props.C67_Marks

/-!
# C93: a pen that rests paints nothing
-/

namespace Verif.Engine
open Verif.Map

variable {K R σ : Type} [Field K] [LinearOrder K] [IsStrictOrderedRing K] [FloorRing K]

/-! ## Specification -/

/-- A brush that draws dabs only because of the distance: no dabs per second, and no tracking noise. -/
structure ByDistance (s : Load.Brush K) : Prop where
  rate : ∀ i, calculate (s sDabsPerSecond) i ≤ 0
  noise : (s sTrackingNoise).base = 0

/-- The event is at this position of the canvas. -/
def RestsAt (X Y : K) (m : Motion K) : Prop := m.x = .fin X ∧ m.y = .fin Y

/-- The position the library uses without complaint. -/
def OnCanvas (X Y : K) : Prop := -10 ^ 8 < X ∧ X < 10 ^ 8 ∧ -10 ^ 8 < Y ∧ Y < 10 ^ 8

/-- The brush is at this position and owes no dabs for the time that passes. -/
structure AtRest (X Y : K) (b : Brush K R) : Prop where
  x : b.st.x = X
  y : b.st.y = Y
  rate : b.st.dabsPerSecond ≤ 0

/-! ## Proof -/

theorem ellipse_zero {e : Env K R σ} (h0 : e.sqrt 0 = 0) (ratio angle : K) : ellipse e ratio angle 0 0 = 0 := by
  unfold ellipse hypot
  split_ifs <;> simp [h0]

theorem rest_counts_nothing {e : Env K R σ} (h0 : e.sqrt 0 = 0) {X Y : K} {b : Brush K R} (h : AtRest X Y b) {dt : K}
    (ht : 0 ≤ dt) : (countDabs e b X Y dt).1 = 0 := by
  rw [countDabs_eq, h.x, h.y, sub_self, sub_self, ellipse_zero h0]
  simp only [zero_div, zero_mul, zero_add]
  exact max_eq_left (mul_nonpos_of_nonneg_of_nonpos ht h.rate)

theorem rest_move {e : Env K R σ} (h0 : e.sqrt 0 = 0) {X Y : K} {fuel : Nat} {b : Brush K R} {surf : σ} (hs : ByDistance b.settings)
    (hu : PendingOk b) (h : AtRest X Y b) {ev : Event K} (hp : 0 ≤ ev.pressure) {dt : K} (ht : 0 ≤ dt) {r : Bool × Brush K R × σ}
    (hr : moveTo e fuel b surf ev X Y dt = .ok r) :
    r.2.2 = surf ∧ AtRest X Y r.2.1 ∧ r.2.1.settings = b.settings ∧ r.2.1.skippedTime = b.skippedTime := by
  have key : ∀ l l' : Loop K R σ, l.moved + l.todo < 1 → dabLoop e ev X Y fuel l = .ok l' → l' = l := by
    intro l l' h1 h2
    cases fuel with
    | zero =>
      unfold dabLoop at h2
      rw [if_neg (not_le.mpr h1)] at h2
      exact (Except.ok.inj h2).symm
    | succ fuel =>
      unfold dabLoop at h2
      rw [if_neg (not_le.mpr h1)] at h2
      exact (Except.ok.inj h2).symm
  obtain ⟨a1, a2, -⟩ := move_ends_at_target hp hr
  obtain ⟨l, b1, hl, hup, -, h2, h3⟩ := moveTo_eq hr
  have e1 := key _ _ (by
    dsimp only
    rw [rest_counts_nothing h0 h ht, add_zero]
    exact hu.2) hl
  have e2 := countDabs_st e b X Y dt
  refine ⟨by rw [h3, e1], ⟨a1, a2, ?_⟩, ?_, ?_⟩ <;> rw [h2, splitStroke_eq] <;> dsimp only <;> rw [update_eq hup]
  rotate_left
  · show l.b.settings = _
    rw [e1]; dsimp only; rw [e2]
  · show l.b.skippedTime = _
    rw [e1]; dsimp only; rw [e2]
  show calculate (l.b.settings sDabsPerSecond) _ ≤ 0
  rw [e1]
  show calculate ((countDabs e b X Y dt).2.settings sDabsPerSecond) _ ≤ 0
  rw [countDabs_st]
  exact hs.rate _

theorem rest_event {e : Env K R σ} (h0 : e.sqrt 0 = 0) {X Y : K} {fuel : Nat} {b : Brush K R} {surf : σ} (hs : ByDistance b.settings)
    (hu : Underway b) (h : AtRest X Y b) {ev : Event K} (hx : ev.x = X) (hy : ev.y = Y) (hp : 0 ≤ ev.pressure)
    (ht : 0 ≤ ev.dtime) {r : Bool × Brush K R × σ} (hr : strokeEvent e fuel b surf ev = .ok r) :
    r.2.2 = surf ∧ AtRest X Y r.2.1 ∧ ByDistance r.2.1.settings ∧ Underway r.2.1 := by
  have hp' := strokeEvent_pending hr hu.pending
  suffices k : r.2.2 = surf ∧ AtRest X Y r.2.1 ∧ r.2.1.settings = b.settings ∧ TimeOk r.2.1 from
    ⟨k.1, k.2.1, by rw [k.2.2.1]; exact hs, hp', k.2.2.2⟩
  have hk := skipped_time (e := e) hu.time (x := ev.x) (y := ev.y) ht
  have c : ∀ b1 : Brush K R, b1.settings = b.settings → b1.st = b.st → ∀ dt, cursor e b1 ev.x ev.y dt = (X, Y, b1) := by
    intro b1 q1 q2 dt
    have n0 : ¬ (b1.baseval sTrackingNoise ≠ 0 ∧ e.exp (b1.baseval sRadiusLogarithmic) * b1.baseval sTrackingNoise > 1 / 1000) := by
      intro q
      refine q.1 ?_
      show (b1.settings sTrackingNoise).base = 0
      rw [q1]; exact hs.noise
    unfold cursor
    dsimp only
    rw [if_neg n0]
    simp only [approach, q2, h.x, h.y, hx, hy, sub_self, zero_mul, add_zero]
  have s1 := skipStage_eq e b ev.x ev.y ev.dtime
  have d1 : (skipStage e b ev.x ev.y ev.dtime).1.settings = b.settings := by rw [s1]
  have d2 : (skipStage e b ev.x ev.y ev.dtime).1.st = b.st := by rw [s1]
  rcases strokeEvent_cases hr with ⟨-, q⟩ | ⟨-, -, b', h2, q⟩ | ⟨-, -, hm⟩
  · rw [q]
    refine ⟨rfl, ⟨?_, ?_, ?_⟩, d1, hk.2⟩ <;> dsimp only <;> rw [d2]
    exacts [h.x, h.y, h.rate]
  · rw [c _ d1 d2] at h2
    obtain ⟨bk, -, e1⟩ := startOver_eq h2
    rw [q, e1]
    exact ⟨rfl, ⟨rfl, rfl, le_refl _⟩, d1, le_refl _⟩
  · rw [c _ d1 d2] at hm
    obtain ⟨k1, k2, k3, k4⟩ := rest_move h0 (by rw [d1]; exact hs) (by unfold PendingOk; rw [d2]; exact hu.pending) ⟨by rw [d2]; exact h.x,
      by rw [d2]; exact h.y, by rw [d2]; exact h.rate⟩ hp hk.1 hm
    refine ⟨k1, k2, k3.trans d1, ?_⟩
    unfold TimeOk
    rw [k4]
    exact hk.2

theorem sanitise_at {e : Env K R σ} {X Y : K} (hc : OnCanvas X Y) {m : Motion K} (hm : RestsAt X Y m) {ev : Event K}
    (h : sanitise e m = .ok ev) : ev.x = X ∧ ev.y = Y := by
  obtain ⟨c1, c2, c3, c4⟩ := hc
  have big : (10 : K) ^ 8 ≤ 10 ^ 10 := by norm_num
  have s : ∀ v : K, -10 ^ 8 < v → v < 10 ^ 8 → sane (.fin v) = some v := by
    intro v h1 h2
    show (if v > 10 ^ 10 ∨ v < -10 ^ 10 then none else some v) = some v
    rw [if_neg]
    rintro (q | q) <;> linarith
  unfold sanitise at h
  obtain ⟨t, -, h⟩ := bind_ok h
  rw [hm.1, hm.2, s X c1 c2, s Y c3 c4] at h
  dsimp only at h
  rw [if_pos ⟨c2, c4, c1, c3⟩] at h
  rw [← Except.ok.inj h]
  exact ⟨rfl, rfl⟩

/-! ## C93 -/

/-- **C93**. If the brush is where the pen is and does not draw dabs by time, then events at this place, with any pressure,
tilt and duration, do not touch the surface, whatever kind of surface it is, and the brush stays there. -/
theorem resting_draws_nothing {e : Env K R σ} (h0 : e.sqrt 0 = 0) {X Y : K} (hc : OnCanvas X Y) {fuel : Nat}
    (ms : List (Motion K)) : ∀ {b : Brush K R} {surf : σ}, (∀ m ∈ ms, RestsAt X Y m) → ByDistance b.settings → Underway b →
    AtRest X Y b → ∀ {r : Brush K R × σ}, strokes e fuel b surf ms = .ok r →
    r.2 = surf ∧ AtRest X Y r.1 ∧ ByDistance r.1.settings ∧ Underway r.1 := by
  induction ms with
  | nil =>
    intro b surf _ hs hu ha r h
    rw [← Except.ok.inj h]
    exact ⟨rfl, ha, hs, hu⟩
  | cons m ms ih =>
    intro b surf hm hs hu ha r h
    unfold strokes at h
    obtain ⟨r1, h1, h⟩ := bind_ok h
    have hm0 := hm m List.mem_cons_self
    have k : r1.2.2 = surf ∧ AtRest X Y r1.2.1 ∧ ByDistance r1.2.1.settings ∧ Underway r1.2.1 := by
      unfold strokeTo at h1
      obtain ⟨ev, hev, h1⟩ := bind_ok h1
      obtain ⟨x1, y1⟩ := sanitise_at hc hm0 hev
      have hp := sanitise_pressure hev
      split_ifs at h1
      · obtain ⟨inner, hin, h1⟩ := bind_ok h1
        obtain ⟨r2, h2, h1⟩ := bind_ok h1
        obtain ⟨x2, y2⟩ := sanitise_at hc (m := workaroundMotion ev) ⟨congrArg Flt.fin x1, congrArg Flt.fin y1⟩ hin
        have hp2 := sanitise_pressure hin
        obtain ⟨k1, k2, k3, k4⟩ := rest_event h0 hs hu ha x2 y2 hp2.1 hp2.2.le h2
        rw [k1] at h1
        exact rest_event h0 k3 k4 k2 (ev := { ev with dtime := 1 / 10000 }) x1 y1 hp.1 (by dsimp only; norm_num) h1
      · exact rest_event h0 hs hu ha x1 y1 hp.1 hp.2.le h1
    obtain ⟨k1, k2, k3, k4⟩ := k
    rw [k1] at h
    exact ih (fun q hq => hm q (List.mem_cons_of_mem _ hq)) k3 k4 k2 h

/-- What a brush keeps that draws dabs by distance, without slow tracking. -/
structure Prompt (b : Brush K R) : Prop where
  settings : ByDistance b.settings
  slow : (b.settings sSlowTracking).base ≤ 1 / 1000
  rate : b.st.dabsPerSecond ≤ 0
  skip : b.skip ≤ 1 / 1000

theorem prompt_invariant (e : Env K R σ) :
    Invariant e (fun _ => True) (fun _ _ => True) (fun b _ => Prompt b) (fun b _ => Prompt b) where
  skip b s ev _ h := by
    unfold skipStage
    rw [if_neg (not_lt.mpr h.skip)]
    exact h
  pull b s ev _ _ h := by
    unfold skipStage
    rw [if_neg (not_lt.mpr h.skip)]
    unfold cursor
    dsimp only
    rw [if_neg (fun q => q.1 h.settings.noise)]
    exact h
  target _ _ _ _ _ _ := trivial
  start b s ev x y b' _ _ h _ hs := by
    obtain ⟨bk, -, e1⟩ := startOver_eq hs
    rw [e1]
    exact ⟨h.settings, h.slow, le_refl _, by norm_num⟩
  count b s x y dt h := by
    rw [countDabs_st]
    exact ⟨h.settings, h.slow, h.rate, h.skip⟩
  step b s ev x y d f t b' _ _ _ _ _ _ h hu := by
    rw [update_eq hu]
    exact ⟨h.settings, h.slow, h.settings.rate _, h.skip⟩
  draw b s lin p h hp := by
    have fr := drawDab_frame hp
    refine ⟨?_, ?_, ?_, ?_⟩
    · show ByDistance p.2.1.settings
      rw [fr.settings]; exact h.settings
    · show (p.2.1.settings sSlowTracking).base ≤ 1 / 1000
      rw [fr.settings]; exact h.slow
    · show p.2.1.st.dabsPerSecond ≤ 0
      rw [fr.st]; exact h.rate
    · show p.2.1.skip ≤ 1 / 1000
      have : p.2.1.skip = b.skip := by unfold Frame at fr; rw [fr]
      rw [this]; exact h.skip
  finish b s n total idle h := ⟨h.settings, h.slow, h.rate, h.skip⟩

/-- **C93**. Whatever was drawn before: once the pen has arrived at a place, further events there add nothing. The brush has
no dabs per second, no tracking noise and no slow tracking. -/
theorem pausing_draws_nothing {e : Env K R σ} (h0 : e.sqrt 0 = 0) {X Y : K} (hc : OnCanvas X Y) {fuel : Nat} {b : Brush K R}
    (hb : Prompt b) (hu : Underway b) {surf : σ} (before : List (Motion K)) {m : Motion K} (pause : List (Motion K))
    (hm : RestsAt X Y m) (hp : ∀ q ∈ pause, RestsAt X Y q) {r : Brush K R × σ}
    (h : strokes e fuel b surf (before ++ m :: pause) = .ok r) :
    ∃ b', strokes e fuel b surf (before ++ [m]) = .ok (b', r.2) := by
  have keep : ∀ {b : Brush K R} {surf : σ}, Prompt b → Underway b → ∀ (ms : List (Motion K)) {r : Brush K R × σ},
      strokes e fuel b surf ms = .ok r → Prompt r.1 ∧ Underway r.1 := fun hb hu ms r h =>
    session_keeps (prompt_invariant e) (fun _ => True) (fun _ _ _ _ => trivial) (fun _ _ _ _ => trivial)
      (fun _ _ => trivial) ms (fun _ _ => trivial) hu hb h
  rw [show before ++ m :: pause = (before ++ [m]) ++ pause by simp, strokes_append] at h
  obtain ⟨r2, h2, h3⟩ := bind_ok h
  obtain ⟨p2, u2⟩ := keep hb hu _ h2
  have hat : AtRest X Y r2.1 := by
    rw [strokes_append] at h2
    obtain ⟨r1, h1, h2⟩ := bind_ok h2
    obtain ⟨p1, u1⟩ := keep hb hu _ h1
    unfold strokes at h2
    obtain ⟨q, hq, h2⟩ := bind_ok h2
    have e2 : r2 = q.2 := (Except.ok.inj h2).symm
    have hq' := hq
    unfold strokeTo at hq'
    obtain ⟨ev, hev, -⟩ := bind_ok hq'
    obtain ⟨k1, k2, -⟩ := stroke_to_ends_at_target hev p1.slow p1.settings.noise p1.skip hq
    obtain ⟨x1, y1⟩ := sanitise_at hc hm hev
    rw [e2] at p2 ⊢
    exact ⟨k1.trans x1, k2.trans y1, p2.rate⟩
  obtain ⟨k, -⟩ := resting_draws_nothing h0 hc pause hp p2.settings u2 hat h3
  exact ⟨r2.1, by rw [h2, k]⟩

end Verif.Engine

namespace Verif.Painting
open Verif.Full Verif.Dab Verif.Engine Verif.Blend Verif.Map Verif.Mask

section
variable {K R σ : Type} [Field K] [LinearOrder K] [IsStrictOrderedRing K] [FloorRing K]

/-- **C93**. In a painting session: while the pen rests the picture does not change, over any number of blocks, with or
without symmetry. -/
theorem resting_paints_nothing {e : Engine.Env K R σ} (h0 : e.sqrt 0 = 0) {X Y : K} (hc : OnCanvas X Y) {b : Build}
    {env : Dab.Env K} {trig : Symm.Trig K} {sch : Schedule} {fuel : Nat} (bls : List (Block K)) {s s' : Studio K R}
    (hs : s.Fine b env trig) (hb : ∀ bl ∈ bls, bl.Ok ∧ ∀ m ∈ bl.motions, RestsAt X Y m) (ht : ByDistance s.brush.settings)
    (ha : AtRest X Y s.brush) (h : paint e b env trig sch fuel s bls = .ok s') :
    s'.surf.surf.canvas = s.surf.surf.canvas ∧ AtRest X Y s'.brush := by
  have k := (paint_keeps (I := fun br => ByDistance br.settings ∧ AtRest X Y br) (Q := fun c => c = s.surf.surf.canvas)
    (B := fun bl => ∀ m ∈ bl.motions, RestsAt X Y m) (S := fun _ => True) (fun _ _ _ _ => trivial) (fun _ _ _ _ => trivial) ?_
    bls hs hb trivial ⟨ht, ha⟩ rfl h).2
  · exact ⟨k.2, k.1.2⟩
  intro bl br w r hB hu hI hr
  obtain ⟨k1, k2, k3, -⟩ := resting_draws_nothing (e := recordDabs (onTiles e b env sch)) h0 hc bl.motions hB hI.1 hu hI.2 hr
  refine ⟨⟨k3, k2⟩, ?_⟩
  rw [k1]
  intro a hin
  cases hin

end

/-! ### Examples -/

namespace Demo

example : Engine.Demo.env.sqrt 0 = 0 := by decide +kernel

example : OnCanvas (66 : ℚ) 10 := by unfold OnCanvas; norm_num

theorem red_by_distance : ByDistance red.settings :=
  ⟨fun i => by rw [red_value]; decide +kernel, by decide +kernel⟩

example : Prompt red := ⟨red_by_distance, by decide +kernel, by decide +kernel, by decide +kernel⟩

example : AtRest 0 0 red := ⟨rfl, rfl, by decide +kernel⟩

/-- The pen moves and then stays, pressing more and less. -/
def pausing : List (Motion ℚ) :=
  [Engine.Demo.motion 66 10 (1 / 2) 1, Engine.Demo.motion 66 10 1 (1 / 10), Engine.Demo.motion 66 10 (1 / 4) 3]

example : ∀ m ∈ pausing, RestsAt 66 10 m := by
  unfold RestsAt; decide +kernel

example : Engine.Demo.look (fun r => r.2.2.length) (strokes (recordDabs Engine.Demo.env) 100 red ([], []) events) =
    Engine.Demo.look (fun r => r.2.2.length) (strokes (recordDabs Engine.Demo.env) 100 red ([], []) (events ++ pausing)) := by
  decide +kernel

/-- An airbrush: two dabs per second. -/
def airbrush : Brush ℚ Nat := Engine.Demo.set red sDabsPerSecond 2

example : ¬ ByDistance airbrush.settings := by
  intro h
  exact absurd (h.rate fun _ => 0) (by decide +kernel)

/-- It goes on painting while the pen rests. -/
theorem airbrush_paints_at_rest :
    Engine.Demo.look (fun r => r.2.2.length) (strokes (recordDabs Engine.Demo.env) 100 airbrush ([], []) events) ≠
    Engine.Demo.look (fun r => r.2.2.length) (strokes (recordDabs Engine.Demo.env) 100 airbrush ([], []) (events ++ pausing)) := by
  decide +kernel

end Demo

end Verif.Painting
