import Verif.Props.C43_Motion

/-!
# C56: a brush can hang the program

The number of dabs that are still due is computed anew after every dab, from the dynamics. When the custom input feeds on
itself the rate can grow faster than the time left shrinks; then the loop never ends, even with the pen in the air.
-/

namespace Verif.Engine
open Verif.Mask Verif.Color Verif.Spectral Verif.Map

variable {K R σ : Type} [Field K] [LinearOrder K] [FloorRing K] [IsStrictOrderedRing K]

/-- Dabs per second are the custom input, which three times itself plus one follows without delay. -/
structure Feedback (s : Load.Brush K) : Prop where
  rate : ∀ i, calculate (s sDabsPerSecond) i = i iCustom
  feed : ∀ i, calculate (s sCustomInput) i = 1 + 3 * i iCustom
  quick : ∀ i, calculate (s sCustomInputSlowness) i ≤ 1 / 1000
  actual : ∀ i, calculate (s sDabsPerActualRadius) i = 0
  basic : ∀ i, calculate (s sDabsPerBasicRadius) i = 0
  samples : NeverSamples s
  linear : 0 ≤ (s sOpaqueLinearize).base

/-- The loop has more to do than it will ever get done. -/
structure Runaway (l : Loop K R σ) : Prop where
  settings : Feedback l.b.settings
  buckets : Valid l.b.buckets
  moved0 : 0 ≤ l.moved
  moved1 : l.moved < 1
  rate : 0 < l.b.st.dabsPerSecond
  custom : 3 * l.b.st.dabsPerSecond ≤ l.b.st.customInput
  todo : l.todo = l.dtimeLeft * l.b.st.dabsPerSecond
  enough : 3 / 2 ≤ l.dtimeLeft * l.b.st.dabsPerSecond

omit [IsStrictOrderedRing K] in
theorem countDabs_time {e : Env K R σ} {b : Brush K R} (h1 : b.st.dabsPerActualRadius = 0)
    (h2 : b.st.dabsPerBasicRadius = 0) (x y : K) {dt : K} (h3 : 0 ≤ dt * b.st.dabsPerSecond) :
    (countDabs e b x y dt).1 = dt * b.st.dabsPerSecond := by
  unfold countDabs
  dsimp only
  split_ifs <;> simp_all
  all_goals exact absurd ‹_› (not_lt.mpr h3)

/-- One turn leaves as much to do as before. -/
theorem runaway_step {e : Env K R σ} {ev : Event K} {x y : K} {l l' : Loop K R σ}
    (hl : Runaway l) (h : dabStep e ev x y l = .ok l') : Runaway l' := by
  obtain ⟨hz, b1, p, b2, hu, hd, hb2, e1⟩ := dabStep_eq h
  have k := (dabStep_safe (e := e) (ev := ev) (x := x) (y := y) hl.buckets hz).ok h
  set d : K := if l.moved > 0 then 1 - l.moved else 1 with hdd
  have hd1 : d ≤ 1 := by
    rw [hdd]; have := hl.moved0; split_ifs <;> linarith
  have hP := hl.rate
  have f := drawDab_frame hd
  have hu' := update_eq hu
  have s1 : b2.st.dabsPerSecond = l.b.st.customInput := by
    rw [hb2]; simp only
    rw [f.st]; simp only
    rw [hu']
    exact hl.settings.rate _
  have s2 : b2.st.customInput = 1 + 3 * l.b.st.customInput := by
    rw [hb2]; simp only
    rw [f.st]; simp only
    rw [hu']
    show approach l.b.st.customInput (calculate _ _) _ = _
    rw [hl.settings.feed]
    show approach l.b.st.customInput (1 + 3 * l.b.st.customInput) _ = _
    unfold expDecay
    rw [if_pos (show settingValues l.b.settings _ sCustomInputSlowness ≤ 1 / 1000 from hl.settings.quick _)]
    unfold approach; ring
  have s3 : b2.st.dabsPerActualRadius = 0 := by
    rw [hb2]; simp only
    rw [f.st]; simp only
    rw [hu']
    exact hl.settings.actual _
  have s4 : b2.st.dabsPerBasicRadius = 0 := by
    rw [hb2]; simp only
    rw [f.st]; simp only
    rw [hu']
    exact hl.settings.basic _
  have hT : 0 < l.dtimeLeft := by
    by_contra hc
    have := mul_nonpos_of_nonpos_of_nonneg (not_lt.mp hc) hP.le
    have := hl.enough
    linarith
  have left : l.dtimeLeft - d / l.todo * l.dtimeLeft = l.dtimeLeft - d / l.b.st.dabsPerSecond := by
    rw [hl.todo]; field_simp
  have more : 3 / 2 ≤ (l.dtimeLeft - d / l.b.st.dabsPerSecond) * l.b.st.customInput := by
    have a1 : 1 / 2 ≤ (l.dtimeLeft - d / l.b.st.dabsPerSecond) * l.b.st.dabsPerSecond := by
      rw [sub_mul, div_mul_cancel₀ _ hP.ne']
      have := hl.enough
      linarith
    have a2 : 0 ≤ l.dtimeLeft - d / l.b.st.dabsPerSecond := by
      by_contra hc
      have := mul_nonpos_of_nonpos_of_nonneg (not_le.mp hc).le hP.le
      linarith
    have a3 := mul_le_mul_of_nonneg_left hl.custom a2
    nlinarith
  have cst := countDabs_st e b2 x y (l.dtimeLeft - d / l.todo * l.dtimeLeft)
  have ct : (countDabs e b2 x y (l.dtimeLeft - d / l.todo * l.dtimeLeft)).1 =
      (l.dtimeLeft - d / l.todo * l.dtimeLeft) * l.b.st.customInput := by
    rw [countDabs_time s3 s4 x y (by rw [s1, left]; linarith), s1]
  have q1 : l'.b.st.dabsPerSecond = l.b.st.customInput := by rw [e1]; simp only; rw [cst]; exact s1
  have q2 : l'.b.st.customInput = 1 + 3 * l.b.st.customInput := by rw [e1]; simp only; rw [cst]; exact s2
  have hc := hl.custom
  refine ⟨by rw [k.2]; exact hl.settings, k.1, ?_, ?_, by rw [q1]; linarith, by rw [q1, q2]; linarith, ?_, ?_⟩
  · rw [e1]; simp only; have := hl.moved0; split_ifs
    · exact le_refl _
    · exact this
  · rw [e1]; simp only; have := hl.moved1; split_ifs
    · exact zero_lt_one
    · exact this
  · rw [q1]; rw [e1]; exact ct
  · rw [q1]; rw [e1]; simp only; rw [left]; exact more

/-- It never ends. -/
theorem runaway_loop {e : Env K R σ} {ev : Event K} {x y : K} (hz : 0 < ev.viewzoom) (fuel : Nat) :
    ∀ l : Loop K R σ, Runaway l → dabLoop e ev x y fuel l = .error .outOfFuel := by
  induction fuel with
  | zero =>
    intro l hl
    unfold dabLoop
    rw [if_pos]
    have := hl.enough; have := hl.todo; have := hl.moved0
    show 1 ≤ _
    linarith
  | succ fuel ih =>
    intro l hl
    have t : 3 / 2 ≤ l.todo := by rw [hl.todo]; exact hl.enough
    unfold dabLoop
    rw [if_pos (by show 1 ≤ _; have := hl.moved0; linarith)]
    cases hd : dabStep e ev x y l with
    | error f =>
      rcases (dabStep_safe (e := e) (ev := ev) (x := x) (y := y) hl.buckets (by intro h; rw [h] at t; linarith)).error hd
        with h | ⟨-, h | h⟩
      · exact (h.2 hl.settings.samples).elim
      · exact absurd hl.settings.linear (not_le.mpr h)
      · exact absurd hz (not_lt.mpr h)
    | ok l' => exact ih l' (runaway_step hl hd)

/-- C56, negation: with such a brush `mypaint_brush_stroke_to` does not return, no matter how long one waits, how large
the time or the way of the event (up to the five seconds after which the brush starts over). -/
theorem feedback_brush_hangs {e : Env K R σ} (b : Brush K R) (surf : σ) {m : Motion K} {ev : Event K}
    (hs : Feedback b.settings) (hb : Valid b.buckets) (hp : PendingOk b) (hr : b.resetRequested = false)
    (hk : b.skip ≤ 1 / 1000) (hrate : 0 < b.st.dabsPerSecond) (hc : 3 * b.st.dabsPerSecond ≤ b.st.customInput)
    (h1 : b.st.dabsPerActualRadius = 0) (h2 : b.st.dabsPerBasicRadius = 0) (hev : sanitise e m = .ok ev)
    (hz : 0 < ev.viewzoom) (h5 : ev.dtime ≤ 5) (ht : 3 / 2 ≤ ev.dtime * b.st.dabsPerSecond)
    (hw : ¬ (ev.dtime > 1 / 10 ∧ ev.pressure ≠ 0 ∧ b.st.pressure = 0)) (fuel : Nat) :
    strokeTo e fuel b surf m = .error .outOfFuel := by
  unfold strokeTo
  rw [ok_bind hev, if_neg hw]
  unfold strokeEvent
  dsimp only
  have sk : skipStage e b ev.x ev.y ev.dtime = (b, ev.dtime, false) := by
    unfold skipStage
    rw [if_neg (not_lt.mpr hk)]
  rw [sk]
  simp only
  rw [if_neg (by simp), if_neg (by rw [hr]; simp [h5])]
  have cu := cursor_eq e b ev.x ev.y ev.dtime
  generalize cursor e b ev.x ev.y ev.dtime = c at cu
  have hst : c.2.2.st = b.st := by rw [cu]
  unfold moveTo
  dsimp only
  have cst := countDabs_st e c.2.2 c.1 c.2.1 ev.dtime
  rw [runaway_loop hz fuel]
  · rfl
  · refine ⟨?_, ?_, ?_, ?_, ?_, ?_, ?_, ?_⟩
    · simp only; rw [cst, cu]; exact hs
    · simp only; rw [cst, cu]; exact hb
    · simp only; rw [hst]; exact hp.1
    · simp only; rw [hst]; exact hp.2
    · simp only; rw [cst]; simp only; rw [hst]; exact hrate
    · simp only; rw [cst]; simp only; rw [hst]; exact hc
    · have q : (countDabs e c.2.2 c.1 c.2.1 ev.dtime).2.st.dabsPerSecond = b.st.dabsPerSecond := by
        rw [cst]; simp only; rw [hst]
      simp only
      rw [q, countDabs_time (by rw [hst]; exact h1) (by rw [hst]; exact h2) _ _ (by rw [hst]; linarith), hst]
    · simp only; rw [cst]; simp only; rw [hst]; exact ht

/-! ### More fuel than needed changes nothing -/

theorem strokeEvent_mono {e : Env K R σ} {b : Brush K R} {surf : σ} {ev : Event K} {n m : Nat} (hnm : n ≤ m)
    (h : strokeEvent e n b surf ev ≠ .error .outOfFuel) : strokeEvent e m b surf ev = strokeEvent e n b surf ev := by
  unfold strokeEvent at h ⊢
  dsimp only at h ⊢
  split_ifs at h ⊢
  · rfl
  · rfl
  · exact moveTo_mono hnm h

theorem strokeTo_mono {e : Env K R σ} {b : Brush K R} {surf : σ} {mo : Motion K} {n m : Nat} (hnm : n ≤ m)
    (h : strokeTo e n b surf mo ≠ .error .outOfFuel) : strokeTo e m b surf mo = strokeTo e n b surf mo := by
  cases he : sanitise e mo with
  | error f => unfold strokeTo; rw [he]; rfl
  | ok ev =>
    unfold strokeTo at h ⊢
    rw [ok_bind he] at h ⊢
    rw [ok_bind he]
    split_ifs at h ⊢
    · cases hi : sanitise e (workaroundMotion ev) with
      | error f => rfl
      | ok inner =>
        rw [ok_bind hi] at h
        show (strokeEvent e m b surf inner >>= _) = (strokeEvent e n b surf inner >>= _)
        cases hr : strokeEvent e n b surf inner with
        | error f =>
          rw [strokeEvent_mono hnm (by rw [hr]; intro hf; cases hf; apply h; rw [hr]; rfl), hr]; rfl
        | ok r =>
          rw [ok_bind hr] at h
          rw [strokeEvent_mono hnm (by rw [hr]; intro hf; cases hf), hr]
          exact strokeEvent_mono hnm h
    · exact strokeEvent_mono hnm h

theorem strokes_mono {e : Env K R σ} {n m : Nat} (hnm : n ≤ m) {ms : List (Motion K)} : ∀ {b : Brush K R} {surf : σ},
    strokes e n b surf ms ≠ .error .outOfFuel → strokes e m b surf ms = strokes e n b surf ms := by
  induction ms with
  | nil => intro b surf _; rfl
  | cons mo ms ih =>
    intro b surf h
    unfold strokes at h ⊢
    cases hr : strokeTo e n b surf mo with
    | error f =>
      rw [strokeTo_mono hnm (by rw [hr]; intro hf; cases hf; apply h; rw [hr]; rfl), hr]; rfl
    | ok r =>
      rw [ok_bind hr] at h
      rw [strokeTo_mono hnm (by rw [hr]; intro hf; cases hf), hr]
      exact ih h

/-- A session keeps the settings and the buckets in order. -/
theorem strokes_keeps {e : Env K R σ} {fuel : Nat} {ms : List (Motion K)} : ∀ {b : Brush K R} {surf : σ}
    {r : Brush K R × σ}, Valid b.buckets → PendingOk b → strokes e fuel b surf ms = .ok r →
      Valid r.1.buckets ∧ PendingOk r.1 ∧ r.1.settings = b.settings := by
  induction ms with
  | nil => intro b surf r hv hp h; rw [← Except.ok.inj h]; exact ⟨hv, hp, rfl⟩
  | cons m ms ih =>
    intro b surf r hv hp h
    obtain ⟨r1, h1, h2⟩ := bind_ok (x := strokeTo e fuel b surf m) h
    have k : Valid r1.2.1.buckets ∧ PendingOk r1.2.1 ∧ r1.2.1.settings = b.settings := by
      obtain ⟨ev, he, ⟨-, h⟩ | ⟨-, inner, r2, hi, h3, h⟩⟩ := strokeTo_cases h1
      · have := (strokeEvent_safe (e := e) (fuel := fuel) (surf := surf) (ev := ev) hv hp).ok h
        exact ⟨this.1, strokeEvent_pending h hp, this.2⟩
      · have q := (strokeEvent_safe (e := e) (fuel := fuel) (surf := surf) (ev := inner) hv hp).ok h3
        have q' := strokeEvent_pending h3 hp
        have := (strokeEvent_safe (e := e) (fuel := fuel) (surf := r2.2.2) (ev := { ev with dtime := 1 / 10000 })
          q.1 q').ok h
        exact ⟨this.1, strokeEvent_pending h q', by rw [this.2, q.2]⟩
    obtain ⟨q1, q2, q3⟩ := ih k.1 k.2.1 h2
    exact ⟨q1, q2, by rw [q3, k.2.2]⟩

omit [IsStrictOrderedRing K] in
theorem strokes_append {e : Env K R σ} {fuel : Nat} {ms ms' : List (Motion K)} : ∀ {b : Brush K R} {surf : σ},
    strokes e fuel b surf (ms ++ ms') = strokes e fuel b surf ms >>= fun r => strokes e fuel r.1 r.2 ms' := by
  induction ms with
  | nil => intro b surf; rfl
  | cons m ms ih =>
    intro b surf
    show (strokeTo e fuel b surf m >>= _) = ((strokeTo e fuel b surf m >>= _) >>= _)
    cases strokeTo e fuel b surf m with
    | error f => rfl
    | ok r => exact ih

/-! ### Such a brush exists and gets there -/

section examples
open Demo

/-- A curve from (0, 0) to (1, `slope`) for the custom input. -/
def customCurve (base slope : ℚ) : Mapping ℚ :=
  { base := base, inputs := 18, used := 1
    pts := fun i => if i = iCustom then ⟨fun k => k, fun k => slope * k, 2⟩ else ⟨fun _ => 0, fun _ => 0, 0⟩ }

theorem customCurve_value {base slope : ℚ} (h : slope ≠ 0) (i : Nat → ℚ) :
    calculate (customCurve base slope) i = base + slope * i iCustom := by
  unfold calculate customCurve
  simp [List.range_succ, iCustom, evaluate, findSegment, h]
  exact fun h0 => absurd h0.symm h

def feedbackBrush : Brush ℚ Nat :=
  { brush with
    settings := fun i =>
      if i = sDabsPerSecond then customCurve 0 1 else if i = sCustomInput then customCurve 1 3
      else if i = sDabsPerActualRadius then constant 0 else if i = sDabsPerBasicRadius then constant 0
      else settings i }

theorem feedbackBrush_settings : Feedback feedbackBrush.settings where
  rate i := by
    show calculate (customCurve 0 1) i = _
    rw [customCurve_value one_ne_zero]; ring
  feed i := by
    show calculate (customCurve 1 3) i = _
    rw [customCurve_value (by norm_num)]
  quick i := by show (settings sCustomInputSlowness).base ≤ _; decide +kernel
  actual i := rfl
  basic i := rfl
  samples i := by
    show ¬ ((settings sSmudgeLength).base < 1 ∧ ((settings sSmudge).base ≠ 0 ∨ isConstant (settings sSmudge) = false))
    decide +kernel
  linear := by decide +kernel

theorem look_some {α β : Type} {f : α → β} {x : Except Fault α} {v : β} (h : look f x = some v) :
    ∃ a, x = .ok a ∧ f a = v := by
  cases x with
  | error e => cases h
  | ok a => exact ⟨a, rfl, Option.some.inj h⟩

/-- A pen held still over the paper, without any pressure, hangs the program with the fourth event. -/
theorem hover_hangs (fuel : Nat) :
    strokes env fuel feedbackBrush [] (List.replicate 4 (motion 0 0 0 2)) = .error .outOfFuel := by
  have h3 : look (fun r => (r.1.st.dabsPerSecond, r.1.st.customInput, r.1.st.dabsPerActualRadius,
      r.1.st.dabsPerBasicRadius, r.1.skip, r.1.resetRequested))
      (strokes env 0 feedbackBrush [] (List.replicate 3 (motion 0 0 0 2))) = some (1, 4, 0, 0, 0, false) := by
    decide +kernel
  obtain ⟨r, hr, hv⟩ := look_some h3
  simp only [Prod.mk.injEq] at hv
  obtain ⟨v1, v2, v3, v4, v5, v6⟩ := hv
  have keep := strokes_keeps (b := feedbackBrush) ⟨le_refl _, rfl, .inl rfl⟩ ⟨by decide +kernel, by decide +kernel⟩ hr
  have hf := strokes_mono (Nat.zero_le fuel) (e := env) (b := feedbackBrush) (surf := [])
    (ms := List.replicate 3 (motion 0 0 0 2)) (by rw [hr]; intro h; cases h)
  have : List.replicate 4 (motion 0 0 0 2) = List.replicate 3 (motion 0 0 0 2) ++ [motion 0 0 0 2] := rfl
  rw [this, strokes_append, hf, hr]
  show (strokeTo env fuel r.1 r.2 (motion 0 0 0 2) >>= _) = _
  have hs : sanitise env (motion 0 0 0 2) = .ok
      { x := 0, y := 0, pressure := 0, ascension := 0, declination := 90, declinationX := 90, declinationY := 90
        dtime := 2, viewzoom := 1, viewrotation := 0, barrel := 0, linear := false } := by
    rfl
  rw [feedback_brush_hangs r.1 r.2 (keep.2.2 ▸ feedbackBrush_settings) keep.1 keep.2.1 v6 (by rw [v5]; norm_num)
    (by rw [v1]; norm_num) (by rw [v1, v2]; norm_num) v3 v4 hs (by norm_num) (by norm_num) (by rw [v1]; norm_num)
    (by simp) fuel]
  rfl

end examples

end Verif.Engine
