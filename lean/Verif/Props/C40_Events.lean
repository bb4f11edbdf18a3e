import Verif.Lemmas.Engine
import Verif.Spec.EngineDemo

/-!
# C39 (states), C40, C41: resets and the fractional dab counter

C39: after `mypaint_brush_reset` and the next event nothing of the old state remains. This holds for a brush
without slow tracking; with it, the brush starts between its old position and the new one.

C40: the first event after creation or a reset draws no dab. It returns TRUE, except when it takes the path for
tablets that do not report motion without pressure. The event after it draws nothing either: the brush computes
its dab rates only at the end of that movement, so that the first segment of every stroke is lost.

C41: between events less than one dab is pending.
-/

namespace Verif.Engine
open Verif.Mask Verif.Color Verif.Spectral Verif.Map

variable {K R σ : Type} [Field K] [LinearOrder K]

/-- Whether an event takes the path of lines 1346-1351. -/
def Workaround (b : Brush K R) (ev : Event K) : Prop := ev.dtime > 1 / 10 ∧ ev.pressure ≠ 0 ∧ b.st.pressure = 0

variable [FloorRing K]

theorem strokeTo_cases {e : Env K R σ} {fuel : Nat} {b : Brush K R} {surf : σ} {m : Motion K}
    {r : Bool × Brush K R × σ} (h : strokeTo e fuel b surf m = .ok r) :
    ∃ ev, sanitise e m = .ok ev ∧
      ((¬ Workaround b ev ∧ strokeEvent e fuel b surf ev = .ok r) ∨
       (Workaround b ev ∧ ∃ inner r1, sanitise e (workaroundMotion ev) = .ok inner ∧
          strokeEvent e fuel b surf inner = .ok r1 ∧
          strokeEvent e fuel r1.2.1 r1.2.2 { ev with dtime := 1 / 10000 } = .ok r)) := by
  unfold strokeTo at h
  obtain ⟨ev, he, h⟩ := bind_ok h
  refine ⟨ev, he, ?_⟩
  by_cases hw : Workaround b ev
  · have hw' := hw
    unfold Workaround at hw'
    rw [if_pos hw'] at h
    obtain ⟨inner, h1, h⟩ := bind_ok h
    obtain ⟨r1, h2, h⟩ := bind_ok h
    exact .inr ⟨hw, inner, r1, h1, h2, h⟩
  · have hw' := hw
    unfold Workaround at hw'
    rw [if_neg hw'] at h
    exact .inl ⟨hw, h⟩

/-! ### The fractional dab counter -/

/-- Less than one dab is pending. -/
def PendingOk (b : Brush K R) : Prop := 0 ≤ b.st.partialDabs ∧ b.st.partialDabs < 1

theorem skipStage_st (e : Env K R σ) (b : Brush K R) (x y dt : K) : (skipStage e b x y dt).1.st = b.st := by
  rw [skipStage_eq]

theorem cursor_st (e : Env K R σ) (b : Brush K R) (x y dt : K) : (cursor e b x y dt).2.2.st = b.st := by
  rw [cursor_eq]

variable [IsStrictOrderedRing K]

theorem moveTo_pending {e : Env K R σ} {fuel : Nat} {b : Brush K R} {surf : σ} {ev : Event K} {x y dt : K}
    {r : Bool × Brush K R × σ} (h : moveTo e fuel b surf ev x y dt = .ok r) (hb : PendingOk b) :
    PendingOk r.2.1 := by
  obtain ⟨l, b1, h1, -, -, h4, -⟩ := moveTo_eq h
  have key := dabLoop_induct (fun l : Loop K R σ => 0 ≤ l.moved ∧ 0 ≤ l.todo) ?_ fuel _ _ h1
    ⟨hb.1, countDabs_nonneg _ _ _ _ _⟩
  · obtain ⟨⟨k1, k2⟩, k3⟩ := key
    unfold PendingOk
    rw [h4, splitStroke_eq]
    exact ⟨add_nonneg k1 k2, k3⟩
  · intro l l' _ hs hp
    obtain ⟨-, b1, p, b2, -, -, -, e⟩ := dabStep_eq hs
    rw [e]
    refine ⟨?_, countDabs_nonneg _ _ _ _ _⟩
    show 0 ≤ if l.moved > 0 then 0 else l.moved
    split_ifs
    · exact le_refl _
    · exact hp.1

theorem strokeEvent_pending {e : Env K R σ} {fuel : Nat} {b : Brush K R} {surf : σ} {ev : Event K}
    {r : Bool × Brush K R × σ} (h : strokeEvent e fuel b surf ev = .ok r) (hb : PendingOk b) :
    PendingOk r.2.1 := by
  rcases strokeEvent_cases h with ⟨-, h⟩ | ⟨-, -, b', h1, h⟩ | ⟨-, -, h⟩
  · rw [h]; unfold PendingOk; simp only; rw [skipStage_st]; exact hb
  · obtain ⟨bk, -, e⟩ := startOver_eq h1
    rw [h, e]
    exact ⟨le_refl _, zero_lt_one⟩
  · refine moveTo_pending h ?_
    unfold PendingOk
    rw [cursor_st, skipStage_st]
    exact hb

theorem strokeTo_pending {e : Env K R σ} {fuel : Nat} {b : Brush K R} {surf : σ} {m : Motion K}
    {r : Bool × Brush K R × σ} (h : strokeTo e fuel b surf m = .ok r) (hb : PendingOk b) : PendingOk r.2.1 := by
  obtain ⟨ev, -, ⟨-, h⟩ | ⟨-, inner, r1, -, h1, h⟩⟩ := strokeTo_cases h
  · exact strokeEvent_pending h hb
  · exact strokeEvent_pending h (strokeEvent_pending h1 hb)

theorem newBrush_st {junk b : Brush K R} {fresh : List K} {num : Int} {mem : Nat → Nat → Points K} {rng : R}
    (h : newBrush junk fresh num mem rng = .ok b) :
    b.st = State.cleared ∧ b.resetRequested = true ∧ b.total = 0 ∧ b.idle = 0 ∧ b.skip = 0 ∧
      b.settings = Load.newBrush mem ∧ b.vals = junk.vals ∧ b.random = 0 := by
  unfold newBrush at h
  obtain ⟨b1, h1, h⟩ := bind_ok h
  unfold brushReset at h1
  obtain ⟨bk, -, h1⟩ := bind_ok h1
  rw [← Except.ok.inj h, ← Except.ok.inj h1]
  exact ⟨rfl, rfl, rfl, rfl, rfl, rfl, rfl, rfl⟩

/-- C41: whatever a new brush is made to do, after every event less than one dab is pending. -/
theorem less_than_one_dab_pending (e : Env K R σ) (fuel : Nat) (junk : Brush K R) (fresh : List K) (num : Int)
    (mem : Nat → Nat → Points K) (rng : R) (ms : List (Motion K)) :
    ∀ (b : Brush K R) (surf : σ) (r : Brush K R × σ) (s : Load.Brush K),
      newBrush junk fresh num mem rng = .ok b → strokes e fuel { b with settings := s } surf ms = .ok r →
      0 ≤ r.1.st.partialDabs ∧ r.1.st.partialDabs < 1 := by
  intro b surf r s hb h
  have h0 : PendingOk ({ b with settings := s } : Brush K R) := by
    unfold PendingOk
    rw [(newBrush_st hb).1]
    exact ⟨le_refl _, zero_lt_one⟩
  clear hb
  generalize ({ b with settings := s } : Brush K R) = b at *
  induction ms generalizing b surf with
  | nil => rw [← Except.ok.inj h]; exact h0
  | cons m ms ih =>
    obtain ⟨r1, h1, h2⟩ := bind_ok (x := strokeTo e fuel b surf m) h
    exact ih _ _ h2 (strokeTo_pending h1 h0)

/-! ### The first event after a reset -/

omit [FloorRing K] [IsStrictOrderedRing K] in
theorem skipStage_reset {e : Env K R σ} {b : Brush K R} {x y dt : K} (h : b.resetRequested = true) :
    (skipStage e b x y dt).2.2 = false := by
  unfold skipStage
  simp only [h, or_true, not_true_eq_false, and_false, if_false]
  split_ifs <;> rfl

theorem countDabs_no_rates {e : Env K R σ} {b : Brush K R} (h1 : b.st.dabsPerActualRadius = 0)
    (h2 : b.st.dabsPerBasicRadius = 0) (h3 : b.st.dabsPerSecond = 0) (x y dt : K) : (countDabs e b x y dt).1 = 0 := by
  have h1' : (if b.st.actualRadius = 0 then
      { b.st with actualRadius := clampK (e.exp (b.baseval sRadiusLogarithmic)) (1 / 5) 1000 }
      else b.st).dabsPerActualRadius = 0 := by split_ifs <;> exact h1
  have h2' : (if b.st.actualRadius = 0 then
      { b.st with actualRadius := clampK (e.exp (b.baseval sRadiusLogarithmic)) (1 / 5) 1000 }
      else b.st).dabsPerBasicRadius = 0 := by split_ifs <;> exact h2
  have h3' : (if b.st.actualRadius = 0 then
      { b.st with actualRadius := clampK (e.exp (b.baseval sRadiusLogarithmic)) (1 / 5) 1000 }
      else b.st).dabsPerSecond = 0 := by split_ifs <;> exact h3
  unfold countDabs
  dsimp only
  rw [h1', h2', h3']
  simp only [mul_zero, add_zero, lt_irrefl, if_false]

/-- Without pending dabs and dab rates, the loop does nothing. -/
theorem moveTo_no_rates {e : Env K R σ} {fuel : Nat} {b : Brush K R} {surf : σ} {ev : Event K} {x y dt : K}
    {r : Bool × Brush K R × σ} (h0 : b.st.partialDabs = 0) (h1 : b.st.dabsPerActualRadius = 0)
    (h2 : b.st.dabsPerBasicRadius = 0) (h3 : b.st.dabsPerSecond = 0) (h : moveTo e fuel b surf ev x y dt = .ok r) :
    r.2.2 = surf ∧ ∃ (b1 : Brush K R) (dp : K), r.1 = (splitStroke b1 .unknown dt ev.pressure dp).1 ∧ b1.total = b.total ∧
      b1.idle = b.idle := by
  obtain ⟨l, b1, hl, hu, hr1, -, hr⟩ := moveTo_eq h
  have el : dabLoop e ev x y fuel
      { b := (countDabs e b x y dt).2, surf := surf, moved := b.st.partialDabs
        todo := (countDabs e b x y dt).1, dtimeLeft := dt, painted := .unknown } =
      .ok { b := (countDabs e b x y dt).2, surf := surf, moved := b.st.partialDabs
            todo := (countDabs e b x y dt).1, dtimeLeft := dt, painted := .unknown } := by
    rw [countDabs_no_rates h1 h2 h3, h0]
    cases fuel <;> unfold dabLoop <;> rw [if_neg (by simp only; norm_num)]
  rw [el] at hl
  rw [← Except.ok.inj hl] at hr hr1 hu
  refine ⟨hr, _, _, hr1, ?_, ?_⟩
  · rw [update_eq hu]; rfl
  · rw [update_eq hu]; rfl

omit [IsStrictOrderedRing K] in
/-- What the reset event itself does. -/
theorem strokeEvent_reset {e : Env K R σ} {fuel : Nat} {b : Brush K R} {surf : σ} {ev : Event K}
    {r : Bool × Brush K R × σ} (hb : b.resetRequested = true) (h : strokeEvent e fuel b surf ev = .ok r) :
    r.1 = true ∧ r.2.2 = surf ∧ ∃ b', startOver e
      (cursor e (skipStage e b ev.x ev.y ev.dtime).1 ev.x ev.y (skipStage e b ev.x ev.y ev.dtime).2.1).2.2
      (cursor e (skipStage e b ev.x ev.y ev.dtime).1 ev.x ev.y (skipStage e b ev.x ev.y ev.dtime).2.1).1
      (cursor e (skipStage e b ev.x ev.y ev.dtime).1 ev.x ev.y (skipStage e b ev.x ev.y ev.dtime).2.1).2.1
      ev.pressure = .ok b' ∧ r.2.1 = b' := by
  rcases strokeEvent_cases h with ⟨h1, -⟩ | ⟨-, -, b', h1, h⟩ | ⟨-, h1, -⟩
  · rw [skipStage_reset hb] at h1; cases h1
  · rw [h]; exact ⟨rfl, rfl, b', h1, rfl⟩
  · exact absurd (.inr hb) h1

/-- C40: the first event after creation or a reset draws nothing, not even a color is sampled: the surface is
what it was. -/
theorem first_event_draws_nothing {e : Env K R σ} {fuel : Nat} {b : Brush K R} {surf : σ} {m : Motion K}
    {r : Bool × Brush K R × σ} (hb : b.resetRequested = true) (h : strokeTo e fuel b surf m = .ok r) :
    r.2.2 = surf := by
  obtain ⟨ev, -, ⟨-, h⟩ | ⟨-, inner, r1, -, h1, h⟩⟩ := strokeTo_cases h
  · exact (strokeEvent_reset hb h).2.1
  · obtain ⟨-, hs, b', ho, hb'⟩ := strokeEvent_reset hb h1
    obtain ⟨bk, -, e1⟩ := startOver_eq ho
    rcases strokeEvent_cases h with ⟨-, h⟩ | ⟨-, -, b2, -, h⟩ | ⟨-, -, h⟩
    · rw [h]; exact hs
    · rw [h]; exact hs
    · have st : (cursor e (skipStage e r1.2.1 ev.x ev.y (1 / 10000)).1 ev.x ev.y
          (skipStage e r1.2.1 ev.x ev.y (1 / 10000)).2.1).2.2.st = r1.2.1.st := by
        rw [cursor_st, skipStage_st]
      have k := moveTo_no_rates (by simp only [st]; rw [hb', e1]; rfl) (by simp only [st]; rw [hb', e1]; rfl)
        (by simp only [st]; rw [hb', e1]; rfl) (by simp only [st]; rw [hb', e1]; rfl) h
      rw [k.1]; exact hs

/-- C40, second half: it returns TRUE, unless it takes the path for tablets that do not report motion without
pressure (line 1346). -/
theorem first_event_returns_true_partial {e : Env K R σ} {fuel : Nat} {b : Brush K R} {surf : σ} {m : Motion K}
    {ev : Event K} {r : Bool × Brush K R × σ} (hb : b.resetRequested = true) (he : sanitise e m = .ok ev)
    (hw : ¬ (ev.dtime > 1 / 10 ∧ ev.pressure ≠ 0 ∧ b.st.pressure = 0)) (h : strokeTo e fuel b surf m = .ok r) :
    r.1 = true := by
  obtain ⟨ev', he', ⟨-, h⟩ | ⟨hw', -⟩⟩ := strokeTo_cases h
  · exact (strokeEvent_reset hb h).1
  · rw [he] at he'
    cases he'
    exact absurd hw' hw

/-- C40 is false as stated: when it takes that path, the first event of a new brush returns FALSE. -/
theorem first_event_returns_false {e : Env K R σ} {fuel : Nat} {b : Brush K R} {surf : σ} {m : Motion K}
    {ev : Event K} {r : Bool × Brush K R × σ} (hb : b.resetRequested = true) (ht : b.total = 0) (hi : b.idle = 0)
    (he : sanitise e m = .ok ev) (h1 : ev.dtime > 1 / 10) (h2 : ev.pressure ≠ 0) (h3 : b.st.pressure = 0)
    (h : strokeTo e fuel b surf m = .ok r) : r.1 = false := by
  obtain ⟨ev', he', ⟨hw, -⟩ | ⟨-, inner, r1, -, hr1, h⟩⟩ := strokeTo_cases h
  · rw [he] at he'; cases he'
    exact absurd ⟨h1, h2, h3⟩ hw
  · rw [he] at he'; cases he'
    obtain ⟨-, hs, b', ho, hb'⟩ := strokeEvent_reset hb hr1
    obtain ⟨bk, -, e1⟩ := startOver_eq ho
    have c : (cursor e (skipStage e b inner.x inner.y inner.dtime).1 inner.x inner.y
        (skipStage e b inner.x inner.y inner.dtime).2.1).2.2.total = 0 ∧
        (cursor e (skipStage e b inner.x inner.y inner.dtime).1 inner.x inner.y
        (skipStage e b inner.x inner.y inner.dtime).2.1).2.2.idle = 0 := by
      rw [cursor_eq, skipStage_eq]; exact ⟨ht, hi⟩
    have t1 : r1.2.1.total = 0 := by rw [hb', e1]; exact c.1
    have i1 : r1.2.1.idle = 0 := by rw [hb', e1]; exact c.2
    have k1 : r1.2.1.skip = 0 := by rw [hb', e1]
    have q1 : r1.2.1.resetRequested = false := by rw [hb', e1]
    have sk : skipStage e r1.2.1 ev.x ev.y (1 / 10000) = (r1.2.1, 1 / 10000, false) := by
      unfold skipStage
      rw [k1, if_neg (by norm_num)]
    rcases strokeEvent_cases h with ⟨-, h⟩ | ⟨-, hc, -⟩ | ⟨-, -, h⟩
    · rw [h]
    · exfalso
      simp only [sk, q1] at hc
      rcases hc with hc | hc
      · norm_num at hc
      · cases hc
    · simp only [sk] at h
      have st : (cursor e r1.2.1 ev.x ev.y (1 / 10000)).2.2.st = r1.2.1.st := by rw [cursor_st]
      have tt : (cursor e r1.2.1 ev.x ev.y (1 / 10000)).2.2.total = 0 := by rw [cursor_eq]; exact t1
      have ii : (cursor e r1.2.1 ev.x ev.y (1 / 10000)).2.2.idle = 0 := by rw [cursor_eq]; exact i1
      obtain ⟨-, b2, dp, hr, et, ei⟩ := moveTo_no_rates (by rw [st, hb', e1]; rfl) (by rw [st, hb', e1]; rfl)
        (by rw [st, hb', e1]; rfl) (by rw [st, hb', e1]; rfl) h
      rw [hr]
      rw [tt] at et
      rw [ii] at ei
      unfold splitStroke
      simp only [et, ei, or_true, if_true, reduceCtorEq, if_false, zero_add]
      norm_num

/-- The second event draws nothing either, however far it moves: until the end of that movement the dab rates
are zero, so that the first segment of every stroke is missing. (Both events not on the path of line 1346.) -/
theorem second_event_draws_nothing {e : Env K R σ} {fuel : Nat} {b : Brush K R} {surf : σ} {m₁ m₂ : Motion K}
    {ev₁ ev₂ : Event K} {r₁ r₂ : Bool × Brush K R × σ} (hb : b.resetRequested = true)
    (he₁ : sanitise e m₁ = .ok ev₁) (he₂ : sanitise e m₂ = .ok ev₂) (hw₁ : ¬ Workaround b ev₁)
    (h₁ : strokeTo e fuel b surf m₁ = .ok r₁) (hw₂ : ¬ Workaround r₁.2.1 ev₂)
    (h₂ : strokeTo e fuel r₁.2.1 r₁.2.2 m₂ = .ok r₂) : r₂.2.2 = surf := by
  have hs := first_event_draws_nothing hb h₁
  obtain ⟨ev', he', ⟨-, h₁⟩ | ⟨hw', -⟩⟩ := strokeTo_cases h₁
  · obtain ⟨-, -, b', ho, hb'⟩ := strokeEvent_reset hb h₁
    obtain ⟨bk, -, e1⟩ := startOver_eq ho
    obtain ⟨ev'', he'', ⟨-, h₂⟩ | ⟨hw'', -⟩⟩ := strokeTo_cases h₂
    · rw [he₂] at he''; cases he''
      rcases strokeEvent_cases h₂ with ⟨-, h⟩ | ⟨-, -, b2, -, h⟩ | ⟨-, -, h⟩
      · rw [h]; exact hs
      · rw [h]; exact hs
      · generalize (skipStage e r₁.2.1 ev₂.x ev₂.y ev₂.dtime).2.1 = dt at h
        have st : (cursor e (skipStage e r₁.2.1 ev₂.x ev₂.y ev₂.dtime).1 ev₂.x ev₂.y dt).2.2.st = r₁.2.1.st := by
          rw [cursor_st, skipStage_st]
        have k := moveTo_no_rates (by rw [st, hb', e1]; rfl) (by rw [st, hb', e1]; rfl)
          (by rw [st, hb', e1]; rfl) (by rw [st, hb', e1]; rfl) h
        rw [k.1]; exact hs
    · rw [he₂] at he''; cases he''
      exact absurd hw'' hw₂
  · rw [he₁] at he'; cases he'
    exact absurd hw' hw₁

/-! ### What a reset leaves -/

omit [IsStrictOrderedRing K] in
/-- C39 for the states: for a brush without slow tracking and tracking noise, the state after the first event does
not depend on what the brush did before. (The path for tablets without motion events is left out.) -/
theorem reset_forgets_states_partial {e : Env K R σ} {fuel : Nat} {b₁ b₂ : Brush K R} {s₁ s₂ : σ} {m : Motion K}
    {ev : Event K} {r₁ r₂ : Bool × Brush K R × σ} (hb₁ : b₁.resetRequested = true) (hb₂ : b₂.resetRequested = true)
    (hset : b₁.settings = b₂.settings) (ht : (b₁.settings sSlowTracking).base ≤ 1 / 1000)
    (hn : (b₁.settings sTrackingNoise).base = 0) (he : sanitise e m = .ok ev) (hw₁ : ¬ Workaround b₁ ev)
    (hw₂ : ¬ Workaround b₂ ev) (h₁ : strokeTo e fuel b₁ s₁ m = .ok r₁) (h₂ : strokeTo e fuel b₂ s₂ m = .ok r₂) :
    r₁.2.1.st = r₂.2.1.st ∧ r₁.2.1.skip = 0 ∧ r₂.2.1.skip = 0 ∧
      r₁.2.1.st.x = ev.x ∧ r₁.2.1.st.y = ev.y ∧ r₁.2.1.st.pressure = ev.pressure := by
  have key : ∀ {b : Brush K R} {s : σ} {r : Bool × Brush K R × σ}, b.resetRequested = true → ¬ Workaround b ev →
      (b.settings sSlowTracking).base ≤ 1 / 1000 → (b.settings sTrackingNoise).base = 0 →
      strokeTo e fuel b s m = .ok r →
      r.2.1.skip = 0 ∧ r.2.1.st = { State.cleared with
        x := ev.x, y := ev.y, pressure := ev.pressure, actualX := ev.x, actualY := ev.y, stroke := 1 } := by
    intro b s r hb hw ht hn h
    obtain ⟨ev', he', ⟨-, h⟩ | ⟨hw', -⟩⟩ := strokeTo_cases h
    · rw [he] at he'; cases he'
      obtain ⟨-, -, b', ho, hr⟩ := strokeEvent_reset hb h
      obtain ⟨bk, -, e1⟩ := startOver_eq ho
      have hx : ∀ dt, (cursor e (skipStage e b ev.x ev.y ev.dtime).1 ev.x ev.y dt).1 = ev.x ∧
          (cursor e (skipStage e b ev.x ev.y ev.dtime).1 ev.x ev.y dt).2.1 = ev.y := by
        intro dt
        have b1 : (skipStage e b ev.x ev.y ev.dtime).1.baseval sTrackingNoise = 0 := by
          unfold Brush.baseval; rw [skipStage_eq]; exact hn
        have b2 : (skipStage e b ev.x ev.y ev.dtime).1.baseval sSlowTracking ≤ 1 / 1000 := by
          unfold Brush.baseval; rw [skipStage_eq]; exact ht
        unfold cursor
        dsimp only
        rw [b1]
        unfold expDecay
        rw [if_pos b2, if_neg (by simp)]
        unfold approach
        constructor <;> (simp only; ring)
      rw [hr, e1]
      rw [(hx _).1, (hx _).2]
      exact ⟨rfl, rfl⟩
    · rw [he] at he'; cases he'
      exact absurd hw' hw
  obtain ⟨k1, k1'⟩ := key hb₁ hw₁ ht hn h₁
  obtain ⟨k2, k2'⟩ := key hb₂ hw₂ (hset ▸ ht) (hset ▸ hn) h₂
  rw [k1', k2']
  exact ⟨rfl, k1, k2, rfl, rfl, rfl⟩

/-- C39 is false with slow tracking: the brush starts over at a point between its old position and the new one,
and not at the new one. -/
theorem reset_remembers_position {e : Env K R σ} {fuel : Nat} {b : Brush K R} {surf : σ} {m : Motion K} {ev : Event K}
    {r : Bool × Brush K R × σ} (hexp : ∀ t, 0 < e.exp t) (hb : b.resetRequested = true)
    (ht : (b.settings sSlowTracking).base > 1 / 1000) (hn : (b.settings sTrackingNoise).base = 0)
    (he : sanitise e m = .ok ev) (hw : ¬ Workaround b ev) (hx : b.st.x ≠ ev.x) (h : strokeTo e fuel b surf m = .ok r) :
    r.2.1.st.x ≠ ev.x := by
  obtain ⟨ev', he', ⟨-, h⟩ | ⟨hw', -⟩⟩ := strokeTo_cases h
  · rw [he] at he'; cases he'
    obtain ⟨-, -, b', ho, hr⟩ := strokeEvent_reset hb h
    obtain ⟨bk, -, e1⟩ := startOver_eq ho
    rw [hr, e1]
    simp only
    generalize (skipStage e b ev.x ev.y ev.dtime).2.1 = dt
    have b1 : (skipStage e b ev.x ev.y ev.dtime).1.baseval sTrackingNoise = 0 := by
      unfold Brush.baseval; rw [skipStage_eq]; exact hn
    have b2 : ¬ (skipStage e b ev.x ev.y ev.dtime).1.baseval sSlowTracking ≤ 1 / 1000 := by
      unfold Brush.baseval; rw [skipStage_eq]; exact not_le.mpr ht
    have hst := skipStage_st e b ev.x ev.y ev.dtime
    unfold cursor
    dsimp only
    rw [b1, if_neg (by simp), hst]
    unfold expDecay
    rw [if_neg b2]
    have hp := hexp (-(100 * dt) / (skipStage e b ev.x ev.y ev.dtime).1.baseval sSlowTracking)
    generalize e.exp (-(100 * dt) / (skipStage e b ev.x ev.y ev.dtime).1.baseval sSlowTracking) = q at hp
    unfold approach
    intro hq
    have : q * (b.st.x - ev.x) = 0 := by linear_combination hq
    rcases mul_eq_zero.mp this with h0 | h0
    · exact hp.ne' h0
    · exact hx (sub_eq_zero.mp h0)
  · rw [he] at he'; cases he'
    exact absurd hw' hw

/-! ### Examples -/

section examples
open Demo

/-- Three events: the first and the second draw nothing, the third draws six dabs and leaves 2/3 of a dab. -/
example : look (fun r => (r.1.st.x, r.1.st.partialDabs, r.2.length))
    (strokes env 100 brush [] [motion 0 0 1 (1 / 10)]) = some (0, 0, 0) := by decide +kernel
example : look (fun r => (r.1.st.x, r.1.st.partialDabs, r.2.length))
    (strokes env 100 brush [] [motion 0 0 1 (1 / 10), motion 6 8 1 (1 / 10)]) = some (6, 0, 0) := by decide +kernel
example : look (fun r => (r.1.st.x, r.1.st.partialDabs, r.2.length))
    (strokes env 100 brush [] [motion 0 0 1 (1 / 10), motion 6 8 1 (1 / 10), motion 12 16 1 (1 / 10)]) =
    some (12, 2 / 3, 6) := by decide +kernel

/-- The first event returns TRUE, or FALSE after more than a tenth of a second. -/
example : look (fun r => (r.1, r.2.2.length)) (strokeTo env 100 brush [] (motion 3 4 1 (1 / 10))) =
    some (true, 0) := by decide +kernel
example : look (fun r => (r.1, r.2.2.length)) (strokeTo env 100 brush [] (motion 3 4 1 (1 / 5))) =
    some (false, 0) := by decide +kernel

/-- A brush that was somewhere else with another pressure starts over in the same state as a new one. -/
example : (look (fun r => (r.2.1.st.x, r.2.1.st.pressure, r.2.1.st.customInput))
      (strokeTo env 100 { brush with st := { brush.st with x := 70, pressure := 1 / 3, customInput := 4 } } []
        (motion 3 4 1 (1 / 10)))) = some (3, 1, 0) ∧
    (look (fun r => (r.2.1.st.x, r.2.1.st.pressure, r.2.1.st.customInput))
      (strokeTo env 100 brush [] (motion 3 4 1 (1 / 10)))) = some (3, 1, 0) := by decide +kernel

/-- With slow tracking it does not: it starts between the old position and the event. -/
example : ((Demo.set brush sSlowTracking 10).settings sSlowTracking).base > 1 / 1000 ∧
    (look (fun r => r.2.1.st.x)
      (strokeTo env 100 { Demo.set brush sSlowTracking 10 with st := { brush.st with x := 70 } } []
        (motion 3 4 1 (1 / 10)))) = some (73 / 2) := by decide +kernel

end examples

end Verif.Engine
