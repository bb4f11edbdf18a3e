import Verif.Props.C63_Scatter

/-!
# C44, continued: brushes that sample the canvas

A smudging brush converts the position of the dab to an integer. A brush that scatters by a bounded amount stays near the
pen, so that this is always possible. With an offset by speed it is not.
-/

namespace Verif.Engine
open Verif.Mask Verif.Color Verif.Spectral Verif.Map

section
variable {K R σ : Type} [Field K] [LinearOrder K] [IsStrictOrderedRing K] [FloorRing K]

theorem toInt_near {v : K} (h : |v| ≤ 2 * 10 ^ 9) : ∃ n, Dab.toInt v = .ok n := by
  obtain ⟨h1, h2⟩ := abs_le.mp h
  have a1 : (-2000000000 : Int) ≤ ⌊v⌋ := Int.le_floor.mpr (by push_cast; linarith)
  have a2 : ⌈v⌉ ≤ (2000000000 : Int) := Int.ceil_le.mpr (by push_cast; linarith)
  have a3 : ⌊v⌋ ≤ ⌈v⌉ := Int.floor_le_ceil v
  unfold Dab.toInt
  dsimp only
  rw [if_pos]
  · exact ⟨_, rfl⟩
  · unfold intMin intMax
    split_ifs <;> constructor <;> omega

omit [IsStrictOrderedRing K] [FloorRing K] in
theorem rd_fault {l : List K} {i : Int} {g : Fault} (h : Rng.rd l i = .error g) : g = .outOfBounds := by
  unfold Rng.rd at h
  split_ifs at h
  · cases h; rfl
  · split at h <;> cases h
    rfl

omit [IsStrictOrderedRing K] [FloorRing K] in
theorem wr_fault {l : List K} {i : Int} {v : K} {g : Fault} (h : Rng.wr l i v = .error g) : g = .outOfBounds := by
  unfold Rng.wr at h
  split_ifs at h <;> (cases h; rfl)

omit [IsStrictOrderedRing K] [FloorRing K] in
theorem readBucket_fault {l : List K} {o : Int} {g : Fault} (h : readBucket l o = .error g) : g = .outOfBounds := by
  unfold readBucket at h
  repeat' (rcases bind_error h with h | ⟨_, -, h⟩; · exact rd_fault h)
  cases h

omit [IsStrictOrderedRing K] [FloorRing K] in
theorem writeBucket_fault {l : List K} {o : Int} {v : Bucket K} {g : Fault} (h : writeBucket l o v = .error g) :
    g = .outOfBounds := by
  unfold writeBucket at h
  repeat' (rcases bind_error h with h | ⟨_, -, h⟩; · exact wr_fault h)
  exact wr_fault h

/-- Near the origin the position can be converted. -/
theorem smudgeStage_converts {e : Env K R σ} {b : Brush K R} {surf : σ} {x y r : K} (hx : |x + 1 / 2| ≤ 2 * 10 ^ 9)
    (hy : |y + 1 / 2| ≤ 2 * 10 ^ 9) : smudgeStage e b surf x y r ≠ .error .floatConv := by
  intro h
  obtain ⟨px, hpx⟩ := toInt_near hx
  obtain ⟨py, hpy⟩ := toInt_near hy
  unfold smudgeStage at h
  split_ifs at h
  · dsimp only at h
    rcases bind_error h with h | ⟨v, -, h⟩
    · unfold loadSmudge at h
      split at h
      · cases h
      · exact absurd (readBucket_fault h) (by decide)
    · rw [ok_bind hpx, ok_bind hpy] at h
      rcases bind_error h with h | ⟨v, -, h⟩
      · unfold storeSmudge at h
        split at h
        · cases h
        · rcases bind_error h with h | ⟨v, -, h⟩
          · exact absurd (writeBucket_fault h) (by decide)
          · cases h
      · cases h
  · cases h

theorem smudgeColor_noConv {e : Env K R σ} {b : Brush K R} {c : Rgb K} : smudgeColor e b c ≠ .error .floatConv := by
  intro h
  unfold smudgeColor at h
  split_ifs at h
  · dsimp only at h
    rcases bind_error h with h | ⟨v, -, h⟩
    · unfold loadSmudge at h
      split at h
      · cases h
      · exact absurd (readBucket_fault h) (by decide)
    · cases h
  · cases h

theorem drawDab_converts {e : Env K R σ} {b : Brush K R} {surf : σ} {lin : Bool}
    (hp : ∀ pos, dabPosition e b = .ok pos → |pos.1 + 1 / 2| ≤ 2 * 10 ^ 9 ∧ |pos.2.1 + 1 / 2| ≤ 2 * 10 ^ 9) :
    drawDab e b surf lin ≠ .error .floatConv := by
  intro h
  unfold drawDab at h
  rcases bind_error h with h | ⟨o, -, h⟩
  · exact absurd (dabOpacity_safe.error h).1 (by decide)
  · rcases bind_error h with h | ⟨pos, hpos, h⟩
    · unfold dabPosition at h
      dsimp only at h
      by_cases q : b.vals sOffsetBySpeed ≠ 0 ∧ b.st.viewzoom = 0
      · rw [if_pos q] at h; cases h
      · rw [if_neg q] at h
        by_cases q2 : b.vals sOffsetByRandom ≠ 0
        · rw [if_pos q2] at h; cases h
        · rw [if_neg q2] at h; cases h
    · dsimp only at h
      rcases bind_error h with h | ⟨sm, -, h⟩
      · exact smudgeStage_converts (hp _ hpos).1 (hp _ hpos).2 h
      · by_cases q : sm.1 = true
        · rw [if_pos q] at h; cases h
        · rw [if_neg q] at h
          rcases bind_error h with h | ⟨col, -, h⟩
          · exact smudgeColor_noConv h
          · cases h

/-- Where the checks of an event let the pen be. -/
def Desk (x y : K) : Prop := |x| < 10 ^ 8 ∧ |y| < 10 ^ 8

omit [FloorRing K] in
theorem desk_convex : Convex (Desk : K → K → Prop) := by
  have key : ∀ {u v t : K}, |u| < 10 ^ 8 → |v| < 10 ^ 8 → 0 ≤ t → t ≤ 1 → |u + (v - u) * t| < 10 ^ 8 := by
    intro u v t hu hv t0 t1
    obtain ⟨u1, u2⟩ := abs_lt.mp hu
    obtain ⟨v1, v2⟩ := abs_lt.mp hv
    have e : u + (v - u) * t = u * (1 - t) + v * t := by ring
    rw [e, abs_lt]
    rcases t0.eq_or_lt with rfl | t0
    · constructor <;> simp <;> linarith
    · constructor <;> nlinarith
  rintro x y x' y' t ⟨h1, h2⟩ ⟨h3, h4⟩ t0 t1
  exact ⟨key h1 h3 t0 t1, key h2 h4 t0 t1⟩

theorem desk_converts {e : Env K R σ} {b : Brush K R} {i : Nat → K} {N B : K} (hNB : N + B ≤ 10 ^ 8)
    (hv : b.vals = fun id => calculate (b.settings id) i) (hs : Scatter e b.settings N B) (hb : BrushIn (Widened Desk N) b)
    {pos : K × K × Brush K R} (h : dabPosition e b = .ok pos) :
    |pos.1 + 1 / 2| ≤ 2 * 10 ^ 9 ∧ |pos.2.1 + 1 / 2| ≤ 2 * 10 ^ 9 := by
  obtain ⟨qx, qy, ⟨px, py, ⟨h1, h2⟩, w1, w2⟩, h3, h4, -⟩ := dabPosition_around hv hs hb h
  have key : ∀ {u v w : K}, |w| < 10 ^ 8 → |v - w| ≤ N → |u - v| ≤ 3240 + B → |u + 1 / 2| ≤ 2 * 10 ^ 9 := by
    intro u v w hw hv hu
    obtain ⟨w1, w2⟩ := abs_lt.mp hw
    obtain ⟨v1, v2⟩ := abs_le.mp hv
    obtain ⟨u1, u2⟩ := abs_le.mp hu
    rw [abs_le]
    norm_num at *
    constructor <;> linarith
  exact ⟨key h1 w1 h3, key h2 w2 h4⟩

/-- C44: in a session with a brush that scatters by a bounded amount, no position is outside of the integers, whatever the
events. -/
theorem positions_convert {e : Env K R σ} (he : Decays e) {b : Brush K R} (hb : Underway b) {N B : K} (hNB : N + B ≤ 10 ^ 8)
    (hs : Scatter e b.settings N B) (h0 : BrushIn (Widened Desk N) b) {fuel : Nat} (surf : σ) (ms : List (Motion K)) :
    strokes e fuel b surf ms ≠ .error .floatConv :=
  session_noFault (around_invariant desk_convex e he N B) (by decide) (by decide) (by decide) (by decide)
    (fun b _ _ hj => drawDab_converts fun pos hpos => by
      obtain ⟨⟨hs, hb⟩, i, hv⟩ := hj
      exact desk_converts hNB (b := { b with st := { b.st with flip := b.st.flip * -1 } }) hv hs ⟨hb.1, hb.2⟩ hpos)
    (fun _ => True) (fun _ _ _ h => sanitise_bound h) (fun _ _ _ h => sanitise_bound h) (fun _ h => h) ms
    (fun _ _ => trivial) hb ⟨hs, h0⟩

theorem stays_on_desk {e : Env K R σ} (he : Decays e) {b : Brush K R} (hb : Underway b) {N B : K}
    (hs : Scatter e b.settings N B) (h0 : BrushIn (Widened Desk N) b) {fuel : Nat} {surf : σ} {ms : List (Motion K)}
    {r : Brush K R × σ} (h : strokes e fuel b surf ms = .ok r) : BrushIn (Widened Desk N) r.1 ∧ Underway r.1 := by
  have k := session_keeps (around_invariant desk_convex e he N B) (fun _ => True) (fun _ _ _ h => sanitise_bound h)
    (fun _ _ _ h => sanitise_bound h) (fun _ h => h) ms (fun _ _ => trivial) hb ⟨hs, h0⟩ h
  exact ⟨k.1.2, k.2⟩

/-- C44, second half, for brushes that sample the canvas: with bounded dynamics and bounded scattering they survive every
session of events with sensible coordinates. -/
theorem smudging_session_survives {e : Env K R σ} (L : Laws e) (he : Decays e) {b : Brush K R} {M ρ : K}
    (hd : BoundedDynamics b.settings M ρ) (hb : Ready b M ρ) {N B : K} (hNB : N + B ≤ 10 ^ 8) (hs : Scatter e b.settings N B)
    (h0 : BrushIn (Widened Desk N) b)
    (hl : 0 ≤ (b.settings sOpaqueLinearize).base) (surf : σ) (ms : List (Motion K))
    (h : ∀ m ∈ ms, m.x.Sensible ∧ m.y.Sensible ∧ m.xtilt ≠ .nan ∧ m.ytilt ≠ .nan ∧ 0 < m.viewzoom) :
    ∃ n, ∀ k, n ≤ k → ∃ r, strokes e k b surf ms = .ok r := by
  induction ms generalizing b surf with
  | nil => exact ⟨0, fun k _ => ⟨_, rfl⟩⟩
  | cons m ms ih =>
    obtain ⟨q1, q2, q3, q4, q5⟩ := h m (List.mem_cons_self ..)
    have hu : Underway b := ⟨hb.pending, hb.skipped⟩
    obtain ⟨n0, hn, h0'⟩ := stroke_to_terminates L hd hb surf m
    have no : ∀ {g : Flt K}, g.Sensible → ¬ g.Absurd := by
      intro g hg ha
      cases g with
      | fin v =>
        have a1 : |v| < (10 : K) ^ 8 := hg
        have a2 : (10 : K) ^ 10 < |v| := ha
        have : (10 : K) ^ 8 < 10 ^ 10 := by norm_num
        linarith
      | posInf => exact hg
      | negInf => exact hg
      | nan => exact hg
    obtain ⟨r, hr⟩ : ∃ r, strokeTo e n0 b surf m = .ok r := by
      cases hr : strokeTo e n0 b surf m with
      | ok r => exact ⟨r, rfl⟩
      | error f =>
        rcases acceptable_event_faults_partial ⟨q3, q4, .inr ⟨q1, q2⟩⟩ hb.buckets hb.pending hr with
          q | q | ⟨-, q | q | q | q⟩
        · rw [q] at hr; exact (hn hr).elim
        · refine (positions_convert he hu hNB hs h0 (fuel := n0) surf [m] ?_).elim
          show (strokeTo e n0 b surf m >>= _) = _
          rw [hr, q.1]
          rfl
        · exact absurd hl (not_le.mpr q)
        · exact absurd q5 (not_lt.mpr q)
        · exact (no q1 q).elim
        · exact (no q2 q).elim
    obtain ⟨rb, rs⟩ := strokeTo_ready hd hb hr
    have k := stays_on_desk he hu hs h0 (fuel := n0) (surf := surf) (ms := [m]) (r := (r.2.1, r.2.2)) (by
      show (strokeTo e n0 b surf m >>= _) = _
      rw [ok_bind hr]
      rfl)
    obtain ⟨n2, h2⟩ := ih (rs ▸ hd) rb (rs ▸ hs) k.1 (rs ▸ hl) r.2.2 (fun m hm => h m (List.mem_cons_of_mem _ hm))
    refine ⟨max n0 n2, fun k hk => ?_⟩
    obtain ⟨r', hr'⟩ := h2 k (le_trans (le_max_right _ _) hk)
    refine ⟨r', ?_⟩
    have e0 : strokeTo e k b surf m = .ok r := by
      rw [h0' k (le_trans (le_max_left _ _) hk), hr]
    show (strokeTo e k b surf m >>= _) = _
    rw [ok_bind e0]
    exact hr'

end

/-! ### A smudging brush with the real functions -/

section real

/-- A brush without dynamics. -/
noncomputable def plainBrush (v : Nat → ℝ) : Brush ℝ Unit where
  total := 0
  idle := 0
  st := State.cleared
  buckets := ⟨[], 0, 0, 0⟩
  random := 0
  skip := 0
  skipX := 0
  skipY := 0
  skippedTime := 0
  rng := ()
  settings := fun id => { base := v id, inputs := 18, pts := fun _ => ⟨fun _ => 0, fun _ => 0, 0⟩, used := 0 }
  vals := fun _ => 0
  resetRequested := true
  mix := ⟨0, 0, 0, 0⟩

theorem plainBrush_value (v : Nat → ℝ) (id : Nat) (i : Nat → ℝ) : calculate ((plainBrush v).settings id) i = v id := by
  unfold calculate plainBrush
  simp

noncomputable def smudgeValues (id : Nat) : ℝ :=
  if id = sSmudge then 1 / 2 else if id = sOpaque then 1 else if id = sOpaqueMultiply then 1 else
  if id = sDabsPerActualRadius then 2 else if id = sEllipticalDabRatio then 1 else 0

/-- It samples the canvas with every dab, and there is a canvas. -/
example : ¬ NeverSamples (plainBrush smudgeValues).settings := by
  intro h
  refine h (fun _ => 0) ⟨?_, .inl ?_⟩
  · rw [plainBrush_value]; norm_num [smudgeValues]
  · rw [plainBrush_value]; norm_num [smudgeValues]

noncomputable abbrev canvasEnv : Env ℝ Unit (List (Dab.Args ℝ)) :=
  realEnv (fun _ => (0, ())) (fun _ => (0, ())) (fun s a => (true, s ++ [a])) (fun s _ _ _ _ => (⟨1, 0, 0, 1⟩, s))

example (ms : List (Motion ℝ))
    (h : ∀ m ∈ ms, m.x.Sensible ∧ m.y.Sensible ∧ m.xtilt ≠ .nan ∧ m.ytilt ≠ .nan ∧ 0 < m.viewzoom) :
    ∃ n, ∀ k, n ≤ k → ∃ r, strokes canvasEnv k (plainBrush smudgeValues) [] ms = .ok r := by
  refine smudging_session_survives (M := 2) (ρ := 1) (realEnv_laws _ _ _ _ (fun _ => ⟨le_refl _, one_pos⟩))
    (realEnv_decays _ _ _ _) ⟨by norm_num, le_refl _, ?_, ?_, ?_, ?_⟩ ⟨?_, ?_, ?_, le_refl _⟩
    (N := 0) (B := 0) (by norm_num) (NoScatter.scatter ⟨?_, ?_, ?_⟩) ⟨widened_self (le_refl _) ?_, widened_self (le_refl _) ?_⟩ ?_ [] ms h
  all_goals try intro i; rw [plainBrush_value]; norm_num [smudgeValues]
  · exact ⟨le_refl _, zero_lt_one⟩
  · exact ⟨le_refl _, rfl, .inl rfl⟩
  · exact ⟨by norm_num [plainBrush, State.cleared], by norm_num [plainBrush, State.cleared],
      by norm_num [plainBrush, State.cleared], by norm_num [plainBrush, State.cleared], .inl rfl⟩
  · norm_num [plainBrush, smudgeValues]
  · norm_num [plainBrush, State.cleared, Desk]
  · norm_num [plainBrush, State.cleared, Desk]
  · norm_num [plainBrush, smudgeValues]

end real

/-! ### An offset by speed leaves the integers -/

/-- Smudging, with an offset by speed, and one dab for every millisecond. -/
def demoFast : Brush ℚ Nat :=
  Demo.set (Demo.set (Demo.set (Demo.set (Demo.set (Demo.set Demo.brush sSmudge (1 / 2)) sOffsetBySpeed 3)
    sOffsetBySpeedSlowness 0) sDabsPerSecond 1000) sDabsPerActualRadius 0) sDabsPerBasicRadius 0

/-- The pen jumps over thirty million pixels within a millisecond, as it does after a glitch of the driver. -/
def demoGlitch : List (Motion ℚ) :=
  [Demo.motion 0 0 (1 / 2) (1 / 10), Demo.motion 1 0 (1 / 2) (1 / 1000), Demo.motion (3 * 10 ^ 7) 0 (1 / 2) (1 / 1000)]

/-- C44, negation: with an offset by speed, events with sensible coordinates make the program convert a position outside
of the integers, which is undefined behaviour. -/
theorem offset_by_speed_overflows : (∀ m ∈ demoGlitch, m.x.Sensible ∧ m.y.Sensible ∧ 0 < m.viewzoom) ∧
    (match strokes Demo.env 100 demoFast [] demoGlitch with | .ok _ => none | .error f => some f) = some .floatConv := by
  refine ⟨?_, by decide +kernel⟩
  intro m hm
  simp only [demoGlitch, List.mem_cons, List.not_mem_nil, or_false] at hm
  rcases hm with rfl | rfl | rfl <;> simp only [Demo.motion, Flt.Sensible] <;> norm_num [abs_of_pos]

end Verif.Engine
