import Verif.Lemmas.EngineSafe

/-!
# C43: every event ends, at its target

With bounded dynamics the loop that draws the dabs ends, within as many turns as dabs can become due on the way
and in the time of the event, and the brush is then at the target. Without the bound it need not end: a brush whose
dab rate feeds on itself through the custom input never comes back.
-/

namespace Verif.Engine
open Verif.Mask Verif.Color Verif.Spectral Verif.Map

variable {K R σ : Type} [Field K] [LinearOrder K] [FloorRing K] [IsStrictOrderedRing K]

/-- What holds of a brush between events. -/
structure Ready (b : Brush K R) (M ρ : K) : Prop where
  pending : PendingOk b
  buckets : Valid b.buckets
  state : BoundedState b.st M ρ
  skipped : 0 ≤ b.skippedTime

theorem moveTo_fuel {e : Env K R σ} (L : Laws e) {b : Brush K R} {M ρ : K} (hd : BoundedDynamics b.settings M ρ)
    (hs : BoundedState b.st M ρ) (hp : PendingOk b) (hv : Valid b.buckets) (surf : σ) (ev : Event K) (x y : K) {dt : K}
    (hdt : 0 ≤ dt) {fuel : Nat}
    (hf : b.st.partialDabs + potential M ρ (hypot e (x - b.st.x) (y - b.st.y)) dt < fuel + 1) :
    moveTo e fuel b surf ev x y dt ≠ .error .outOfFuel := by
  have cst := countDabs_st e b x y dt
  have h1 := dabLoop_fuel L hd (ev := ev) (x := x) (y := y)
    (fun l : Loop K R σ => Valid l.b.buckets ∧ l.b.settings = b.settings) (by
      intro l l' hl hst
      obtain ⟨hz, -⟩ := dabStep_eq hst
      have k := (dabStep_safe (e := e) (ev := ev) (x := x) (y := y) hl.1 hz).ok hst
      exact ⟨k.1, by rw [k.2, hl.2]⟩) (by
      intro l hl hk hc he
      have hz : l.todo ≠ 0 := by
        intro hz; rw [hz] at hc; have := hk.moved1; linarith
      rcases (dabStep_safe (e := e) (ev := ev) (x := x) (y := y) hl.1 hz).error he with h | h
      · cases h.1
      · cases h.1) fuel
    { b := (countDabs e b x y dt).2, surf := surf, moved := b.st.partialDabs
      todo := (countDabs e b x y dt).1, dtimeLeft := dt, painted := .unknown }
    (by rw [cst]; exact ⟨hv, rfl⟩)
    ⟨by simp only [cst], hp.1, hp.2, countDabs_nonneg _ _ _ _ _, hdt, (countDabs_bounded hs x y dt).1, by
      have k := countDabs_le L hd.nonneg hd.one_le hs x y hdt
      simp only
      rw [show (countDabs e b x y dt).2.st.x = b.st.x by rw [cst],
        show (countDabs e b x y dt).2.st.y = b.st.y by rw [cst]]
      exact k⟩ (by
      unfold remaining
      simp only
      rw [show (countDabs e b x y dt).2.st.x = b.st.x by rw [cst],
        show (countDabs e b x y dt).2.st.y = b.st.y by rw [cst]]
      exact hf)
  intro h
  unfold moveTo at h
  dsimp only at h
  rcases bind_error h with h | ⟨l, -, h⟩
  · exact h1 h
  · rcases bind_error h with h | ⟨b1, -, h⟩
    · have := (update_safe _ _).error h
      cases this.1
    · cases h

/-- More fuel than needed changes nothing. -/
theorem moveTo_mono {e : Env K R σ} {b : Brush K R} {surf : σ} {ev : Event K} {x y dt : K} {n m : Nat} (hnm : n ≤ m)
    (h : moveTo e n b surf ev x y dt ≠ .error .outOfFuel) :
    moveTo e m b surf ev x y dt = moveTo e n b surf ev x y dt := by
  have k := dabLoop_mono (e := e) (ev := ev) (x := x) (y := y) n m
    { b := (countDabs e b x y dt).2, surf := surf, moved := b.st.partialDabs
      todo := (countDabs e b x y dt).1, dtimeLeft := dt, painted := .unknown } hnm (by
      intro he
      apply h
      unfold moveTo
      dsimp only
      rw [he]; rfl)
  unfold moveTo
  dsimp only
  rw [k]

/-- What an event keeps. -/
theorem strokeEvent_ready {e : Env K R σ} {fuel : Nat} {b : Brush K R} {surf : σ} {ev : Event K} {M ρ : K}
    (hd : BoundedDynamics b.settings M ρ) (hb : Ready b M ρ) (hdt : 0 ≤ ev.dtime) {r : Bool × Brush K R × σ}
    (h : strokeEvent e fuel b surf ev = .ok r) : Ready r.2.1 M ρ ∧ r.2.1.settings = b.settings := by
  have k := (strokeEvent_safe (e := e) (fuel := fuel) (surf := surf) (ev := ev) hb.buckets hb.pending).ok h
  refine ⟨⟨strokeEvent_pending h hb.pending, k.1, ?_, (strokeEvent_total hb.skipped hdt h).2⟩, k.2⟩
  rcases strokeEvent_cases h with ⟨-, h⟩ | ⟨-, -, b', h1, h⟩ | ⟨-, -, h⟩
  · rw [h]; simp only; rw [skipStage_st]; exact hb.state
  · obtain ⟨bk, -, e1⟩ := startOver_eq h1
    rw [h, e1]
    have := hd.nonneg
    exact ⟨hd.nonneg, hd.nonneg, hd.nonneg, le_trans zero_le_one hd.one_le, .inl rfl⟩
  · obtain ⟨l, b1, hl, hu, -, h2, -⟩ := moveTo_eq h
    rw [h2, splitStroke_eq]
    have hls : l.b.settings = b.settings := by
      have ks := dabLoop_induct (fun l : Loop K R σ => l.b.settings = b.settings)
        (fun l l' _ hst hp => by rw [(dabStep_xy hst).2.2, hp]) _ _ _ hl (by
          simp only
          rw [countDabs_st]
          show (cursor e _ _ _ _).2.2.settings = _
          rw [cursor_eq, skipStage_eq])
      exact ks.1
    have k := update_bounded (M := M) (ρ := ρ) (by rw [hls]; exact hd) hu
    exact ⟨k.actual, k.basic, k.second, k.ratio, k.radius⟩

omit [FloorRing K] in
theorem skipStage_time {e : Env K R σ} {b : Brush K R} {x y dt : K} (hs : 0 ≤ b.skippedTime) (hd : 0 ≤ dt) :
    0 ≤ (skipStage e b x y dt).2.1 := by
  unfold skipStage
  dsimp only
  split_ifs
  · exact add_nonneg hs hd
  · exact add_nonneg hs hd
  · exact hd

/-- An event after the checks ends. -/
theorem strokeEvent_terminates {e : Env K R σ} (L : Laws e) {b : Brush K R} {M ρ : K}
    (hd : BoundedDynamics b.settings M ρ) (hb : Ready b M ρ) (surf : σ) {ev : Event K} (hdt : 0 ≤ ev.dtime) :
    ∃ n, strokeEvent e n b surf ev ≠ .error .outOfFuel ∧
      ∀ m, n ≤ m → strokeEvent e m b surf ev = strokeEvent e n b surf ev := by
  set s := skipStage e b ev.x ev.y ev.dtime with hs
  set c := cursor e s.1 ev.x ev.y s.2.1 with hc
  have cu : c.2.2 = { b with
      skip := c.2.2.skip, skipX := c.2.2.skipX, skipY := c.2.2.skipY, rng := c.2.2.rng
      skippedTime := s.1.skippedTime } := by
    rw [hc, cursor_eq, hs, skipStage_eq]
  obtain ⟨n, hn⟩ := exists_nat_gt
    (c.2.2.st.partialDabs + potential M ρ (hypot e (c.1 - c.2.2.st.x) (c.2.1 - c.2.2.st.y)) s.2.1)
  have hm := moveTo_fuel L (b := c.2.2) (M := M) (ρ := ρ) (by rw [cu]; exact hd) (by rw [cu]; exact hb.state)
    (by unfold PendingOk; rw [cu]; exact hb.pending) (by rw [cu]; exact hb.buckets) surf ev c.1 c.2.1
    (dt := s.2.1) (skipStage_time (e := e) (x := ev.x) (y := ev.y) hb.skipped hdt) (fuel := n)
    (lt_trans hn (by linarith))
  refine ⟨n, ?_, ?_⟩
  · intro h
    unfold strokeEvent at h
    dsimp only at h
    rw [← hs, ← hc] at h
    split_ifs at h
    · cases h
    · unfold startOver at h
      rcases bind_error h with h | ⟨b1, -, h⟩
      · unfold brushReset at h
        rcases bind_error h with h | ⟨b1, h1, h⟩
        · rcases bind_error h with h | ⟨b2, h2, h⟩
          · obtain ⟨bk, hbk, -⟩ := resetBuckets_ok (b := c.2.2.buckets) (by rw [cu]; exact hb.buckets)
            rw [hbk] at h; cases h
          · cases h
        · cases h
      · cases h
    · exact hm h
  · intro m hnm
    unfold strokeEvent
    dsimp only
    rw [← hs, ← hc, moveTo_mono hnm hm]

/-- C43, first half: with bounded dynamics every event ends, after a number of turns that depends only on the brush and
the event; allowing more does not change the result. -/
theorem stroke_to_terminates {e : Env K R σ} (L : Laws e) {b : Brush K R} {M ρ : K}
    (hd : BoundedDynamics b.settings M ρ) (hb : Ready b M ρ) (surf : σ) (m : Motion K) :
    ∃ n, strokeTo e n b surf m ≠ .error .outOfFuel ∧ ∀ k, n ≤ k → strokeTo e k b surf m = strokeTo e n b surf m := by
  have noFuel : ∀ m : Motion K, sanitise e m ≠ .error .outOfFuel := by
    intro m h
    unfold sanitise at h
    rcases bind_error h with h | ⟨t, -, h⟩
    · unfold tilt at h
      have ct : ∀ f : Flt K, clampTilt f ≠ .error .outOfFuel := by
        intro f hf; cases f <;> cases hf
      split_ifs at h
      · rcases bind_error h with h | ⟨t, -, h⟩
        · exact ct _ h
        · rcases bind_error h with h | ⟨t, -, h⟩
          · exact ct _ h
          · cases h
      · cases h
    · dsimp only at h
      split at h
      · split_ifs at h <;> cases h
      · cases h
  cases he : sanitise e m with
  | error f =>
    refine ⟨0, ?_, ?_⟩
    · unfold strokeTo
      rw [he]
      intro h
      have : (.error f : Except Fault (Bool × Brush K R × σ)) = .error .outOfFuel := h
      cases this
      exact noFuel m he
    · intro k _
      unfold strokeTo
      rw [he]; rfl
  | ok ev =>
    have hev := (sanitise_pressure he).2.le
    by_cases hw : ev.dtime > 1 / 10 ∧ ev.pressure ≠ 0 ∧ b.st.pressure = 0
    · cases hi : sanitise e (workaroundMotion ev) with
      | error f =>
        refine ⟨0, ?_, ?_⟩
        · unfold strokeTo
          rw [ok_bind he, if_pos hw, hi]
          intro h
          have : (.error f : Except Fault (Bool × Brush K R × σ)) = .error .outOfFuel := h
          cases this
          exact noFuel _ hi
        · have unf : ∀ k, strokeTo e k b surf m = .error f := by
            intro k
            unfold strokeTo
            rw [ok_bind he, if_pos hw, hi]; rfl
          intro k _
          rw [unf, unf]
      | ok inner =>
        obtain ⟨n1, h1, h1'⟩ := strokeEvent_terminates L hd hb surf (sanitise_pressure hi).2.le
        have unf : ∀ k, strokeTo e k b surf m = (strokeEvent e k b surf inner >>= fun r =>
            strokeEvent e k r.2.1 r.2.2 { ev with dtime := 1 / 10000 }) := by
          intro k
          unfold strokeTo
          rw [ok_bind he, if_pos hw, ok_bind hi]
        cases hr : strokeEvent e n1 b surf inner with
        | error f =>
          refine ⟨n1, ?_, ?_⟩
          · rw [unf, hr]
            intro h
            have : (.error f : Except Fault (Bool × Brush K R × σ)) = .error .outOfFuel := h
            cases this
            exact h1 hr
          · intro k hk
            rw [unf, unf, h1' k hk, hr]; rfl
        | ok r =>
          obtain ⟨rb, rs⟩ := strokeEvent_ready hd hb (sanitise_pressure hi).2.le hr
          obtain ⟨n2, h2, h2'⟩ := strokeEvent_terminates L (rs ▸ hd) rb r.2.2 (ev := { ev with dtime := 1 / 10000 })
            (by simp only; norm_num)
          have step : ∀ k, n1 ≤ k → n2 ≤ k → strokeTo e k b surf m =
              strokeEvent e n2 r.2.1 r.2.2 { ev with dtime := 1 / 10000 } := by
            intro k k1 k2
            rw [unf, h1' k k1, ok_bind hr, h2' k k2]
          refine ⟨max n1 n2, ?_, ?_⟩
          · rw [step _ (le_max_left _ _) (le_max_right _ _)]; exact h2
          · intro k hk
            rw [step _ (le_max_left _ _) (le_max_right _ _), step k (le_trans (le_max_left _ _) hk)
              (le_trans (le_max_right _ _) hk)]
    · obtain ⟨n, h1, h2⟩ := strokeEvent_terminates L hd hb surf hev
      have unf : ∀ k, strokeTo e k b surf m = strokeEvent e k b surf ev := by
        intro k
        unfold strokeTo
        rw [ok_bind he, if_neg hw]
      exact ⟨n, by rw [unf]; exact h1, fun k hk => by rw [unf, unf]; exact h2 k hk⟩

theorem strokeTo_ready {e : Env K R σ} {fuel : Nat} {b : Brush K R} {surf : σ} {m : Motion K} {M ρ : K}
    (hd : BoundedDynamics b.settings M ρ) (hb : Ready b M ρ) {r : Bool × Brush K R × σ}
    (h : strokeTo e fuel b surf m = .ok r) : Ready r.2.1 M ρ ∧ r.2.1.settings = b.settings := by
  obtain ⟨ev, he, ⟨-, h⟩ | ⟨-, inner, r1, hi, h1, h⟩⟩ := strokeTo_cases h
  · exact strokeEvent_ready hd hb (sanitise_pressure he).2.le h
  · obtain ⟨k1, k2⟩ := strokeEvent_ready hd hb (sanitise_pressure hi).2.le h1
    obtain ⟨k3, k4⟩ := strokeEvent_ready (k2 ▸ hd) k1 (by norm_num : (0 : K) ≤ 1 / 10000) h
    exact ⟨k3, by rw [k4, k2]⟩

/-- A new brush is ready, whatever its fresh memory holds. -/
theorem newBrush_ready {junk b : Brush K R} {fresh : List K} {num : Int} {mem : Nat → Nat → Points K} {rng : R}
    {M ρ : K} (hM : 0 ≤ M) (hρ : 1 ≤ ρ) (hf : 0 < num → (fresh.length : Int) = 9 * num)
    (h : newBrush junk fresh num mem rng = .ok b) : Ready b M ρ := by
  obtain ⟨h1, -⟩ := newBrush_st h
  unfold newBrush at h
  obtain ⟨b1, h2, h⟩ := bind_ok h
  unfold brushReset at h2
  obtain ⟨bk, h3, h2⟩ := bind_ok h2
  obtain ⟨bk', h4, hv⟩ := resetBuckets_ok (new_valid fresh num (junk.buckets.minUsed, junk.buckets.maxUsed) hf)
  have : bk = bk' := by
    have h5 := h3
    simp only at h5
    rw [h4] at h5
    exact (Except.ok.inj h5).symm
  subst this
  refine ⟨by unfold PendingOk; rw [h1]; exact ⟨le_refl _, zero_lt_one⟩, ?_, ?_, ?_⟩
  · rw [← Except.ok.inj h, ← Except.ok.inj h2]; exact hv
  · rw [h1]; exact ⟨hM, hM, hM, le_trans zero_le_one hρ, .inl rfl⟩
  · rw [← Except.ok.inj h, ← Except.ok.inj h2]; exact le_refl _

/-- C43 for sessions: a new brush with bounded dynamics works off any list of events. -/
theorem session_terminates {e : Env K R σ} (L : Laws e) {junk b : Brush K R} {fresh : List K} {num : Int}
    {mem : Nat → Nat → Points K} {rng : R} {M ρ : K} (s : Load.Brush K) (hd : BoundedDynamics s M ρ)
    (hf : 0 < num → (fresh.length : Int) = 9 * num) (hb : newBrush junk fresh num mem rng = .ok b) (surf : σ)
    (ms : List (Motion K)) :
    ∃ n, ∀ k, n ≤ k → strokes e k { b with settings := s } surf ms ≠ .error .outOfFuel := by
  have hr : Ready ({ b with settings := s } : Brush K R) M ρ := by
    have := newBrush_ready hd.nonneg hd.one_le hf hb
    exact ⟨this.pending, this.buckets, this.state, this.skipped⟩
  have hs : BoundedDynamics ({ b with settings := s } : Brush K R).settings M ρ := hd
  generalize ({ b with settings := s } : Brush K R) = b at *
  clear hb hd
  induction ms generalizing b surf with
  | nil => exact ⟨0, fun k _ h => by cases h⟩
  | cons m ms ih =>
    obtain ⟨n1, h1, h1'⟩ := stroke_to_terminates L hs hr surf m
    cases he : strokeTo e n1 b surf m with
    | error f =>
      refine ⟨n1, fun k hk h => ?_⟩
      unfold strokes at h
      rw [h1' k hk, he] at h
      have : (.error f : Except Fault (Brush K R × σ)) = .error .outOfFuel := h
      cases this
      exact h1 he
    | ok r =>
      obtain ⟨q1, q2⟩ := strokeTo_ready hs hr he
      obtain ⟨n2, h2⟩ := ih r.2.2 r.2.1 q1 (q2 ▸ hs)
      refine ⟨max n1 n2, fun k hk h => ?_⟩
      unfold strokes at h
      rw [h1' k (le_trans (le_max_left _ _) hk), ok_bind he] at h
      exact h2 k (le_trans (le_max_right _ _) hk) h

/-! ### The number of dabs -/

theorem loop_log {e : Env K R σ} {ev : Event K} {x y : K} (fuel : Nat) : ∀ l l' : Loop K R (σ × List Bool),
    dabLoop (record e) ev x y fuel l = .ok l' → l'.surf.2.length ≤ l.surf.2.length + fuel := by
  induction fuel with
  | zero =>
    intro l l' h
    unfold dabLoop at h
    split_ifs at h
    rw [← Except.ok.inj h]; simp
  | succ fuel ih =>
    intro l l' h
    unfold dabLoop at h
    split_ifs at h
    · obtain ⟨l1, h1, h⟩ := bind_ok h
      have k := ih l1 l' h
      obtain ⟨-, b1, p, b2, -, hd, -, e1⟩ := dabStep_eq h1
      have : l1.surf = p.2.2 := by rw [e1]
      rw [this] at k
      rcases drawDab_log hd with q | ⟨-, q⟩
      · rw [q, List.length_append, List.length_singleton] at k; omega
      · rw [q] at k; omega
    · rw [← Except.ok.inj h]; simp

omit [Field K] [LinearOrder K] [FloorRing K] [IsStrictOrderedRing K] in
theorem record_laws [Field K] [LinearOrder K] {e : Env K R σ} (L : Laws e) : Laws (record e) :=
  ⟨L.exp_pos, L.sqrt_nonneg, L.sqrt_sq, L.trig, L.atan2_range, L.next_range, L.pow_range⟩

/-- A movement of length `dist` in the time `dt` asks the surface for at most as many dabs as were pending plus the most
that the way and the time can make due: `10 M ρ dist + M dt`. -/
theorem dabs_bounded {e : Env K R σ} (L : Laws e) {b : Brush K R} {M ρ : K} (hd : BoundedDynamics b.settings M ρ)
    (hs : BoundedState b.st M ρ) (hp : PendingOk b) (hv : Valid b.buckets) (surf : σ) (ev : Event K) (x y : K) {dt : K}
    (hdt : 0 ≤ dt) {fuel : Nat} {r : Bool × Brush K R × (σ × List Bool)}
    (h : moveTo (record e) fuel b (surf, []) ev x y dt = .ok r) :
    (r.2.2.2.length : K) ≤ b.st.partialDabs + (10 * M * ρ * hypot e (x - b.st.x) (y - b.st.y) + M * dt) := by
  set B := b.st.partialDabs + potential M ρ (hypot (record e) (x - b.st.x) (y - b.st.y)) dt with hB
  have hB0 : 0 ≤ B := by
    have h1 := hypot_nonneg (record_laws L) (x - b.st.x) (y - b.st.y)
    have h2 := hd.nonneg
    have h3 := hd.one_le
    unfold potential at hB
    have := mul_nonneg (mul_nonneg (by linarith : (0 : K) ≤ 10 * M) (by linarith : (0 : K) ≤ ρ)) h1
    have := mul_nonneg h2 hdt
    have := hp.1
    rw [hB]; linarith
  have hn : B < (⌊B⌋.toNat : K) + 1 := by
    have h0 : 0 ≤ ⌊B⌋ := Int.floor_nonneg.mpr hB0
    have : ((⌊B⌋.toNat : ℤ) : K) = (⌊B⌋ : K) := by rw [Int.toNat_of_nonneg h0]
    have e2 : ((⌊B⌋.toNat : ℕ) : K) = (⌊B⌋ : K) := by rw [← this]; push_cast; rfl
    rw [e2]; exact Int.lt_floor_add_one B
  have hle : ((⌊B⌋.toNat : ℕ) : K) ≤ B := by
    have h0 : 0 ≤ ⌊B⌋ := Int.floor_nonneg.mpr hB0
    have : ((⌊B⌋.toNat : ℤ) : K) = (⌊B⌋ : K) := by rw [Int.toNat_of_nonneg h0]
    have e2 : ((⌊B⌋.toNat : ℕ) : K) = (⌊B⌋ : K) := by rw [← this]; push_cast; rfl
    rw [e2]; exact Int.floor_le B
  have ne := moveTo_fuel (record_laws L) hd hs hp hv (surf, []) ev x y hdt hn
  have h2 : moveTo (record e) ⌊B⌋.toNat b (surf, []) ev x y dt = .ok r := by
    rcases le_total fuel ⌊B⌋.toNat with hh | hh
    · rw [moveTo_mono hh (by rw [h]; intro q; cases q)]; exact h
    · rw [← moveTo_mono hh ne]; exact h
  obtain ⟨l, b1, hl, -, -, -, h3⟩ := moveTo_eq h2
  have k := loop_log _ _ _ hl
  rw [← h3] at k
  simp only [List.length_nil, zero_add] at k
  calc (r.2.2.2.length : K) ≤ (⌊B⌋.toNat : ℕ) := by exact_mod_cast k
    _ ≤ B := hle

/-! ### The target -/

/-- C43, second half: after a movement the brush is at the target, with the pressure and the tilt of the event. -/
theorem move_ends_at_target {e : Env K R σ} {fuel : Nat} {b : Brush K R} {surf : σ} {ev : Event K} {x y dt : K}
    (hv : 0 ≤ ev.pressure) {r : Bool × Brush K R × σ} (h : moveTo e fuel b surf ev x y dt = .ok r) :
    r.2.1.st.x = x ∧ r.2.1.st.y = y ∧ r.2.1.st.pressure = ev.pressure ∧ r.2.1.st.declination = ev.declination ∧
      r.2.1.st.declinationX = ev.declinationX ∧ r.2.1.st.declinationY = ev.declinationY ∧
      r.2.1.st.viewzoom = ev.viewzoom := by
  obtain ⟨l, b1, hl, hu, -, h2, -⟩ := moveTo_eq h
  rw [h2, splitStroke_eq]
  simp only
  rw [update_eq hu]
  refine ⟨?_, ?_, ?_, ?_, ?_, ?_, rfl⟩
  · show l.b.st.x + 1 * (x - l.b.st.x) = x; ring
  · show l.b.st.y + 1 * (y - l.b.st.y) = y; ring
  · show (if l.b.st.pressure + 1 * (ev.pressure - l.b.st.pressure) ≤ 0 then 0
      else l.b.st.pressure + 1 * (ev.pressure - l.b.st.pressure)) = ev.pressure
    have : l.b.st.pressure + 1 * (ev.pressure - l.b.st.pressure) = ev.pressure := by ring
    rw [this]
    split_ifs with h0
    · exact le_antisymm hv h0
    · rfl
  · show l.b.st.declination + 1 * (ev.declination - l.b.st.declination) = _; ring
  · show l.b.st.declinationX + 1 * (ev.declinationX - l.b.st.declinationX) = _; ring
  · show l.b.st.declinationY + 1 * (ev.declinationY - l.b.st.declinationY) = _; ring

/-- For a brush without slow tracking and tracking noise the target is the position of the event itself. -/
theorem stroke_to_ends_at_target {e : Env K R σ} {fuel : Nat} {b : Brush K R} {surf : σ} {m : Motion K} {ev : Event K}
    {r : Bool × Brush K R × σ} (hev : sanitise e m = .ok ev) (ht : (b.settings sSlowTracking).base ≤ 1 / 1000)
    (hn : (b.settings sTrackingNoise).base = 0) (hs : b.skip ≤ 1 / 1000) (h : strokeTo e fuel b surf m = .ok r) :
    r.2.1.st.x = ev.x ∧ r.2.1.st.y = ev.y ∧ r.2.1.st.pressure = ev.pressure := by
  have key : ∀ (b : Brush K R) (surf : σ) (ev : Event K) (r : Bool × Brush K R × σ), 0 ≤ ev.pressure →
      (b.settings sSlowTracking).base ≤ 1 / 1000 → (b.settings sTrackingNoise).base = 0 → b.skip ≤ 1 / 1000 →
      strokeEvent e fuel b surf ev = .ok r →
      (r.2.1.st.x = ev.x ∧ r.2.1.st.y = ev.y ∧ r.2.1.st.pressure = ev.pressure) ∧
        r.2.1.settings = b.settings ∧ r.2.1.skip ≤ 1 / 1000 := by
    intro b surf ev r hp ht hn hs h
    have sk : skipStage e b ev.x ev.y ev.dtime = (b, ev.dtime, false) := by
      unfold skipStage
      rw [if_neg (not_lt.mpr hs)]
    have cu : cursor e b ev.x ev.y ev.dtime = (ev.x, ev.y, b) := by
      unfold cursor
      dsimp only
      have b1 : b.baseval sTrackingNoise = 0 := hn
      rw [b1, if_neg (by simp)]
      unfold expDecay
      rw [if_pos (show b.baseval sSlowTracking ≤ 1 / 1000 from ht)]
      unfold approach
      simp
    rcases strokeEvent_cases h with ⟨h1, -⟩ | ⟨-, h1, b', h2, h⟩ | ⟨-, -, h⟩
    · rw [sk] at h1; cases h1
    · simp only [sk, cu] at h2
      obtain ⟨bk, -, e1⟩ := startOver_eq h2
      rw [h, e1]
      exact ⟨⟨rfl, rfl, rfl⟩, rfl, by simp⟩
    · simp only [sk, cu] at h
      have k := move_ends_at_target hp h
      refine ⟨⟨k.1, k.2.1, k.2.2.1⟩, ?_⟩
      obtain ⟨l, b1, hl, hu, -, h2, -⟩ := moveTo_eq h
      have ks := dabLoop_induct (fun l : Loop K R σ => l.b.settings = b.settings ∧ l.b.skip = b.skip) (by
        intro l l' _ hst hp
        obtain ⟨-, b1, p, b2, hu, hd, h2, e1⟩ := dabStep_eq hst
        have f := drawDab_frame hd
        rw [e1]
        simp only
        rw [countDabs_st, h2]
        simp only
        rw [f, update_eq hu]
        exact hp) _ _ _ hl (by simp only; rw [countDabs_st]; exact ⟨rfl, rfl⟩)
      rw [h2, splitStroke_eq]
      simp only
      rw [update_eq hu]
      exact ⟨ks.1.1, by show l.b.skip ≤ _; rw [ks.1.2]; exact hs⟩
  obtain ⟨ev', he', ⟨-, h⟩ | ⟨-, inner, r1, hi, h1, h⟩⟩ := strokeTo_cases h
  · rw [hev] at he'; cases he'
    exact (key b surf ev r (sanitise_pressure hev).1 ht hn hs h).1
  · rw [hev] at he'; cases he'
    obtain ⟨-, q1, q2⟩ := key b surf inner r1 (sanitise_pressure hi).1 ht hn hs h1
    exact (key r1.2.1 r1.2.2 { ev with dtime := 1 / 10000 } r (sanitise_pressure hev).1 (by rw [q1]; exact ht)
      (by rw [q1]; exact hn) q2 h).1

/-! ### Examples -/

section examples

/-- A brush over the real numbers without dynamics: two dabs per radius and ten per second, as wide as its radius. -/
def steadySettings : Load.Brush ℝ := fun i =>
  { base := if i = sDabsPerActualRadius then 2 else if i = sDabsPerSecond then 10 else if i = sEllipticalDabRatio then 1
      else 0
    inputs := 18, pts := fun _ => ⟨fun _ => 0, fun _ => 0, 0⟩, used := 0 }

/-- The hypotheses of `session_terminates` for the functions of the real numbers and any surface. -/
example {σ : Type} (draw : σ → Dab.Args ℝ → Bool × σ) (getColor : σ → Int → Int → ℝ → ℝ → Rgba ℝ × σ) (surf : σ)
    (junk : Brush ℝ ℕ) (mem : Nat → Nat → Points ℝ) (ms : List (Motion ℝ)) :
    ∃ b, newBrush junk [] 0 mem 0 = .ok b ∧
      ∃ n, ∀ k, n ≤ k → strokes (realEnv (fun r => (1 / 2, r + 1)) (fun r => (0, r + 1)) draw getColor) k
        { b with settings := steadySettings } surf ms ≠ .error .outOfFuel := by
  refine ⟨_, rfl, ?_⟩
  refine session_terminates (realEnv_laws _ _ _ _ (fun _ => ⟨by norm_num, by norm_num⟩)) (num := 0) (M := 10) (ρ := 1)
    steadySettings
    ⟨by norm_num, by norm_num, fun i => ?_, fun i => ?_, fun i => ?_, fun i => ?_⟩ (by simp) rfl
    surf ms
  all_goals
    unfold calculate steadySettings
    simp only [if_true]
    norm_num [sDabsPerActualRadius, sDabsPerBasicRadius, sDabsPerSecond, sEllipticalDabRatio]

open Demo in
/-- Six dabs on ten pixels, and the brush is where the pen is. -/
example : look (fun r => (r.1.st.x, r.1.st.y, r.1.st.pressure, r.2.length)) (strokes env 20 brush []
    [motion 0 0 1 (1 / 10), motion 6 8 1 2, motion 12 16 (1 / 2) 2]) = some (12, 16, 1 / 2, 6) := by decide +kernel

end examples

end Verif.Engine
