import Verif.Props.C53_Ranges
import Verif.Props.C44_Input

/-!
# Induction over a whole session

What one has to check to know that something holds after every sequence of motion events.
-/

namespace Verif.Engine
open Verif.Mask Verif.Color Verif.Spectral Verif.Map

section
variable {K R σ : Type} [Field K] [LinearOrder K] [IsStrictOrderedRing K] [FloorRing K]

/-- `I` holds between dabs, `J` right after a simulation step; `E` is what is known of the events and `T` of the positions
that the brush is pulled to. -/
structure Invariant (e : Env K R σ) (E : Event K → Prop) (T : K → K → Prop) (I J : Brush K R → σ → Prop) : Prop where
  skip : ∀ b s ev, E ev → I b s → I (skipStage e b ev.x ev.y ev.dtime).1 s
  pull : ∀ b s ev, E ev → 0 ≤ (skipStage e b ev.x ev.y ev.dtime).2.1 → I b s → I (cursor e (skipStage e b ev.x ev.y ev.dtime).1 ev.x ev.y
    (skipStage e b ev.x ev.y ev.dtime).2.1).2.2 s
  target : ∀ b s ev, E ev → 0 ≤ (skipStage e b ev.x ev.y ev.dtime).2.1 → I b s → T (cursor e (skipStage e b ev.x ev.y ev.dtime).1 ev.x ev.y
    (skipStage e b ev.x ev.y ev.dtime).2.1).1 (cursor e (skipStage e b ev.x ev.y ev.dtime).1 ev.x ev.y
    (skipStage e b ev.x ev.y ev.dtime).2.1).2.1
  start : ∀ b s ev x y b', E ev → T x y → I b s →
    (b.resetRequested = true ∨ ∃ b0, I b0 s ∧ (skipStage e b0 ev.x ev.y ev.dtime).2.1 > 5) →
    startOver e b x y ev.pressure = .ok b' → I b' s
  count : ∀ b s x y dt, I b s → I (countDabs e b x y dt).2 s
  step : ∀ b s ev x y d f t b', E ev → T x y → 0 ≤ d → 0 ≤ f → f ≤ 1 → 0 ≤ t → I b s →
    update e b (stepTo b.st ev x y d f t) = .ok b' → J b' s
  draw : ∀ b s lin p, J b s → drawDab e { b with st := { b.st with flip := b.st.flip * -1 } } s lin = .ok p →
    I { p.2.1 with random := (e.next p.2.1.rng).1, rng := (e.next p.2.1.rng).2 } p.2.2
  finish : ∀ b s n total idle, J b s → I { b with st := { b.st with partialDabs := n }, total := total, idle := idle } s

/-- The loop state, apart from the invariant. -/
structure LoopRange (l : Loop K R σ) : Prop where
  moved0 : 0 ≤ l.moved
  moved1 : l.moved < 1
  todo0 : 0 ≤ l.todo
  time0 : 0 ≤ l.dtimeLeft

theorem fraction_ok {l : Loop K R σ} (hl : LoopRange l) (hc : l.moved + l.todo ≥ 1) :
    0 ≤ (if l.moved > 0 then 1 - l.moved else 1) / l.todo ∧ (if l.moved > 0 then 1 - l.moved else 1) / l.todo ≤ 1 := by
  have hz : l.todo ≠ 0 := by
    intro hz; rw [hz] at hc; have := hl.moved1; linarith
  have := fraction_range hl.moved0 hl.moved1 hz hl.todo0 hc
  exact ⟨this.2.1, this.2.2.1⟩

variable {e : Env K R σ} {E : Event K → Prop} {T : K → K → Prop} {I J : Brush K R → σ → Prop}

theorem dabStep_invariant (H : Invariant e E T I J) {ev : Event K} (he : E ev) {x y : K} (hT : T x y) {l l' : Loop K R σ}
    (hl : LoopRange l) (hi : I l.b l.surf) (hc : l.moved + l.todo ≥ 1) (h : dabStep e ev x y l = .ok l') :
    LoopRange l' ∧ I l'.b l'.surf := by
  obtain ⟨f0, f1⟩ := fraction_ok hl hc
  obtain ⟨hz, b1, p, b2, hu, hd, h2, e1⟩ := dabStep_eq h
  have hd0 : (0 : K) ≤ if l.moved > 0 then 1 - l.moved else 1 := by
    split_ifs
    · exact sub_nonneg.mpr hl.moved1.le
    · exact zero_le_one
  have hj := H.step _ _ ev x y _ _ _ _ he hT hd0 f0 f1 hl.time0 hi hu
  have hi2 := H.draw _ _ _ _ hj hd
  rw [← h2] at hi2
  rw [e1]
  refine ⟨⟨?_, ?_, ?_, ?_⟩, ?_⟩
  · simp only
    split_ifs
    · exact le_refl _
    · exact hl.moved0
  · simp only
    split_ifs
    · exact zero_lt_one
    · exact hl.moved1
  · exact countDabs_nonneg _ _ _ _ _
  · simp only
    generalize (if l.moved > 0 then 1 - l.moved else 1) / l.todo = f at *
    have := mul_nonneg (sub_nonneg.mpr f1) hl.time0
    linarith
  · simp only
    exact H.count _ _ _ _ _ hi2

theorem moveTo_keeps (H : Invariant e E T I J) {ev : Event K} (he : E ev) {x y dt : K} (hT : T x y) (hdt : 0 ≤ dt)
    {fuel : Nat} {b : Brush K R} {surf : σ} (hp : PendingOk b) (hi : I b surf) {r : Bool × Brush K R × σ}
    (h : moveTo e fuel b surf ev x y dt = .ok r) : I r.2.1 r.2.2 := by
  obtain ⟨l, b1, hl, hu, -, h2, h3⟩ := moveTo_eq h
  have k := (dabLoop_induct (fun l : Loop K R σ => LoopRange l ∧ I l.b l.surf)
    (fun l l' hc hst hp => dabStep_invariant H he hT hp.1 hp.2 hc hst) _ _ _ hl
    ⟨⟨hp.1, hp.2, countDabs_nonneg e b x y dt, hdt⟩, H.count b surf x y dt hi⟩).1
  rw [h2, h3, splitStroke_eq]
  exact H.finish _ _ _ _ _ (H.step _ _ ev x y _ _ _ _ he hT k.1.todo0 zero_le_one (le_refl _) k.1.time0 k.2 hu)

/-- The time that is left after skipping events is not negative. -/
def TimeOk (b : Brush K R) : Prop := 0 ≤ b.skippedTime

theorem skipped_time {b : Brush K R} (hb : TimeOk b) {x y dt : K} (h : 0 ≤ dt) :
    0 ≤ (skipStage e b x y dt).2.1 ∧ TimeOk (skipStage e b x y dt).1 := by
  unfold TimeOk at *
  unfold skipStage
  dsimp only
  split_ifs
  · exact ⟨add_nonneg hb h, add_nonneg hb h⟩
  · exact ⟨add_nonneg hb h, le_refl _⟩
  · exact ⟨h, hb⟩

theorem drawDab_time {b : Brush K R} {surf : σ} {lin : Bool} {p : Bool × Brush K R × σ}
    (h : drawDab e b surf lin = .ok p) : p.2.1.skippedTime = b.skippedTime := by
  have := drawDab_frame h
  rw [this]

theorem moveTo_time {fuel : Nat} {b : Brush K R} {surf : σ} {ev : Event K} {x y dt : K} {r : Bool × Brush K R × σ}
    (h : moveTo e fuel b surf ev x y dt = .ok r) : r.2.1.skippedTime = b.skippedTime := by
  obtain ⟨l, b1, hl, hu, -, h2, h3⟩ := moveTo_eq h
  have k := (dabLoop_induct (fun l : Loop K R σ => l.b.skippedTime = b.skippedTime)
    (fun l l' hc hst hp => by
      obtain ⟨hz, b1, p, b2, hu, hd, h2, e1⟩ := dabStep_eq hst
      rw [e1]
      simp only
      rw [countDabs_st]
      simp only
      rw [h2]
      simp only
      rw [drawDab_time hd]
      simp only
      rw [update_eq hu]
      exact hp) _ _ _ hl (by simp only; rw [countDabs_st])).1
  rw [h2, splitStroke_eq]
  simp only
  rw [update_eq hu]
  exact k

omit [IsStrictOrderedRing K] [FloorRing K] in
theorem zeroFill_fault {n : Nat} : ∀ {a : Int} {l : List K} {g : Fault}, zeroFill a n l = .error g → g = .outOfBounds := by
  induction n with
  | zero => intro a l g h; cases h
  | succ n ih =>
    intro a l g h
    unfold zeroFill at h
    rcases bind_error h with h | ⟨l1, -, h⟩
    · unfold Rng.wr at h
      split_ifs at h <;> (cases h; rfl)
    · exact ih h

theorem sanitise_fault {m : Motion K} {g : Fault} (h : sanitise e m = .error g) : g = .assertFail := by
  unfold sanitise at h
  rcases bind_error h with h | ⟨t, -, h⟩
  · exact (tilt_fault h).1
  · dsimp only at h
    split at h
    · split at h
      · cases h
      · cases h; rfl
    · cases h

/-- What an event keeps besides the invariant. -/
theorem strokeEvent_keeps (H : Invariant e E T I J) {ev : Event K} (he : E ev) (hd : 0 ≤ ev.dtime) {fuel : Nat}
    {b : Brush K R} {surf : σ} (hp : PendingOk b) (ht : TimeOk b) (hi : I b surf) {r : Bool × Brush K R × σ}
    (h : strokeEvent e fuel b surf ev = .ok r) : I r.2.1 r.2.2 ∧ TimeOk r.2.1 := by
  have t := skipped_time (e := e) ht (x := ev.x) (y := ev.y) hd
  rcases strokeEvent_cases h with ⟨-, h⟩ | ⟨-, hr, b', h1, h⟩ | ⟨-, -, h⟩
  · rw [h]; exact ⟨H.skip _ _ _ he hi, t.2⟩
  · rw [h]
    have hr' : (cursor e (skipStage e b ev.x ev.y ev.dtime).1 ev.x ev.y
        (skipStage e b ev.x ev.y ev.dtime).2.1).2.2.resetRequested = true ∨
        ∃ b0, I b0 surf ∧ (skipStage e b0 ev.x ev.y ev.dtime).2.1 > 5 := by
      rcases hr with hr | hr
      · exact .inr ⟨b, hi, hr⟩
      · refine .inl ?_
        rw [cursor_eq, skipStage_eq]
        exact hr
    refine ⟨H.start _ _ _ _ _ _ he (H.target _ _ _ he t.1 hi) (H.pull _ _ _ he t.1 hi) hr' h1, ?_⟩
    obtain ⟨bk, -, e1⟩ := startOver_eq h1
    unfold TimeOk
    simp only
    rw [e1]
  · refine ⟨moveTo_keeps H he (H.target _ _ _ he t.1 hi) t.1 ?_ (H.pull _ _ _ he t.1 hi) h, ?_⟩
    · unfold PendingOk at *
      rw [cursor_st, skipStage_st]
      exact hp
    · unfold TimeOk
      rw [moveTo_time h, cursor_eq]
      exact t.2

theorem sanitise_time {m : Motion K} {ev : Event K} (h : sanitise e m = .ok ev) : 0 ≤ ev.dtime := by
  have hp : (0 : K) ≤ if m.dtime ≤ 0 then 1 / 10000 else m.dtime := by
    by_cases q : m.dtime ≤ 0
    · rw [if_pos q]; norm_num
    · rw [if_neg q]; exact (not_le.mp q).le
  unfold sanitise at h
  obtain ⟨t, ht, h⟩ := bind_ok h
  dsimp only at h
  split at h
  · by_cases q : ∀ x y : K, x < 10 ^ 8 ∧ y < 10 ^ 8 ∧ x > -10 ^ 8 ∧ y > -10 ^ 8
    all_goals
      split at h
      · rw [← Except.ok.inj h]; exact hp
      · cases h
  · rw [← Except.ok.inj h]; exact hp

/-- A fault that neither the checks of an event nor a simulation step nor a reset can give is not given by a session at
all, if no dab gives it. -/
theorem dabLoop_noFault (H : Invariant e E T I J) {g : Fault} (g0 : g ≠ .outOfFuel) (g1 : g ≠ .nonFinite)
    (hd : ∀ b s lin, J b s → drawDab e { b with st := { b.st with flip := b.st.flip * -1 } } s lin ≠ .error g)
    {ev : Event K} (he : E ev) {x y : K} (hT : T x y) (fuel : Nat) : ∀ {l : Loop K R σ}, LoopRange l → I l.b l.surf →
    dabLoop e ev x y fuel l ≠ .error g := by
  induction fuel with
  | zero =>
    intro l _ _ h
    unfold dabLoop at h
    split_ifs at h
    exact g0 (by cases h; rfl)
  | succ fuel ih =>
    intro l hl hi h
    unfold dabLoop at h
    by_cases hc : l.moved + l.todo ≥ 1
    · rw [if_pos hc] at h
      rcases bind_error h with h | ⟨l1, hl1, h⟩
      · obtain ⟨f0, f1⟩ := fraction_ok hl hc
        unfold dabStep at h
        dsimp only at h
        have hd0 : (0 : K) ≤ if l.moved > 0 then 1 - l.moved else 1 := by
          split_ifs
          · exact sub_nonneg.mpr hl.moved1.le
          · exact zero_le_one
        by_cases hz : l.todo = 0
        · rw [if_pos hz] at h
          exact g1 (by cases h; rfl)
        · rw [if_neg hz] at h
          rcases bind_error h with h | ⟨b1, hu, h⟩
          · exact g1 ((update_safe _ _).error h).1
          · have hj := H.step _ _ ev x y _ _ _ _ he hT hd0 f0 f1 hl.time0 hi hu
            rcases bind_error h with h | ⟨p, -, h⟩
            · exact hd _ _ _ hj h
            · cases h
      · have k := dabStep_invariant H he hT hl hi hc hl1
        exact ih k.1 k.2 h
    · rw [if_neg hc] at h
      cases h

theorem strokeEvent_noFault (H : Invariant e E T I J) {g : Fault} (g0 : g ≠ .outOfFuel) (g1 : g ≠ .nonFinite)
    (g2 : g ≠ .outOfBounds)
    (hd : ∀ b s lin, J b s → drawDab e { b with st := { b.st with flip := b.st.flip * -1 } } s lin ≠ .error g)
    {ev : Event K} (he : E ev) (ht : 0 ≤ ev.dtime) {fuel : Nat} {b : Brush K R} {surf : σ} (hp : PendingOk b) (hb : TimeOk b)
    (hi : I b surf) : strokeEvent e fuel b surf ev ≠ .error g := by
  intro h
  have t := skipped_time (e := e) hb (x := ev.x) (y := ev.y) ht
  have hI := H.pull _ _ _ he t.1 hi
  have hT := H.target _ _ _ he t.1 hi
  have hpc : PendingOk (cursor e (skipStage e b ev.x ev.y ev.dtime).1 ev.x ev.y (skipStage e b ev.x ev.y ev.dtime).2.1).2.2 := by
    unfold PendingOk at *
    rw [cursor_st, skipStage_st]
    exact hp
  unfold strokeEvent at h
  dsimp only at h
  generalize skipStage e b ev.x ev.y ev.dtime = s at *
  generalize cursor e s.1 ev.x ev.y s.2.1 = c at *
  by_cases q1 : s.2.2 = true
  · rw [if_pos q1] at h; cases h
  · rw [if_neg q1] at h
    by_cases q2 : s.2.1 > 5 ∨ b.resetRequested = true
    · rw [if_pos q2] at h
      rcases bind_error h with h | ⟨b1, -, h⟩
      · unfold startOver at h
        rcases bind_error h with h | ⟨b1, -, h⟩
        · unfold brushReset at h
          rcases bind_error h with h | ⟨b1, -, h⟩
          · unfold resetBuckets at h
            split_ifs at h
            · cases h
            · rcases bind_error h with h | ⟨m, -, h⟩
              · exact g2 (zeroFill_fault h)
              · cases h
            · cases h
          · cases h
        · cases h
      · cases h
    · rw [if_neg q2] at h
      unfold moveTo at h
      dsimp only at h
      rcases bind_error h with h | ⟨l, -, h⟩
      · exact dabLoop_noFault H g0 g1 hd he hT fuel ⟨hpc.1, hpc.2, countDabs_nonneg e c.2.2 c.1 c.2.1 s.2.1, t.1⟩
          (H.count c.2.2 surf c.1 c.2.1 s.2.1 hI) h
      · rcases bind_error h with h | ⟨b1, -, h⟩
        · exact g1 ((update_safe _ _).error h).1
        · cases h

/-- A brush with less than one dab pending, before its first event or after any number of them. -/
structure Underway (b : Brush K R) : Prop where
  pending : PendingOk b
  time : TimeOk b

/-- Induction over the events of a session. `M` is what is known of the events. -/
theorem session_keeps (H : Invariant e E T I J) (M : Motion K → Prop)
    (hM : ∀ m ev, M m → sanitise e m = .ok ev → E ev)
    (hW : ∀ ev i, E ev → sanitise e (workaroundMotion ev) = .ok i → E i)
    (hD : ∀ ev, E ev → E { ev with dtime := 1 / 10000 }) {fuel : Nat} (ms : List (Motion K)) :
    ∀ {b : Brush K R} {surf : σ}, (∀ m ∈ ms, M m) → Underway b → I b surf →
    ∀ {r : Brush K R × σ}, strokes e fuel b surf ms = .ok r → I r.1 r.2 ∧ Underway r.1 := by
  induction ms with
  | nil =>
    intro b surf _ hr hi r h
    rw [← Except.ok.inj h]
    exact ⟨hi, hr⟩
  | cons m ms ih =>
    intro b surf hm hr hi r h
    unfold strokes at h
    obtain ⟨r1, h1, h⟩ := bind_ok h
    have k : I r1.2.1 r1.2.2 ∧ TimeOk r1.2.1 := by
      unfold strokeTo at h1
      obtain ⟨ev, hev, h1⟩ := bind_ok h1
      have he := hM m ev (hm m List.mem_cons_self) hev
      split_ifs at h1
      · obtain ⟨inner, hin, h1⟩ := bind_ok h1
        obtain ⟨r2, h2, h1⟩ := bind_ok h1
        have k2 := strokeEvent_keeps H (hW _ _ he hin) (sanitise_time hin) hr.pending hr.time hi h2
        have hd2 : (0 : K) ≤ Event.dtime { ev with dtime := 1 / 10000 } := by
          show (0 : K) ≤ 1 / 10000
          norm_num
        exact strokeEvent_keeps H (hD _ he) hd2 (strokeEvent_pending h2 hr.pending) k2.2 k2.1 h1
      · exact strokeEvent_keeps H he (sanitise_time hev) hr.pending hr.time hi h1
    exact ih (fun m hm' => hm m (List.mem_cons_of_mem _ hm')) ⟨strokeTo_pending h1 hr.pending, k.2⟩ k.1 h

theorem session_noFault (H : Invariant e E T I J) {g : Fault} (g0 : g ≠ .outOfFuel) (g1 : g ≠ .nonFinite)
    (g2 : g ≠ .outOfBounds) (g3 : g ≠ .assertFail)
    (hd : ∀ b s lin, J b s → drawDab e { b with st := { b.st with flip := b.st.flip * -1 } } s lin ≠ .error g)
    (M : Motion K → Prop) (hM : ∀ m ev, M m → sanitise e m = .ok ev → E ev)
    (hW : ∀ ev i, E ev → sanitise e (workaroundMotion ev) = .ok i → E i)
    (hD : ∀ ev, E ev → E { ev with dtime := 1 / 10000 }) {fuel : Nat} (ms : List (Motion K)) :
    ∀ {b : Brush K R} {surf : σ}, (∀ m ∈ ms, M m) → Underway b → I b surf →
    strokes e fuel b surf ms ≠ .error g := by
  induction ms with
  | nil =>
    intro b surf _ _ _ h
    cases h
  | cons m ms ih =>
    intro b surf hm hr hi h
    unfold strokes at h
    rcases bind_error h with h1 | ⟨r1, h1, h⟩
    · unfold strokeTo at h1
      rcases bind_error h1 with h1 | ⟨ev, hev, h1⟩
      · exact g3 (sanitise_fault h1)
      · have he := hM m ev (hm m List.mem_cons_self) hev
        split_ifs at h1
        · rcases bind_error h1 with h1 | ⟨inner, hin, h1⟩
          · exact g3 (sanitise_fault h1)
          · rcases bind_error h1 with h1 | ⟨r2, h2, h1⟩
            · exact strokeEvent_noFault H g0 g1 g2 hd (hW _ _ he hin) (sanitise_time hin) hr.pending hr.time hi h1
            · have k2 := strokeEvent_keeps H (hW _ _ he hin) (sanitise_time hin) hr.pending hr.time hi h2
              have hd2 : (0 : K) ≤ Event.dtime { ev with dtime := 1 / 10000 } := by
                show (0 : K) ≤ 1 / 10000
                norm_num
              exact strokeEvent_noFault H g0 g1 g2 hd (hD _ he) hd2 (strokeEvent_pending h2 hr.pending) k2.2 k2.1 h1
        · exact strokeEvent_noFault H g0 g1 g2 hd he (sanitise_time hev) hr.pending hr.time hi h1
    · have hs : strokes e fuel b surf [m] = .ok (r1.2.1, r1.2.2) := by
        unfold strokes
        rw [ok_bind h1]
        rfl
      have k := session_keeps H M hM hW hD [m] (fun q hq => hm q (by
        rw [List.mem_singleton.mp hq]; exact List.mem_cons_self)) hr hi hs
      exact ih (fun q hq => hm q (List.mem_cons_of_mem _ hq)) k.2 k.1 h

theorem newBrush_underway {junk b : Brush K R} {fresh : List K} {num : Int} {mem : Nat → Nat → Points K} {rng : R}
    (h : newBrush junk fresh num mem rng = .ok b) : Underway b := by
  unfold newBrush at h
  dsimp only at h
  obtain ⟨b1, h1, h⟩ := bind_ok h
  unfold brushReset at h1
  obtain ⟨bk, -, h1⟩ := bind_ok h1
  rw [← Except.ok.inj h, ← Except.ok.inj h1]
  exact ⟨⟨le_refl _, zero_lt_one⟩, le_refl _⟩

/-! ### One dab -/

/-- What a successful `prepare_and_draw_dab` did. -/
theorem drawDab_cases {b : Brush K R} {surf : σ} {lin : Bool} {p : Bool × Brush K R × σ}
    (h : drawDab e b surf lin = .ok p) :
    ∃ o pos sm, dabOpacity e b = .ok o ∧ dabPosition e b = .ok pos ∧
      smudgeStage e (dabRadius e pos.2.2 o).2.2 surf pos.1 pos.2.1 (dabRadius e pos.2.2 o).1 = .ok sm ∧
      Frame b sm.2.1 ∧
      ((sm.1 = true ∧ p = (false, sm.2)) ∨
       (sm.1 = false ∧ ∃ col,
          smudgeColor e sm.2.1 (hsvToRgb ⟨b.baseval sColorH, b.baseval sColorS, b.baseval sColorV⟩) = .ok col ∧
          Frame b col.2.2 ∧
          p = ((e.draw sm.2.2 (dabArgs e col.2.2 lin pos.1 pos.2.1 (dabRadius e pos.2.2 o).1
                (dabRadius e pos.2.2 o).2.1 col.1 col.2.1)).1, col.2.2,
              (e.draw sm.2.2 (dabArgs e col.2.2 lin pos.1 pos.2.1 (dabRadius e pos.2.2 o).1
                (dabRadius e pos.2.2 o).2.1 col.1 col.2.1)).2))) := by
  unfold drawDab at h
  obtain ⟨o, ho, h⟩ := bind_ok h
  obtain ⟨pos, hp, h⟩ := bind_ok h
  dsimp only at h
  obtain ⟨sm, hs, h⟩ := bind_ok h
  have f := ((dabPosition_frame hp).trans (dabRadius_frame e pos.2.2 o)).trans (smudgeStage_frame hs)
  refine ⟨o, pos, sm, ho, hp, hs, f, ?_⟩
  by_cases q : sm.1 = true
  · rw [if_pos q] at h
    exact .inl ⟨q, (Except.ok.inj h).symm⟩
  · rw [if_neg q] at h
    obtain ⟨col, hc, h⟩ := bind_ok h
    exact .inr ⟨by simpa using q, col, hc, f.trans (smudgeColor_frame hc), (Except.ok.inj h).symm⟩

/-- Sampling does not draw. -/
theorem smudgeStage_noDabs {b : Brush K R} {surf : σ × List (Dab.Args K)} {x y r : K}
    {sm : Bool × Brush K R × (σ × List (Dab.Args K))} (h : smudgeStage (recordDabs e) b surf x y r = .ok sm) :
    sm.2.2.2 = surf.2 := by
  unfold smudgeStage at h
  split_ifs at h
  · dsimp only at h
    obtain ⟨v, -, h⟩ := bind_ok h
    obtain ⟨px, -, h⟩ := bind_ok h
    obtain ⟨py, -, h⟩ := bind_ok h
    obtain ⟨b2, -, h⟩ := bind_ok h
    rw [← Except.ok.inj h]
    exact updateSmudge_log _ _ _ _ _ _ _
  · rw [← Except.ok.inj h]

/-- At most one dab is added to the list of dabs. -/
theorem drawDab_oneDab {b : Brush K R} {surf : σ × List (Dab.Args K)} {lin : Bool}
    {p : Bool × Brush K R × (σ × List (Dab.Args K))} (h : drawDab (recordDabs e) b surf lin = .ok p) :
    p.2.2.2 = surf.2 ∨ ∃ o pos sm col, dabOpacity (recordDabs e) b = .ok o ∧ dabPosition (recordDabs e) b = .ok pos ∧
      smudgeStage (recordDabs e) (dabRadius (recordDabs e) pos.2.2 o).2.2 surf pos.1 pos.2.1
        (dabRadius (recordDabs e) pos.2.2 o).1 = .ok sm ∧ Frame b sm.2.1 ∧
      smudgeColor (recordDabs e) sm.2.1 (hsvToRgb ⟨b.baseval sColorH, b.baseval sColorS, b.baseval sColorV⟩) = .ok col ∧
      Frame b col.2.2 ∧ p.2.1 = col.2.2 ∧
      p.2.2.2 = surf.2 ++ [dabArgs (recordDabs e) col.2.2 lin pos.1 pos.2.1 (dabRadius (recordDabs e) pos.2.2 o).1
        (dabRadius (recordDabs e) pos.2.2 o).2.1 col.1 col.2.1] := by
  obtain ⟨o, pos, sm, h1, h2, h3, h4, ⟨-, h5⟩ | ⟨-, col, h5, h6, h7⟩⟩ := drawDab_cases h
  · left
    have k := smudgeStage_noDabs h3
    rw [h5]
    exact k
  · right
    refine ⟨o, pos, sm, col, h1, h2, h3, h4, h5, h6, by rw [h7], ?_⟩
    rw [h7]
    show sm.2.2.2 ++ _ = _
    rw [smudgeStage_noDabs h3]

/-- An invariant that looks at the settings and the surface only. -/
theorem Invariant.ofSettings {e : Env K R σ} {I : Load.Brush K → σ → Prop} {J : Brush K R → σ → Prop}
    (hv : ∀ b b' st surf, I b.settings surf → update e b st = .ok b' → J b' surf)
    (hr : ∀ b surf, J b surf → I b.settings surf)
    (hd : ∀ b surf lin p, J b surf → drawDab e { b with st := { b.st with flip := b.st.flip * -1 } } surf lin = .ok p →
      I b.settings p.2.2) :
    Invariant e (fun _ => True) (fun _ _ => True) (fun b s => I b.settings s) J where
  skip b s ev _ h := by rw [skipStage_eq]; exact h
  pull b s ev _ _ h := by rw [cursor_eq, skipStage_eq]; exact h
  target _ _ _ _ _ _ := trivial
  start b s ev x y b' _ _ h _ hs := by
    obtain ⟨bk, -, e1⟩ := startOver_eq hs
    rw [e1]; exact h
  count b s x y dt h := by rw [countDabs_st]; exact h
  step b s ev x y d f t b' _ _ _ _ _ _ h hu := hv _ _ _ _ h hu
  draw b s lin p h hp := by
    have k := hd _ _ _ _ h hp
    have k2 : p.2.1.settings = b.settings := (drawDab_frame hp).settings
    rw [← k2] at k
    exact k
  finish b s n total idle h := hr b s h

/-- The same if only the settings and their values matter for a dab. -/
theorem Invariant.ofBlind {e : Env K R σ} {I : Load.Brush K → σ → Prop} {J : Load.Brush K → (Nat → K) → σ → Prop}
    (hv : ∀ s surf i, I s surf → J s (settingValues s i) surf)
    (hr : ∀ s v surf, J s v surf → I s surf)
    (hd : ∀ b surf lin p, J b.settings b.vals surf → drawDab e b surf lin = .ok p → I b.settings p.2.2) :
    Invariant e (fun _ => True) (fun _ _ => True) (fun b s => I b.settings s) (fun b s => J b.settings b.vals s) :=
  Invariant.ofSettings (fun b b' st surf h hu => by rw [update_eq hu]; exact hv _ _ _ h) (fun b surf h => hr _ _ _ h)
    (fun b surf lin p h hp => hd { b with st := { b.st with flip := b.st.flip * -1 } } surf lin p h hp)

end

end Verif.Engine
