import Verif.Props.C40_Events

/-!
# C45: when `mypaint_brush_stroke_to` asks to split the stroke

The documented rule (lines 1504-1546): while something is painted, the painting clock runs and the stroke is split
after 4 seconds plus 3 for full pressure, unless the pressure is falling; otherwise the idle clock runs and the
stroke is split after 1 second of idling at its beginning, or after 0.9 seconds (plus 5 for full pressure) of both.
Whether something was painted is what the surface answered; an event too short for a dab counts as a part of what
went on before.

The second half of the property fails: nothing restarts the clocks after a split.
-/

namespace Verif.Engine
open Verif.Mask Verif.Color Verif.Spectral Verif.Map

variable {K R σ : Type} [Field K] [LinearOrder K]

/-- The same surface, which also writes down what it answered to each dab. -/
def record (e : Env K R σ) : Env K R (σ × List Bool) where
  exp := e.exp
  log := e.log
  sqrt := e.sqrt
  pow := e.pow
  atan2 := e.atan2
  cos := e.cos
  sin := e.sin
  degrees := e.degrees
  next := e.next
  gauss := e.gauss
  draw s a := ((e.draw s.1 a).1, (e.draw s.1 a).2, s.2 ++ [(e.draw s.1 a).1])
  getColor s x y r p := ((e.getColor s.1 x y r p).1, (e.getColor s.1 x y r p).2, s.2)

/-- The two clocks of a brush. -/
structure Clocks (K : Type) where
  painting : K
  idle : K

/-- The rule. `painting`: something was painted; `falling`: the pressure fell in the last step. -/
structure Rule (painting falling : Prop) (dt pressure : K) (c c' : Clocks K) (split : Bool) : Prop where
  paint : painting → c'.painting = c.painting + dt ∧ c'.idle = 0 ∧
    (split = true ↔ c'.painting > 4 + 3 * pressure ∧ ¬ falling)
  rest : ¬ painting → c'.painting = c.painting ∧ c'.idle = c.idle + dt ∧
    (split = true ↔ (c'.painting = 0 ∧ c'.idle > 1) ∨ (c'.painting ≠ 0 ∧ c'.painting + c'.idle > 9 / 10 + 5 * pressure))

def Brush.clocks (b : Brush K R) : Clocks K := ⟨b.total, b.idle⟩

variable [FloorRing K]

theorem smudgeStage_log {e : Env K R σ} {b : Brush K R} {surf : σ × List Bool} {x y r : K}
    {p : Bool × Brush K R × (σ × List Bool)} (h : smudgeStage (record e) b surf x y r = .ok p) :
    p.2.2.2 = surf.2 := by
  unfold smudgeStage at h
  split_ifs at h
  · dsimp only at h
    obtain ⟨v, -, h⟩ := bind_ok h
    obtain ⟨px, -, h⟩ := bind_ok h
    obtain ⟨py, -, h⟩ := bind_ok h
    obtain ⟨b1, h1, h⟩ := bind_ok h
    rw [← Except.ok.inj h]
    unfold updateSmudge
    dsimp only
    split_ifs <;> rfl
  · rw [← Except.ok.inj h]

/-- One dab: what is written down is what is returned. -/
theorem drawDab_log {e : Env K R σ} {b : Brush K R} {surf : σ × List Bool} {lin : Bool}
    {p : Bool × Brush K R × (σ × List Bool)} (h : drawDab (record e) b surf lin = .ok p) :
    p.2.2.2 = surf.2 ++ [p.1] ∨ (p.1 = false ∧ p.2.2.2 = surf.2) := by
  unfold drawDab at h
  obtain ⟨o, -, h⟩ := bind_ok h
  obtain ⟨pos, hp, h⟩ := bind_ok h
  dsimp only at h
  obtain ⟨sm, hs, h⟩ := bind_ok h
  have k := smudgeStage_log hs
  split_ifs at h
  · rw [← Except.ok.inj h]; exact .inr ⟨rfl, k⟩
  · obtain ⟨col, hc, h⟩ := bind_ok h
    rw [← Except.ok.inj h]
    left
    show sm.2.2.2 ++ _ = _
    rw [k]; rfl

/-- What the loop knows: it has painted when some dab was accepted; it knows nothing when it has not turned. -/
theorem loop_painted {e : Env K R σ} {ev : Event K} {x y : K} {fuel : Nat} {l l' : Loop K R (σ × List Bool)}
    (h : dabLoop (record e) ev x y fuel l = .ok l') (h0 : l.painted = .unknown) (h1 : l.surf.2 = []) :
    (l'.painted = .yes ↔ true ∈ l'.surf.2) ∧ (l'.painted = .unknown ↔ l.moved + l.todo < 1) := by
  by_cases hc : l.moved + l.todo ≥ 1
  · cases fuel with
    | zero => unfold dabLoop at h; rw [if_pos hc] at h; cases h
    | succ fuel =>
      unfold dabLoop at h
      rw [if_pos hc] at h
      obtain ⟨l1, hs, h⟩ := bind_ok h
      have step : ∀ (l l' : Loop K R (σ × List Bool)), dabStep (record e) ev x y l = .ok l' →
          (l.painted = .yes ↔ true ∈ l.surf.2) → (l'.painted = .yes ↔ true ∈ l'.surf.2) ∧ l'.painted ≠ .unknown := by
        intro l l' hs hp
        obtain ⟨-, b1, p, b2, -, hd, -, e1⟩ := dabStep_eq hs
        rw [e1]
        simp only
        rcases drawDab_log hd with hl | ⟨hl, hl'⟩
        · rw [hl]
          cases hp1 : p.1
          · simp only [Bool.false_eq_true, if_false, List.mem_append, List.mem_singleton, reduceCtorEq, or_false]
            split_ifs with hu
            · rw [hu] at hp
              simp only [reduceCtorEq, false_iff] at hp
              simp [hp]
            · exact ⟨hp, hu⟩
          · simp
        · rw [hl', hl]
          simp only [Bool.false_eq_true, if_false]
          split_ifs with hu
          · rw [hu] at hp
            simp only [reduceCtorEq, false_iff] at hp
            simp [hp]
          · exact ⟨hp, hu⟩
      have k1 := step l l1 hs (by rw [h0, h1]; simp)
      have k2 := dabLoop_induct (fun l : Loop K R (σ × List Bool) =>
        (l.painted = .yes ↔ true ∈ l.surf.2) ∧ l.painted ≠ .unknown)
        (fun l l' _ hs hp => step l l' hs hp.1) fuel l1 l' h k1
      refine ⟨k2.1.1, ?_⟩
      simp only [k2.1.2, false_iff, not_lt]
      exact hc
  · have : l' = l := by
      cases fuel <;> (unfold dabLoop at h; rw [if_neg hc] at h; exact (Except.ok.inj h).symm)
    rw [this, h0, h1]
    simpa using hc

/-- The number of dabs that an event makes due: what was pending plus what the way and the time ask for. -/
def dabsDue (e : Env K R σ) (b : Brush K R) (x y dt : K) : K := b.st.partialDabs + (countDabs e b x y dt).1

variable [IsStrictOrderedRing K]

omit [FloorRing K] [IsStrictOrderedRing K] in
theorem splitStroke_rule (b : Brush K R) (p : Painted) (dt pressure dp : K) :
    Rule (p = .yes ∨ (p = .unknown ∧ ¬ (b.idle > 0 ∨ b.total = 0))) (dp < 0) dt pressure b.clocks
      (splitStroke b p dt pressure dp).2.clocks (splitStroke b p dt pressure dp).1 := by
  have hy : ∀ q : Painted, (splitStroke b q dt pressure dp) =
      if (q = .yes ∨ (q = .unknown ∧ ¬ (b.idle > 0 ∨ b.total = 0))) then
        (decide (b.total + dt > 4 + 3 * pressure ∧ dp ≥ 0), { b with total := b.total + dt, idle := 0 })
      else if b.total = 0 then (decide (b.idle + dt > 1), { b with idle := b.idle + dt })
      else (decide (b.total + (b.idle + dt) > 9 / 10 + 5 * pressure), { b with idle := b.idle + dt }) := by
    intro q
    unfold splitStroke
    cases q <;> simp only [reduceCtorEq, true_or, false_or, if_true, if_false, true_and, false_and]
    by_cases hc : b.idle > 0 ∨ b.total = 0
    · simp only [hc, if_true, not_true_eq_false, reduceCtorEq, if_false]
    · simp only [hc, if_false, not_false_eq_true, if_true]
  rw [hy]
  constructor
  · intro h
    rw [if_pos h]
    exact ⟨rfl, rfl, by simp [Brush.clocks]⟩
  · intro h
    rw [if_neg h]
    split_ifs with ht
    · exact ⟨rfl, rfl, by simp [Brush.clocks, ht]⟩
    · exact ⟨rfl, rfl, by simp [Brush.clocks, ht]⟩

/-- A number between two others. -/
def Between (a lo hi : K) : Prop := (lo ≤ a ∧ a ≤ hi) ∨ (hi ≤ a ∧ a ≤ lo)

omit [FloorRing K] in
theorem between_step {p a b f : K} (h : Between p a b) (h0 : 0 ≤ f) (h1 : f ≤ 1) : Between (p + f * (b - p)) a b := by
  unfold Between at *
  rcases h with ⟨h2, h3⟩ | ⟨h2, h3⟩
  · left
    constructor
    · nlinarith [mul_nonneg h0 (sub_nonneg.mpr h3)]
    · nlinarith [mul_nonneg (sub_nonneg.mpr h1) (sub_nonneg.mpr h3)]
  · right
    constructor
    · nlinarith [mul_nonneg (sub_nonneg.mpr h1) (sub_nonneg.mpr h2)]
    · nlinarith [mul_nonneg h0 (sub_nonneg.mpr h2)]

omit [FloorRing K] [IsStrictOrderedRing K] in
theorem between_clamp {z a b : K} (h : Between z a b) (h0 : 0 ≤ z) : Between (if z ≤ 0 then 0 else z) a b := by
  by_cases hle : z ≤ 0
  · rw [if_pos hle]; exact le_antisymm hle h0 ▸ h
  · rw [if_neg hle]; exact h

theorem update_pressure {e : Env K R σ} {b b' : Brush K R} {s : Step K} (h : update e b s = .ok b') :
    b'.st.pressure = if b.st.pressure + s.dpressure ≤ 0 then 0 else b.st.pressure + s.dpressure := by
  rw [update_eq h]; rfl

/-- The pressure at each dab lies between that of the event before and that of the event. -/
theorem loop_pressure {e : Env K R σ} {ev : Event K} {x y : K} {fuel : Nat} {l l' : Loop K R σ}
    (h : dabLoop e ev x y fuel l = .ok l') (h0 : 0 ≤ l.moved) (h1 : 0 ≤ l.todo) (hm : l.moved < 1)
    (hp : 0 ≤ l.b.st.pressure) (hv : 0 ≤ ev.pressure) : Between l'.b.st.pressure l.b.st.pressure ev.pressure := by
  set a := l.b.st.pressure with ha
  have k := dabLoop_induct (e := e) (ev := ev) (x := x) (y := y) (fun l : Loop K R σ =>
    0 ≤ l.moved ∧ 0 ≤ l.todo ∧ l.moved < 1 ∧ Between l.b.st.pressure a ev.pressure) ?_ fuel l l' h
    ⟨h0, h1, hm, by
      unfold Between
      rcases le_total a ev.pressure with hh | hh
      · exact .inl ⟨le_of_eq ha, hh⟩
      · exact .inr ⟨hh, le_of_eq ha.symm⟩⟩
  · exact k.1.2.2.2
  · intro l l' hc hs hp'
    obtain ⟨h0, h1, hm, hb⟩ := hp'
    obtain ⟨hz, b1, p, b2, hu, hd, h2, e1⟩ := dabStep_eq hs
    have ht : 0 < l.todo := lt_of_le_of_ne h1 (Ne.symm hz)
    have dp : 0 ≤ (if l.moved > 0 then 1 - l.moved else 1) ∧ (if l.moved > 0 then 1 - l.moved else 1) ≤ l.todo := by
      split_ifs with hh
      · exact ⟨by linarith, by linarith⟩
      · exact ⟨zero_le_one, by linarith⟩
    have f0 := div_nonneg dp.1 ht.le
    have f1 : (if l.moved > 0 then 1 - l.moved else 1) / l.todo ≤ 1 := (div_le_one ht).mpr dp.2
    have hpr : l'.b.st.pressure = b1.st.pressure := by
      have e3 : b2.st.pressure = b1.st.pressure := by
        rw [h2]; simp only; rw [(drawDab_frame hd).st]
      rw [e1, ← e3]
      unfold countDabs; dsimp only; split_ifs <;> rfl
    have hpos : 0 ≤ l.b.st.pressure := by
      rcases hb with ⟨q, -⟩ | ⟨q, -⟩
      · exact hp.trans q
      · exact hv.trans q
    refine ⟨?_, ?_, ?_, ?_⟩
    · rw [e1]; simp only; split_ifs
      · exact le_refl _
      · exact h0
    · rw [e1]; exact countDabs_nonneg _ _ _ _ _
    · rw [e1]; simp only; split_ifs
      · exact zero_lt_one
      · exact hm
    · rw [hpr, update_pressure hu]
      have bs := between_step (f := (if l.moved > 0 then 1 - l.moved else 1) / l.todo) hb f0 f1
      have nn : 0 ≤ l.b.st.pressure + (if l.moved > 0 then 1 - l.moved else 1) / l.todo *
          (ev.pressure - l.b.st.pressure) := by
        rcases bs with ⟨q, -⟩ | ⟨q, -⟩
        · exact hp.trans q
        · exact hv.trans q
      simp only [stepTo]
      generalize (if l.moved > 0 then 1 - l.moved else 1) / l.todo = f at bs nn
      exact between_clamp bs nn

/-- The rule holds for a movement. `pLast` is the pressure at the last dab of the event (or at the event before),
between the pressures of both events; the code takes the pressure as falling when the event's is below it. -/
theorem move_follows_rule {e : Env K R σ} {fuel : Nat} {b : Brush K R} {surf : σ} {ev : Event K} {x y dt : K}
    {r : Bool × Brush K R × (σ × List Bool)} (hb : PendingOk b) (hp : 0 ≤ b.st.pressure) (hv : 0 ≤ ev.pressure)
    (h : moveTo (record e) fuel b (surf, []) ev x y dt = .ok r) :
    ∃ pLast, Between pLast b.st.pressure ev.pressure ∧
      Rule (true ∈ r.2.2.2 ∨ (dabsDue (record e) b x y dt < 1 ∧ b.idle ≤ 0 ∧ b.total ≠ 0)) (ev.pressure < pLast) dt
        ev.pressure b.clocks r.2.1.clocks r.1 := by
  obtain ⟨l, b1, hl, hu, h1, h2, h3⟩ := moveTo_eq h
  have cp : (countDabs (record e) b x y dt).2.st.pressure = b.st.pressure := by
    unfold countDabs; dsimp only; split_ifs <;> rfl
  have kp := loop_pressure hl hb.1 (countDabs_nonneg _ _ _ _ _) hb.2 (by rw [cp]; exact hp) hv
  obtain ⟨ky, ku⟩ := loop_painted hl rfl rfl
  have ct : ∀ (b : Brush K R) (x y dt : K), (countDabs (record e) b x y dt).2.clocks = b.clocks := fun _ _ _ _ => rfl
  have kc := dabLoop_induct (e := record e) (ev := ev) (x := x) (y := y)
    (fun l : Loop K R (σ × List Bool) => l.b.clocks = b.clocks) (by
      intro l l' _ hs hp
      obtain ⟨-, b1, p, b2, hu, hd, h2, e1⟩ := dabStep_eq hs
      rw [e1]
      simp only
      rw [ct, h2]
      have f := drawDab_frame hd
      show Clocks.mk p.2.1.total p.2.1.idle = _
      rw [f.total, f.idle]
      show b1.clocks = _
      rw [update_eq hu]
      exact hp) fuel _ _ hl (ct b x y dt)
  have e1 : b1.clocks = b.clocks := by
    rw [← kc.1, update_eq hu]; rfl
  refine ⟨l.b.st.pressure, ?_, ?_⟩
  · simpa only [cp] using kp
  · have rr := splitStroke_rule { b1 with st := { b1.st with partialDabs := l.moved + l.todo } } l.painted dt ev.pressure
      (1 * (ev.pressure - l.b.st.pressure))
    rw [← h1, ← h2] at rr
    have ec : ({ b1 with st := { b1.st with partialDabs := l.moved + l.todo } } : Brush K R).clocks = b.clocks := e1
    rw [ec] at rr
    have et : b1.total = b.total := congrArg Clocks.painting e1
    have ei : b1.idle = b.idle := congrArg Clocks.idle e1
    simp only [ky, ku, et, ei, not_or, gt_iff_lt, not_lt, one_mul, sub_neg, ← h3] at rr
    exact rr

theorem sanitise_pressure {e : Env K R σ} {m : Motion K} {ev : Event K} (h : sanitise e m = .ok ev) :
    0 ≤ ev.pressure ∧ 0 < ev.dtime := by
  unfold sanitise at h
  obtain ⟨t, -, h⟩ := bind_ok h
  dsimp only at h
  have hd : 0 < (if m.dtime ≤ 0 then 1 / 10000 else m.dtime : K) := by
    split_ifs with hh
    · norm_num
    · exact not_le.mp hh
  have hp : 0 ≤ (if m.pressure ≤ 0 then 0 else m.pressure : K) := by
    split_ifs with hh
    · exact le_refl _
    · exact le_of_not_ge hh
  generalize (if m.dtime ≤ 0 then 1 / 10000 else m.dtime : K) = d at *
  generalize (if m.pressure ≤ 0 then 0 else m.pressure : K) = p at *
  split at h
  · split_ifs at h
    rw [← Except.ok.inj h]; exact ⟨hp, hd⟩
  · rw [← Except.ok.inj h]; exact ⟨le_refl _, hd⟩

/-- C45, first half: an event returns TRUE exactly by the rule, and the clocks run by it. The hypotheses say that the
event is an ordinary one: no reset, no event skipped for tracking noise, at most 5 seconds, not on the path of line
1346. -/
theorem stroke_to_follows_rule {e : Env K R σ} {fuel : Nat} {b : Brush K R} {surf : σ} {m : Motion K} {ev : Event K}
    {r : Bool × Brush K R × (σ × List Bool)} (hev : sanitise (record e) m = .ok ev) (hb : PendingOk b)
    (hp : 0 ≤ b.st.pressure) (hres : b.resetRequested = false) (hskip : b.skip ≤ 1 / 1000) (hdt : ev.dtime ≤ 5)
    (hw : ¬ Workaround b ev) (h : strokeTo (record e) fuel b (surf, []) m = .ok r) :
    ∃ pLast, Between pLast b.st.pressure ev.pressure ∧
      Rule (true ∈ r.2.2.2 ∨
          (dabsDue (record e) b (cursor (record e) b ev.x ev.y ev.dtime).1 (cursor (record e) b ev.x ev.y ev.dtime).2.1
            ev.dtime < 1 ∧ b.idle ≤ 0 ∧ b.total ≠ 0))
        (ev.pressure < pLast) ev.dtime ev.pressure b.clocks r.2.1.clocks r.1 := by
  have hpv := (sanitise_pressure hev).1
  obtain ⟨ev', he', ⟨-, h⟩ | ⟨hw', -⟩⟩ := strokeTo_cases h
  · rw [hev] at he'; cases he'
    have sk : skipStage (record e) b ev.x ev.y ev.dtime = (b, ev.dtime, false) := by
      unfold skipStage
      rw [if_neg (not_lt.mpr hskip)]
    rcases strokeEvent_cases h with ⟨h1, -⟩ | ⟨-, h1, -⟩ | ⟨-, -, h⟩
    · rw [sk] at h1; cases h1
    · rw [sk, hres] at h1
      rcases h1 with h1 | h1
      · exact absurd hdt (not_le.mpr h1)
      · cases h1
    · simp only [sk] at h
      have est := cursor_st (record e) b ev.x ev.y ev.dtime
      have ecl : (cursor (record e) b ev.x ev.y ev.dtime).2.2.clocks = b.clocks := by rw [cursor_eq]; rfl
      have k := move_follows_rule (by unfold PendingOk; rw [est]; exact hb) (by rw [est]; exact hp) hpv h
      rw [est, ecl] at k
      have et : (cursor (record e) b ev.x ev.y ev.dtime).2.2.total = b.total := congrArg Clocks.painting ecl
      have ei : (cursor (record e) b ev.x ev.y ev.dtime).2.2.idle = b.idle := congrArg Clocks.idle ecl
      have ed : ∀ x y dt, dabsDue (record e) (cursor (record e) b ev.x ev.y ev.dtime).2.2 x y dt =
          dabsDue (record e) b x y dt := by
        intro x y dt
        unfold dabsDue countDabs
        dsimp only
        rw [est]
        unfold Brush.baseval
        have : (cursor (record e) b ev.x ev.y ev.dtime).2.2.settings = b.settings := by rw [cursor_eq]
        rw [this]
      rw [et, ei, ed] at k
      exact k
  · rw [hev] at he'; cases he'
    exact absurd hw' hw

/-! ### The clocks are not restarted -/

theorem loop_clocks {e : Env K R σ} {ev : Event K} {x y : K} {fuel : Nat} {l l' : Loop K R σ}
    (h : dabLoop e ev x y fuel l = .ok l') : l'.b.clocks = l.b.clocks := by
  have ct : ∀ (b : Brush K R) (x y dt : K), (countDabs e b x y dt).2.clocks = b.clocks := fun _ _ _ _ => rfl
  refine (dabLoop_induct (e := e) (ev := ev) (x := x) (y := y) (fun l' : Loop K R σ => l'.b.clocks = l.b.clocks)
    ?_ fuel _ _ h rfl).1
  intro l l' _ hs hp
  obtain ⟨-, b1, p, b2, hu, hd, h2, e1⟩ := dabStep_eq hs
  rw [e1]
  simp only
  rw [ct, h2]
  have f := drawDab_frame hd
  show Clocks.mk p.2.1.total p.2.1.idle = _
  rw [f.total, f.idle]
  show b1.clocks = _
  rw [update_eq hu]
  exact hp

theorem moveTo_total {e : Env K R σ} {fuel : Nat} {b : Brush K R} {surf : σ} {ev : Event K} {x y dt : K}
    {r : Bool × Brush K R × σ} (hd : 0 ≤ dt) (h : moveTo e fuel b surf ev x y dt = .ok r) : b.total ≤ r.2.1.total := by
  obtain ⟨l, b1, hl, hu, h1, h2, h3⟩ := moveTo_eq h
  have e1 : b1.total = b.total := by
    have : b1.clocks = b.clocks := by rw [update_eq hu]; exact loop_clocks hl
    exact congrArg Clocks.painting this
  have rr := splitStroke_rule { b1 with st := { b1.st with partialDabs := l.moved + l.todo } } l.painted dt ev.pressure
    (1 * (ev.pressure - l.b.st.pressure))
  rw [← h2] at rr
  by_cases hq : l.painted = .yes ∨ (l.painted = .unknown ∧ ¬ (b1.idle > 0 ∨ b1.total = 0))
  · have := (rr.paint hq).1
    simp only [Brush.clocks] at this
    rw [this, e1]; linarith
  · have := (rr.rest hq).1
    simp only [Brush.clocks] at this
    rw [this, e1]

/-- One event: the painting clock does not go back and the skipped time stays nonnegative. -/
theorem strokeEvent_total {e : Env K R σ} {fuel : Nat} {b : Brush K R} {surf : σ} {ev : Event K}
    {r : Bool × Brush K R × σ} (hs : 0 ≤ b.skippedTime) (hd : 0 ≤ ev.dtime)
    (h : strokeEvent e fuel b surf ev = .ok r) : b.total ≤ r.2.1.total ∧ 0 ≤ r.2.1.skippedTime := by
  have st : 0 ≤ (skipStage e b ev.x ev.y ev.dtime).2.1 ∧ 0 ≤ (skipStage e b ev.x ev.y ev.dtime).1.skippedTime := by
    unfold skipStage
    dsimp only
    split_ifs
    · exact ⟨add_nonneg hs hd, add_nonneg hs hd⟩
    · exact ⟨add_nonneg hs hd, le_refl _⟩
    · exact ⟨hd, hs⟩
  have et : (skipStage e b ev.x ev.y ev.dtime).1.total = b.total := by rw [skipStage_eq]
  rcases strokeEvent_cases h with ⟨-, h⟩ | ⟨-, -, b', h1, h⟩ | ⟨-, -, h⟩
  · rw [h]; exact ⟨et.ge, st.2⟩
  · obtain ⟨bk, -, e1⟩ := startOver_eq h1
    rw [h, e1]
    refine ⟨?_, le_refl _⟩
    show b.total ≤ (cursor e _ _ _ _).2.2.total
    rw [cursor_eq]; exact et.ge
  · have k := moveTo_total st.1 h
    rw [cursor_eq] at k
    refine ⟨et ▸ k, ?_⟩
    obtain ⟨l, b1, hl, hu, -, h2, -⟩ := moveTo_eq h
    have kl := dabLoop_induct (fun l : Loop K R σ => 0 ≤ l.b.skippedTime) (by
      intro l l' _ hs hp
      obtain ⟨-, b1, p, b2, hu, hd, h2, e1⟩ := dabStep_eq hs
      rw [e1]
      show 0 ≤ b2.skippedTime
      rw [h2]
      show 0 ≤ p.2.1.skippedTime
      rw [drawDab_frame hd]
      show 0 ≤ b1.skippedTime
      rw [update_eq hu]; exact hp) fuel _ _ hl (by
        show 0 ≤ (cursor e _ _ _ _).2.2.skippedTime
        rw [cursor_eq]; exact st.2)
    rw [h2, splitStroke_eq]
    show 0 ≤ b1.skippedTime
    rw [update_eq hu]; exact kl.1

/-- C45, second half, is false: no event makes the painting clock go back, whether it returns TRUE or not; only
`mypaint_brush_new_stroke` does. (`skippedTime` is the time of events skipped for tracking noise; it is never
negative, by the second part, and 0 in a new brush.) -/
theorem painting_clock_never_restarts {e : Env K R σ} {fuel : Nat} {b : Brush K R} {surf : σ} {m : Motion K}
    {r : Bool × Brush K R × σ} (hs : 0 ≤ b.skippedTime) (h : strokeTo e fuel b surf m = .ok r) :
    b.total ≤ r.2.1.total ∧ 0 ≤ r.2.1.skippedTime := by
  obtain ⟨ev, he, ⟨-, h⟩ | ⟨-, inner, r1, hi, h1, h⟩⟩ := strokeTo_cases h
  · exact strokeEvent_total hs (sanitise_pressure he).2.le h
  · have k1 := strokeEvent_total hs (sanitise_pressure hi).2.le h1
    have k2 := strokeEvent_total k1.2 (by norm_num : (0 : K) ≤ 1 / 10000) h
    exact ⟨k1.1.trans k2.1, k2.2⟩

/-- Over a whole session without `mypaint_brush_new_stroke`. -/
theorem painting_clock_never_restarts_session {e : Env K R σ} {fuel : Nat} {ms : List (Motion K)} :
    ∀ {b : Brush K R} {surf : σ} {r : Brush K R × σ}, 0 ≤ b.skippedTime → strokes e fuel b surf ms = .ok r →
      b.total ≤ r.1.total ∧ 0 ≤ r.1.skippedTime := by
  induction ms with
  | nil => intro b surf r hs h; rw [← Except.ok.inj h]; exact ⟨le_refl _, hs⟩
  | cons m ms ih =>
    intro b surf r hs h
    obtain ⟨r1, h1, h2⟩ := bind_ok (x := strokeTo e fuel b surf m) h
    have k1 := painting_clock_never_restarts hs h1
    have k2 := ih k1.2 h2
    exact ⟨k1.1.trans k2.1, k2.2⟩

/-- `mypaint_brush_new_stroke` restarts both clocks. -/
theorem new_stroke_restarts (b : Brush K R) : (newStroke b).total = 0 ∧ (newStroke b).idle = 0 := ⟨rfl, rfl⟩

/-- So the answer TRUE is repeated: when an event asked for a split while painting, so does the next event that
paints, unless its pressure is higher or falls. -/
theorem split_is_repeated {dt₁ dt₂ p₁ p₂ : K} {c₀ c₁ c₂ : Clocks K} {f₁ f₂ : Prop} {s₂ : Bool} (hdt : 0 ≤ dt₂)
    (h₁ : Rule True f₁ dt₁ p₁ c₀ c₁ true) (h₂ : Rule True f₂ dt₂ p₂ c₁ c₂ s₂) (hp : p₂ ≤ p₁) (hf : ¬ f₂) :
    s₂ = true := by
  obtain ⟨-, -, k1⟩ := h₁.paint trivial
  obtain ⟨k2, -, k3⟩ := h₂.paint trivial
  refine k3.mpr ⟨?_, hf⟩
  have := (k1.mp rfl).1
  rw [k2]; linarith

/-! ### Examples -/

section examples
open Demo

/-- What each of a list of events returns, on a surface that writes down its answers. -/
def answers (b : Brush ℚ Nat) : List (Motion ℚ) → List (Bool × ℚ × ℚ × Nat)
  | [] => []
  | m :: ms =>
    match strokeTo (record env) 100 b ([], []) m with
    | .ok r => (r.1, r.2.1.total, r.2.1.idle, r.2.2.2.length) :: answers r.2.1 ms
    | .error _ => []

/-- Painting at two seconds per event: TRUE at eight seconds, which is over seven, and TRUE again at ten. (The first
answer is that of the reset, the first movement draws no dab.) -/
example : answers brush
    [motion 0 0 1 (1 / 10), motion 6 8 1 2, motion 12 16 1 2, motion 18 24 1 2, motion 24 32 1 2, motion 30 40 1 2,
      motion 36 48 1 2] =
    [(true, 0, 0, 0), (true, 0, 2, 0), (false, 2, 0, 6), (false, 4, 0, 7), (false, 6, 0, 7), (true, 8, 0, 6),
      (true, 10, 0, 7)] := by decide +kernel

end examples

end Verif.Engine
