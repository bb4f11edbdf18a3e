import Verif.Props.C118_Custom
import Verif.Props.C95_Speed
import Verif.Props.C44_Sampling

/-!
# C123: the number of dabs is what the length of the way and the time ask for

Whatever way the pen takes, in whatever events it is reported, and whatever the dynamics of the brush do to the radius, the colour or the
place of the dabs.
-/

namespace Verif.Engine
open Verif.Mask Verif.Color Verif.Spectral Verif.Map

section
variable {K R σ : Type} [Field K] [LinearOrder K] [IsStrictOrderedRing K] [FloorRing K]

/-! ### Specification -/

/-- The radius that the base value of the setting gives. -/
def basicRadius (e : Env K R σ) (s : Load.Brush K) : K := max (1 / 5) (min 1000 (e.exp (s sRadiusLogarithmic).base))

/-- The dabs for a way of the length `len` and the time `t`, as a number with a fraction: `n` for each radius, `q` for each second. -/
def dabsFor (r n q len t : K) : K := n * (len / r) + q * t

/-- A brush of round dabs with constant rates: `A` dabs for each radius, `B` for each basic radius, `S` for each second. Unless `A` is 0, the
radius is constant. It does not look at the canvas. -/
structure Rates (s : Load.Brush K) (A B S : K) : Prop where
  actual : ∀ i, calculate (s sDabsPerActualRadius) i = A
  basic : ∀ i, calculate (s sDabsPerBasicRadius) i = B
  second : ∀ i, calculate (s sDabsPerSecond) i = S
  size : A = 0 ∨ ∀ i, calculate (s sRadiusLogarithmic) i = (s sRadiusLogarithmic).base
  round : ∀ i, calculate (s sEllipticalDabRatio) i ≤ 1
  samples : NeverSamples s
  actual_nonneg : 0 ≤ A
  basic_nonneg : 0 ≤ B
  second_nonneg : 0 ≤ S

/-- The brush has taken over the rates: it has moved before. -/
structure OnRates (e : Env K R σ) (A B S : K) (b : Brush K R) : Prop where
  actual : b.st.dabsPerActualRadius = A
  basic : b.st.dabsPerBasicRadius = B
  second : b.st.dabsPerSecond = S
  size : A = 0 ∨ b.st.actualRadius = basicRadius e b.settings
  round : b.st.ratio ≤ 1

/-- The length of the way from `(x, y)` through the places. -/
def wayLength (e : Env K R σ) : K → K → List (K × K) → K
  | _, _, [] => 0
  | x, y, P :: Ps => hypot e (P.1 - x) (P.2 - y) + wayLength e P.1 P.2 Ps

/-- The event reports the place `P`, after at most five seconds. -/
def GoesTo (m : Motion K) (P : K × K) : Prop := RestsAt P.1 P.2 m ∧ OnCanvas P.1 P.2 ∧ 0 < m.dtime ∧ m.dtime ≤ 5

/-- The time of all events. -/
def allTime (ms : List (Motion K)) : K := (ms.map Motion.dtime).sum

/-! ### One movement -/

omit [FloorRing K] in
theorem basicRadius_pos (e : Env K R σ) (s : Load.Brush K) : 0 < basicRadius e s := lt_of_lt_of_le (by norm_num) (le_max_left _ _)

theorem basicRadius_eq (e : Env K R σ) (s : Load.Brush K) : clampK (e.exp (s sRadiusLogarithmic).base) (1 / 5) 1000 = basicRadius e s := by
  rw [clampK_eq _ _ _ (by norm_num)]
  rfl

theorem OnRates.count {e : Env K R σ} {A B S : K} {b : Brush K R} (L : Laws e) (hs : Rates b.settings A B S) (h : OnRates e A B S b) (x y : K)
    {dt : K} (ht : 0 ≤ dt) : (countDabs e b x y dt).1 =
      dabsFor (basicRadius e b.settings) (A + B) S (hypot e (x - b.st.x) (y - b.st.y)) dt ∧
      OnRates e A B S (countDabs e b x y dt).2 := by
  have R0 := basicRadius_pos e b.settings
  have hb : clampK (e.exp (b.baseval sRadiusLogarithmic)) (1 / 5) 1000 = basicRadius e b.settings := basicRadius_eq e b.settings
  have h2 : OnRates e A B S (countDabs e b x y dt).2 := by
    rw [countDabs_st]
    refine ⟨h.actual, h.basic, h.second, ?_, h.round⟩
    rcases h.size with q | q
    · exact .inl q
    · right
      simp only [hb, q, if_neg R0.ne']
  refine ⟨?_, h2⟩
  have hl := hypot_nonneg L (x - b.st.x) (y - b.st.y)
  rw [countDabs_eq, hb, h.actual, h.basic, h.second]
  unfold ellipse
  rw [if_neg (not_lt.mpr h.round)]
  generalize hypot e (x - b.st.x) (y - b.st.y) = d at hl ⊢
  have e1 : d / (countDabs e b x y dt).2.st.actualRadius * A = A * (d / basicRadius e b.settings) := by
    rcases h2.size with q | q
    · rw [q, mul_zero, zero_mul]
    · rw [q, mul_comm, countDabs_st]
  rw [e1]
  have d0 := div_nonneg hl R0.le
  have p1 := mul_nonneg hs.actual_nonneg d0
  have p2 := mul_nonneg hs.basic_nonneg d0
  have p3 := mul_nonneg hs.second_nonneg ht
  unfold dabsFor
  rw [max_eq_right (by linarith)]
  ring

theorem OnRates.update {e : Env K R σ} {A B S : K} {b b' : Brush K R} (hs : Rates b.settings A B S) {s : Step K}
    (h : Engine.update e b s = .ok b') :
    OnRates e A B S b' ∧ b'.settings = b.settings ∧ b'.st.x = b.st.x + s.dx ∧ b'.st.y = b.st.y + s.dy ∧
      ∃ i : Inputs K, b'.vals = settingValues b.settings i := by
  rw [update_eq h]
  refine ⟨⟨hs.actual _, hs.basic _, hs.second _, ?_, hs.round _⟩, rfl, rfl, rfl, _, rfl⟩
  rcases hs.size with q | q
  · exact .inl q
  · right
    show finalRadius e (calculate (b.settings sRadiusLogarithmic) _) = basicRadius e b.settings
    rw [q, finalRadius_eq]
    rfl

theorem drawDab_always {e : Env K R σ} {b : Brush K R} (hs : NeverSamples b.settings) {i : Inputs K}
    (hv : b.vals = settingValues b.settings i) {surf : σ × List (Dab.Args K)} {lin : Bool}
    {p : Bool × Brush K R × (σ × List (Dab.Args K))} (h : drawDab (recordDabs e) b surf lin = .ok p) :
    ∃ a, p.2.2.2 = surf.2 ++ [a] := by
  obtain ⟨o, pos, sm, -, h2, h3, -, h4⟩ := drawDab_cases h
  have f := (dabPosition_frame h2).trans (dabRadius_frame (recordDabs e) pos.2.2 o)
  have nd := smudgeStage_noDabs h3
  have hsm : sm.1 = false := by
    unfold smudgeStage at h3
    rw [if_neg] at h3
    · rw [← Except.ok.inj h3]
    · rw [f.vals, f.settings, hv]
      exact hs i.get
  rcases h4 with ⟨q, -⟩ | ⟨-, col, -, -, h7⟩
  · rw [hsm] at q; cases q
  · rw [h7]
    exact ⟨_, congrArg (· ++ [_]) nd⟩

/-- What holds between the dabs of a movement to `(X, Y)`: the dabs, the pending part and those still to do add up. -/
structure Counting (e : Env K R σ) (s : Load.Brush K) (A B S total X Y : K) (old : List (Dab.Args K))
    (l : Loop K R (σ × List (Dab.Args K))) : Prop where
  settings : l.b.settings = s
  rates : OnRates e A B S l.b
  todo : l.todo = dabsFor (basicRadius e s) (A + B) S (hypot e (X - l.b.st.x) (Y - l.b.st.y)) l.dtimeLeft
  time : 0 ≤ l.dtimeLeft
  moved : 0 ≤ l.moved ∧ l.moved < 1
  sum : ∃ new, l.surf.2 = old ++ new ∧ (new.length : K) + l.moved + l.todo = total

theorem dabStep_counts {e : Env K R σ} (L : Laws e) {s : Load.Brush K} {A B S total X Y : K} (hs : Rates s A B S) {old : List (Dab.Args K)}
    {ev : Event K} {l l' : Loop K R (σ × List (Dab.Args K))} (hc : l.moved + l.todo ≥ 1) (hl : Counting e s A B S total X Y old l)
    (h : dabStep (recordDabs e) ev X Y l = .ok l') : Counting e s A B S total X Y old l' := by
  obtain ⟨hz, b1, p, b2, hu, hd, hb2, e1⟩ := dabStep_eq h
  have hdd : (if l.moved > 0 then 1 - l.moved else 1) = 1 - l.moved := by
    split_ifs with q
    · rfl
    · have : l.moved = 0 := le_antisymm (not_lt.mp q) hl.moved.1
      rw [this]; ring
  have hmn : (if l.moved > 0 then 0 else l.moved) = 0 := by
    split_ifs with q
    · rfl
    · exact le_antisymm (not_lt.mp q) hl.moved.1
  rw [hdd] at hu
  rw [hdd, hmn] at e1
  have htp : 0 < l.todo := by linarith [hl.moved.2]
  obtain ⟨g, hg⟩ : ∃ g, g = (1 - l.moved) / l.todo := ⟨_, rfl⟩
  have g1 : g ≤ 1 := by rw [hg, div_le_one htp]; linarith
  have gt : g * l.todo = 1 - l.moved := by rw [hg, div_mul_cancel₀ _ htp.ne']
  rw [← hg] at hu e1
  have set0 := hl.settings
  obtain ⟨u1, u2, u3, u4, i, u5⟩ := OnRates.update (e := recordDabs e) (by rw [set0]; exact hs) hu
  have f := drawDab_frame hd
  obtain ⟨a, ha⟩ := drawDab_always (b := { b1 with st := { b1.st with flip := b1.st.flip * -1 } }) (i := i)
    (by show NeverSamples b1.settings; rw [u2, set0]; exact hs.samples) (by show b1.vals = settingValues b1.settings i; rw [u2]; exact u5) hd
  have set2 : b2.settings = s := by
    rw [hb2]; simp only; rw [f.settings]; show b1.settings = s; rw [u2, set0]
  have st2 : OnRates (recordDabs e) A B S b2 := by
    refine ⟨?_, ?_, ?_, ?_, ?_⟩
    · rw [hb2]; simp only; rw [f.st]; exact u1.actual
    · rw [hb2]; simp only; rw [f.st]; exact u1.basic
    · rw [hb2]; simp only; rw [f.st]; exact u1.second
    · rw [hb2]; simp only; rw [f.st, f.settings]; exact u1.size
    · rw [hb2]; simp only; rw [f.st]; exact u1.round
  have x2 : b2.st.x = b1.st.x := by rw [hb2]; simp only; rw [f.st]
  have y2 : b2.st.y = b1.st.y := by rw [hb2]; simp only; rw [f.st]
  have left : l.dtimeLeft - g * l.dtimeLeft = (1 - g) * l.dtimeLeft := by ring
  have t0 : 0 ≤ (1 - g) * l.dtimeLeft := mul_nonneg (by linarith) hl.time
  rw [left] at e1
  have L' : Laws (recordDabs e) := recordDabs_laws L
  obtain ⟨c1, c2⟩ := OnRates.count L' (by rw [set2]; exact hs) st2 X Y t0
  have dx : X - b2.st.x = (1 - g) * (X - l.b.st.x) := by
    rw [x2, u3]
    show X - (l.b.st.x + g * (X - l.b.st.x)) = _
    ring
  have dy : Y - b2.st.y = (1 - g) * (Y - l.b.st.y) := by
    rw [y2, u4]
    show Y - (l.b.st.y + g * (Y - l.b.st.y)) = _
    ring
  have sc : (countDabs (recordDabs e) b2 X Y ((1 - g) * l.dtimeLeft)).1 = (1 - g) * l.todo := by
    rw [c1, dx, dy, hypot_scale L' (by linarith), hl.todo, set2]
    show dabsFor (basicRadius e s) _ _ ((1 - g) * hypot e _ _) _ = _
    unfold dabsFor
    ring
  obtain ⟨new, n1, n2⟩ := hl.sum
  rw [e1]
  have dd := c1
  have xs : (countDabs (recordDabs e) b2 X Y ((1 - g) * l.dtimeLeft)).2.st.x = b2.st.x := by rw [countDabs_st]
  have ys : (countDabs (recordDabs e) b2 X Y ((1 - g) * l.dtimeLeft)).2.st.y = b2.st.y := by rw [countDabs_st]
  refine ⟨?_, ⟨c2.actual, c2.basic, c2.second, c2.size, c2.round⟩, ?_, t0, ⟨le_rfl, one_pos⟩, new ++ [a], ?_, ?_⟩
  · dsimp only; rw [countDabs_st]; exact set2
  · dsimp only
    rw [dd, set2, xs, ys]
    rfl
  · dsimp only; rw [ha, n1, List.append_assoc]
  · dsimp only
    rw [sc, List.length_append, List.length_singleton]
    push_cast
    linear_combination n2 - gt

theorem moveTo_counts {e : Env K R σ} (L : Laws e) {A B S X Y : K} {fuel : Nat} {b : Brush K R} (hs : Rates b.settings A B S)
    (hr : OnRates e A B S b) (hp : PendingOk b) {ev : Event K} {dt : K} (ht : 0 ≤ dt) {surf : σ × List (Dab.Args K)}
    {r : Bool × Brush K R × (σ × List (Dab.Args K))} (h : moveTo (recordDabs e) fuel b surf ev X Y dt = .ok r) :
    r.2.1.settings = b.settings ∧ OnRates e A B S r.2.1 ∧ r.2.1.st.x = X ∧ r.2.1.st.y = Y ∧ ∃ new, r.2.2.2 = surf.2 ++ new ∧
      (new.length : K) + r.2.1.st.partialDabs =
        b.st.partialDabs + dabsFor (basicRadius e b.settings) (A + B) S (hypot e (X - b.st.x) (Y - b.st.y)) dt := by
  obtain ⟨l, b1, hl, hu, -, h2, h3⟩ := moveTo_eq h
  have L' : Laws (recordDabs e) := recordDabs_laws L
  have hr' : OnRates (recordDabs e) A B S b := ⟨hr.actual, hr.basic, hr.second, hr.size, hr.round⟩
  obtain ⟨c1, c2⟩ := OnRates.count L' hs hr' X Y ht
  have xs : (countDabs (recordDabs e) b X Y dt).2.st.x = b.st.x := by rw [countDabs_st]
  have ys : (countDabs (recordDabs e) b X Y dt).2.st.y = b.st.y := by rw [countDabs_st]
  obtain ⟨k, -⟩ := dabLoop_induct (Counting e b.settings A B S
      (b.st.partialDabs + dabsFor (basicRadius e b.settings) (A + B) S (hypot e (X - b.st.x) (Y - b.st.y)) dt) X Y surf.2)
    (fun l l' hc hst hi => dabStep_counts L hs hc hi hst) _ _ _ hl
    ⟨by simp only; rw [countDabs_st], ⟨c2.actual, c2.basic, c2.second, c2.size, c2.round⟩, by simp only [xs, ys]; exact c1, ht, hp, [], by simp, by
      simp only [List.length_nil, Nat.cast_zero, zero_add]; rw [c1]; rfl⟩
  obtain ⟨new, n1, n2⟩ := k.sum
  obtain ⟨u1, u2, u3, u4, -⟩ := OnRates.update (e := recordDabs e) (by rw [k.settings]; exact hs) hu
  rw [h3, h2, splitStroke_eq]
  refine ⟨?_, ⟨u1.actual, u1.basic, u1.second, u1.size, u1.round⟩, ?_, ?_, new, n1, ?_⟩
  · show b1.settings = _; rw [u2, k.settings]
  · show b1.st.x = _; rw [u3]; show l.b.st.x + 1 * (X - l.b.st.x) = _; ring
  · show b1.st.y = _; rw [u4]; show l.b.st.y + 1 * (Y - l.b.st.y) = _; ring
  · show _ + (l.moved + l.todo) = _
    rw [← n2]; ring

/-! ### Sessions -/

theorem strokeEvent_counts {e : Env K R σ} (L : Laws e) {A B S : K} {fuel : Nat} {b : Brush K R} (hb : Undisturbed b)
    (hs : Rates b.settings A B S) (hr : OnRates e A B S b) (hp : PendingOk b) {ev : Event K} (h0 : 0 ≤ ev.dtime) (h5 : ev.dtime ≤ 5)
    {surf : σ × List (Dab.Args K)} {r : Bool × Brush K R × (σ × List (Dab.Args K))} (h : strokeEvent (recordDabs e) fuel b surf ev = .ok r) :
    ∃ X Y, ((b.settings sSlowTracking).base ≤ 1 / 1000 → X = ev.x ∧ Y = ev.y) ∧ r.2.1.settings = b.settings ∧ OnRates e A B S r.2.1 ∧
      r.2.1.st.x = X ∧ r.2.1.st.y = Y ∧ ∃ new, r.2.2.2 = surf.2 ++ new ∧ (new.length : K) + r.2.1.st.partialDabs =
        b.st.partialDabs + dabsFor (basicRadius e b.settings) (A + B) S (hypot e (X - b.st.x) (Y - b.st.y)) ev.dtime := by
  have sk : skipStage (recordDabs e) b ev.x ev.y ev.dtime = (b, ev.dtime, false) := steady_skip hb _ _ _
  have cu := cursor_tracks (e := recordDabs e) (b := b) (T := (b.settings sSlowTracking).base) ⟨rfl, hb.noise, hb.skip⟩ ev.x ev.y ev.dtime
  rcases strokeEvent_cases h with ⟨h1, -⟩ | ⟨-, h1, -⟩ | ⟨-, -, h⟩
  · rw [sk] at h1; cases h1
  · rw [sk, hb.reset] at h1
    rcases h1 with q | q
    · exact absurd q (not_lt.mpr h5)
    · cases q
  · simp only [sk, cu] at h
    exact ⟨_, _, fun q => ⟨followed_at_once _ q _ _ _, followed_at_once _ q _ _ _⟩, moveTo_counts L hs hr hp h0 h⟩

theorem dabsFor_zero (r n q : K) (t : K) : dabsFor r n q 0 t = q * t := by unfold dabsFor; rw [zero_div, mul_zero, zero_add]

theorem strokeTo_counts {e : Env K R σ} (L : Laws e) {A B S : K} {fuel : Nat} {b : Brush K R} (hb : Midst b.settings b)
    (hs : Rates b.settings A B S) (hr : OnRates e A B S b) {m : Motion K} (h0 : 0 < m.dtime) (h5 : m.dtime ≤ 5)
    {surf : σ × List (Dab.Args K)} {r : Bool × Brush K R × (σ × List (Dab.Args K))} (h : strokeTo (recordDabs e) fuel b surf m = .ok r) :
    Midst b.settings r.2.1 ∧ OnRates e A B S r.2.1 ∧ ∃ len new, r.2.2.2 = surf.2 ++ new ∧ (new.length : K) + r.2.1.st.partialDabs =
        b.st.partialDabs + dabsFor (basicRadius e b.settings) (A + B) S len m.dtime ∧
      ((b.settings sSlowTracking).base ≤ 1 / 1000 → ∀ X Y, OnCanvas X Y → RestsAt X Y m →
        r.2.1.st.x = X ∧ r.2.1.st.y = Y ∧ len = hypot e (X - b.st.x) (Y - b.st.y)) := by
  have k := strokeTo_placid hb.placid h
  obtain ⟨ev, he, ⟨-, h2⟩ | ⟨w, inner, r2, hi, h2, h3⟩⟩ := strokeTo_cases h
  · have hd : ev.dtime = m.dtime := by rw [sanitise_dtime he, if_neg (not_le.mpr h0)]
    obtain ⟨X, Y, p1, p2, p3, p4, p5, new, p6, p7⟩ := strokeEvent_counts L hb.still hs hr hb.placid.pending (by rw [hd]; exact h0.le)
      (by rw [hd]; exact h5) h2
    rw [hd] at p7
    refine ⟨k, p3, _, new, p6, p7, fun q X' Y' c1 c2 => ?_⟩
    obtain ⟨q1, q2, -⟩ := sanitise_moved c1 c2 h0 he
    obtain ⟨q3, q4⟩ := p1 q
    rw [p4, p5, q3, q4, q1, q2]
    exact ⟨rfl, rfl, rfl⟩
  · have hd : ev.dtime = m.dtime := by rw [sanitise_dtime he, if_neg (not_le.mpr h0)]
    have w1 : 1 / 10 < ev.dtime := w.1
    have hw : (0 : K) < ev.dtime - 1 / 10000 := by
      have : (1 / 10000 : K) < 1 / 10 := by norm_num
      linarith
    have hd' : inner.dtime = m.dtime - 1 / 10000 := by
      rw [sanitise_dtime hi, ← hd]
      exact if_neg (not_le.mpr hw)
    obtain ⟨X, Y, p1, p2, p3, p4, p5, new, p6, p7⟩ := strokeEvent_counts L hb.still hs hr hb.placid.pending
      (by rw [hd', ← hd]; exact hw.le) (by rw [hd']; have : (0 : K) < 1 / 10000 := by norm_num
                                           linarith) h2
    have k2 := strokeEvent_placid hb.placid (sanitise_pressure hi).1 (sanitise_pressure hi).2.le h2
    obtain ⟨X2, Y2, s1, s2, s3, s4, s5, new2, s6, s7⟩ := strokeEvent_counts (ev := { ev with dtime := 1 / 10000 }) L k2.still
      (by rw [p2]; exact hs) p3 k2.placid.pending (by show (0 : K) ≤ 1 / 10000; norm_num) (by show (1 / 10000 : K) ≤ 5; norm_num) h3
    rw [p2] at s7 s1
    rw [hd'] at p7
    refine ⟨k, s3, hypot e (X - b.st.x) (Y - b.st.y) + hypot e (X2 - r2.2.1.st.x) (Y2 - r2.2.1.st.y), new ++ new2,
      by rw [s6, p6, List.append_assoc], ?_, fun q X' Y' c1 c2 => ?_⟩
    · rw [List.length_append]
      push_cast
      have e1 : dabsFor (basicRadius e b.settings) (A + B) S
          (hypot e (X - b.st.x) (Y - b.st.y) + hypot e (X2 - r2.2.1.st.x) (Y2 - r2.2.1.st.y)) m.dtime =
          dabsFor (basicRadius e b.settings) (A + B) S (hypot e (X - b.st.x) (Y - b.st.y)) (m.dtime - 1 / 10000) +
          dabsFor (basicRadius e b.settings) (A + B) S (hypot e (X2 - r2.2.1.st.x) (Y2 - r2.2.1.st.y)) (1 / 10000) := by
        unfold dabsFor
        ring
      rw [e1]
      linear_combination p7 + s7
    · obtain ⟨q1, q2, -⟩ := sanitise_moved c1 c2 h0 he
      obtain ⟨q5, q6, -⟩ := sanitise_moved (m := workaroundMotion ev) (X := ev.x) (Y := ev.y) (by rw [q1, q2]; exact c1) ⟨rfl, rfl⟩ hw hi
      obtain ⟨q3, q4⟩ := p1 q
      obtain ⟨q7, q8⟩ := s1 q
      have z : hypot e (X2 - r2.2.1.st.x) (Y2 - r2.2.1.st.y) = 0 := by
        rw [p4, p5, q7, q8, q3, q4, q5, q6]
        show hypot e (ev.x - ev.x) (ev.y - ev.y) = 0
        rw [sub_self, sub_self]
        have := hypot_scale L (c := 0) le_rfl 0 0
        simpa using this
      rw [z, s4, s5, q7, q8, q3, q4, q5, q6, q1, q2, add_zero]
      exact ⟨rfl, rfl, rfl⟩

/-- **The number of dabs**, whatever way the pen takes: the whole part of what was pending and what the length of the way and the time
ask for. The rest is pending. -/
theorem number_of_dabs {e : Env K R σ} (L : Laws e) {A B S : K} {fuel : Nat} {ms : List (Motion K)} {Ps : List (K × K)}
    (hm : List.Forall₂ GoesTo ms Ps) : ∀ {b : Brush K R}, Midst b.settings b → (b.settings sSlowTracking).base ≤ 1 / 1000 →
    Rates b.settings A B S → OnRates e A B S b → ∀ {surf : σ × List (Dab.Args K)} {r : Brush K R × (σ × List (Dab.Args K))},
    strokes (recordDabs e) fuel b surf ms = .ok r →
    ∃ new, r.2.2 = surf.2 ++ new ∧
      (new.length : ℤ) = ⌊b.st.partialDabs + dabsFor (basicRadius e b.settings) (A + B) S (wayLength e b.st.x b.st.y Ps) (allTime ms)⌋ ∧
      r.1.st.partialDabs =
        Int.fract (b.st.partialDabs + dabsFor (basicRadius e b.settings) (A + B) S (wayLength e b.st.x b.st.y Ps) (allTime ms)) := by
  suffices key : ∀ {b : Brush K R}, Midst b.settings b → (b.settings sSlowTracking).base ≤ 1 / 1000 →
      Rates b.settings A B S → OnRates e A B S b → ∀ {surf : σ × List (Dab.Args K)} {r : Brush K R × (σ × List (Dab.Args K))},
      strokes (recordDabs e) fuel b surf ms = .ok r →
      PendingOk r.1 ∧ ∃ new, r.2.2 = surf.2 ++ new ∧ (new.length : K) + r.1.st.partialDabs =
        b.st.partialDabs + dabsFor (basicRadius e b.settings) (A + B) S (wayLength e b.st.x b.st.y Ps) (allTime ms) by
    intro b h1 h2 h3 h4 surf r h
    obtain ⟨hp, new, k1, k2⟩ := key h1 h2 h3 h4 h
    have hf : ⌊b.st.partialDabs + dabsFor (basicRadius e b.settings) (A + B) S (wayLength e b.st.x b.st.y Ps) (allTime ms)⌋ = new.length := by
      rw [Int.floor_eq_iff, ← k2]
      push_cast
      constructor
      · linarith [hp.1]
      · linarith [hp.2]
    refine ⟨new, k1, hf.symm, ?_⟩
    rw [Int.fract, hf, ← k2]
    push_cast
    ring
  induction hm with
  | nil =>
    intro b hb _ _ _ surf r h
    rw [← Except.ok.inj h]
    refine ⟨hb.placid.pending, [], by simp, ?_⟩
    show ((0 : ℕ) : K) + b.st.partialDabs = b.st.partialDabs + dabsFor _ _ _ 0 ([] : List K).sum
    rw [dabsFor_zero]
    simp
  | @cons m P ms Ps h1 _ ih =>
    intro b hb hsl hs hr surf r h
    unfold strokes at h
    obtain ⟨r1, h2, h⟩ := bind_ok h
    obtain ⟨k1, k2, len, new, k3, k4, k5⟩ := strokeTo_counts L hb hs hr h1.2.2.1 h1.2.2.2 h2
    obtain ⟨k6, k7, k8⟩ := k5 hsl P.1 P.2 h1.2.1 h1.1
    have kset := k1.settings
    obtain ⟨j1, new2, j2, j3⟩ := ih (by rw [kset]; exact k1) (by rw [kset]; exact hsl) (by rw [kset]; exact hs) k2 h
    rw [k6, k7, kset] at j3
    refine ⟨j1, new ++ new2, by rw [j2, k3, List.append_assoc], ?_⟩
    have e1 : dabsFor (basicRadius e b.settings) (A + B) S (wayLength e b.st.x b.st.y (P :: Ps)) (allTime (m :: ms)) =
        dabsFor (basicRadius e b.settings) (A + B) S len m.dtime +
        dabsFor (basicRadius e b.settings) (A + B) S (wayLength e P.1 P.2 Ps) (allTime ms) := by
      rw [k8]
      show dabsFor _ _ _ (hypot e (P.1 - b.st.x) (P.2 - b.st.y) + wayLength e P.1 P.2 Ps) (m.dtime + allTime ms) = _
      unfold dabsFor
      ring
    rw [e1, List.length_append]
    push_cast
    linear_combination k4 + j3

/-- **An airbrush paints by the clock**: a brush with dabs for the time only draws as many as the time asks for, wherever the pen is and
however it moves; slow tracking and places that the library does not accept make no difference. -/
theorem airbrush_by_the_clock {e : Env K R σ} (L : Laws e) {S : K} {fuel : Nat} (ms : List (Motion K)) (hm : ∀ m ∈ ms, 0 < m.dtime ∧ m.dtime ≤ 5)
    {b : Brush K R} (h1 : Midst b.settings b) (h2 : Rates b.settings 0 0 S) (h3 : OnRates e 0 0 S b)
    {surf : σ × List (Dab.Args K)} {r : Brush K R × (σ × List (Dab.Args K))} (h : strokes (recordDabs e) fuel b surf ms = .ok r) :
    ∃ new, r.2.2 = surf.2 ++ new ∧ (new.length : ℤ) = ⌊b.st.partialDabs + S * allTime ms⌋ := by
  suffices key : ∀ {b : Brush K R}, Midst b.settings b → Rates b.settings 0 0 S → OnRates e 0 0 S b → ∀ {surf : σ × List (Dab.Args K)}
      {r : Brush K R × (σ × List (Dab.Args K))}, strokes (recordDabs e) fuel b surf ms = .ok r →
      PendingOk r.1 ∧ ∃ new, r.2.2 = surf.2 ++ new ∧ (new.length : K) + r.1.st.partialDabs = b.st.partialDabs + S * allTime ms by
    obtain ⟨hp, new, k1, k2⟩ := key h1 h2 h3 h
    refine ⟨new, k1, ?_⟩
    symm
    rw [Int.floor_eq_iff, ← k2]
    push_cast
    constructor
    · linarith [hp.1]
    · linarith [hp.2]
  clear h h1 h2 h3 b surf r
  induction ms with
  | nil =>
    intro b hb _ _ surf r h
    rw [← Except.ok.inj h]
    refine ⟨hb.placid.pending, [], by simp, ?_⟩
    simp [allTime]
  | cons m ms ih =>
    intro b hb hs hr surf r h
    unfold strokes at h
    obtain ⟨r1, h2, h⟩ := bind_ok h
    obtain ⟨t0, t5⟩ := hm m (by simp)
    obtain ⟨k1, k2, len, new, k3, k4, -⟩ := strokeTo_counts L hb hs hr t0 t5 h2
    have kset := k1.settings
    obtain ⟨j1, new2, j2, j3⟩ := ih (fun m' hm' => hm m' (by simp [hm'])) (by rw [kset]; exact k1) (by rw [kset]; exact hs) k2 h
    refine ⟨j1, new ++ new2, by rw [j2, k3, List.append_assoc], ?_⟩
    unfold dabsFor at k4
    rw [List.length_append]
    unfold allTime at j3 ⊢
    rw [List.map_cons, List.sum_cons]
    push_cast
    linear_combination k4 + j3

end

namespace Demo

/-- 2 dabs for each basic radius and 10 for each second. -/
noncomputable def countedValues : Nat → ℝ := fun i => if i = sDabsPerBasicRadius then 2 else if i = sDabsPerSecond then 10 else 0

/-- A brush of the radius 1 with 2 dabs for each basic radius and 10 for each second, which has moved before. -/
noncomputable def counted : Brush ℝ Unit :=
  { plainBrush countedValues with
    st := { State.cleared with dabsPerBasicRadius := 2, dabsPerSecond := 10 }
    resetRequested := false }

theorem counted_rates : Midst counted.settings counted ∧ Rates counted.settings 0 2 10 := by
  have hv : ∀ id i, calculate (counted.settings id) i = countedValues id := fun id i => plainBrush_value countedValues id i
  refine ⟨⟨⟨⟨le_refl (0 : ℝ), zero_lt_one⟩, rfl, ?_, le_refl (0 : ℝ)⟩, rfl, rfl⟩,
    ⟨fun i => hv _ i, fun i => hv _ i, fun i => hv _ i, .inl rfl, fun i => ?_, fun i => ?_, le_rfl,
      zero_le_two, by norm_num⟩⟩
  · show (0 : ℝ) ≤ _; norm_num
  · exact le_of_eq_of_le (hv sEllipticalDabRatio i) zero_le_one
  · rintro ⟨-, q | q⟩
    · exact q (hv sSmudge i)
    · exact absurd (show isConstant (counted.settings sSmudge) = true from rfl) (by rw [q]; decide)

/-- 5 to the upper right, then 12 up, in two tenths of a second: 34 dabs for the way and 2 for the time. -/
example {σ : Type} (next gauss : Unit → ℝ × Unit) (draw : σ → Dab.Args ℝ → Bool × σ)
    (getColor : σ → Int → Int → ℝ → ℝ → Color.Rgba ℝ × σ) (hn : ∀ r, 0 ≤ (next r).1 ∧ (next r).1 < 1) {fuel : Nat} (surf : σ)
    {r : Brush ℝ Unit × (σ × List (Dab.Args ℝ))}
    (hr : strokes (recordDabs (realEnv next gauss draw getColor)) fuel counted (surf, [])
      [⟨.fin 3, .fin 4, 1, .fin 0, .fin 0, 1 / 10, 1, 0, 0, false⟩, ⟨.fin 3, .fin 16, 1, .fin 0, .fin 0, 1 / 10, 1, 0, 0, false⟩] = .ok r) :
    r.2.2.length = 36 := by
  obtain ⟨h1, h2⟩ := counted_rates
  obtain ⟨new, k1, k2, -⟩ := number_of_dabs (realEnv_laws next gauss draw getColor hn) (Ps := [(3, 4), (3, 16)])
    (.cons ⟨⟨rfl, rfl⟩, ⟨by norm_num, by norm_num, by norm_num, by norm_num⟩, by norm_num, by norm_num⟩
      (.cons ⟨⟨rfl, rfl⟩, ⟨by norm_num, by norm_num, by norm_num, by norm_num⟩, by norm_num, by norm_num⟩ .nil)) h1
    (by show (0 : ℝ) ≤ _; norm_num) h2 ⟨rfl, rfl, rfl, .inl rfl, zero_le_one⟩ hr
  have e1 : counted.st.partialDabs + dabsFor (basicRadius (realEnv next gauss draw getColor) counted.settings) (0 + 2) 10
      (wayLength (realEnv next gauss draw getColor) counted.st.x counted.st.y [(3, 4), (3, 16)])
      (allTime [(⟨.fin 3, .fin 4, 1, .fin 0, .fin 0, 1 / 10, 1, 0, 0, false⟩ : Motion ℝ), ⟨.fin 3, .fin 16, 1, .fin 0, .fin 0, 1 / 10, 1, 0, 0, false⟩]) =
      ((36 : ℤ) : ℝ) := by
    show 0 + dabsFor (max (1 / 5) (min 1000 (Real.exp 0))) (0 + 2) 10 (Real.sqrt ((3 - 0) * (3 - 0) + (4 - 0) * (4 - 0)) +
      (Real.sqrt ((3 - 3) * (3 - 3) + (16 - 4) * (16 - 4)) + 0)) (1 / 10 + (1 / 10 + 0)) = _
    rw [Real.exp_zero, show (3 - 0) * (3 - 0) + (4 - 0) * (4 - 0) = (5 : ℝ) ^ 2 by norm_num,
      show (3 - 3) * (3 - 3) + (16 - 4) * (16 - 4) = (12 : ℝ) ^ 2 by norm_num, Real.sqrt_sq (by norm_num), Real.sqrt_sq (by norm_num)]
    unfold dabsFor
    norm_num
  rw [e1, Int.floor_intCast] at k2
  rw [k1, List.nil_append]
  exact_mod_cast k2

/-- The same in exact numbers, with other functions. -/
example : look (fun r => r.2.length) (strokes env 100 { set (set brush sDabsPerActualRadius 0) sDabsPerSecond 20 with resetRequested := false } []
    [motion 0 0 (1 / 2) (1 / 10), motion 0 0 (1 / 2) 1, motion 0 0 (1 / 2) (1 / 10)]) = some 22 := by decide +kernel

end Demo
end Verif.Engine
