import Verif.Props.C104_Pen
import Verif.Props.C44_Sampling

/-!
# C119: the offset by speed draws where the pen moves to, or where it comes from

The setting moves each dab along the movement of the pen, by the way of the pen in a tenth of a second times the setting. The
velocity is smoothed, with a slowness of its own.
-/

namespace Verif.Engine
open Verif.Mask Verif.Color Verif.Spectral Verif.Map

section
variable {K R σ : Type} [Field K] [LinearOrder K] [IsStrictOrderedRing K] [FloorRing K]

/-! ## Specification -/

/-- A brush whose dabs are offset by speed, by the setting `c`, and by nothing else. -/
structure AheadBy (s : Load.Brush K) (c : K) : Prop where
  speed : ∀ i, calculate (s sOffsetBySpeed) i = c
  random : ∀ i, calculate (s sOffsetByRandom) i = 0
  offset : NoOffset s
  slow : ∀ i, calculate (s sSlowTrackingPerDab) i ≤ 1 / 1000
  snap : ∀ i, calculate (s sSnapToPixel) i ≤ 0

/-- The way, on the canvas, in a tenth of a second at the velocity `v` on the screen. -/
def inTenth (zoom v : K) : K := v / zoom / 10

/-- The dab of the part `t` of the way from `(x0, y0)` to `(x, y)`, a movement that takes the time `τ`; at its beginning the smoothed
velocity was `(u0, v0)`. -/
structure DabAhead (e : Env K R σ) (c w zoom x0 y0 u0 v0 x y τ t : K) (a : Dab.Args K) : Prop where
  x : a.x = part t x0 x + c * inTenth zoom (followed e (offsetSlowness e w) (t * τ) u0 (onScreen (x - x0) τ zoom))
  y : a.y = part t y0 y + c * inTenth zoom (followed e (offsetSlowness e w) (t * τ) v0 (onScreen (y - y0) τ zoom))

/-- The dabs are drawn so one after the other. -/
def DabsAhead (e : Env K R σ) (c w zoom x0 y0 u0 v0 x y τ : K) (l : List (Dab.Args K)) : Prop :=
  ∃ ts : List K, List.Forall₂ (DabAhead e c w zoom x0 y0 u0 v0 x y τ) ts l ∧ ts.Pairwise (· ≤ ·) ∧ ∀ t ∈ ts, 0 ≤ t ∧ t ≤ 1

/-- A movement of the pen from `(x, y)` on, straight in the direction `(p, q)`, at any speed, in events up to a tenth of a second apart. -/
def AlongRay (p q zoom : K) : K → K → List (Motion K) → Prop
  | _, _, [] => True
  | x, y, m :: ms => ∃ s, 0 ≤ s ∧ RestsAt (x + s * p) (y + s * q) m ∧ OnCanvas (x + s * p) (y + s * q) ∧ 0 < m.dtime ∧ m.dtime ≤ 1 / 10 ∧
    m.viewzoom = zoom ∧ AlongRay p q zoom (x + s * p) (y + s * q) ms

/-! ## Proof -/

theorem dabPosition_ahead {e : Env K R σ} {b : Brush K R} {c : K} {i : Nat → K} (hv : b.vals = fun id => calculate (b.settings id) i)
    (hs : AheadBy b.settings c) {pos : K × K × Brush K R} (h : dabPosition e b = .ok pos) :
    pos.1 = b.st.actualX + c * inTenth b.st.viewzoom b.st.normDxSlow ∧
      pos.2.1 = b.st.actualY + c * inTenth b.st.viewzoom b.st.normDySlow := by
  have h1 : b.vals sOffsetBySpeed = c := by rw [hv]; exact hs.speed i
  have h2 : b.vals sOffsetByRandom = 0 := by rw [hv]; exact hs.random i
  unfold dabPosition at h
  dsimp only at h
  rw [h1, h2, directionalOffsets_zero hv hs.offset] at h
  unfold inTenth
  by_cases q : c = 0
  · simp only [q, ne_eq, not_true, false_and, if_false] at h
    rw [← Except.ok.inj h, q]
    exact ⟨by simp, by simp⟩
  · by_cases z : b.st.viewzoom = 0
    · simp only [z, ne_eq, q, not_false_eq_true, true_and, if_true] at h
      cases h
    · simp only [z, ne_eq, q, not_false_eq_true, not_true, and_false, if_true, if_false] at h
      rw [← Except.ok.inj h]
      constructor
      · simp only; ring
      · simp only; ring

/-- The dab that is drawn. -/
theorem drawDab_ahead {e : Env K R σ} {b : Brush K R} {surf : σ × List (Dab.Args K)} {lin : Bool} {c : K}
    {p : Bool × Brush K R × (σ × List (Dab.Args K))} {i : Nat → K} (hv : b.vals = fun id => calculate (b.settings id) i)
    (hs : AheadBy b.settings c) (hd : drawDab (recordDabs e) { b with st := { b.st with flip := b.st.flip * -1 } } surf lin = .ok p) :
    p.2.2.2 = surf.2 ∨ ∃ a, p.2.2.2 = surf.2 ++ [a] ∧ a.x = b.st.actualX + c * inTenth b.st.viewzoom b.st.normDxSlow ∧
      a.y = b.st.actualY + c * inTenth b.st.viewzoom b.st.normDySlow := by
  rcases drawDab_oneDab hd with h | ⟨o, pos, sm, col, -, hpos, -, -, -, fr2, -, h⟩
  · exact .inl h
  · refine .inr ⟨_, h, ?_⟩
    have hv2 : col.2.2.vals sSnapToPixel ≤ 0 := by
      rw [fr2.vals]
      show b.vals sSnapToPixel ≤ 0
      rw [hv]
      exact hs.snap i
    have k := dabPosition_ahead (e := recordDabs e) (b := { b with st := { b.st with flip := b.st.flip * -1 } }) (i := i) hv hs hpos
    have sn : ∀ r, snap col.2.2 pos.1 pos.2.1 r = (pos.1, pos.2.1, r) := by
      intro r
      unfold snap
      dsimp only
      rw [if_neg (not_lt.mpr hv2)]
    unfold dabArgs
    simp only
    rw [sn]
    exact k

theorem update_spot {e : Env K R σ} {b b' : Brush K R} {c : K} (hs : AheadBy b.settings c) {s : Step K} (h : update e b s = .ok b') :
    b'.st.actualX = b'.st.x ∧ b'.st.actualY = b'.st.y ∧ b'.st.viewzoom = s.viewzoom ∧
      ∃ i, b'.vals = fun id => calculate (b'.settings id) i := by
  rw [update_eq h]
  have k : ∀ (i : Nat → K) (a x : K), approach a x (1 - expDecay e (calculate (b.settings sSlowTrackingPerDab) i) s.ddab) = x := by
    intro i a x
    unfold approach expDecay
    rw [if_pos (hs.slow i)]
    ring
  exact ⟨k _ _ _, k _ _ _, rfl, (inputsOf e b (moveStates e b s)).get, rfl⟩

theorem followed_zero {e : Env K R σ} (h1 : e.exp 0 = 1) (w s v : K) : followed e (offsetSlowness e w) 0 s v = s := by
  have : ¬ offsetSlowness e w ≤ 1 / 1000 := by
    have : (2 / 1000 : K) ≤ offsetSlowness e w := le_max_left _ _
    rw [not_le]
    exact lt_of_lt_of_le (by norm_num) this
  unfold followed leftOver
  rw [if_neg this, neg_zero, zero_div, h1]
  ring

theorem OnTheWay.velocity {e : Env K R σ} (h1 : e.exp 0 = 1) {T1 T2 w x0 y0 x y t zoom D : K} {st0 : State K} {s : Load.Brush K} {l : Loop K R σ}
    (h : OnTheWay e T1 T2 w x0 y0 x y t zoom D st0 s l) :
    l.b.st.normDxSlow = followed e (offsetSlowness e w) (t - l.dtimeLeft) st0.normDxSlow (onScreen (x - x0) t zoom) ∧
    l.b.st.normDySlow = followed e (offsetSlowness e w) (t - l.dtimeLeft) st0.normDySlow (onScreen (y - y0) t zoom) := by
  rcases h.readings with ⟨q, -, -, q3, q4⟩ | q
  · rw [q, sub_self, followed_zero h1, followed_zero h1]
    exact ⟨q3, q4⟩
  · exact ⟨q.3, q.4⟩

/-- The brush on its way, and its dabs. -/
def Drawing (e : Env K R σ) (c T1 T2 w x0 y0 x y t zoom D : K) (st0 : State K) (s : Load.Brush K) (old : List (Dab.Args K))
    (l : Loop K R (σ × List (Dab.Args K))) : Prop :=
  OnTheWay (recordDabs e) T1 T2 w x0 y0 x y t zoom D st0 s l ∧ ∃ new ts, l.surf.2 = old ++ new ∧
    List.Forall₂ (DabAhead e c w zoom x0 y0 st0.normDxSlow st0.normDySlow x y t) ts new ∧ ts.Pairwise (· ≤ ·) ∧
    ∀ t' ∈ ts, 0 ≤ t' ∧ t' ≤ 1 - l.dtimeLeft / t

theorem dabStep_ahead {e : Env K R σ} (he : ExpLaw e) (h0 : e.sqrt 0 = 0) (he1 : e.exp 0 = 1) {c T1 T2 w x0 y0 x y t D : K} (ht : 0 < t)
    {st0 : State K} {s : Load.Brush K} (hs : Slowness s T1 T2 w) (ha : AheadBy s c) {ev : Event K} {old : List (Dab.Args K)}
    {l l' : Loop K R (σ × List (Dab.Args K))} (h1 : l.moved + l.todo ≥ 1) (h : dabStep (recordDabs e) ev x y l = .ok l')
    (hw : Drawing e c T1 T2 w x0 y0 x y t ev.viewzoom D st0 s old l) : Drawing e c T1 T2 w x0 y0 x y t ev.viewzoom D st0 s old l' := by
  obtain ⟨hw, new, ts, hnew, hall, hts, hle⟩ := hw
  have hw' := onTheWay_step (e := recordDabs e) he h0 ht hs h1 h hw
  refine ⟨hw', ?_⟩
  obtain ⟨v1, v2⟩ := hw'.velocity (e := recordDabs e) he1
  obtain ⟨-, b1, p, b2, hu, hd, hb2, e1⟩ := dabStep_eq h
  have f := drawDab_frame hd
  have hset : b1.settings = s := by rw [update_eq hu]; exact hw.settings
  obtain ⟨u1, u2, u3, i, hv⟩ := update_spot (c := c) (by rw [hw.settings]; exact ha) hu
  have hb : l'.b.st = { b2.st with actualRadius := l'.b.st.actualRadius } := by
    rw [e1]; dsimp only; rw [countDabs_st]
  have hb1 : b2.st = { b1.st with flip := b1.st.flip * -1, smudge := p.2.1.st.smudge } := by
    rw [hb2]; exact f.st
  have ex : l'.b.st.x = b1.st.x := by rw [hb, hb1]
  have ey : l'.b.st.y = b1.st.y := by rw [hb, hb1]
  have ev1 : l'.b.st.normDxSlow = b1.st.normDxSlow := by rw [hb, hb1]
  have ev2 : l'.b.st.normDySlow = b1.st.normDySlow := by rw [hb, hb1]
  have ez : b1.st.viewzoom = ev.viewzoom := u3
  have hmono : l'.dtimeLeft ≤ l.dtimeLeft := by
    have r : 0 ≤ (if l.moved > 0 then 1 - l.moved else 1) / l.todo := by
      refine div_nonneg ?_ ?_
      · split_ifs <;> linarith [hw.moved.2]
      · linarith [hw.moved.2]
    have := mul_nonneg r hw.left.1
    rw [e1]
    simp only
    linarith
  have hsurf : l'.surf = p.2.2 := by rw [e1]
  have hle' : 1 - l.dtimeLeft / t ≤ 1 - l'.dtimeLeft / t := by
    have := (div_le_div_iff_of_pos_right ht).mpr hmono
    linarith
  rw [hsurf]
  rcases drawDab_ahead (e := e) (i := i) (c := c) hv (by rw [hset]; exact ha) hd with q | ⟨a, q, q1, q2⟩
  · exact ⟨new, ts, by rw [q]; exact hnew, hall, hts, fun t' h' => ⟨(hle t' h').1, (hle t' h').2.trans hle'⟩⟩
  · have ht0 : t ≠ 0 := ht.ne'
    refine ⟨new ++ [a], ts ++ [1 - l'.dtimeLeft / t], by rw [q, hnew, List.append_assoc], ?_, ?_, ?_⟩
    · refine List.rel_append hall (.cons ⟨?_, ?_⟩ .nil)
      · rw [q1, u1, ← ex, ← ev1, ez, v1, show (1 - l'.dtimeLeft / t) * t = t - l'.dtimeLeft by field_simp]
        have : l'.b.st.x = part (1 - l'.dtimeLeft / t) x0 x := by
          have := hw'.px
          unfold part
          linear_combination -this
        rw [this]; rfl
      · rw [q2, u2, ← ey, ← ev2, ez, v2, show (1 - l'.dtimeLeft / t) * t = t - l'.dtimeLeft by field_simp]
        have : l'.b.st.y = part (1 - l'.dtimeLeft / t) y0 y := by
          have := hw'.py
          unfold part
          linear_combination -this
        rw [this]; rfl
    · refine List.pairwise_append.mpr ⟨hts, List.pairwise_singleton _ _, fun a ha b hb => ?_⟩
      rw [List.mem_singleton.mp hb]
      exact (hle a ha).2.trans hle'
    · intro t' ht'
      rcases List.mem_append.mp ht' with g | g
      · exact ⟨(hle t' g).1, (hle t' g).2.trans hle'⟩
      · rw [List.mem_singleton.mp g]
        refine ⟨?_, le_refl _⟩
        have := (div_le_one ht).mpr hw'.left.2
        linarith

theorem moveTo_ahead {e : Env K R σ} (he : ExpLaw e) (h0 : e.sqrt 0 = 0) (he1 : e.exp 0 = 1) {c T1 T2 w x y t : K} (ht : 0 < t)
    {fuel : Nat} {b : Brush K R} (hs : Slowness b.settings T1 T2 w) (ha : AheadBy b.settings c) (hp : PendingOk b)
    {surf : σ × List (Dab.Args K)} {ev : Event K} {r : Bool × Brush K R × (σ × List (Dab.Args K))}
    (h : moveTo (recordDabs e) fuel b surf ev x y t = .ok r) :
    ∃ new, r.2.2.2 = surf.2 ++ new ∧ DabsAhead e c w ev.viewzoom b.st.x b.st.y b.st.normDxSlow b.st.normDySlow x y t new := by
  obtain ⟨l, b1, hl, hu, -, h2, h3⟩ := moveTo_eq h
  obtain ⟨hw, new, ts, k1, k2, k3, k4⟩ := (dabLoop_induct
    (Drawing e c T1 T2 w b.st.x b.st.y x y t ev.viewzoom (b.st.partialDabs + (countDabs (recordDabs e) b x y t).1) b.st b.settings surf.2)
    (fun l l' h1 h hw => dabStep_ahead he h0 he1 ht hs ha h1 h hw) fuel _ _ hl ⟨⟨by dsimp only; rw [countDabs_st], hp,
      ⟨ht.le, le_refl _⟩, fun q => absurd q ht.ne', fun _ => rfl, fun q => absurd rfl q, by dsimp only; rw [countDabs_st, div_self ht.ne', mul_one],
      by dsimp only; rw [countDabs_st, div_self ht.ne', mul_one],
      .inl ⟨rfl, by dsimp only; rw [countDabs_st], by dsimp only; rw [countDabs_st], by dsimp only; rw [countDabs_st],
        by dsimp only; rw [countDabs_st]⟩⟩, [], [], (List.append_nil _).symm, .nil, .nil, by simp⟩).1
  refine ⟨new, by rw [h3]; exact k1, ts, k2, k3, fun t' ht' => ⟨(k4 t' ht').1, (k4 t' ht').2.trans ?_⟩⟩
  have := div_nonneg hw.left.1 ht.le
  linarith

/-! ## C119 -/

/-- **C119**. While the pen moves from where the brush is to `(X, Y)`, in at most a tenth of a second, each dab lies at the place of the
pen and the way of a tenth of a second at the smoothed velocity, times the setting. -/
theorem dabs_ahead {e : Env K R σ} (he : ExpLaw e) (h0 : e.sqrt 0 = 0) (he1 : e.exp 0 = 1) {c T1 T2 w X Y : K} {fuel : Nat}
    {b : Brush K R} (hs : Slowness b.settings T1 T2 w) (ha : AheadBy b.settings c) (hd : Direct b) (hu : Underway b)
    {surf : σ × List (Dab.Args K)} {m : Motion K} (hm : RestsAt X Y m) (hc : OnCanvas X Y) (ht : 0 < m.dtime) (ht' : m.dtime ≤ 1 / 10)
    {r : Bool × Brush K R × (σ × List (Dab.Args K))} (h : strokeTo (recordDabs e) fuel b surf m = .ok r) :
    ∃ new, r.2.2.2 = surf.2 ++ new ∧
      DabsAhead e c w m.viewzoom b.st.x b.st.y b.st.normDxSlow b.st.normDySlow X Y m.dtime new := by
  unfold strokeTo at h
  obtain ⟨ev, hev, h⟩ := bind_ok h
  obtain ⟨x1, y1, t1, z1⟩ := sanitise_moved hc hm ht hev
  rw [if_neg (by rw [t1]; intro q; exact absurd q.1 (not_lt.mpr ht'))] at h
  have sk : skipStage (recordDabs e) b ev.x ev.y ev.dtime = (b, ev.dtime, false) := by
    unfold skipStage
    rw [if_neg (not_lt.mpr hd.skip)]
  have cu : cursor (recordDabs e) b ev.x ev.y ev.dtime = (ev.x, ev.y, b) := by
    unfold cursor
    dsimp only
    have b1 : b.baseval sTrackingNoise = 0 := hd.noise
    rw [b1, if_neg (by simp)]
    unfold expDecay
    rw [if_pos (show b.baseval sSlowTracking ≤ 1 / 1000 from hd.slow)]
    unfold approach
    simp
  rcases strokeEvent_cases h with ⟨h1, -⟩ | ⟨-, h1, -⟩ | ⟨-, -, h2⟩
  · rw [sk] at h1; cases h1
  · rw [sk, hd.reset] at h1
    rcases h1 with h1 | h1
    · dsimp only at h1; rw [t1] at h1; linarith
    · cases h1
  · simp only [sk, cu] at h2
    rw [x1, y1, t1] at h2
    have k := moveTo_ahead he h0 he1 ht hs ha hu.pending h2
    rw [z1] at k
    exact k

/-- From the velocity `κ` times that of the movement on, the offset is along the movement: the dab is ahead of the pen if the setting is
positive and behind it if the setting is negative, by at most the way of a tenth of a second at the greater of the velocities. -/
theorem ahead_of_pen {e : Env K R σ} (hd : Decays e) {c w zoom x0 y0 x y τ t κ : K} (hz : zoom ≠ 0) (hτ : 0 < τ) (ht : 0 ≤ t) (hκ : 0 ≤ κ)
    {a : Dab.Args K} (h : DabAhead e c w zoom x0 y0 (κ * onScreen (x - x0) τ zoom) (κ * onScreen (y - y0) τ zoom) x y τ t a) :
    ∃ k, 0 ≤ k ∧ k ≤ max 1 κ ∧ a.x = part t x0 x + c * k * ((x - x0) / τ / 10) ∧ a.y = part t y0 y + c * k * ((y - y0) / τ / 10) := by
  have hT : ¬ offsetSlowness e w ≤ 1 / 1000 := by
    have : (2 / 1000 : K) ≤ offsetSlowness e w := le_max_left _ _
    rw [not_le]
    exact lt_of_lt_of_le (by norm_num) this
  have hT0 : 0 < offsetSlowness e w := lt_trans (by norm_num) (not_le.mp hT)
  obtain ⟨d0, d1⟩ := hd (-(t * τ) / offsetSlowness e w) (div_nonpos_of_nonpos_of_nonneg (by nlinarith) hT0.le)
  have hx := h.x
  have hy := h.y
  unfold followed leftOver inTenth onScreen at hx hy
  rw [if_neg hT] at hx hy
  generalize e.exp (-(t * τ) / offsetSlowness e w) = d at *
  refine ⟨1 + (κ - 1) * d, ?_, ?_, ?_, ?_⟩
  · nlinarith
  · rcases le_total κ 1 with q | q
    · rw [max_eq_left q]; nlinarith
    · rw [max_eq_right q]; nlinarith
  · rw [hx]; field_simp
  · rw [hy]; field_simp

/-- While the pen rests, the offset fades. -/
theorem offset_fades {e : Env K R σ} {c w zoom x0 y0 u0 v0 τ t : K} {a : Dab.Args K} (h : DabAhead e c w zoom x0 y0 u0 v0 x0 y0 τ t a) :
    a.x = x0 + c * inTenth zoom (u0 * e.exp (-(t * τ) / offsetSlowness e w)) ∧
      a.y = y0 + c * inTenth zoom (v0 * e.exp (-(t * τ) / offsetSlowness e w)) := by
  have hT : ¬ offsetSlowness e w ≤ 1 / 1000 := by
    have : (2 / 1000 : K) ≤ offsetSlowness e w := le_max_left _ _
    rw [not_le]
    exact lt_of_lt_of_le (by norm_num) this
  have hx := h.x
  have hy := h.y
  unfold followed leftOver onScreen part at hx hy
  rw [if_neg hT] at hx hy
  rw [hx, hy]
  simp

omit [FloorRing K] in
theorem followed_ahead {e : Env K R σ} (hd : Decays e) (w : K) {t κ v : K} (ht : 0 ≤ t) (hκ : 0 ≤ κ) (hv : 0 ≤ v) :
    ∃ d, 0 ≤ d ∧ d ≤ 1 ∧ 0 ≤ v + (κ - v) * d ∧ ∀ p, followed e (offsetSlowness e w) t (κ * p) (v * p) = (v + (κ - v) * d) * p := by
  have hT : ¬ offsetSlowness e w ≤ 1 / 1000 := by
    have : (2 / 1000 : K) ≤ offsetSlowness e w := le_max_left _ _
    rw [not_le]
    exact lt_of_lt_of_le (by norm_num) this
  have hT0 : 0 < offsetSlowness e w := lt_trans (by norm_num) (not_le.mp hT)
  obtain ⟨d0, d1⟩ := hd (-t / offsetSlowness e w) (div_nonpos_of_nonpos_of_nonneg (by linarith) hT0.le)
  refine ⟨e.exp (-t / offsetSlowness e w), d0, d1, ?_, fun p => ?_⟩
  · nlinarith
  · unfold followed leftOver
    rw [if_neg hT]
    ring

/-- On a straight way the smoothed velocity stays along it. -/
theorem ray_keeps {e : Env K R σ} (he : ExpLaw e) (h0 : e.sqrt 0 = 0) (hd : Decays e) {T1 T2 w p q zoom : K} (hz : 0 < zoom) {fuel : Nat}
    {m : Motion K} (ms : List (Motion K)) : ∀ {b : Brush K R}, Slowness b.settings T1 T2 w → Direct b → Underway b →
    (∃ κ, 0 ≤ κ ∧ b.st.normDxSlow = κ * p ∧ b.st.normDySlow = κ * q) → AlongRay p q zoom b.st.x b.st.y (ms ++ [m]) →
    ∀ {surf : σ} {r : Brush K R × σ}, strokes e fuel b surf ms = .ok r →
    r.1.settings = b.settings ∧ Direct r.1 ∧ Underway r.1 ∧ (∃ κ, 0 ≤ κ ∧ r.1.st.normDxSlow = κ * p ∧ r.1.st.normDySlow = κ * q) ∧
      AlongRay p q zoom r.1.st.x r.1.st.y [m] := by
  induction ms with
  | nil =>
    intro b hs hD hU hk hr surf r h
    rw [← Except.ok.inj h]
    exact ⟨rfl, hD, hU, hk, hr⟩
  | cons m1 ms ih =>
    intro b hs hD hU hk hr surf r h
    obtain ⟨s, s0, m1', m2, m3, m4, m5, m6⟩ := hr
    obtain ⟨κ, κ0, n1, n2⟩ := hk
    unfold strokes at h
    obtain ⟨r1, h1, h⟩ := bind_ok h
    obtain ⟨k1, k2, k3, k4, k5, k6⟩ := event_readings he h0 hs hD hU m1' m2 m3 m4 h1
    have ex : ∀ x p : K, onScreen (x + s * p - x) m1.dtime m1.viewzoom = s / m1.dtime * zoom * p := by
      intro x p
      unfold onScreen
      rw [m5]
      ring
    have v0 : 0 ≤ s / m1.dtime * zoom := mul_nonneg (div_nonneg s0 m3.le) hz.le
    rw [ex, ex] at k1
    have hk' : ∃ κ, 0 ≤ κ ∧ r1.2.1.st.normDxSlow = κ * p ∧ r1.2.1.st.normDySlow = κ * q := by
      obtain ⟨d, -, -, d2, d3⟩ := followed_ahead hd w m3.le κ0 v0
      rcases k1 with g | ⟨-, st, g, g'⟩
      · exact ⟨_, d2, by rw [g.3, n1, d3], by rw [g.4, n2, d3]⟩
      · obtain ⟨d', -, -, d2', d3'⟩ := followed_ahead hd w (t := 1 / 1000) (v := 0) (by norm_num) d2 (le_refl _)
        refine ⟨_, d2', ?_, ?_⟩
        · have := d3' p
          rw [zero_mul] at this
          rw [g'.3, g.3, n1, d3, this]
        · have := d3' q
          rw [zero_mul] at this
          rw [g'.4, g.4, n2, d3, this]
    obtain ⟨j1, j2⟩ := ih (by rw [k5]; exact hs) k4 k6 hk' (by rw [k2, k3]; exact m6) h
    exact ⟨j1.trans k5, j2⟩

/-- **C119**, over a session. The pen sets out from rest and moves straight in the direction `(p, q)`, at any speeds. Then each dab lies at a
place of the pen, moved by a multiple of the direction with the sign of the setting: where the pen moves to if the setting is
positive, where it comes from if it is negative. -/
theorem straight_stroke_ahead {e : Env K R σ} (he : ExpLaw e) (h0 : e.sqrt 0 = 0) (he1 : e.exp 0 = 1) (hd : Decays e) {c T1 T2 w p q zoom : K}
    (hz : 0 < zoom) {fuel : Nat} (ms : List (Motion K)) {m : Motion K} {b : Brush K R} (hs : Slowness b.settings T1 T2 w)
    (ha : AheadBy b.settings c) (hD : Direct b) (hU : Underway b) (hrest : b.st.normDxSlow = 0 ∧ b.st.normDySlow = 0)
    (hr : AlongRay p q zoom b.st.x b.st.y (ms ++ [m])) {surf : σ × List (Dab.Args K)} {r1 : Brush K R × (σ × List (Dab.Args K))}
    (h1 : strokes (recordDabs e) fuel b surf ms = .ok r1) {r : Bool × Brush K R × (σ × List (Dab.Args K))}
    (h2 : strokeTo (recordDabs e) fuel r1.1 r1.2 m = .ok r) :
    ∃ s new ts, RestsAt (r1.1.st.x + s * p) (r1.1.st.y + s * q) m ∧ r.2.2.2 = r1.2.2 ++ new ∧ List.Forall₂ (fun t a => ∃ k, 0 ≤ k ∧
      a.x = part t r1.1.st.x (r1.1.st.x + s * p) + c * k * p ∧ a.y = part t r1.1.st.y (r1.1.st.y + s * q) + c * k * q) ts new ∧
      ts.Pairwise (· ≤ ·) ∧ ∀ t ∈ ts, 0 ≤ t ∧ t ≤ 1 := by
  obtain ⟨k1, k2, k3, ⟨κ, κ0, n1, n2⟩, s, s0, g1, g2, g3, g4, g5, -⟩ := ray_keeps (e := recordDabs e) he h0 hd hz ms hs hD hU
    ⟨0, le_refl _, by rw [zero_mul]; exact hrest.1, by rw [zero_mul]; exact hrest.2⟩ hr h1
  obtain ⟨new, e1, ts, e2, e3, e4⟩ := dabs_ahead he h0 he1 (by rw [k1]; exact hs) (by rw [k1]; exact ha) k2 k3 g1 g2 g3 g4 h2
  refine ⟨s, new, ts, g1, e1, ?_, e3, e4⟩
  have ex : ∀ x p : K, onScreen (x + s * p - x) m.dtime m.viewzoom = s / m.dtime * zoom * p := by
    intro x p
    unfold onScreen
    rw [g5]
    ring
  have v0 : 0 ≤ s / m.dtime * zoom := mul_nonneg (div_nonneg s0 g3.le) hz.le
  clear e1 e3
  induction e2 with
  | nil => exact .nil
  | cons hh ht ih =>
    refine .cons ?_ (ih fun t ht => e4 t (List.mem_cons_of_mem _ ht))
    obtain ⟨t0, -⟩ := e4 _ List.mem_cons_self
    obtain ⟨d, -, -, d2, d3⟩ := followed_ahead hd w (mul_nonneg t0 g3.le) κ0 v0
    have hx := hh.x
    have hy := hh.y
    rw [ex, n1, d3, g5] at hx
    rw [ex, n2, d3, g5] at hy
    refine ⟨_, div_nonneg (div_nonneg d2 hz.le) (by norm_num : (0 : K) ≤ 10), ?_, ?_⟩
    · rw [hx]; unfold inTenth; ring
    · rw [hy]; unfold inTenth; ring

end

namespace Demo

/-- A brush whose dabs are drawn ahead of the pen, or behind it. -/
def aheadBrush (c : ℚ) : Brush ℚ Nat :=
  let b := set (set (set brush sOffsetBySpeed c) sSpeed1Slowness 0) sSpeed2Slowness 0
  { b with resetRequested := false }

/-- From rest: the pen is at 5/2, 4 and 11/2; the dabs are ahead of it, the more the longer it moves. -/
theorem aheadBrush_goes_ahead :
    look (fun r => r.2.map fun a => (a.x, a.y)) (strokes env 100 (aheadBrush 1) [] [motion 1 0 (1 / 2) (1 / 10), motion 6 0 (1 / 2) (1 / 10)]) =
      some [(5 / 2 + 175 / 44, 0), (4 + 835 / 176, 0), (11 / 2 + 3475 / 704, 0)] := by decide +kernel

/-- With the opposite setting they are behind it. -/
example : look (fun r => r.2.map fun a => (a.x, a.y)) (strokes env 100 (aheadBrush (-1)) []
    [motion 1 0 (1 / 2) (1 / 10), motion 6 0 (1 / 2) (1 / 10)]) =
      some [(5 / 2 - 175 / 44, 0), (4 - 835 / 176, 0), (11 / 2 - 3475 / 704, 0)] := by decide +kernel

end Demo

/-- A brush with offset by speed 2, between strokes. -/
noncomputable def leadingBrush : Brush ℝ Unit :=
  { plainBrush fun id => if id = sOffsetBySpeed then 2 else if id = sOffsetBySpeedSlowness then 1 else 0 with resetRequested := false }

/-- The theorem applies to it: a stroke along the x axis. -/
example {σ : Type} (draw : σ → Dab.Args ℝ → Bool × σ) (getColor : σ → Int → Int → ℝ → ℝ → Color.Rgba ℝ × σ) {fuel : Nat} {surf : σ}
    {m1 m2 : Motion ℝ} (h1 : m1 = ⟨.fin 3, .fin 0, 1, .fin 0, .fin 0, 1 / 20, 1, 0, 0, false⟩)
    (h2 : m2 = ⟨.fin 8, .fin 0, 1, .fin 0, .fin 0, 1 / 10, 1, 0, 0, false⟩) {r1 : Brush ℝ Unit × (σ × List (Dab.Args ℝ))}
    (e1 : strokes (recordDabs (realEnv (fun r => (0, r)) (fun r => (0, r)) draw getColor)) fuel leadingBrush (surf, []) [m1] = .ok r1)
    {r : Bool × Brush ℝ Unit × (σ × List (Dab.Args ℝ))}
    (e2 : strokeTo (recordDabs (realEnv (fun r => (0, r)) (fun r => (0, r)) draw getColor)) fuel r1.1 r1.2 m2 = .ok r) :
    ∃ s new ts, RestsAt (r1.1.st.x + s * 1) (r1.1.st.y + s * 0) m2 ∧ r.2.2.2 = r1.2.2 ++ new ∧ List.Forall₂ (fun t a => ∃ k, 0 ≤ k ∧
      a.x = part t r1.1.st.x (r1.1.st.x + s * 1) + 2 * k * 1 ∧ a.y = part t r1.1.st.y (r1.1.st.y + s * 0) + 2 * k * 0) ts new ∧
      ts.Pairwise (· ≤ ·) ∧ ∀ t ∈ ts, 0 ≤ t ∧ t ≤ 1 := by
  have c : ∀ id i, calculate (leadingBrush.settings id) i =
      if id = sOffsetBySpeed then 2 else if id = sOffsetBySpeedSlowness then 1 else 0 :=
    fun id i => plainBrush_value (fun id => if id = sOffsetBySpeed then 2 else if id = sOffsetBySpeedSlowness then 1 else 0) id i
  refine straight_stroke_ahead (e := realEnv (fun r => (0, r)) (fun r => (0, r)) draw getColor) (T1 := 0) (T2 := 0) (w := 1) (zoom := 1)
    (fun a b => Real.exp_add a b) Real.sqrt_zero Real.exp_zero (realEnv_decays _ _ _ _) one_pos [m1] (b := leadingBrush)
    ⟨fun i => by rw [c]; rfl, fun i => by rw [c]; rfl, fun i => by rw [c]; rfl⟩
    ⟨fun i => by rw [c]; rfl, fun i => by rw [c]; rfl, ?_, fun i => by rw [c]; norm_num [sSlowTrackingPerDab, sOffsetBySpeed, sOffsetBySpeedSlowness],
      fun i => by rw [c]; norm_num [sSnapToPixel, sOffsetBySpeed, sOffsetBySpeedSlowness]⟩
    ⟨?_, rfl, ?_, rfl⟩ ⟨⟨le_refl _, zero_lt_one⟩, le_refl _⟩ ⟨rfl, rfl⟩ ?_ e1 e2
  · constructor <;> (intro i; rw [c]; norm_num [sOffsetX, sOffsetY, sOffsetAngle, sOffsetAngleAsc, sOffsetAngleView, sOffsetAngle2,
      sOffsetAngle2Asc, sOffsetAngle2View, sOffsetBySpeed, sOffsetBySpeedSlowness])
  · show (0 : ℝ) ≤ 1 / 1000; norm_num
  · show (0 : ℝ) ≤ 1 / 1000; norm_num
  · subst h1 h2
    have x0 : leadingBrush.st.x = 0 := rfl
    have y0 : leadingBrush.st.y = 0 := rfl
    rw [x0, y0]
    exact ⟨3, by norm_num, ⟨congrArg Flt.fin (by norm_num), congrArg Flt.fin (by norm_num)⟩, by unfold OnCanvas; norm_num, by norm_num,
      by norm_num, rfl, 5, by norm_num, ⟨congrArg Flt.fin (by norm_num), congrArg Flt.fin (by norm_num)⟩, by unfold OnCanvas; norm_num,
      by norm_num, by norm_num, rfl, trivial⟩

end Verif.Engine
