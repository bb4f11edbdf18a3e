import Verif.Props.C123_Number

/-!
# C125: with slow tracking per dab the dabs trail behind by the number of dabs that the setting says

The setting smooths the place of the dabs, with the dabs as its clock. However the movement is reported, and whatever time it takes, the dabs
stay within the setting times the distance of two dabs of the way of the pen; on a straight way they get that far behind, up to one dab.
-/

namespace Verif.Engine
open Verif.Mask Verif.Color Verif.Spectral Verif.Map

section
variable {K R σ : Type} [Field K] [LinearOrder K] [IsStrictOrderedRing K] [FloorRing K]

/-! ### Specification -/

/-- The dabs are drawn at the place of the brush: no offsets, no snapping to pixels. -/
structure DrawsAtPlace (s : Load.Brush K) : Prop where
  speed : ∀ i, calculate (s sOffsetBySpeed) i = 0
  random : ∀ i, calculate (s sOffsetByRandom) i = 0
  offset : NoOffset s
  snap : ∀ i, calculate (s sSnapToPixel) i ≤ 0

/-- How far the place of the dabs is behind the pen, in the direction `(u, v)`. -/
def behind (u v : K) (b : Brush K R) : K := u * (b.st.x - b.st.actualX) + v * (b.st.y - b.st.actualY)

/-- A place at most `D` from the straight way from `(x0, y0)` to `(X, Y)`. -/
def NearWay (e : Env K R σ) (D x0 y0 X Y px py : K) : Prop :=
  ∃ t, 0 ≤ t ∧ t ≤ 1 ∧ hypot e (part t x0 X - px) (part t y0 Y - py) ≤ D

/-- A place at most `D` from the way from `(x, y)` through the places. -/
def NearPath (e : Env K R σ) (D : K) : K → K → List (K × K) → K → K → Prop
  | _, _, [], _, _ => False
  | x, y, P :: Ps, px, py => NearWay e D x y P.1 P.2 px py ∨ NearPath e D P.1 P.2 Ps px py

/-- The exponential function lies above its tangent. -/
def AboveTangent (e : Env K R σ) : Prop := ∀ t, 1 + t ≤ e.exp t

/-- The way between two dabs on a way without pauses. -/
def dabSpacing (e : Env K R σ) (s : Load.Brush K) (n : K) : K := basicRadius e s / n

/-! ### Numbers -/

omit [FloorRing K] in
theorem exp_zero_of {e : Env K R σ} (L : Laws e) (he : ExpLaw e) : e.exp 0 = 1 := by
  have h := he 0 0
  rw [add_zero] at h
  have p := L.exp_pos 0
  have : e.exp 0 * (e.exp 0 - 1) = 0 := by linarith
  rcases mul_eq_zero.mp this with q | q
  · exact absurd q p.ne'
  · linarith

omit [FloorRing K] in
theorem exp_inv_of {e : Env K R σ} (L : Laws e) (he : ExpLaw e) (t : K) : e.exp t * e.exp (-t) = 1 := by
  rw [← he, add_neg_cancel, exp_zero_of L he]

omit [FloorRing K] in
theorem upper_step {e : Env K R σ} (L : Laws e) (he : ExpLaw e) (ht : AboveTangent e) {T d a l w c : K} (hT : 0 < T) (hd : 0 ≤ d)
    (hl : l ≤ T * d - c) (hw : w ≤ a * d) : (l + w) * e.exp (-a / T) ≤ T * d - c * e.exp (-a / T) := by
  have q0 := L.exp_pos (-a / T)
  have i1 := exp_inv_of L he (a / T)
  rw [← neg_div] at i1
  have i2 := mul_le_mul_of_nonneg_right (ht (a / T)) q0.le
  rw [i1] at i2
  have h1 : (l + w) * e.exp (-a / T) ≤ (T * d - c + a * d) * e.exp (-a / T) := mul_le_mul_of_nonneg_right (by linarith) q0.le
  have h2 : T * d * ((1 + a / T) * e.exp (-a / T)) ≤ T * d * 1 := mul_le_mul_of_nonneg_left i2 (mul_nonneg hT.le hd)
  have h3 : T * d * ((1 + a / T) * e.exp (-a / T)) = (T * d + a * d) * e.exp (-a / T) := by field_simp
  linarith

omit [FloorRing K] in
theorem lower_step {e : Env K R σ} (L : Laws e) (ht : AboveTangent e) {T d a l w c : K} (hT : 1 ≤ T) (hd : 0 ≤ d) (a0 : 0 ≤ a) (a1 : a ≤ 1)
    (hl : (T - 1) * d - c ≤ l) (hw : a * d ≤ w) : (T - 1) * d - c * e.exp (-a / T) ≤ (l + w) * e.exp (-a / T) := by
  have T0 : 0 < T := lt_of_lt_of_le one_pos hT
  have q0 := L.exp_pos (-a / T)
  have h1 : ((T - 1) * d - c + a * d) * e.exp (-a / T) ≤ (l + w) * e.exp (-a / T) := mul_le_mul_of_nonneg_right (by linarith) q0.le
  have h2 : (T - 1 + a) * d * (1 + -a / T) ≤ (T - 1 + a) * d * e.exp (-a / T) :=
    mul_le_mul_of_nonneg_left (ht _) (mul_nonneg (by linarith) hd)
  have h3 : (T - 1 + a) * d * (1 + -a / T) = (T - 1) * d + d * (a * (1 - a) / T) := by field_simp; ring
  have h4 : 0 ≤ d * (a * (1 - a) / T) := mul_nonneg hd (div_nonneg (mul_nonneg a0 (by linarith)) T0.le)
  linarith

theorem shadow_le {e : Env K R σ} (L : Laws e) {u v : K} (h : u * u + v * v ≤ 1) (p q : K) : u * p + v * q ≤ hypot e p q := by
  have h0 := hypot_nonneg L p q
  rcases le_total (u * p + v * q) 0 with c | c
  · linarith
  · refine le_of_sq_le h0 ?_
    rw [hypot_sq L]
    have h1 : (u * p + v * q) * (u * p + v * q) + (u * q - v * p) * (u * q - v * p) = (u * u + v * v) * (p * p + q * q) := by ring
    have h2 : (u * u + v * v) * (p * p + q * q) ≤ 1 * (p * p + q * q) :=
      mul_le_mul_of_nonneg_right h (add_nonneg (mul_self_nonneg p) (mul_self_nonneg q))
    have h3 := mul_self_nonneg (u * q - v * p)
    linarith

theorem hypot_le_of_shadow {e : Env K R σ} (L : Laws e) {p q D : K} (hD : 0 ≤ D) (h : ∀ u v, u * u + v * v ≤ 1 → u * p + v * q ≤ D) :
    hypot e p q ≤ D := by
  have h0 := hypot_nonneg L p q
  have hs := hypot_sq L p q
  rcases h0.eq_or_lt with z | z
  · rw [← z]; exact hD
  · have n : p / hypot e p q * (p / hypot e p q) + q / hypot e p q * (q / hypot e p q) = 1 := by
      rw [div_mul_div_comm, div_mul_div_comm, ← add_div, hs, div_self]
      rw [← hs]; exact (mul_pos z z).ne'
    have := h _ _ n.le
    have k : p / hypot e p q * p + q / hypot e p q * q = hypot e p q := by
      rw [div_mul_eq_mul_div, div_mul_eq_mul_div, ← add_div, ← hs, mul_div_assoc, div_self z.ne', mul_one]
    linarith

/-! ### One movement -/

theorem dabPosition_at_place {e : Env K R σ} {b : Brush K R} {i : Nat → K} (hv : b.vals = fun id => calculate (b.settings id) i)
    (hs : DrawsAtPlace b.settings) {pos : K × K × Brush K R} (h : dabPosition e b = .ok pos) :
    pos.1 = b.st.actualX ∧ pos.2.1 = b.st.actualY := by
  have h1 : b.vals sOffsetBySpeed = 0 := by rw [hv]; exact hs.speed i
  have h2 : b.vals sOffsetByRandom = 0 := by rw [hv]; exact hs.random i
  unfold dabPosition at h
  dsimp only at h
  rw [h1, h2, directionalOffsets_zero hv hs.offset] at h
  simp only [ne_eq, not_true, false_and, if_false] at h
  rw [← Except.ok.inj h]
  exact ⟨by simp, by simp⟩

theorem drawDab_at_place {e : Env K R σ} {b : Brush K R} {surf : σ × List (Dab.Args K)} {lin : Bool}
    {p : Bool × Brush K R × (σ × List (Dab.Args K))} {i : Nat → K} (hv : b.vals = fun id => calculate (b.settings id) i)
    (hs : DrawsAtPlace b.settings) (hd : drawDab (recordDabs e) { b with st := { b.st with flip := b.st.flip * -1 } } surf lin = .ok p) :
    p.2.2.2 = surf.2 ∨ ∃ a, p.2.2.2 = surf.2 ++ [a] ∧ a.x = b.st.actualX ∧ a.y = b.st.actualY := by
  rcases drawDab_oneDab hd with h | ⟨o, pos, sm, col, -, hpos, -, -, -, fr2, -, h⟩
  · exact .inl h
  · refine .inr ⟨_, h, ?_⟩
    have hv2 : col.2.2.vals sSnapToPixel ≤ 0 := by
      rw [fr2.vals]
      show b.vals sSnapToPixel ≤ 0
      rw [hv]
      exact hs.snap i
    have k := dabPosition_at_place (e := recordDabs e) (b := { b with st := { b.st with flip := b.st.flip * -1 } }) (i := i) hv hs hpos
    have sn : ∀ r, snap col.2.2 pos.1 pos.2.1 r = (pos.1, pos.2.1, r) := by
      intro r
      unfold snap
      dsimp only
      rw [if_neg (not_lt.mpr hv2)]
    unfold dabArgs
    simp only
    rw [sn]
    exact k

theorem update_behind {e : Env K R σ} {b b' : Brush K R} {T : K} (hs : ∀ i, calculate (b.settings sSlowTrackingPerDab) i = T) (hT : 1 / 1000 < T)
    {s : Step K} (h : update e b s = .ok b') (u v : K) :
    behind u v b' = (behind u v b + (u * s.dx + v * s.dy)) * e.exp (-s.ddab / T) := by
  rw [update_eq h]
  have k : ∀ (i : Nat → K) (a x : K), x - approach a x (1 - expDecay e (calculate (b.settings sSlowTrackingPerDab) i) s.ddab) =
      (x - a) * e.exp (-s.ddab / T) := by
    intro i a x
    unfold approach expDecay
    rw [hs, if_neg (not_le.mpr hT)]
    ring
  show u * ((b.st.x + s.dx) - approach b.st.actualX (b.st.x + s.dx) (1 - expDecay e (calculate (b.settings sSlowTrackingPerDab) _) s.ddab)) +
    v * ((b.st.y + s.dy) - approach b.st.actualY (b.st.y + s.dy) (1 - expDecay e (calculate (b.settings sSlowTrackingPerDab) _) s.ddab)) = _
  rw [k, k]
  unfold behind
  ring

/-- What a movement by `(DX, DY)` that counts for `n` dabs does to the distance, from the brush `b` to the brush `b'`, when the part `t` of it is
done. -/
structure LagLaw (e : Env K R σ) (T d DX DY n t : K) (b b' : Brush K R) : Prop where
  upper : ∀ u v, u * u + v * v ≤ 1 → behind u v b' ≤ T * d - (T * d - behind u v b) * e.exp (-(t * n) / T)
  lower : ∀ u v, 1 ≤ T → n * d ≤ u * DX + v * DY → (T - 1) * d - ((T - 1) * d - behind u v b) * e.exp (-(t * n) / T) ≤ behind u v b'

theorem LagLaw.step {e : Env K R σ} (L : Laws e) (he : ExpLaw e) (ht : AboveTangent e) {T d DX DY n t g : K} (hT : 1 / 1000 < T) (hd : 0 ≤ d)
    (hn : hypot e DX DY ≤ n * d) (t1 : t ≤ 1) (g0 : 0 ≤ g) (hn0 : 0 ≤ n) (ha : g * ((1 - t) * n) ≤ 1) {b0 b b' : Brush K R}
    (h : LagLaw e T d DX DY n t b0 b)
    (hu : ∀ u v, behind u v b' = (behind u v b + (u * (g * ((1 - t) * DX)) + v * (g * ((1 - t) * DY)))) * e.exp (-(g * ((1 - t) * n)) / T)) :
    LagLaw e T d DX DY n (t + g * (1 - t)) b0 b' := by
  have T0 : 0 < T := lt_trans (by norm_num) hT
  have f0 : 0 ≤ g * (1 - t) := mul_nonneg g0 (by linarith)
  have ex : e.exp (-((t + g * (1 - t)) * n) / T) = e.exp (-(t * n) / T) * e.exp (-(g * ((1 - t) * n)) / T) := by
    rw [← he]; congr 1; ring
  constructor
  · intro u v huv
    rw [hu, ex, ← mul_assoc (T * d - behind u v b0)]
    refine upper_step L he ht T0 hd (h.upper u v huv) ?_
    have := mul_le_mul_of_nonneg_left ((shadow_le L huv DX DY).trans hn) f0
    calc _ = g * (1 - t) * (u * DX + v * DY) := by ring
      _ ≤ g * (1 - t) * (n * d) := this
      _ = _ := by ring
  · intro u v hT1 huv
    rw [hu, ex, ← mul_assoc ((T - 1) * d - behind u v b0)]
    refine lower_step L ht hT1 hd (mul_nonneg g0 (mul_nonneg (by linarith) hn0)) ha (h.lower u v hT1 huv) ?_
    have := mul_le_mul_of_nonneg_left huv f0
    calc _ = g * (1 - t) * (n * d) := by ring
      _ ≤ g * (1 - t) * (u * DX + v * DY) := this
      _ = _ := by ring

/-- The brush on its way. -/
structure Lagging (e : Env K R σ) (s : Load.Brush K) (A B S T d n total X Y : K) (b0 : Brush K R) (old : List (Dab.Args K))
    (l : Loop K R (σ × List (Dab.Args K))) : Prop where
  counting : Counting e s A B S total X Y old l
  part : ∃ t, 0 ≤ t ∧ t ≤ 1 ∧ l.b.st.x = part t b0.st.x X ∧ l.b.st.y = part t b0.st.y Y ∧ l.todo = (1 - t) * n ∧
    LagLaw e T d (X - b0.st.x) (Y - b0.st.y) n t b0 l.b
  dabs : (∀ u v, u * u + v * v ≤ 1 → behind u v b0 ≤ T * d) → DrawsAtPlace s →
    ∃ new, l.surf.2 = old ++ new ∧ ∀ a ∈ new, NearWay e (T * d) b0.st.x b0.st.y X Y a.x a.y

theorem LagLaw.within {e : Env K R σ} (L : Laws e) {T d DX DY n t : K} {b0 b : Brush K R} (h : LagLaw e T d DX DY n t b0 b)
    (h0 : ∀ u v, u * u + v * v ≤ 1 → behind u v b0 ≤ T * d) (u v : K) (huv : u * u + v * v ≤ 1) : behind u v b ≤ T * d := by
  have h1 := h.upper u v huv
  have h2 := mul_nonneg (sub_nonneg.mpr (h0 u v huv)) (L.exp_pos (-(t * n) / T)).le
  linarith

theorem dabStep_lags {e : Env K R σ} (L : Laws e) (he : ExpLaw e) (ht : AboveTangent e) {s : Load.Brush K} {A B S T d n total X Y : K}
    (hs : Rates s A B S) (hT : 1 / 1000 < T) (hsl : ∀ i, calculate (s sSlowTrackingPerDab) i = T) (hd : 0 ≤ d) (hn0 : 0 ≤ n) {b0 : Brush K R}
    (hn : hypot e (X - b0.st.x) (Y - b0.st.y) ≤ n * d) {old : List (Dab.Args K)} {ev : Event K} {l l' : Loop K R (σ × List (Dab.Args K))}
    (hc : l.moved + l.todo ≥ 1) (hl : Lagging e s A B S T d n total X Y b0 old l) (h : dabStep (recordDabs e) ev X Y l = .ok l') :
    Lagging e s A B S T d n total X Y b0 old l' := by
  have hcount := dabStep_counts L hs hc hl.counting h
  obtain ⟨t, t0, t1, px, py, ptodo, law⟩ := hl.part
  have T0 : 0 < T := lt_trans (by norm_num) hT
  obtain ⟨hz, b1, p, b2, hu, hdr, hb2, e1⟩ := dabStep_eq h
  have hdd : (if l.moved > 0 then 1 - l.moved else 1) = 1 - l.moved := by
    split_ifs with q
    · rfl
    · have : l.moved = 0 := le_antisymm (not_lt.mp q) hl.counting.moved.1
      rw [this]; ring
  rw [hdd] at hu
  rw [hdd] at e1
  have htp : 0 < l.todo := by linarith [hl.counting.moved.2]
  obtain ⟨g, hg⟩ : ∃ g, g = (1 - l.moved) / l.todo := ⟨_, rfl⟩
  have g0 : 0 ≤ g := by rw [hg]; exact div_nonneg (by linarith [hl.counting.moved.2]) htp.le
  have g1 : g ≤ 1 := by rw [hg, div_le_one htp]; linarith
  have gt : g * l.todo = 1 - l.moved := by rw [hg, div_mul_cancel₀ _ htp.ne']
  rw [← hg] at hu e1
  have set0 := hl.counting.settings
  have f := drawDab_frame hdr
  have ub : ∀ u v, behind u v b1 = (behind u v l.b + (u * (g * ((1 - t) * (X - b0.st.x))) + v * (g * ((1 - t) * (Y - b0.st.y))))) *
      e.exp (-(g * ((1 - t) * n)) / T) := by
    intro u v
    have k := update_behind (e := recordDabs e) (by rw [set0]; exact hsl) hT hu u v
    rw [k]
    show (behind u v l.b + (u * (g * (X - l.b.st.x)) + v * (g * (Y - l.b.st.y)))) * e.exp (-(1 - l.moved) / T) = _
    rw [← gt, ptodo, px, py]
    unfold Engine.part
    congr 2
    ring
  have law' := LagLaw.step L he ht hT hd hn t1 g0 hn0 (by rw [← ptodo, gt]; linarith [hl.counting.moved.1]) law ub
  obtain ⟨u1, u2, u3, u4, i, u5⟩ := OnRates.update (e := recordDabs e) (by rw [set0]; exact hs) hu
  have u3' : b1.st.x = part (t + g * (1 - t)) b0.st.x X := by
    rw [u3]
    show l.b.st.x + g * (X - l.b.st.x) = _
    rw [px]; unfold Engine.part; ring
  have u4' : b1.st.y = part (t + g * (1 - t)) b0.st.y Y := by
    rw [u4]
    show l.b.st.y + g * (Y - l.b.st.y) = _
    rw [py]; unfold Engine.part; ring
  have st2 : l'.b.st.x = b1.st.x ∧ l'.b.st.y = b1.st.y ∧ l'.b.st.actualX = b1.st.actualX ∧ l'.b.st.actualY = b1.st.actualY := by
    rw [e1]
    simp only
    rw [countDabs_st, hb2]
    simp only
    rw [f.st]
    exact ⟨rfl, rfl, rfl, rfl⟩
  have t1' : t + g * (1 - t) ≤ 1 := by
    have := mul_le_mul_of_nonneg_right g1 (sub_nonneg.mpr t1)
    linarith
  have t0' : 0 ≤ t + g * (1 - t) := add_nonneg t0 (mul_nonneg g0 (sub_nonneg.mpr t1))
  have lag' : LagLaw e T d (X - b0.st.x) (Y - b0.st.y) n (t + g * (1 - t)) b0 l'.b := by
    have bb : ∀ u v, behind u v l'.b = behind u v b1 := by
      intro u v
      unfold behind
      rw [st2.1, st2.2.1, st2.2.2.1, st2.2.2.2]
    exact ⟨fun u v q => by rw [bb]; exact law'.upper u v q, fun u v q1 q2 => by rw [bb]; exact law'.lower u v q1 q2⟩
  refine ⟨hcount, ⟨t + g * (1 - t), t0', t1', by rw [st2.1, u3'], by rw [st2.2.1, u4'], ?_, lag'⟩, fun h0 hp => ?_⟩
  · have td : l'.todo = (1 - g) * l.todo := by
      rw [hcount.todo, hl.counting.todo, st2.1, st2.2.1, u3, u4]
      show dabsFor _ _ _ (hypot e (X - (l.b.st.x + g * (X - l.b.st.x))) (Y - (l.b.st.y + g * (Y - l.b.st.y)))) l'.dtimeLeft = _
      rw [show X - (l.b.st.x + g * (X - l.b.st.x)) = (1 - g) * (X - l.b.st.x) by ring,
        show Y - (l.b.st.y + g * (Y - l.b.st.y)) = (1 - g) * (Y - l.b.st.y) by ring, hypot_scale L (by linarith), e1]
      unfold dabsFor
      ring
    rw [td, ptodo]
    ring
  · obtain ⟨new, n1, n2⟩ := hl.dabs h0 hp
    have sf : l'.surf = p.2.2 := by rw [e1]
    rw [sf]
    have bs : b1.settings = s := by rw [u2, set0]
    rcases drawDab_at_place (b := b1) (i := i.get) (by rw [u5, u2]; rfl) (by rw [bs]; exact hp) hdr with q | ⟨a, q, ax, ay⟩
    · exact ⟨new, by rw [q, n1], n2⟩
    · refine ⟨new ++ [a], by rw [q, n1, List.append_assoc], fun a' ha' => ?_⟩
      rcases List.mem_append.mp ha' with k | k
      · exact n2 a' k
      · rw [List.mem_singleton.mp k, ax, ay]
        refine ⟨t + g * (1 - t), t0', t1', hypot_le_of_shadow L (mul_nonneg T0.le hd) fun u v huv => ?_⟩
        have w := law'.within L h0 u v huv
        unfold behind at w
        rw [u3', u4'] at w
        exact w

theorem moveTo_lags {e : Env K R σ} (L : Laws e) (he : ExpLaw e) (ht : AboveTangent e) {A B S T X Y : K} {fuel : Nat} {b : Brush K R}
    (hs : Rates b.settings A B S) (hAB : 0 < A + B) (hT : 1 / 1000 < T) (hsl : ∀ i, calculate (b.settings sSlowTrackingPerDab) i = T)
    (hr : OnRates e A B S b) (hp : PendingOk b) {ev : Event K} {dt : K} (htm : 0 ≤ dt) {surf : σ × List (Dab.Args K)}
    {r : Bool × Brush K R × (σ × List (Dab.Args K))} (h : moveTo (recordDabs e) fuel b surf ev X Y dt = .ok r) :
    LagLaw e T (dabSpacing e b.settings (A + B)) (X - b.st.x) (Y - b.st.y)
      (dabsFor (basicRadius e b.settings) (A + B) S (hypot e (X - b.st.x) (Y - b.st.y)) dt) 1 b r.2.1 ∧
    ((∀ u v, u * u + v * v ≤ 1 → behind u v b ≤ T * dabSpacing e b.settings (A + B)) → DrawsAtPlace b.settings →
      ∃ new, r.2.2.2 = surf.2 ++ new ∧ ∀ a ∈ new, NearWay e (T * dabSpacing e b.settings (A + B)) b.st.x b.st.y X Y a.x a.y) := by
  obtain ⟨l, b1, hl, hu, -, h2, h3⟩ := moveTo_eq h
  have L' : Laws (recordDabs e) := recordDabs_laws L
  have hr' : OnRates (recordDabs e) A B S b := ⟨hr.actual, hr.basic, hr.second, hr.size, hr.round⟩
  obtain ⟨c1, c2⟩ := OnRates.count L' hs hr' X Y htm
  have R0 := basicRadius_pos e b.settings
  have hd : 0 ≤ dabSpacing e b.settings (A + B) := div_nonneg R0.le hAB.le
  have hl0 := hypot_nonneg L (X - b.st.x) (Y - b.st.y)
  have st := mul_nonneg hs.second_nonneg htm
  obtain ⟨n, hnn⟩ : ∃ n, n = dabsFor (basicRadius e b.settings) (A + B) S (hypot e (X - b.st.x) (Y - b.st.y)) dt := ⟨_, rfl⟩
  have hn0 : 0 ≤ n := by
    rw [hnn]; exact add_nonneg (mul_nonneg hAB.le (div_nonneg hl0 R0.le)) st
  have hn : hypot e (X - b.st.x) (Y - b.st.y) ≤ n * dabSpacing e b.settings (A + B) := by
    rw [hnn]
    unfold dabsFor dabSpacing
    have := mul_nonneg st (div_nonneg R0.le hAB.le)
    have k : ((A + B) * (hypot e (X - b.st.x) (Y - b.st.y) / basicRadius e b.settings) + S * dt) * (basicRadius e b.settings / (A + B)) =
        hypot e (X - b.st.x) (Y - b.st.y) + S * dt * (basicRadius e b.settings / (A + B)) := by
      have r0 := R0.ne'
      have ab := hAB.ne'
      field_simp
    rw [k]
    linarith
  have xs : (countDabs (recordDabs e) b X Y dt).2.st.x = b.st.x := by rw [countDabs_st]
  have ys : (countDabs (recordDabs e) b X Y dt).2.st.y = b.st.y := by rw [countDabs_st]
  have as : (countDabs (recordDabs e) b X Y dt).2.st.actualX = b.st.actualX := by rw [countDabs_st]
  have bs : (countDabs (recordDabs e) b X Y dt).2.st.actualY = b.st.actualY := by rw [countDabs_st]
  have start : LagLaw e T (dabSpacing e b.settings (A + B)) (X - b.st.x) (Y - b.st.y) n 0 b (countDabs (recordDabs e) b X Y dt).2 := by
    have bb : ∀ u v, behind u v (countDabs (recordDabs e) b X Y dt).2 = behind u v b := by
      intro u v; unfold behind; rw [xs, ys, as, bs]
    constructor
    · intro u v _
      rw [bb, zero_mul, neg_zero, zero_div, exp_zero_of L he]
      linarith
    · intro u v _ _
      rw [bb, zero_mul, neg_zero, zero_div, exp_zero_of L he]
      linarith
  obtain ⟨k, kc⟩ := dabLoop_induct (Lagging e b.settings A B S T (dabSpacing e b.settings (A + B)) n (b.st.partialDabs + n) X Y b surf.2)
    (fun l l' hc hst hi => dabStep_lags L he ht hs hT hsl hd hn0 hn hc hi hst) _ _ _ hl
    ⟨⟨by simp only; rw [countDabs_st], ⟨c2.actual, c2.basic, c2.second, c2.size, c2.round⟩, by simp only [xs, ys]; exact c1, htm, hp, [], by simp, by
      simp only [List.length_nil, Nat.cast_zero, zero_add]; rw [c1, hnn]; rfl⟩,
     ⟨0, le_rfl, zero_le_one, by simp only [xs]; unfold Engine.part; ring, by simp only [ys]; unfold Engine.part; ring,
      by simp only; rw [c1, hnn, sub_zero, one_mul]; rfl, start⟩, fun _ _ => ⟨[], by simp, by simp⟩⟩
  obtain ⟨t, t0, t1, px, py, ptodo, law⟩ := k.part
  have ub : ∀ u v, behind u v b1 = (behind u v l.b + (u * (1 * ((1 - t) * (X - b.st.x))) + v * (1 * ((1 - t) * (Y - b.st.y))))) *
      e.exp (-(1 * ((1 - t) * n)) / T) := by
    intro u v
    have q := update_behind (e := recordDabs e) (by rw [k.counting.settings]; exact hsl) hT hu u v
    rw [q]
    show (behind u v l.b + (u * (1 * (X - l.b.st.x)) + v * (1 * (Y - l.b.st.y)))) * e.exp (-l.todo / T) = _
    rw [ptodo, px, py]
    simp only [one_mul]
    unfold Engine.part
    congr 2
    ring
  have fin := LagLaw.step L he ht hT hd hn t1 zero_le_one hn0 (by
    rw [one_mul, ← ptodo]
    have := k.counting.moved.1
    linarith) law ub
  rw [show t + 1 * (1 - t) = 1 by ring, hnn] at fin
  rw [h3]
  refine ⟨?_, fun q1 q2 => k.dabs q1 q2⟩
  have bb : ∀ u v, behind u v r.2.1 = behind u v b1 := by
    intro u v; rw [h2, splitStroke_eq]; rfl
  exact ⟨fun u v q => by rw [bb]; exact fin.upper u v q, fun u v q1 q2 => by rw [bb]; exact fin.lower u v q1 q2⟩

/-! ### Sessions -/

/-- The same for a movement that counts for `n` dabs, of which `S` for the time, when it is done. -/
structure LagsBy (e : Env K R σ) (T d S DX DY n : K) (b b' : Brush K R) : Prop where
  upper : ∀ u v, u * u + v * v ≤ 1 → behind u v b' ≤ T * d - (T * d - behind u v b) * e.exp (-n / T)
  lower : S = 0 → 1 ≤ T → ∀ u v, hypot e DX DY ≤ u * DX + v * DY →
    (T - 1) * d - ((T - 1) * d - behind u v b) * e.exp (-n / T) ≤ behind u v b'

theorem LagsBy.within {e : Env K R σ} (L : Laws e) {T d S DX DY n : K} {b0 b : Brush K R} (h : LagsBy e T d S DX DY n b0 b)
    (h0 : ∀ u v, u * u + v * v ≤ 1 → behind u v b0 ≤ T * d) (u v : K) (huv : u * u + v * v ≤ 1) : behind u v b ≤ T * d := by
  have h1 := h.upper u v huv
  have h2 := mul_nonneg (sub_nonneg.mpr (h0 u v huv)) (L.exp_pos (-n / T)).le
  linarith

theorem lag_chain {e : Env K R σ} (L : Laws e) (he : ExpLaw e) {T c n n2 l0 l1 l2 : K} (h1 : l1 ≤ c - (c - l0) * e.exp (-n / T))
    (h2 : l2 ≤ c - (c - l1) * e.exp (-n2 / T)) : l2 ≤ c - (c - l0) * e.exp (-(n + n2) / T) := by
  rw [show -(n + n2) / T = -n / T + -n2 / T by ring, he]
  have := mul_le_mul_of_nonneg_right h1 (L.exp_pos (-n2 / T)).le
  linarith

theorem lag_chain_ge {e : Env K R σ} (L : Laws e) (he : ExpLaw e) {T c n n2 l0 l1 l2 : K} (h1 : c - (c - l0) * e.exp (-n / T) ≤ l1)
    (h2 : c - (c - l1) * e.exp (-n2 / T) ≤ l2) : c - (c - l0) * e.exp (-(n + n2) / T) ≤ l2 := by
  rw [show -(n + n2) / T = -n / T + -n2 / T by ring, he]
  have := mul_le_mul_of_nonneg_right h1 (L.exp_pos (-n2 / T)).le
  linarith

theorem strokeEvent_lags {e : Env K R σ} (L : Laws e) (he : ExpLaw e) (ht : AboveTangent e) {A B S T : K} {fuel : Nat} {b : Brush K R}
    (hb : Undisturbed b) (hq : (b.settings sSlowTracking).base ≤ 1 / 1000) (hs : Rates b.settings A B S) (hAB : 0 < A + B) (hT : 1 / 1000 < T)
    (hsl : ∀ i, calculate (b.settings sSlowTrackingPerDab) i = T) (hr : OnRates e A B S b) (hp : PendingOk b) {ev : Event K}
    (h0 : 0 ≤ ev.dtime) (h5 : ev.dtime ≤ 5) {surf : σ × List (Dab.Args K)} {r : Bool × Brush K R × (σ × List (Dab.Args K))}
    (h : strokeEvent (recordDabs e) fuel b surf ev = .ok r) :
    LagsBy e T (dabSpacing e b.settings (A + B)) S (ev.x - b.st.x) (ev.y - b.st.y)
      (dabsFor (basicRadius e b.settings) (A + B) S (hypot e (ev.x - b.st.x) (ev.y - b.st.y)) ev.dtime) b r.2.1 ∧
    ((∀ u v, u * u + v * v ≤ 1 → behind u v b ≤ T * dabSpacing e b.settings (A + B)) → DrawsAtPlace b.settings →
      ∃ new, r.2.2.2 = surf.2 ++ new ∧ ∀ a ∈ new, NearWay e (T * dabSpacing e b.settings (A + B)) b.st.x b.st.y ev.x ev.y a.x a.y) := by
  have sk : skipStage (recordDabs e) b ev.x ev.y ev.dtime = (b, ev.dtime, false) := steady_skip hb _ _ _
  have cu := cursor_tracks (e := recordDabs e) (b := b) (T := (b.settings sSlowTracking).base) ⟨rfl, hb.noise, hb.skip⟩ ev.x ev.y ev.dtime
  rw [followed_at_once _ hq, followed_at_once _ hq] at cu
  rcases strokeEvent_cases h with ⟨h1, -⟩ | ⟨-, h1, -⟩ | ⟨-, -, h⟩
  · rw [sk] at h1; cases h1
  · rw [sk, hb.reset] at h1
    rcases h1 with q | q
    · exact absurd q (not_lt.mpr h5)
    · cases q
  · simp only [sk, cu] at h
    obtain ⟨k1, k2⟩ := moveTo_lags L he ht hs hAB hT hsl hr hp h0 h
    refine ⟨⟨fun u v q => ?_, fun hS hT1 u v q => ?_⟩, k2⟩
    · have := k1.upper u v q
      rw [one_mul] at this
      exact this
    · have := k1.lower u v hT1 (by
        refine le_trans (le_of_eq ?_) q
        rw [hS]
        unfold dabsFor dabSpacing
        have r0 := (basicRadius_pos e b.settings).ne'
        have ab := hAB.ne'
        field_simp
        ring)
      rw [one_mul] at this
      exact this

theorem strokeTo_lags {e : Env K R σ} (L : Laws e) (he : ExpLaw e) (ht : AboveTangent e) {A B S T : K} {fuel : Nat} {b : Brush K R}
    (hb : Midst b.settings b) (hq : (b.settings sSlowTracking).base ≤ 1 / 1000) (hs : Rates b.settings A B S) (hAB : 0 < A + B) (hT : 1 / 1000 < T)
    (hsl : ∀ i, calculate (b.settings sSlowTrackingPerDab) i = T) (hr : OnRates e A B S b) {m : Motion K} {P : K × K} (hm : GoesTo m P)
    {surf : σ × List (Dab.Args K)} {r : Bool × Brush K R × (σ × List (Dab.Args K))} (h : strokeTo (recordDabs e) fuel b surf m = .ok r) :
    Midst b.settings r.2.1 ∧ OnRates e A B S r.2.1 ∧ r.2.1.st.x = P.1 ∧ r.2.1.st.y = P.2 ∧
    LagsBy e T (dabSpacing e b.settings (A + B)) S (P.1 - b.st.x) (P.2 - b.st.y)
      (dabsFor (basicRadius e b.settings) (A + B) S (hypot e (P.1 - b.st.x) (P.2 - b.st.y)) m.dtime) b r.2.1 ∧
    ((∀ u v, u * u + v * v ≤ 1 → behind u v b ≤ T * dabSpacing e b.settings (A + B)) → DrawsAtPlace b.settings →
      ∃ new, r.2.2.2 = surf.2 ++ new ∧ ∀ a ∈ new, NearWay e (T * dabSpacing e b.settings (A + B)) b.st.x b.st.y P.1 P.2 a.x a.y) := by
  obtain ⟨c2, c1, h0, h5⟩ := hm
  obtain ⟨w1, w2, _, _, _, _, w3⟩ := strokeTo_counts L hb hs hr h0 h5 h
  obtain ⟨w4, w5, -⟩ := w3 hq P.1 P.2 c1 c2
  refine ⟨w1, w2, w4, w5, ?_⟩
  obtain ⟨ev, hev, ⟨-, h2⟩ | ⟨w, inner, r2, hi, h2, h3⟩⟩ := strokeTo_cases h
  · have hd : ev.dtime = m.dtime := by rw [sanitise_dtime hev, if_neg (not_le.mpr h0)]
    obtain ⟨q1, q2, -⟩ := sanitise_moved c1 c2 h0 hev
    have k := strokeEvent_lags L he ht hb.still hq hs hAB hT hsl hr hb.placid.pending (by rw [hd]; exact h0.le) (by rw [hd]; exact h5) h2
    rw [q1, q2, hd] at k
    exact k
  · have hd : ev.dtime = m.dtime := by rw [sanitise_dtime hev, if_neg (not_le.mpr h0)]
    have w1 : 1 / 10 < ev.dtime := w.1
    have hw : (0 : K) < ev.dtime - 1 / 10000 := by
      have : (1 / 10000 : K) < 1 / 10 := by norm_num
      linarith
    have hd' : inner.dtime = m.dtime - 1 / 10000 := by
      rw [sanitise_dtime hi, ← hd]
      exact if_neg (not_le.mpr hw)
    have hi0 : 0 ≤ inner.dtime := by rw [hd', ← hd]; exact hw.le
    have hi5 : inner.dtime ≤ 5 := by
      rw [hd']
      have : (0 : K) < 1 / 10000 := by norm_num
      linarith
    obtain ⟨q1, q2, -⟩ := sanitise_moved c1 c2 h0 hev
    obtain ⟨q5, q6, -⟩ := sanitise_moved (m := workaroundMotion ev) (X := ev.x) (Y := ev.y) (by rw [q1, q2]; exact c1) ⟨rfl, rfl⟩ hw hi
    obtain ⟨X, Y, p1, p2, p3, p4, p5, -⟩ := strokeEvent_counts L hb.still hs hr hb.placid.pending hi0 hi5 h2
    obtain ⟨p6, p7⟩ := p1 hq
    obtain ⟨j1, j2⟩ := strokeEvent_lags L he ht hb.still hq hs hAB hT hsl hr hb.placid.pending hi0 hi5 h2
    have k2 := strokeEvent_placid hb.placid (sanitise_pressure hi).1 (sanitise_pressure hi).2.le h2
    have x1 : r2.2.1.st.x = P.1 := by rw [p4, p6, q5, q1]
    have y1 : r2.2.1.st.y = P.2 := by rw [p5, p7, q6, q2]
    obtain ⟨s1, s2⟩ := strokeEvent_lags (ev := { ev with dtime := 1 / 10000 }) L he ht k2.still (by rw [p2]; exact hq) (by rw [p2]; exact hs) hAB hT
      (by rw [p2]; exact hsl) p3 k2.placid.pending (by show (0 : K) ≤ 1 / 10000; norm_num) (by show (1 / 10000 : K) ≤ 5; norm_num) h3
    simp only at s1 s2
    rw [p2, x1, y1, q1, q2, sub_self, sub_self] at s1
    rw [p2, x1, y1, q1, q2] at s2
    rw [q5, q6, q1, q2, hd'] at j1
    rw [q5, q6, q1, q2] at j2
    have z : hypot e (0 : K) 0 = 0 := by
      have := hypot_scale L (c := 0) le_rfl 0 0
      simpa using this
    have sum : dabsFor (basicRadius e b.settings) (A + B) S (hypot e (P.1 - b.st.x) (P.2 - b.st.y)) m.dtime =
        dabsFor (basicRadius e b.settings) (A + B) S (hypot e (P.1 - b.st.x) (P.2 - b.st.y)) (m.dtime - 1 / 10000) +
        dabsFor (basicRadius e b.settings) (A + B) S (hypot e 0 0) (1 / 10000) := by
      rw [z]
      unfold dabsFor
      ring
    refine ⟨⟨fun u v q => ?_, fun hS hT1 u v q => ?_⟩, fun hw0 hpl => ?_⟩
    · rw [sum]
      exact lag_chain L he (j1.upper u v q) (s1.upper u v q)
    · rw [sum]
      exact lag_chain_ge L he (j1.lower hS hT1 u v q) (s1.lower hS hT1 u v (by rw [z]; simp))
    · obtain ⟨new, n1, n2⟩ := j2 hw0 hpl
      obtain ⟨new2, m1, m2⟩ := s2 (j1.within L hw0) hpl
      refine ⟨new ++ new2, by rw [m1, n1, List.append_assoc], fun a ha => ?_⟩
      rcases List.mem_append.mp ha with g | g
      · exact n2 a g
      · obtain ⟨t, -, -, t3⟩ := m2 a g
        refine ⟨1, zero_le_one, le_rfl, ?_⟩
        unfold Engine.part at t3 ⊢
        simp only [sub_self, mul_zero, add_zero] at t3
        rw [one_mul, one_mul, add_sub_cancel, add_sub_cancel]
        exact t3

/-- **The dabs trail behind the pen** by no more than the setting times the distance between two dabs, and so they stay that near to the way
of the pen, whatever way it takes at whatever pace, and however it is reported. What the brush is farther behind at first goes away with the
dabs. -/
theorem dabs_trail_behind {e : Env K R σ} (L : Laws e) (he : ExpLaw e) (ht : AboveTangent e) {A B S T : K} {fuel : Nat} {ms : List (Motion K)}
    {Ps : List (K × K)} (hm : List.Forall₂ GoesTo ms Ps) (hAB : 0 < A + B) (hT : 1 / 1000 < T) : ∀ {b : Brush K R}, Midst b.settings b →
    (b.settings sSlowTracking).base ≤ 1 / 1000 → Rates b.settings A B S → (∀ i, calculate (b.settings sSlowTrackingPerDab) i = T) →
    OnRates e A B S b → ∀ {surf : σ × List (Dab.Args K)} {r : Brush K R × (σ × List (Dab.Args K))},
    strokes (recordDabs e) fuel b surf ms = .ok r →
    (∀ u v, u * u + v * v ≤ 1 → behind u v r.1 ≤ T * dabSpacing e b.settings (A + B) - (T * dabSpacing e b.settings (A + B) - behind u v b) *
      e.exp (-dabsFor (basicRadius e b.settings) (A + B) S (wayLength e b.st.x b.st.y Ps) (allTime ms) / T)) ∧
    ((∀ u v, u * u + v * v ≤ 1 → behind u v b ≤ T * dabSpacing e b.settings (A + B)) → DrawsAtPlace b.settings →
      ∃ new, r.2.2 = surf.2 ++ new ∧ ∀ a ∈ new, NearPath e (T * dabSpacing e b.settings (A + B)) b.st.x b.st.y Ps a.x a.y) := by
  induction hm with
  | nil =>
    intro b _ _ _ _ _ surf r h
    rw [← Except.ok.inj h]
    refine ⟨fun u v _ => ?_, fun _ _ => ⟨[], by simp, by simp⟩⟩
    show _ ≤ _ - _ * e.exp (-dabsFor _ _ _ 0 ([] : List K).sum / T)
    rw [dabsFor_zero, List.sum_nil, mul_zero, neg_zero, zero_div, exp_zero_of L he]
    linarith
  | @cons m P ms Ps h1 _ ih =>
    intro b hb hq hs hsl hr surf r h
    unfold strokes at h
    obtain ⟨r1, h2, h⟩ := bind_ok h
    obtain ⟨k1, k2, k3, k4, k5, k6⟩ := strokeTo_lags L he ht hb hq hs hAB hT hsl hr h1 h2
    have kset := k1.settings
    obtain ⟨j1, j2⟩ := ih (by rw [kset]; exact k1) (by rw [kset]; exact hq) (by rw [kset]; exact hs) (by rw [kset]; exact hsl) k2 h
    rw [k3, k4, kset] at j1 j2
    have e1 : dabsFor (basicRadius e b.settings) (A + B) S (wayLength e b.st.x b.st.y (P :: Ps)) (allTime (m :: ms)) =
        dabsFor (basicRadius e b.settings) (A + B) S (hypot e (P.1 - b.st.x) (P.2 - b.st.y)) m.dtime +
        dabsFor (basicRadius e b.settings) (A + B) S (wayLength e P.1 P.2 Ps) (allTime ms) := by
      show dabsFor _ _ _ (hypot e (P.1 - b.st.x) (P.2 - b.st.y) + wayLength e P.1 P.2 Ps) (m.dtime + allTime ms) = _
      unfold dabsFor
      ring
    refine ⟨fun u v q => ?_, fun q1 q2 => ?_⟩
    · rw [e1]
      exact lag_chain L he (k5.upper u v q) (j1 u v q)
    · obtain ⟨new, n1, n2⟩ := k6 q1 q2
      obtain ⟨new2, m1, m2⟩ := j2 (k5.within L q1) q2
      refine ⟨new ++ new2, by rw [m1, n1, List.append_assoc], fun a ha => ?_⟩
      rcases List.mem_append.mp ha with g | g
      · exact .inl (n2 a g)
      · exact .inr (m2 a g)

/-- The places lie one after the other on a straight way in the direction `(u, v)`. -/
def StraightOn (u v : K) : K → K → List (K × K) → Prop
  | _, _, [] => True
  | x, y, P :: Ps => (∃ s, 0 ≤ s ∧ P.1 = x + s * u ∧ P.2 = y + s * v) ∧ StraightOn u v P.1 P.2 Ps

/-- **On a straight way the dabs get as far behind** as the setting says, up to the distance between two dabs, as the number of dabs grows,
however the movement is reported. -/
theorem dabs_get_behind {e : Env K R σ} (L : Laws e) (he : ExpLaw e) (ht : AboveTangent e) {A B T u v : K} (huv : u * u + v * v = 1) {fuel : Nat}
    {ms : List (Motion K)} {Ps : List (K × K)} (hm : List.Forall₂ GoesTo ms Ps) (hAB : 0 < A + B) (hT : 1 ≤ T) : ∀ {b : Brush K R},
    StraightOn u v b.st.x b.st.y Ps → Midst b.settings b → (b.settings sSlowTracking).base ≤ 1 / 1000 → Rates b.settings A B 0 →
    (∀ i, calculate (b.settings sSlowTrackingPerDab) i = T) → OnRates e A B 0 b →
    ∀ {surf : σ × List (Dab.Args K)} {r : Brush K R × (σ × List (Dab.Args K))}, strokes (recordDabs e) fuel b surf ms = .ok r →
    (T - 1) * dabSpacing e b.settings (A + B) - ((T - 1) * dabSpacing e b.settings (A + B) - behind u v b) *
      e.exp (-(wayLength e b.st.x b.st.y Ps / dabSpacing e b.settings (A + B)) / T) ≤ behind u v r.1 := by
  have hT' : 1 / 1000 < T := lt_of_lt_of_le (by norm_num) hT
  induction hm with
  | nil =>
    intro b _ _ _ _ _ _ surf r h
    rw [← Except.ok.inj h]
    show _ - _ * e.exp (-(0 / _) / T) ≤ _
    rw [zero_div, neg_zero, zero_div, exp_zero_of L he]
    linarith
  | @cons m P ms Ps h1 _ ih =>
    intro b hst hb hq hs hsl hr surf r h
    unfold strokes at h
    obtain ⟨r1, h2, h⟩ := bind_ok h
    obtain ⟨⟨s, s0, sx, sy⟩, hst⟩ := hst
    obtain ⟨k1, k2, k3, k4, k5, -⟩ := strokeTo_lags L he ht hb hq hs hAB hT' hsl hr h1 h2
    have kset := k1.settings
    have j1 := ih (by rw [k3, k4]; exact hst) (by rw [kset]; exact k1) (by rw [kset]; exact hq) (by rw [kset]; exact hs) (by rw [kset]; exact hsl) k2 h
    rw [k3, k4, kset] at j1
    have R0 := basicRadius_pos e b.settings
    have e1 : wayLength e b.st.x b.st.y (P :: Ps) / dabSpacing e b.settings (A + B) =
        dabsFor (basicRadius e b.settings) (A + B) 0 (hypot e (P.1 - b.st.x) (P.2 - b.st.y)) m.dtime +
        wayLength e P.1 P.2 Ps / dabSpacing e b.settings (A + B) := by
      show (hypot e (P.1 - b.st.x) (P.2 - b.st.y) + wayLength e P.1 P.2 Ps) / _ = _
      unfold dabsFor dabSpacing
      have r0 := R0.ne'
      have ab := hAB.ne'
      field_simp
      ring
    rw [e1]
    refine lag_chain_ge L he (k5.lower rfl hT u v (le_of_eq ?_)) j1
    rw [sx, sy, add_sub_cancel_left, add_sub_cancel_left, hypot_scale L s0]
    have one : hypot e u v = 1 := eq_of_sq_eq (hypot_nonneg L _ _) zero_le_one (by rw [hypot_sq L, huv, one_mul])
    rw [one]
    linear_combination -s * huv

/-! ### How the movement is reported matters -/

theorem strokeTo_without_dab {e : Env K R σ} (L : Laws e) {A B T : K} {fuel : Nat} {b : Brush K R}
    (hb : Midst b.settings b) (hq : (b.settings sSlowTracking).base ≤ 1 / 1000) (hs : Rates b.settings A B 0) (hT : 1 / 1000 < T)
    (hsl : ∀ i, calculate (b.settings sSlowTrackingPerDab) i = T) (hr : OnRates e A B 0 b) {m : Motion K} {P : K × K} (hm : GoesTo m P)
    (h1 : m.dtime ≤ 1 / 10) {n : K} (hn : n = dabsFor (basicRadius e b.settings) (A + B) 0 (hypot e (P.1 - b.st.x) (P.2 - b.st.y)) m.dtime)
    (hn1 : b.st.partialDabs + n < 1) {surf : σ × List (Dab.Args K)} {r : Bool × Brush K R × (σ × List (Dab.Args K))}
    (h : strokeTo (recordDabs e) fuel b surf m = .ok r) :
    r.2.1.st.partialDabs = b.st.partialDabs + n ∧
      ∀ u v, behind u v r.2.1 = (behind u v b + (u * (P.1 - b.st.x) + v * (P.2 - b.st.y))) * e.exp (-n / T) := by
  obtain ⟨c2, c1, h0, h5⟩ := hm
  obtain ⟨ev, hev, ⟨-, h2⟩ | ⟨w, -⟩⟩ := strokeTo_cases h
  swap
  · have hd : ev.dtime = m.dtime := by rw [sanitise_dtime hev, if_neg (not_le.mpr h0)]
    have w1 : 1 / 10 < ev.dtime := w.1
    rw [hd] at w1
    exact absurd h1 (not_le.mpr w1)
  have hd : ev.dtime = m.dtime := by rw [sanitise_dtime hev, if_neg (not_le.mpr h0)]
  obtain ⟨q1, q2, -⟩ := sanitise_moved c1 c2 h0 hev
  have sk : skipStage (recordDabs e) b ev.x ev.y ev.dtime = (b, ev.dtime, false) := steady_skip hb.still _ _ _
  have cu := cursor_tracks (e := recordDabs e) (b := b) (T := (b.settings sSlowTracking).base) ⟨rfl, hb.still.noise, hb.still.skip⟩ ev.x ev.y ev.dtime
  rw [followed_at_once _ hq, followed_at_once _ hq] at cu
  rcases strokeEvent_cases h2 with ⟨g1, -⟩ | ⟨-, g1, -⟩ | ⟨-, -, h2⟩
  · rw [sk] at g1; cases g1
  · rw [sk, hb.still.reset] at g1
    rcases g1 with q | q
    · rw [hd] at q; exact absurd q (not_lt.mpr h5)
    · cases q
  · simp only [sk, cu] at h2
    rw [q1, q2, hd] at h2
    obtain ⟨l, b1, hl, hu, -, g2, g3⟩ := moveTo_eq h2
    have L' : Laws (recordDabs e) := recordDabs_laws L
    have hr' : OnRates (recordDabs e) A B 0 b := ⟨hr.actual, hr.basic, hr.second, hr.size, hr.round⟩
    obtain ⟨c, -⟩ := OnRates.count L' hs hr' P.1 P.2 h0.le
    have c' : (countDabs (recordDabs e) b P.1 P.2 m.dtime).1 = n := by rw [c, hn]; rfl
    have el : l = ⟨(countDabs (recordDabs e) b P.1 P.2 m.dtime).2, surf, b.st.partialDabs, n, m.dtime, .unknown⟩ := by
      rw [c'] at hl
      cases fuel with
      | zero =>
        unfold dabLoop at hl
        rw [if_neg (not_le.mpr hn1)] at hl
        exact (Except.ok.inj hl).symm
      | succ k =>
        unfold dabLoop at hl
        rw [if_neg (not_le.mpr hn1)] at hl
        exact (Except.ok.inj hl).symm
    have xs : l.b.st.x = b.st.x ∧ l.b.st.y = b.st.y ∧ l.b.st.actualX = b.st.actualX ∧ l.b.st.actualY = b.st.actualY ∧ l.b.settings = b.settings := by
      rw [el]; simp only; rw [countDabs_st]; exact ⟨rfl, rfl, rfl, rfl, rfl⟩
    refine ⟨?_, fun u v => ?_⟩
    · rw [g2, splitStroke_eq]
      show l.moved + l.todo = _
      rw [el]
    · have q := update_behind (e := recordDabs e) (by rw [xs.2.2.2.2]; exact hsl) hT hu u v
      have bb : behind u v r.2.1 = behind u v b1 := by rw [g2, splitStroke_eq]; rfl
      rw [bb, q]
      show (behind u v l.b + (u * (1 * (P.1 - l.b.st.x)) + v * (1 * (P.2 - l.b.st.y)))) * e.exp (-l.todo / T) = _
      unfold behind
      rw [xs.1, xs.2.1, xs.2.2.1, xs.2.2.2.1, el, one_mul, one_mul]

/-- **Refuted: that it does not matter how the movement is reported.** The same straight movement at the same pace, too short for a dab, in one
event or in two: the dabs that follow are at different places. -/
theorem reports_matter_per_dab {e : Env K R σ} (L : Laws e) (he : ExpLaw e) (ht : AboveTangent e) {A B T D : K} {fuel : Nat} {b : Brush K R}
    (hb : Midst b.settings b) (hq : (b.settings sSlowTracking).base ≤ 1 / 1000) (hs : Rates b.settings A B 0) (hAB : 0 < A + B) (hT : 1 / 1000 < T)
    (hsl : ∀ i, calculate (b.settings sSlowTrackingPerDab) i = T) (hr : OnRates e A B 0 b) (hD : 0 < D)
    (hsmall : b.st.partialDabs + 2 * D / dabSpacing e b.settings (A + B) < 1) {m m1 m2 : Motion K}
    (hm : GoesTo m (b.st.x + 2 * D, b.st.y)) (hm1 : GoesTo m1 (b.st.x + D, b.st.y)) (hm2 : GoesTo m2 (b.st.x + 2 * D, b.st.y))
    (h0 : m.dtime ≤ 1 / 10) (h1 : m1.dtime ≤ 1 / 10) (h2 : m2.dtime ≤ 1 / 10) {surf : σ × List (Dab.Args K)}
    {r r' : Brush K R × (σ × List (Dab.Args K))} (h : strokes (recordDabs e) fuel b surf [m] = .ok r)
    (h' : strokes (recordDabs e) fuel b surf [m1, m2] = .ok r') : r.1.st.x = r'.1.st.x ∧ r.1.st.actualX ≠ r'.1.st.actualX := by
  have R0 := basicRadius_pos e b.settings
  have T0 : 0 < T := lt_trans (by norm_num) hT
  have hd : 0 < dabSpacing e b.settings (A + B) := div_pos R0 hAB
  have hy : ∀ c : K, 0 ≤ c → ∀ t, dabsFor (basicRadius e b.settings) (A + B) 0 (hypot e c 0) t = c / dabSpacing e b.settings (A + B) := by
    intro c hc t
    have : hypot e c 0 = c := eq_of_sq_eq (hypot_nonneg L _ _) hc (by rw [hypot_sq L]; ring)
    rw [this]
    unfold dabsFor dabSpacing
    have r0 := R0.ne'
    have ab := hAB.ne'
    field_simp
    ring
  have half : 0 < D / dabSpacing e b.settings (A + B) := div_pos hD hd
  have two : 2 * D / dabSpacing e b.settings (A + B) = D / dabSpacing e b.settings (A + B) + D / dabSpacing e b.settings (A + B) := by ring
  rw [two] at hsmall
  unfold strokes at h h'
  obtain ⟨a, a1, a2⟩ := bind_ok h
  obtain ⟨c, c1, c2⟩ := bind_ok h'
  unfold strokes at a2 c2
  obtain ⟨d, d1, d2⟩ := bind_ok c2
  unfold strokes at d2
  obtain ⟨-, -, x1, -, -⟩ := strokeTo_lags L he ht hb hq hs hAB hT hsl hr hm a1
  obtain ⟨k1, k2, x2, y2, -⟩ := strokeTo_lags L he ht hb hq hs hAB hT hsl hr hm1 c1
  have kset := k1.settings
  obtain ⟨-, -, x3, -, -⟩ := strokeTo_lags L he ht (b := c.2.1) (by rw [kset]; exact k1) (by rw [kset]; exact hq) (by rw [kset]; exact hs) hAB hT
    (by rw [kset]; exact hsl) k2 hm2 d1
  obtain ⟨-, f1⟩ := strokeTo_without_dab L hb hq hs hT hsl hr hm h0 rfl (by
    simp only [add_sub_cancel_left, sub_self]
    rw [hy _ (by linarith), two]; exact hsmall) a1
  obtain ⟨g0, g1⟩ := strokeTo_without_dab L hb hq hs hT hsl hr hm1 h1 rfl (by
    simp only [add_sub_cancel_left, sub_self]
    rw [hy _ hD.le]; linarith) c1
  simp only [add_sub_cancel_left, sub_self] at f1 g0 g1 x1 x2 y2 x3
  rw [hy _ hD.le] at g0 g1
  rw [hy _ (by linarith), two] at f1
  have mv : b.st.x + 2 * D - c.2.1.st.x = D ∧ b.st.y - c.2.1.st.y = 0 := by rw [x2, y2]; constructor <;> ring
  obtain ⟨-, j1⟩ := strokeTo_without_dab L (b := c.2.1) (by rw [kset]; exact k1) (by rw [kset]; exact hq) (by rw [kset]; exact hs) hT
    (by rw [kset]; exact hsl) k2 hm2 h2 rfl (by
    simp only [mv.1, mv.2]
    rw [kset, hy _ hD.le, g0]; linarith) d1
  simp only [mv.1, mv.2] at j1
  rw [kset, hy _ hD.le] at j1
  rw [← Except.ok.inj a2, ← Except.ok.inj d2]
  refine ⟨by rw [x1, x3], fun q => ?_⟩
  have F := f1 1 0
  have J := j1 1 0
  rw [g1 1 0] at J
  have same : behind 1 0 a.2.1 = behind 1 0 d.2.1 := by
    unfold behind
    simp only at q
    rw [q, x1, x3]
    ring
  rw [F, J] at same
  obtain ⟨E, hE⟩ : ∃ E, E = e.exp (-(D / dabSpacing e b.settings (A + B)) / T) := ⟨_, rfl⟩
  have E2 : e.exp (-(D / dabSpacing e b.settings (A + B) + D / dabSpacing e b.settings (A + B)) / T) = E * E := by
    rw [hE, ← he]; congr 1; ring
  rw [E2, ← hE] at same
  have E0 : 0 < E := by rw [hE]; exact L.exp_pos _
  have E1 : E < 1 := by
    have i1 := exp_inv_of L he (D / dabSpacing e b.settings (A + B) / T)
    have i2 := ht (D / dabSpacing e b.settings (A + B) / T)
    have i3 : 0 < D / dabSpacing e b.settings (A + B) / T := div_pos half T0
    rw [← neg_div, ← hE] at i1
    by_contra c
    have := mul_le_mul_of_nonneg_left (not_lt.mp c) (L.exp_pos (D / dabSpacing e b.settings (A + B) / T)).le
    linarith
  have : D * (E * (1 - E)) = 0 := by linear_combination -same
  have pos : 0 < D * (E * (1 - E)) := mul_pos hD (mul_pos E0 (by linarith))
  exact pos.ne' this

end
namespace Demo

theorem realEnv_tangent {R σ : Type} (next gauss : R → ℝ × R) (draw : σ → Dab.Args ℝ → Bool × σ)
    (getColor : σ → Int → Int → ℝ → ℝ → Color.Rgba ℝ × σ) : AboveTangent (realEnv next gauss draw getColor) := fun t => by
  have := Real.add_one_le_exp t
  show 1 + t ≤ Real.exp t
  linarith

/-- 2 dabs for each basic radius, slow tracking of 10 dabs. -/
noncomputable def draggedValues : Nat → ℝ := fun i => if i = sDabsPerBasicRadius then 2 else if i = sSlowTrackingPerDab then 10 else 0

/-- A brush of the radius 1 with these settings, which has moved before. -/
noncomputable def dragged : Brush ℝ Unit :=
  { plainBrush draggedValues with
    st := { State.cleared with dabsPerBasicRadius := 2 }
    resetRequested := false }

theorem dragged_value (id : Nat) (i : Nat → ℝ) : calculate (dragged.settings id) i = draggedValues id := plainBrush_value draggedValues id i

theorem dragged_rates : Midst dragged.settings dragged ∧ Rates dragged.settings 0 2 0 := by
  refine ⟨⟨⟨⟨le_refl (0 : ℝ), zero_lt_one⟩, rfl, ?_, le_refl (0 : ℝ)⟩, rfl, rfl⟩,
    ⟨fun i => dragged_value _ i, fun i => dragged_value _ i, fun i => dragged_value _ i, .inl rfl, fun i => ?_, fun i => ?_, le_rfl,
      zero_le_two, le_rfl⟩⟩
  · show (0 : ℝ) ≤ _; norm_num
  · exact le_of_eq_of_le (dragged_value sEllipticalDabRatio i) zero_le_one
  · rintro ⟨-, q | q⟩
    · exact q (dragged_value sSmudge i)
    · exact absurd (show isConstant (dragged.settings sSmudge) = true from rfl) (by rw [q]; decide)

theorem dragged_place : DrawsAtPlace dragged.settings :=
  ⟨fun i => dragged_value _ i, fun i => dragged_value _ i,
    ⟨fun i => dragged_value _ i, fun i => dragged_value _ i, fun i => dragged_value _ i, fun i => dragged_value _ i, fun i => dragged_value _ i,
     fun i => (dragged_value _ i).le, fun i => (dragged_value _ i).le, fun i => (dragged_value _ i).le⟩, fun i => (dragged_value _ i).le⟩

theorem dragged_spacing {σ : Type} (next gauss : Unit → ℝ × Unit) (draw : σ → Dab.Args ℝ → Bool × σ)
    (getColor : σ → Int → Int → ℝ → ℝ → Color.Rgba ℝ × σ) : dabSpacing (realEnv next gauss draw getColor) dragged.settings (0 + 2) = 1 / 2 := by
  show max (1 / 5) (min 1000 (Real.exp 0)) / (0 + 2) = 1 / 2
  rw [Real.exp_zero]
  norm_num

/-- 60 to the right and 40 on, then 30 up: all dabs are within 5 of that way. -/
example {σ : Type} (next gauss : Unit → ℝ × Unit) (draw : σ → Dab.Args ℝ → Bool × σ)
    (getColor : σ → Int → Int → ℝ → ℝ → Color.Rgba ℝ × σ) (hn : ∀ r, 0 ≤ (next r).1 ∧ (next r).1 < 1) {fuel : Nat} (surf : σ)
    {r : Brush ℝ Unit × (σ × List (Dab.Args ℝ))}
    (hr : strokes (recordDabs (realEnv next gauss draw getColor)) fuel dragged (surf, [])
      [⟨.fin 60, .fin 0, 1, .fin 0, .fin 0, 1 / 10, 1, 0, 0, false⟩, ⟨.fin 100, .fin 0, 1, .fin 0, .fin 0, 3, 1, 0, 0, false⟩,
       ⟨.fin 100, .fin 30, 1, .fin 0, .fin 0, 1 / 10, 1, 0, 0, false⟩] = .ok r) :
    ∀ a ∈ r.2.2, NearPath (realEnv next gauss draw getColor) 5 0 0 [(60, 0), (100, 0), (100, 30)] a.x a.y := by
  obtain ⟨h1, h2⟩ := dragged_rates
  have k := (dabs_trail_behind (realEnv_laws next gauss draw getColor hn) (realEnv_exp next gauss draw getColor)
    (realEnv_tangent next gauss draw getColor) (T := 10) (Ps := [(60, 0), (100, 0), (100, 30)])
    (.cons ⟨⟨rfl, rfl⟩, ⟨by norm_num, by norm_num, by norm_num, by norm_num⟩, by norm_num, by norm_num⟩
      (.cons ⟨⟨rfl, rfl⟩, ⟨by norm_num, by norm_num, by norm_num, by norm_num⟩, by norm_num, by norm_num⟩
        (.cons ⟨⟨rfl, rfl⟩, ⟨by norm_num, by norm_num, by norm_num, by norm_num⟩, by norm_num, by norm_num⟩ .nil)))
    (by norm_num) (by norm_num) h1 (by show (0 : ℝ) ≤ _; norm_num) h2 (fun i => dragged_value _ i) ⟨rfl, rfl, rfl, .inl rfl, zero_le_one⟩ hr).2
  rw [dragged_spacing] at k
  obtain ⟨new, k1, k2⟩ := k (fun u v _ => by
    show u * ((0 : ℝ) - 0) + v * (0 - 0) ≤ _
    norm_num) dragged_place
  rw [k1, List.nil_append]
  intro a ha
  have := k2 a ha
  rw [show (10 : ℝ) * (1 / 2) = 5 by norm_num] at this
  exact this

/-- 100 to the right: the dabs are between 4.4 and 5 behind the pen, 9 to 10 dabs. -/
example {σ : Type} (next gauss : Unit → ℝ × Unit) (draw : σ → Dab.Args ℝ → Bool × σ)
    (getColor : σ → Int → Int → ℝ → ℝ → Color.Rgba ℝ × σ) (hn : ∀ r, 0 ≤ (next r).1 ∧ (next r).1 < 1) {fuel : Nat} (surf : σ)
    {r : Brush ℝ Unit × (σ × List (Dab.Args ℝ))}
    (hr : strokes (recordDabs (realEnv next gauss draw getColor)) fuel dragged (surf, [])
      [⟨.fin 60, .fin 0, 1, .fin 0, .fin 0, 1 / 10, 1, 0, 0, false⟩, ⟨.fin 100, .fin 0, 1, .fin 0, .fin 0, 3, 1, 0, 0, false⟩] = .ok r) :
    44 / 10 ≤ behind 1 0 r.1 := by
  obtain ⟨h1, h2⟩ := dragged_rates
  have k := dabs_get_behind (realEnv_laws next gauss draw getColor hn) (realEnv_exp next gauss draw getColor)
    (realEnv_tangent next gauss draw getColor) (T := 10) (u := 1) (v := 0) (by norm_num) (Ps := [(60, 0), (100, 0)])
    (.cons ⟨⟨rfl, rfl⟩, ⟨by norm_num, by norm_num, by norm_num, by norm_num⟩, by norm_num, by norm_num⟩
      (.cons ⟨⟨rfl, rfl⟩, ⟨by norm_num, by norm_num, by norm_num, by norm_num⟩, by norm_num, by norm_num⟩ .nil))
    (by norm_num) (by norm_num) (b := dragged) ⟨⟨60, by norm_num, by show (60 : ℝ) = 0 + 60 * 1; norm_num, by show (0 : ℝ) = 0 + 60 * 0; norm_num⟩,
      ⟨40, by norm_num, by norm_num, by norm_num⟩, trivial⟩ h1
    (by show (0 : ℝ) ≤ _; norm_num) h2 (fun i => dragged_value _ i) ⟨rfl, rfl, rfl, .inl rfl, zero_le_one⟩ hr
  rw [dragged_spacing] at k
  have w : wayLength (realEnv next gauss draw getColor) dragged.st.x dragged.st.y [(60, 0), (100, 0)] = 100 := by
    show Real.sqrt ((60 - 0) * (60 - 0) + (0 - 0) * (0 - 0)) + (Real.sqrt ((100 - 60) * (100 - 60) + (0 - 0) * (0 - 0)) + 0) = 100
    rw [show (60 - 0) * (60 - 0) + (0 - 0) * (0 - 0) = (60 : ℝ) ^ 2 by norm_num,
      show (100 - 60) * (100 - 60) + (0 - 0) * (0 - 0) = (40 : ℝ) ^ 2 by norm_num, Real.sqrt_sq (by norm_num), Real.sqrt_sq (by norm_num)]
    norm_num
  have b0 : behind 1 0 dragged = (0 : ℝ) := by
    show (1 : ℝ) * (0 - 0) + 0 * (0 - 0) = 0
    norm_num
  rw [w, b0] at k
  have ex : Real.exp (-(100 / (1 / 2)) / 10) ≤ 1 / 45 := by
    have h3 : (45 : ℝ) ≤ Real.exp 20 := by
      have q : Real.exp 20 = Real.exp 10 * Real.exp 10 := by rw [← Real.exp_add]; norm_num
      have q2 := Real.add_one_le_exp (10 : ℝ)
      rw [q]
      nlinarith
    rw [show -(100 / (1 / 2)) / 10 = -(20 : ℝ) by norm_num, Real.exp_neg, one_div]
    exact inv_anti₀ (by norm_num) h3
  change (10 - 1) * (1 / 2) - ((10 - 1) * (1 / 2) - 0) * Real.exp (-(100 / (1 / 2)) / 10) ≤ behind 1 0 r.1 at k
  linarith

/-- A brush of exact numbers. Below: one event and two for the same movement, with other functions. -/
def draggedExact : Brush ℚ Nat := { set brush sSlowTrackingPerDab 10 with resetRequested := false }

example : look (fun r => (r.1.st.x, r.1.st.actualX)) (strokes env 100 draggedExact [] [motion 0 0 (1 / 2) (1 / 100), motion 1 0 (1 / 2) (1 / 10)]) =
    some (1, 1 / 16) := by decide +kernel

example : look (fun r => (r.1.st.x, r.1.st.actualX)) (strokes env 100 draggedExact []
    [motion 0 0 (1 / 2) (1 / 100), motion (1 / 2) 0 (1 / 2) (1 / 20), motion 1 0 (1 / 2) (1 / 20)]) = some (1, 46 / 961) := by decide +kernel

end Demo
end Verif.Engine
