import Verif.Props.C63_Where

/-!
# C63 for brushes that scatter: paint appears near to where the pen was

Tracking noise and random offsets are products of a setting, the base radius and a random number with a bounded range. So the
dabs stay within a fixed distance of the places where the pen was.
-/

namespace Verif.Engine
open Verif.Mask Verif.Color Verif.Spectral Verif.Map

section
variable {K R σ : Type} [Field K] [LinearOrder K] [IsStrictOrderedRing K] [FloorRing K]

/-! ### Specification -/

/-- The brush scatters by no more than this: tracking noise moves the pen by at most `N` and the random offset moves a dab by at
most `B`, in each direction. No offset by speed. -/
structure Scatter (e : Env K R σ) (s : Load.Brush K) (N B : K) : Prop where
  room : 0 ≤ N ∧ 0 ≤ B
  noise : (s sTrackingNoise).base = 0 ∨
    ∀ r, |e.exp (s sRadiusLogarithmic).base * (s sTrackingNoise).base * (e.gauss r).1| ≤ N
  speed : ∀ i, calculate (s sOffsetBySpeed) i = 0
  random : ∀ i, calculate (s sOffsetByRandom) i ≤ 0 ∨
    ∀ r, |(e.gauss r).1 * calculate (s sOffsetByRandom) i * e.exp (s sRadiusLogarithmic).base| ≤ B

/-- Within a distance of `N` in each direction of a point of the region. -/
def Widened (C : K → K → Prop) (N : K) (x y : K) : Prop := ∃ px py, C px py ∧ |x - px| ≤ N ∧ |y - py| ≤ N

/-- The centre of the dab is near to the region: within the random offset, and 3240 pixels for the directional one. -/
def DabAround (C : K → K → Prop) (s : Load.Brush K) (B : K) (x y : K) : Prop :=
  ∃ px py, C px py ∧ |x - px| ≤ 3240 + B ∧ |y - py| ≤ 3240 + B ∧ (NoOffset s → |x - px| ≤ B ∧ |y - py| ≤ B)

/-! ### Proof -/

omit [FloorRing K] in
theorem NoScatter.scatter {e : Env K R σ} {s : Load.Brush K} (h : NoScatter s) : Scatter e s 0 0 :=
  ⟨⟨le_refl _, le_refl _⟩, .inl h.noise, h.speed, fun i => .inl (h.random i).le⟩

omit [FloorRing K] in
/-- With random numbers up to `G` it is enough to look at the settings. -/
theorem scatter_of_bound {e : Env K R σ} {s : Load.Brush K} {G N B : K} (hg : ∀ r, |(e.gauss r).1| ≤ G) (hN : 0 ≤ N) (hB : 0 ≤ B)
    (hn : |e.exp (s sRadiusLogarithmic).base * (s sTrackingNoise).base| * G ≤ N) (hs : ∀ i, calculate (s sOffsetBySpeed) i = 0)
    (hr : ∀ i, |calculate (s sOffsetByRandom) i * e.exp (s sRadiusLogarithmic).base| * G ≤ B) : Scatter e s N B :=
  ⟨⟨hN, hB⟩, .inr fun r => by
      rw [abs_mul]; exact (mul_le_mul_of_nonneg_left (hg r) (abs_nonneg _)).trans hn,
    hs, fun i => .inr fun r => by
      rw [mul_assoc, mul_comm, abs_mul]; exact (mul_le_mul_of_nonneg_left (hg r) (abs_nonneg _)).trans (hr i)⟩

omit [FloorRing K] in
theorem widened_self {C : K → K → Prop} {N x y : K} (hN : 0 ≤ N) (h : C x y) : Widened C N x y :=
  ⟨x, y, h, by simpa using hN, by simpa using hN⟩

omit [FloorRing K] in
theorem widened_convex {C : K → K → Prop} (hC : Convex C) (N : K) : Convex (Widened C N) := by
  rintro x y x' y' t ⟨px, py, h1, h2, h3⟩ ⟨qx, qy, h4, h5, h6⟩ t0 t1
  have key : ∀ {u p v q : K}, |u - p| ≤ N → |v - q| ≤ N → |u + (v - u) * t - (p + (q - p) * t)| ≤ N := by
    intro u p v q hu hv
    obtain ⟨u1, u2⟩ := abs_le.mp hu
    obtain ⟨v1, v2⟩ := abs_le.mp hv
    rw [show u + (v - u) * t - (p + (q - p) * t) = (u - p) * (1 - t) + (v - q) * t by ring, abs_le]
    have s0 : 0 ≤ 1 - t := by linarith
    constructor
    · have a := mul_le_mul_of_nonneg_right u1 s0
      have b := mul_le_mul_of_nonneg_right v1 t0
      linarith
    · have a := mul_le_mul_of_nonneg_right u2 s0
      have b := mul_le_mul_of_nonneg_right v2 t0
      linarith
  exact ⟨_, _, hC _ _ _ _ _ h1 h4 t0 t1, key h2 h5, key h3 h6⟩

theorem cursor_around {C : K → K → Prop} (hC : Convex C) {e : Env K R σ} (he : Decays e) {b : Brush K R} {N B : K}
    (hs : Scatter e b.settings N B) (hb : Widened C N b.st.x b.st.y) {x y dt : K} (hx : C x y) (hdt : 0 ≤ dt) :
    Widened C N (cursor e b x y dt).1 (cursor e b x y dt).2.1 := by
  have k := expDecay_range he (T := b.baseval sSlowTracking) (t := 100 * dt) (by positivity)
  unfold cursor
  dsimp only
  by_cases hc : b.baseval sTrackingNoise ≠ 0 ∧ e.exp (b.baseval sRadiusLogarithmic) * b.baseval sTrackingNoise > 1 / 1000
  · rw [if_pos hc]
    have hn := hs.noise.resolve_left hc.1
    refine widened_convex hC N _ _ _ _ _ hb ?_ k.1 k.2
    refine ⟨x, y, hx, ?_, ?_⟩
    · rw [add_sub_cancel_left]; exact hn _
    · rw [add_sub_cancel_left]; exact hn _
  · rw [if_neg hc]
    exact widened_convex hC N _ _ _ _ _ hb (widened_self hs.room.1 hx) k.1 k.2

theorem dabPosition_around {C : K → K → Prop} {e : Env K R σ} {b : Brush K R} {i : Nat → K} {N B : K}
    (hv : b.vals = fun id => calculate (b.settings id) i) (hs : Scatter e b.settings N B) (hb : BrushIn C b)
    {pos : K × K × Brush K R} (h : dabPosition e b = .ok pos) : DabAround C b.settings B pos.1 pos.2.1 := by
  have h1 : b.vals sOffsetBySpeed = 0 := by rw [hv]; exact hs.speed i
  have h2 : b.vals sOffsetByRandom = calculate (b.settings sOffsetByRandom) i := by rw [hv]
  have B0 := hs.room.2
  have rnd : ∀ r, |(e.gauss r).1 * maxC 0 (b.vals sOffsetByRandom) * e.exp (b.baseval sRadiusLogarithmic)| ≤ B := by
    intro r
    rw [h2]
    unfold maxC
    by_cases q : (0 : K) > calculate (b.settings sOffsetByRandom) i
    · rw [if_pos q]; simpa using B0
    · rw [if_neg q]
      rcases hs.random i with g | g
      · rw [le_antisymm g (not_lt.mp q)]; simpa using B0
      · exact g r
  have cl : ∀ v : K, |clampK v (-3240) 3240| ≤ 3240 := fun v => clampK_abs (by norm_num)
  unfold dabPosition at h
  dsimp only at h
  rw [h1] at h
  simp only [ne_eq, not_true, false_and, if_false] at h
  have ox : |(directionalOffsets e b (e.exp (b.baseval sRadiusLogarithmic)) b.st.flip).1| ≤ 3240 := cl _
  have oy : |(directionalOffsets e b (e.exp (b.baseval sRadiusLogarithmic)) b.st.flip).2| ≤ 3240 := cl _
  have oz : NoOffset b.settings → directionalOffsets e b (e.exp (b.baseval sRadiusLogarithmic)) b.st.flip = (0, 0) :=
    fun hn => directionalOffsets_zero hv hn _ _
  by_cases q : b.vals sOffsetByRandom = 0
  · rw [if_neg (not_not.mpr q)] at h
    rw [← Except.ok.inj h]
    refine ⟨_, _, hb.slow, ?_, ?_, fun hn => ?_⟩
    · dsimp only; rw [add_sub_cancel_left]; linarith
    · dsimp only; rw [add_sub_cancel_left]; linarith
    · dsimp only; rw [oz hn]; simpa using B0
  · rw [if_pos q] at h
    rw [← Except.ok.inj h]
    refine ⟨_, _, hb.slow, ?_, ?_, fun hn => ?_⟩
    · dsimp only
      rw [add_assoc, add_sub_cancel_left]
      exact (abs_add_le _ _).trans (add_le_add ox (rnd _))
    · dsimp only
      rw [add_assoc, add_sub_cancel_left]
      exact (abs_add_le _ _).trans (add_le_add oy (rnd _))
    · dsimp only
      rw [oz hn]
      dsimp only
      rw [add_assoc, add_sub_cancel_left, add_assoc, add_sub_cancel_left, zero_add, zero_add]
      exact ⟨rnd _, rnd _⟩

/-- The brush stays near to the region, whatever it paints on. -/
theorem around_invariant {C : K → K → Prop} (hC : Convex C) (e : Env K R σ) (he : Decays e) (N B : K) :
    Invariant e (fun ev => C ev.x ev.y) (Widened C N) (fun b _ => Scatter e b.settings N B ∧ BrushIn (Widened C N) b)
      (fun b _ => (Scatter e b.settings N B ∧ BrushIn (Widened C N) b) ∧ ∃ i, b.vals = fun id => calculate (b.settings id) i) where
  skip b s ev _ h := by rw [skipStage_eq]; exact ⟨h.1, ⟨h.2.1, h.2.2⟩⟩
  pull b s ev _ _ h := by rw [cursor_eq, skipStage_eq]; exact ⟨h.1, ⟨h.2.1, h.2.2⟩⟩
  target b s ev hev hdt h := by
    refine cursor_around hC he (B := B) ?_ ?_ hev hdt
    · rw [skipStage_eq]; exact h.1
    · rw [skipStage_eq]; exact h.2.at'
  start b s ev x y b' _ hx h _ hs := by
    obtain ⟨bk, -, e1⟩ := startOver_eq hs
    rw [e1]
    exact ⟨h.1, ⟨hx, hx⟩⟩
  count b s x y dt h := by rw [countDabs_st]; exact ⟨h.1, ⟨h.2.1, h.2.2⟩⟩
  step b s ev x y d f t b' _ hx hd f0 f1 _ h hu := by
    have k := update_in (widened_convex hC N) he h.2 hx hd f0 f1 hu
    refine ⟨⟨?_, k⟩, ?_⟩
    · rw [update_eq hu]; exact h.1
    · rw [update_eq hu]; exact ⟨_, rfl⟩
  draw b s lin p h hp := by
    obtain ⟨⟨hs, hb⟩, i, hv⟩ := h
    have fr := drawDab_frame hp
    have est : p.2.1.settings = b.settings := fr.settings
    have ex : p.2.1.st.x = b.st.x := by rw [fr]
    have ey : p.2.1.st.y = b.st.y := by rw [fr]
    have eax : p.2.1.st.actualX = b.st.actualX := by rw [fr]
    have eay : p.2.1.st.actualY = b.st.actualY := by rw [fr]
    refine ⟨est ▸ hs, ⟨?_, ?_⟩⟩
    · show Widened C N p.2.1.st.x p.2.1.st.y
      rw [ex, ey]; exact hb.at'
    · show Widened C N p.2.1.st.actualX p.2.1.st.actualY
      rw [eax, eay]; exact hb.slow
  finish b s n total idle h := ⟨h.1.1, ⟨h.1.2.1, h.1.2.2⟩⟩

/-- What snapping does to a centre, for a setting of at most 1. -/
theorem snap_moves {b : Brush K R} (h : b.vals sSnapToPixel ≤ 1) (x y r : K) :
    |(snap b x y r).1 - x| ≤ 1 / 2 ∧ |(snap b x y r).2.1 - y| ≤ 1 / 2 := by
  have key : ∀ {u s : K}, 0 ≤ s → s ≤ 1 → |u + ((⌊u⌋ : K) + 1 / 2 - u) * s - u| ≤ 1 / 2 := by
    intro u s s0 s1
    rw [add_sub_cancel_left, abs_mul, abs_of_nonneg s0]
    have a1 := Int.floor_le u
    have a2 := Int.lt_floor_add_one u
    have : |(⌊u⌋ : K) + 1 / 2 - u| ≤ 1 / 2 := by rw [abs_le]; constructor <;> linarith
    calc |(⌊u⌋ : K) + 1 / 2 - u| * s ≤ 1 / 2 * 1 := mul_le_mul this s1 s0 (by norm_num)
      _ = 1 / 2 := mul_one _
  unfold snap
  dsimp only
  by_cases q : b.vals sSnapToPixel > 0
  · rw [if_pos q]
    exact ⟨key q.le h, key q.le h⟩
  · rw [if_neg q]
    simp

/-- What is known of a list of dabs. -/
def DabsAround (C : K → K → Prop) (s : Load.Brush K) (B : K) (l : List (Dab.Args K)) : Prop :=
  (∀ i, calculate (s sSnapToPixel) i ≤ 1) ∧ ∀ a ∈ l, ∃ x y, DabAround C s B x y ∧ |a.x - x| ≤ 1 / 2 ∧ |a.y - y| ≤ 1 / 2 ∧
    ((∀ i, calculate (s sSnapToPixel) i ≤ 0) → a.x = x ∧ a.y = y)

theorem around_where {C : K → K → Prop} (hC : Convex C) (e : Env K R σ) (he : Decays e) (N B : K) :
    Invariant (recordDabs e) (fun ev => C ev.x ev.y) (Widened C N)
      (fun b s => (Scatter (recordDabs e) b.settings N B ∧ BrushIn (Widened C N) b) ∧ DabsAround (Widened C N) b.settings B s.2)
      (fun b s => ((Scatter (recordDabs e) b.settings N B ∧ BrushIn (Widened C N) b) ∧
        ∃ i, b.vals = fun id => calculate (b.settings id) i) ∧ DabsAround (Widened C N) b.settings B s.2) :=
  have H := around_invariant hC (recordDabs e) he N B
  { skip := fun b s ev hv h => ⟨H.skip b s ev hv h.1, by rw [skipStage_eq]; exact h.2⟩
    pull := fun b s ev hv ht h => ⟨H.pull b s ev hv ht h.1, by rw [cursor_eq, skipStage_eq]; exact h.2⟩
    target := fun b s ev hv ht h => H.target b s ev hv ht h.1
    start := fun b s ev x y b' hv hx h hq hs => ⟨H.start b s ev x y b' hv hx h.1
        (hq.imp_right fun ⟨b0, q, q2⟩ => ⟨b0, q.1, q2⟩) hs, by
      obtain ⟨bk, -, e1⟩ := startOver_eq hs
      rw [e1]
      exact h.2⟩
    count := fun b s x y dt h => ⟨H.count b s x y dt h.1, by rw [countDabs_st]; exact h.2⟩
    step := fun b s ev x y d f t b' hv hx hd f0 f1 ht h hu => ⟨H.step b s ev x y d f t b' hv hx hd f0 f1 ht h.1 hu, by
      rw [update_eq hu]; exact h.2⟩
    draw := fun b s lin p h hp => ⟨H.draw b s lin p h.1 hp, by
      obtain ⟨⟨⟨hs, hb⟩, i, hv⟩, hsn, hl⟩ := h
      have fr := drawDab_frame hp
      have est : p.2.1.settings = b.settings := fr.settings
      show DabsAround (Widened C N) p.2.1.settings B p.2.2.2
      rw [est]
      refine ⟨hsn, ?_⟩
      rcases drawDab_oneDab hp with h | ⟨o, pos, sm, col, -, hpos, -, -, -, fr2, -, h⟩
      · rw [h]; exact hl
      · rw [h]
        intro a ha
        rcases List.mem_append.mp ha with q | q
        · exact hl a q
        · rw [List.mem_singleton.mp q]
          have hv2 : col.2.2.vals sSnapToPixel = calculate (b.settings sSnapToPixel) i := by
            rw [fr2.vals]
            show b.vals sSnapToPixel = _
            rw [hv]
          have k : DabAround (Widened C N) b.settings B pos.1 pos.2.1 :=
            dabPosition_around (b := { b with st := { b.st with flip := b.st.flip * -1 } }) (i := i) hv hs ⟨hb.1, hb.2⟩ hpos
          obtain ⟨m1, m2⟩ := snap_moves (b := col.2.2) (by rw [hv2]; exact hsn i) pos.1 pos.2.1
            (antiAlias col.2.2 (clampK (col.2.2.vals sHardness) 0 1) (dabRadius (recordDabs e) pos.2.2 o).1).2
          refine ⟨pos.1, pos.2.1, k, m1, m2, fun hz => ?_⟩
          have sn : ∀ r, snap col.2.2 pos.1 pos.2.1 r = (pos.1, pos.2.1, r) := by
            intro r
            unfold snap
            dsimp only
            rw [if_neg (not_lt.mpr (by rw [hv2]; exact hz i))]
          unfold dabArgs
          simp only
          rw [sn]
          exact ⟨rfl, rfl⟩⟩
    finish := fun b s n total idle h => ⟨H.finish b s n total idle h.1, h.2⟩ }

/-! ### C63 -/

/-- **C63** for brushes that scatter. Every dab has its centre within the scattering (and half a pixel, if it snaps to pixels) of a
convex region that holds the pen at all events and the brush at the start; 3240 pixels further off if the brush offsets its
dabs. -/
theorem scattered_dabs_near_the_pen {e : Env K R σ} (he : Decays e) {C : K → K → Prop} (hC : Convex C) {fuel : Nat}
    (ms : List (Motion K)) (hm : ∀ m ∈ ms, ∀ x y, Place m x y → C x y) {b : Brush K R} (hb : Underway b) {N B : K}
    (hs : Scatter e b.settings N B) (hn : ∀ i, calculate (b.settings sSnapToPixel) i ≤ 1) (hb0 : C b.st.x b.st.y)
    (hb1 : C b.st.actualX b.st.actualY) (surf : σ) {r : Brush K R × (σ × List (Dab.Args K))}
    (h : strokes (recordDabs e) fuel b (surf, []) ms = .ok r) :
    Widened C N r.1.st.x r.1.st.y ∧ ∀ a ∈ r.2.2, ∃ px py, C px py ∧ |a.x - px| ≤ 3240 + N + B + 1 / 2 ∧
      |a.y - py| ≤ 3240 + N + B + 1 / 2 ∧ (NoOffset b.settings → |a.x - px| ≤ N + B + 1 / 2 ∧ |a.y - py| ≤ N + B + 1 / 2) ∧
      (NoOffset b.settings → (∀ i, calculate (b.settings sSnapToPixel) i ≤ 0) → |a.x - px| ≤ N + B ∧ |a.y - py| ≤ N + B) := by
  have H := (around_where hC e he N B).events (E' := fun ev => C ev.x ev.y ∧ |ev.x| < 10 ^ 8 ∧ |ev.y| < 10 ^ 8)
    (fun _ h => h.1)
  have k := (session_keeps H (fun m => ∀ x y, Place m x y → C x y)
    (fun m ev hm hev => ⟨hm _ _ (sanitise_place hev), sanitise_bound hev⟩)
    (fun ev i he hi => by
      have q := workaround_place he.2.1 he.2.2 hi
      rw [q.1, q.2]; exact he)
    (fun ev he => he) ms hm hb ⟨⟨⟨hs.room, hs.noise, hs.speed, hs.random⟩, ⟨widened_self hs.room.1 hb0, widened_self hs.room.1 hb1⟩⟩, hn, by simp⟩ h).1
  have k2 := k.2.2
  rw [settings_kept _ ms hb _ h] at k2
  refine ⟨k.1.2.at', fun a ha => ?_⟩
  obtain ⟨x, y, ⟨qx, qy, ⟨px, py, w1, w2, w3⟩, h2, h3, h4⟩, m1, m2, m3⟩ := k2 a ha
  have tri : ∀ {u v p q s t : K}, |u - v| ≤ s → |v - q| ≤ t → |q - p| ≤ N → |u - p| ≤ N + t + s := by
    intro u v p q s t h1 h2 h3
    rw [show u - p = (u - v) + ((v - q) + (q - p)) by ring]
    exact (abs_add_le _ _).trans (by linarith [abs_add_le (v - q) (q - p)])
  refine ⟨px, py, w1, ?_, ?_, fun hz => ?_, fun hz hz' => ?_⟩
  · have := tri m1 h2 w2; linarith
  · have := tri m2 h3 w3; linarith
  · obtain ⟨z1, z2⟩ := h4 hz
    exact ⟨tri m1 z1 w2, tri m2 z2 w3⟩
  · obtain ⟨z1, z2⟩ := h4 hz
    obtain ⟨s1, s2⟩ := m3 hz'
    have a1 := tri (u := a.x) (s := 0) (by rw [s1, sub_self, abs_zero]) z1 w2
    have a2 := tri (u := a.y) (s := 0) (by rw [s2, sub_self, abs_zero]) z2 w3
    rw [add_zero] at a1 a2
    exact ⟨a1, a2⟩

end

/-! ### Example -/

/-- A spray: random offset, tracking noise, and it snaps to pixels. -/
def demoSpray : Brush ℚ Nat :=
  Demo.set (Demo.set (Demo.set Demo.brush sOffsetByRandom 2) sTrackingNoise (1 / 4)) sSnapToPixel 1

theorem demoSpray_value (id : Nat) (i : Nat → ℚ) : calculate (demoSpray.settings id) i = (demoSpray.settings id).base := by
  show calculate (if id = sSnapToPixel then Demo.constant 1 else if id = sTrackingNoise then Demo.constant (1 / 4) else
    if id = sOffsetByRandom then Demo.constant 2 else Demo.settings id) i = (if id = sSnapToPixel then Demo.constant 1 else
    if id = sTrackingNoise then Demo.constant (1 / 4) else if id = sOffsetByRandom then Demo.constant 2 else Demo.settings id).base
  split_ifs <;> exact demo_constant _ _

example : Scatter Demo.env demoSpray.settings 1 6 := by
  refine scatter_of_bound (G := 1) (fun r => ?_) (by norm_num) (by norm_num) ?_ ?_ ?_
  · show |(1 : ℚ)| ≤ 1
    norm_num
  · decide +kernel
  · intro i; rw [demoSpray_value]; decide +kernel
  · intro i; rw [demoSpray_value]; decide +kernel

example : ∀ i, calculate (demoSpray.settings sSnapToPixel) i ≤ 1 := by
  intro i; rw [demoSpray_value]; decide +kernel

/-- Where the dabs of a stroke along the axis are. -/
example : Demo.look (fun r => r.2.2.map fun a => (a.x, a.y)) (strokes (recordDabs Demo.env) 100 demoSpray ([], [])
    [Demo.motion 0 0 (1 / 2) (1 / 10), Demo.motion 1 0 (1 / 2) (1 / 10), Demo.motion 4 0 (1 / 2) (1 / 10)]) =
      some [(19 / 2, 13 / 2), (21 / 2, 13 / 2)] := by
  decide +kernel

end Verif.Engine
