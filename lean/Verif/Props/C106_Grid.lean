import Verif.Props.C105_StrokeWay

/-!
# C106: the grid map inputs read the place of the brush on the grid
-/

namespace Verif.Engine
open Verif.Mask Verif.Color Verif.Spectral Verif.Map

section
variable {K R σ : Type} [Field K] [LinearOrder K] [IsStrictOrderedRing K] [FloorRing K]

/-! ## Specification -/

/-- `v` is the coordinate `x` on a grid with cells of the size `S`, from 0 to 256. -/
structure OnGrid (S v x : K) : Prop where
  low : 0 ≤ v
  high : v ≤ 256
  place : Congruent 256 v (256 * (x / S))

/-- The scales of the grid do not depend on the inputs, and the position of the brush is not filtered. -/
structure GridSettings (s : Load.Brush K) (G ax ay : K) : Prop where
  scale : ∀ i, calculate (s sGridmapScale) i = G
  scaleX : ∀ i, calculate (s sGridmapScaleX) i = ax
  scaleY : ∀ i, calculate (s sGridmapScaleY) i = ay
  positiveX : 0 < ax
  positiveY : 0 < ay
  slow : (s sSlowTracking).base ≤ 1 / 1000
  slowPerDab : ∀ i, calculate (s sSlowTrackingPerDab) i ≤ 1 / 1000

/-- The size of a cell along an axis with the scale `a`. -/
def cell (e : Env K R σ) (G a : K) : K := e.exp G * 256 / a

/-- A dab at the part `p.2` of the way from `A` to `B` that reads the place on the grid of the part `p.1`. -/
def DabOnGrid (e : Env K R σ) (s : Load.Brush K) (G ax ay : K) (A B : Reading K) (zoom rot : K) (p : K × K) (a : Dab.Args K) : Prop :=
  ∃ i, PenInputs e s A B zoom rot p.2 i ∧ OnGrid (cell e G ax) (i iGridmapX) (part p.1 A.x B.x) ∧
    OnGrid (cell e G ay) (i iGridmapY) (part p.1 A.y B.y) ∧ DabShape e s i a ∧
    (OnTheSpot s → a.x = part p.2 A.x B.x ∧ a.y = part p.2 A.y B.y)

/-- The dabs read the grid one after the other, each at a part of the way between the dab before it and itself. -/
def DabsOnGrid (e : Env K R σ) (s : Load.Brush K) (G ax ay : K) (A B : Reading K) (zoom rot : K) (dabs : List (Dab.Args K)) : Prop :=
  ∃ ps : List (K × K), List.Forall₂ (DabOnGrid e s G ax ay A B zoom rot) ps dabs ∧ ps.Pairwise (fun p q => p.2 ≤ q.1) ∧
    ∀ p ∈ ps, 0 ≤ p.1 ∧ p.1 ≤ p.2 ∧ p.2 ≤ 1

/-! ## Proof -/

theorem gridmap_reads {T a : K} (hT : 0 < T) (ha : 0 < a) (x : K) : OnGrid (T / a) (clampK (gridmap T a x) 0 256) x := by
  obtain ⟨h1, h2, n, h3⟩ := modArith_spec |x * a| T hT
  have g0 : 0 ≤ modArith |x * a| T / T * 256 := mul_nonneg (div_nonneg h1 hT.le) (by norm_num)
  have g1 : modArith |x * a| T / T * 256 ≤ 256 := by
    have : modArith |x * a| T / T ≤ 1 := (div_le_one hT).mpr h2.le
    linarith
  have g2 : modArith |x * a| T / T * 256 = 256 * (|x * a| / T) + n * 256 := by
    rw [h3]
    field_simp
  have hT' := hT.ne'
  have ha' := ha.ne'
  unfold gridmap
  dsimp only
  split_ifs with q
  · rw [clampK_id (by linarith) (by linarith)]
    refine ⟨by linarith, by linarith, 1 - n, ?_⟩
    rw [g2, abs_of_nonpos (mul_nonpos_of_nonpos_of_nonneg q.le ha.le)]
    push_cast
    field_simp
    ring
  · rw [clampK_id g0 g1]
    refine ⟨g0, g1, n, ?_⟩
    rw [g2, abs_of_nonneg (mul_nonneg (not_lt.mp q) ha.le)]
    field_simp

/-- The values of the settings, and the position, are up to date. -/
structure UpToDate (G ax ay : K) (b : Brush K R) : Prop where
  scale : b.vals sGridmapScale = G
  scaleX : b.vals sGridmapScaleX = ax
  scaleY : b.vals sGridmapScaleY = ay
  x : b.st.actualX = b.st.x
  y : b.st.actualY = b.st.y

theorem update_upToDate {e : Env K R σ} {s0 : Load.Brush K} {G ax ay : K} (hG : GridSettings s0 G ax ay) {b b' : Brush K R}
    (hs : b.settings = s0) {s : Step K} (h : update e b s = .ok b') : UpToDate G ax ay b' := by
  have hv : ∀ id, b'.vals id = calculate (s0 id) (inputsOf e b (moveStates e b s)).get := by
    intro id
    rw [update_eq h, ← hs]
    rfl
  have ap : ∀ a c : K, approach a c (1 - expDecay e (b'.vals sSlowTrackingPerDab) s.ddab) = c := by
    intro a c
    unfold expDecay
    rw [if_pos (by rw [hv]; exact hG.slowPerDab _)]
    unfold approach
    ring
  refine ⟨by rw [hv]; exact hG.scale _, by rw [hv]; exact hG.scaleX _, by rw [hv]; exact hG.scaleY _, ?_, ?_⟩
  · refine Eq.trans ?_ (ap b.st.actualX b'.st.x)
    rw [update_eq h]; rfl
  · refine Eq.trans ?_ (ap b.st.actualY b'.st.y)
    rw [update_eq h]; rfl

/-- What a step reads. -/
theorem inputs_onGrid {e : Env K R σ} (hexp : ∀ t, 0 < e.exp t) {s0 : Load.Brush K} {G ax ay : K} (hG : GridSettings s0 G ax ay)
    {b : Brush K R} (hb : UpToDate G ax ay b) (s : Step K) :
    OnGrid (cell e G ax) ((inputsOf e b (moveStates e b s)).get iGridmapX) b.st.x ∧
      OnGrid (cell e G ay) ((inputsOf e b (moveStates e b s)).get iGridmapY) b.st.y := by
  have hT : 0 < e.exp G * 256 := mul_pos (hexp G) (by norm_num)
  constructor
  · show OnGrid _ (clampK (gridmap (e.exp (b.vals sGridmapScale) * 256) (b.vals sGridmapScaleX) b.st.actualX) 0 256) _
    rw [hb.scale, hb.scaleX, hb.x]
    exact gridmap_reads hT hG.positiveX _
  · show OnGrid _ (clampK (gridmap (e.exp (b.vals sGridmapScale) * 256) (b.vals sGridmapScaleY) b.st.actualY) 0 256) _
    rw [hb.scale, hb.scaleY, hb.y]
    exact gridmap_reads hT hG.positiveY _

/-- What holds between the dabs. -/
def MidGrid (e : Env K R σ) (s0 : Load.Brush K) (G ax ay : K) (st : State K) (ev : Event K) (X Y : K) (old : List (Dab.Args K))
    (b : Brush K R) (l : List (Dab.Args K)) : Prop :=
  Unaltered s0 b ∧ UpToDate G ax ay b ∧ ∃ t, 0 ≤ t ∧ t ≤ 1 ∧ OnWay st.reading (ev.pulls X Y) t b.st ∧ ∃ new ps, l = old ++ new ∧
    List.Forall₂ (DabOnGrid e s0 G ax ay st.reading (ev.pulls X Y) ev.viewzoom ev.viewrotation) ps new ∧
    ps.Pairwise (fun p q => p.2 ≤ q.1) ∧ ∀ p ∈ ps, 0 ≤ p.1 ∧ p.1 ≤ p.2 ∧ p.2 ≤ t

/-- One turn of the dab loop. -/
theorem dabStep_midGrid {e : Env K R σ} (hexp : ∀ t, 0 < e.exp t) {s0 : Load.Brush K} {G ax ay : K} (hG : GridSettings s0 G ax ay)
    {st : State K} {ev : Event K} {X Y : K} {old : List (Dab.Args K)} (hp : 0 ≤ st.pressure) (hq : 0 ≤ ev.pressure)
    {l l' : Loop K R (σ × List (Dab.Args K))} (hl : LoopRange l) (hi : MidGrid e s0 G ax ay st ev X Y old l.b l.surf.2)
    (hc : l.moved + l.todo ≥ 1) (h : dabStep (recordDabs e) ev X Y l = .ok l') :
    LoopRange l' ∧ MidGrid e s0 G ax ay st ev X Y old l'.b l'.surf.2 := by
  obtain ⟨f0, f1⟩ := fraction_ok hl hc
  obtain ⟨hz, b1, p, b2, hu, hd, h2, e1⟩ := dabStep_eq h
  obtain ⟨hsame, hut, t, t0, t1, hb, new, ps, hnew, hall, hps, hle⟩ := hi
  have tm := hl.time0
  obtain ⟨k1, k2, i, ki, k3, k4, k5, k6, k7⟩ := update_onWay t0 t1 hp hq hsame hb f0 f1 hu
  obtain ⟨n1, n2⟩ := inputs_onGrid (e := recordDabs e) hexp hG hut (stepTo l.b.st ev X Y (if l.moved > 0 then 1 - l.moved else 1)
        ((if l.moved > 0 then 1 - l.moved else 1) / l.todo) l.dtimeLeft)
  have n3 := update_upToDate hG hsame.settings hu
  rw [← ki] at n1 n2
  rw [show l.b.st.x = part t st.x X from hb.x] at n1
  rw [show l.b.st.y = part t st.y Y from hb.y] at n2
  have m0 := hl.moved0
  have m1 := hl.moved1
  clear hu hc ki
  generalize (if l.moved > 0 then 1 - l.moved else 1) / l.todo = f at *
  obtain ⟨u, hu⟩ : ∃ u, u = t + f * (1 - t) := ⟨_, rfl⟩
  rw [← hu] at k2 k3
  have u0 : t ≤ u := by have := mul_nonneg f0 (sub_nonneg.mpr t1); linarith
  have u1 : u ≤ 1 := by rw [hu]; nlinarith
  have fr := drawDab_frame hd
  have est : p.2.1.settings = b1.settings := fr.settings
  rw [e1]
  refine ⟨⟨?_, ?_, countDabs_nonneg _ _ _ _ _, ?_⟩, ?_⟩
  · simp only
    split_ifs
    · exact le_refl _
    · exact m0
  · simp only
    split_ifs
    · exact zero_lt_one
    · exact m1
  · simp only
    have := mul_nonneg (sub_nonneg.mpr f1) tm
    linarith
  · simp only
    rw [countDabs_st, h2]
    refine ⟨⟨est.trans k1.settings, by show (p.2.1.settings _).base = 0; rw [est]; exact k1.still.noise,
      by show p.2.1.skip ≤ _; rw [fr]; exact k1.still.skip, by show p.2.1.resetRequested = _; rw [fr]; exact k1.still.reset⟩, ?_,
      u, t0.trans u0, u1, ?_, ?_⟩
    · exact ⟨by show p.2.1.vals _ = _; rw [fr]; exact n3.scale, by show p.2.1.vals _ = _; rw [fr]; exact n3.scaleX,
        by show p.2.1.vals _ = _; rw [fr]; exact n3.scaleY, by simp only; rw [fr]; exact n3.x, by simp only; rw [fr]; exact n3.y⟩
    · refine k2.of_eq ?_ ?_ ?_ ?_ ?_ ?_ ?_ ?_ <;> (simp only; rw [fr])
    · rcases drawDab_new (e := e) k4 k5 k6 hd with q | ⟨a, q, q1, -⟩
      · exact ⟨new, ps, by rw [q]; exact hnew, hall, hps, fun t' ht' => ⟨(hle t' ht').1, (hle t' ht').2.1, (hle t' ht').2.2.trans u0⟩⟩
      · refine ⟨new ++ [a], ps ++ [(t, u)], by rw [q, hnew, List.append_assoc], ?_, ?_, ?_⟩
        · refine List.rel_append hall (.cons ⟨i, ⟨k3.pressure, k3.declination, k3.declinationX, k3.declinationY, k3.ascension, k3.rotation,
            k3.attack, k3.radius, k3.zoom⟩, n1, n2, by rw [← k1.settings]; exact q1, fun ho => ?_⟩ .nil)
          rcases drawDab_spot (e := e) k4 (by rw [k1.settings]; exact ho) (k7 ho).1 (k7 ho).2 hd with g | ⟨a', g, g1, g2⟩
          · rw [q] at g
            have := congrArg List.length g
            simp at this
          · rw [q] at g
            have ea := List.singleton_inj.mp (List.append_cancel_left g)
            rw [ea, g1, g2]
            exact ⟨k2.x, k2.y⟩
        · refine List.pairwise_append.mpr ⟨hps, List.pairwise_singleton _ _, fun a ha b hb => ?_⟩
          rw [List.mem_singleton.mp hb]
          exact (hle a ha).2.2
        · intro t' ht'
          rcases List.mem_append.mp ht' with g | g
          · exact ⟨(hle t' g).1, (hle t' g).2.1, (hle t' g).2.2.trans u0⟩
          · rw [List.mem_singleton.mp g]; exact ⟨t0, u0, le_refl _⟩

theorem moveTo_onGrid {e : Env K R σ} (hexp : ∀ t, 0 < e.exp t) {s0 : Load.Brush K} {G ax ay : K} (hG : GridSettings s0 G ax ay)
    {fuel : Nat} {b : Brush K R} (hb : Midst s0 b) {ev : Event K} (hq : 0 ≤ ev.pressure) {surf : σ × List (Dab.Args K)} {X Y dt : K}
    (hdt : 0 ≤ dt) {r : Bool × Brush K R × (σ × List (Dab.Args K))} (h : moveTo (recordDabs e) fuel b surf ev X Y dt = .ok r) :
    UpToDate G ax ay r.2.1 ∧ (UpToDate G ax ay b → ∃ new, r.2.2.2 = surf.2 ++ new ∧
      DabsOnGrid e s0 G ax ay b.st.reading (ev.pulls X Y) ev.viewzoom ev.viewrotation new) := by
  have hs := hb.still
  obtain ⟨l, b1, hl, hu', -, h2, h3⟩ := moveTo_eq h
  have st0 := (dabLoop_induct
    (fun l : Loop K R (σ × List (Dab.Args K)) => LoopRange l ∧ MidWay e b.settings b.st ev X Y surf.2 l.b l.surf.2)
    (fun l l' hc hst hi => dabStep_midWay hb.placid.pressure hq hi.1 hi.2 hc hst) _ _ _ hl
    ⟨⟨hb.placid.pending.1, hb.placid.pending.2, countDabs_nonneg _ b X Y dt, hdt⟩, ⟨by simp only; rw [countDabs_st], by
      simp only; rw [countDabs_st]; exact ⟨hs.noise, hs.skip, hs.reset⟩⟩, 0, le_refl _, zero_le_one, by
      simp only; rw [countDabs_st]; exact (onWay_start b.st ev X Y).of_eq rfl rfl rfl rfl rfl rfl rfl rfl,
      [], [], (List.append_nil _).symm, .nil, .nil, by simp⟩).1
  have up := update_upToDate hG (st0.2.1.settings.trans hb.settings) hu'
  rw [h2, h3, splitStroke_eq]
  refine ⟨⟨up.scale, up.scaleX, up.scaleY, up.x, up.y⟩, fun hut => ?_⟩
  have k := (dabLoop_induct
    (fun l : Loop K R (σ × List (Dab.Args K)) => LoopRange l ∧ MidGrid e s0 G ax ay b.st ev X Y surf.2 l.b l.surf.2)
    (fun l l' hc hst hi => dabStep_midGrid hexp hG hb.placid.pressure hq hi.1 hi.2 hc hst) _ _ _ hl
    ⟨⟨hb.placid.pending.1, hb.placid.pending.2, countDabs_nonneg _ b X Y dt, hdt⟩,
      ⟨by simp only; rw [countDabs_st]; exact hb.settings, by
        simp only; rw [countDabs_st]; exact ⟨hs.noise, hs.skip, hs.reset⟩⟩, by
      simp only; rw [countDabs_st]; exact ⟨hut.scale, hut.scaleX, hut.scaleY, hut.x, hut.y⟩, 0, le_refl _, zero_le_one, by
      simp only; rw [countDabs_st]; exact (onWay_start b.st ev X Y).of_eq rfl rfl rfl rfl rfl rfl rfl rfl,
      [], [], (List.append_nil _).symm, .nil, .nil, by simp⟩).1
  obtain ⟨-, -, -, t, t0, t1, -, new, ps, hnew, hall, hps, hle⟩ := k
  exact ⟨new, hnew, ps, hall, hps, fun t' ht' => ⟨(hle t' ht').1, (hle t' ht').2.1, (hle t' ht').2.2.trans t1⟩⟩

theorem strokeEvent_onGrid {e : Env K R σ} (hexp : ∀ t, 0 < e.exp t) {s0 : Load.Brush K} {G ax ay : K} (hG : GridSettings s0 G ax ay)
    {fuel : Nat} {b : Brush K R} (hb : Midst s0 b) {ev : Event K} (hq : 0 ≤ ev.pressure) (h0 : 0 ≤ ev.dtime) (h5 : ev.dtime ≤ 5)
    {surf : σ × List (Dab.Args K)} {r : Bool × Brush K R × (σ × List (Dab.Args K))}
    (h : strokeEvent (recordDabs e) fuel b surf ev = .ok r) :
    UpToDate G ax ay r.2.1 ∧ (UpToDate G ax ay b → ∃ new, r.2.2.2 = surf.2 ++ new ∧
      DabsOnGrid e s0 G ax ay b.st.reading (ev.pulls ev.x ev.y) ev.viewzoom ev.viewrotation new) := by
  have hs := hb.still
  have sk : skipStage (recordDabs e) b ev.x ev.y ev.dtime = (b, ev.dtime, false) := steady_skip hs _ _ _
  have cu := cursor_tracks (e := recordDabs e) (b := b) (T := (b.settings sSlowTracking).base) ⟨rfl, hs.noise, hs.skip⟩ ev.x ev.y ev.dtime
  rcases strokeEvent_cases h with ⟨h1, -⟩ | ⟨-, h1, -⟩ | ⟨-, -, h⟩
  · rw [sk] at h1; cases h1
  · rw [sk, hs.reset] at h1
    rcases h1 with q | q
    · exact absurd q (not_lt.mpr h5)
    · cases q
  · simp only [sk, cu] at h
    rw [followed_at_once _ (by rw [hb.settings]; exact hG.slow), followed_at_once _ (by rw [hb.settings]; exact hG.slow)] at h
    exact moveTo_onGrid hexp hG hb hq h0 h

/-- A call leaves the brush up to date. -/
theorem strokeTo_upToDate {e : Env K R σ} (hexp : ∀ t, 0 < e.exp t) {s0 : Load.Brush K} {G ax ay : K} (hG : GridSettings s0 G ax ay)
    {fuel : Nat} {b : Brush K R} (hb : Midst s0 b) {m : Motion K} (hd : m.dtime ≤ 5) {B : Reading K} (hm : ReportsPen e m B)
    {surf : σ × List (Dab.Args K)} {r : Bool × Brush K R × (σ × List (Dab.Args K))}
    (h : strokeTo (recordDabs e) fuel b surf m = .ok r) : UpToDate G ax ay r.2.1 := by
  obtain ⟨ev, he, ⟨-, h⟩ | ⟨-, inner, r1, hi, h1, h⟩⟩ := strokeTo_cases h
  · obtain ⟨-, -, -, e4⟩ := sanitise_reports hm.recorded he
    have h5 : ev.dtime ≤ 5 := by
      rw [e4]
      split_ifs
      · norm_num
      · exact hd
    exact (strokeEvent_onGrid hexp hG hb (sanitise_pressure he).1 (sanitise_pressure he).2.le h5 h).1
  · have kb := strokeEvent_placid hb.placid (sanitise_pressure hi).1 (sanitise_pressure hi).2.le h1
    rw [hb.settings] at kb
    exact (strokeEvent_onGrid hexp hG kb (ev := { ev with dtime := 1 / 10000 }) (sanitise_pressure he).1
      (by show (0 : K) ≤ 1 / 10000; norm_num) (by show (1 / 10000 : K) ≤ 5; norm_num) h).1

/-! ## C106 -/

/-- **C106**. Two events in a row, after any others: each dab of the second reads the place on the grid of the brush at a part of the way
between the dab before it and itself. -/
theorem dabs_read_the_grid {e : Env K R σ} (hexp : ∀ t, 0 < e.exp t) {fuel : Nat} (ms : List (Motion K)) {m1 m2 : Motion K}
    {A B : Reading K} (h1 : ReportsPen e m1 A) (d1 : m1.dtime ≤ 5) (h2 : ReportsPen e m2 B) (d2 : m2.dtime ≤ 5)
    (hp : ¬ TouchesAfterPause A B m2.dtime) {b : Brush K R} (hb : Placid b) (h0 : b.resetRequested = false ∨ ms ≠ []) {G ax ay : K}
    (hG : GridSettings b.settings G ax ay) {surf : σ × List (Dab.Args K)} {r1 : Brush K R × (σ × List (Dab.Args K))}
    (hs1 : strokes (recordDabs e) fuel b surf (ms ++ [m1]) = .ok r1) {r2 : Bool × Brush K R × (σ × List (Dab.Args K))}
    (hs2 : strokeTo (recordDabs e) fuel r1.1 r1.2 m2 = .ok r2) :
    ∃ new, r2.2.2.2 = r1.2.2 ++ new ∧ DabsOnGrid e b.settings G ax ay A B m2.viewzoom m2.viewrotation new := by
  obtain ⟨b', surf', r', k1, k2, rfl⟩ := strokes_then ms hb h0 hs1
  obtain ⟨j1, j2, -⟩ := strokeTo_reads k1 hG.slow h1 d1 k2
  have j3 := strokeTo_upToDate hexp hG k1 d1 h1 k2
  obtain ⟨ev, he, ⟨-, h⟩ | ⟨w', -⟩⟩ := strokeTo_cases hs2
  · obtain ⟨e1, e2, e3, e4⟩ := sanitise_reports h2.recorded he
    have h5 : ev.dtime ≤ 5 := by
      rw [e4]
      split_ifs
      · norm_num
      · exact d2
    obtain ⟨new, q1, ps, q2, q3, q4⟩ := (strokeEvent_onGrid hexp hG j1 (sanitise_pressure he).1 (sanitise_pressure he).2.le h5 h).2 j3
    rw [e1, e2, e3] at q2
    refine ⟨new, q1, ps, q2.imp ?_, q3, q4⟩
    rintro p a ⟨i, g1, g2, g3, g4, g5⟩
    rw [j2.x] at g2 g5
    rw [j2.y] at g3 g5
    exact ⟨i, g1.turns j2, g2, g3, g4, g5⟩
  · refine absurd ⟨?_, ?_, ?_⟩ hp
    · obtain ⟨-, -, -, e4⟩ := sanitise_reports h2.recorded he
      have q := w'.1
      rw [e4] at q
      split_ifs at q
      · exact absurd q (by norm_num)
      · exact q
    · obtain ⟨e1, -⟩ := sanitise_reports h2.recorded he
      rw [show B.pressure = ev.pressure by rw [← e1]; rfl]
      exact w'.2.1
    · rw [← j2.pressure]
      exact w'.2.2

/-- **C106**. Places a cell apart read the same, or one reads 0 and the other 256. -/
theorem grid_repeats {S v v' x : K} (hS : 0 < S) (n : ℤ) (h : OnGrid S v x) (h' : OnGrid S v' (x + n * S)) :
    v = v' ∨ (v = 0 ∧ v' = 256) ∨ (v = 256 ∧ v' = 0) := by
  obtain ⟨j, hj⟩ := h.place
  obtain ⟨j', hj'⟩ := h'.place
  have e1 : v' - v = ((j' - j + n : ℤ) : K) * 256 := by
    rw [hj, hj', add_div, mul_div_assoc, div_self hS.ne']
    push_cast
    ring
  have a1 := h.low
  have a2 := h.high
  have b1 := h'.low
  have b2 := h'.high
  have c1 : ((j' - j + n : ℤ) : K) ≤ 1 := by linarith
  have c2 : (-1 : K) ≤ ((j' - j + n : ℤ) : K) := by linarith
  have q1 : j' - j + n ≤ 1 := by exact_mod_cast c1
  have q2 : -1 ≤ j' - j + n := by exact_mod_cast c2
  obtain q | q | q : j' - j + n = -1 ∨ j' - j + n = 0 ∨ j' - j + n = 1 := by omega
  · rw [q] at e1; push_cast at e1
    exact .inr (.inr ⟨by linarith, by linarith⟩)
  · rw [q] at e1; push_cast at e1
    exact .inl (by linarith)
  · rw [q] at e1; push_cast at e1
    exact .inr (.inl ⟨by linarith, by linarith⟩)

end

namespace Demo

/-- A brush whose dabs show the first input of the grid. -/
def gridBrush : Brush ℚ Nat := set (set (gaugeOf iGridmapX) sGridmapScaleX 1) sGridmapScaleY 1

theorem compass_exp (t : ℚ) : 0 < compass.exp t := by
  show 0 < (if t ≥ 0 then 1 + t else 1 / (1 - t))
  split_ifs with h
  · linarith
  · exact div_pos one_pos (by linarith)

theorem gridBrush_settings : GridSettings gridBrush.settings 0 1 1 := by
  refine ⟨fun i => rfl, fun i => rfl, fun i => rfl, one_pos, one_pos, ?_, fun i => ?_⟩
  · show (0 : ℚ) ≤ _; norm_num
  · show (0 : ℚ) ≤ _; norm_num

/-- The hypotheses hold for it; the cells are 256 pixels wide. -/
example {fuel : Nat} {r1 : Brush ℚ Nat × (List (Dab.Args ℚ) × List (Dab.Args ℚ))}
    {r2 : Bool × Brush ℚ Nat × (List (Dab.Args ℚ) × List (Dab.Args ℚ))}
    (h1 : strokes (recordDabs compass) fuel gridBrush ([], [])
      ([leaning 1 0 (1 / 2) (1 / 20)] ++ [leaning 2 0 (1 / 2) (1 / 20)]) = .ok r1)
    (h2 : strokeTo (recordDabs compass) fuel r1.1 r1.2 (leaning 4 0 (1 / 2) (1 / 20)) = .ok r2) :
    (∃ new, r2.2.2.2 = r1.2.2 ++ new ∧ DabsOnGrid compass gridBrush.settings 0 1 1 (leaningReading 2 0 (1 / 2))
      (leaningReading 4 0 (1 / 2)) 1 0 new) ∧ cell compass 0 1 = 256 := by
  obtain ⟨g1, -⟩ := gaugeOf_placid iGridmapX
  have g : Placid gridBrush := ⟨g1.1, g1.2, g1.3, g1.4⟩
  exact ⟨dabs_read_the_grid compass_exp _ (leaning_reports (by norm_num) (by norm_num) (by norm_num)) (by show (1 / 20 : ℚ) ≤ 5; norm_num)
    (leaning_reports (by norm_num) (by norm_num) (by norm_num)) (by show (1 / 20 : ℚ) ≤ 5; norm_num)
    (by rintro ⟨q, -⟩; revert q; show ¬ (1 / 10 : ℚ) < 1 / 20; norm_num) g (.inl rfl) gridBrush_settings h1 h2,
    by decide +kernel⟩

/-- **C106** (against the property). Each dab reads the place of the dab before it, not its own. The angles are the readings less 180. -/
theorem grid_lags_one_dab : look (fun r => r.2.map fun a => (a.x, a.angle + 180)) (strokes compass 100 gridBrush []
    [leaning 1 0 (1 / 2) (1 / 20), leaning 2 0 (1 / 2) (1 / 20), leaning 4 0 (1 / 2) (1 / 20)]) =
    some [(3 / 2, 1), (2, 3 / 2), (5 / 2, 2), (3, 5 / 2), (7 / 2, 3), (4, 7 / 2)] := by decide +kernel

/-- **C106** (against the property). The borders of the cells read 0 at zero and to the right of it, and 256 to the left of it: the same
dabs one cell further left have another angle (76 is 256 less a half turn). -/
theorem grid_border_flips :
    look (fun r => r.2.map fun a => (a.x, a.angle + 180)) (strokes compass 100 gridBrush []
      [leaning (-1) 0 (1 / 2) (1 / 20), leaning 0 0 (1 / 2) (1 / 20), leaning 1 0 (1 / 2) (1 / 20)]) =
      some [(-1 / 2, 75), (0, 151 / 2), (1 / 2, 0), (1, 1 / 2)] ∧
    look (fun r => r.2.map fun a => (a.x, a.angle + 180)) (strokes compass 100 gridBrush []
      [leaning (-257) 0 (1 / 2) (1 / 20), leaning (-256) 0 (1 / 2) (1 / 20), leaning (-255) 0 (1 / 2) (1 / 20)]) =
      some [(-513 / 2, 75), (-256, 151 / 2), (-511 / 2, 76), (-255, 1 / 2)] := by
  constructor <;> decide +kernel

end Demo

end Verif.Engine
