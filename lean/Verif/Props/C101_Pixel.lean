import Verif.Props.C94_Stencil

/-!
# C101: a brush of one pixel that snaps to pixels paints whole pixels
-/

namespace Verif.Painting
open Verif.Full Verif.Dab Verif.Engine Verif.Blend Verif.Map Verif.Mask

section
variable {K R σ : Type} [Field K] [LinearOrder K] [IsStrictOrderedRing K] [FloorRing K]

/-! ## Specification -/

/-- A brush of one pixel: it snaps to pixels, its radius is less than 3/4, and it is hard, opaque, in its own colour and in the normal
mode, or erasing; `p` is what it leaves. Ratio and angle of the dab do not matter. -/
structure PixelBrush (e : Engine.Env K R σ) (s : Load.Brush K) (p : Px) : Prop where
  colour : PlainColour s
  mark : ((∀ i, calculate (s sEraser) i ≤ 0) ∧
      p = ⟨channel (chosenColour s).r, channel (chosenColour s).g, channel (chosenColour s).b, 32768⟩) ∨
    ((∀ i, 1 ≤ calculate (s sEraser) i) ∧ p = ⟨0, 0, 0, 0⟩)
  hard : ∀ i, 1 ≤ calculate (s sHardness) i
  edge : ∀ i, calculate (s sAntiAliasing) i ≤ 0
  full : ∀ i, 1 ≤ calculate (s sOpaque) i ∧ 1 ≤ calculate (s sOpaqueMultiply) i
  linearize : 0 ≤ (s sOpaqueLinearize).base
  random : ∀ i, calculate (s sRadiusByRandom) i = 0
  snap : ∀ i, calculate (s sSnapToPixel) i = 1
  radius : ∀ i, askedRadius e (calculate (s sRadiusLogarithmic) i) < 3 / 4
  lock : ∀ i, calculate (s sLockAlpha) i ≤ 0
  colorize : ∀ i, calculate (s sColorize) i ≤ 0
  posterize : ∀ i, calculate (s sPosterize) i ≤ 0
  levels : ∀ i, 0 ≤ calculate (s sPosterizeNum) i ∧ calculate (s sPosterizeNum) i ≤ 1000
  paint : ∀ i, calculate (s sPaintMode) i ≤ 0
  soft : ∀ i, calculate (s sSoftness) i ≤ 0

/-- The pixel in which the centre of the dab is. -/
def InPixel (a : Args K) (X Y : Int) : Prop := X = ⌊a.x⌋ ∧ Y = ⌊a.y⌋

/-! ## The mask of one dab -/

/-- A hard dab of less than one pixel, in the middle of a pixel. -/
structure PixelDab (a : Args K) : Prop where
  hard : 1 ≤ a.hardness
  full : 1 ≤ a.opaque'
  soft : a.softness ≤ 0
  alpha : 1 ≤ a.colorA ∨ a.colorA ≤ 0
  lock : a.lockAlpha ≤ 0
  colorize : a.colorize ≤ 0
  posterize : a.posterize ≤ 0
  levels : 0 ≤ a.posterizeNum ∧ a.posterizeNum ≤ 1000
  paint : a.paint ≤ 0
  centre : (∃ m : ℤ, a.x = m + 1 / 2) ∧ ∃ m : ℤ, a.y = m + 1 / 2
  radius : 1 / 10 ≤ a.radius ∧ a.radius < 1 / 2

theorem floor_centre (m : ℤ) : ⌊(m : K) + 1 / 2⌋ = m := by
  rw [Int.floor_eq_iff]; constructor <;> linarith

theorem clampK_far {v lo hi : K} (h : 1 / 2 ≤ lo ∨ hi ≤ -(1 / 2)) (hl : lo ≤ hi) : 1 / 4 ≤ clampK v lo hi ^ 2 := by
  have : (1 / 2 ≤ clampK v lo hi) ∨ clampK v lo hi ≤ -(1 / 2) := by
    unfold clampK
    rcases h with h | h
    · left; split_ifs <;> linarith
    · right; split_ifs <;> linarith
  rcases this with q | q <;> nlinarith

/-- The squared distance in the coordinates of the ellipse is at least the squared distance. -/
theorem rSample_ge {x y aspect sn cs : K} (ha : 1 ≤ aspect) (hc : sn * sn + cs * cs = 1) : x ^ 2 + y ^ 2 ≤ rSample x y aspect sn cs := by
  unfold rSample
  dsimp only
  have e : x ^ 2 + y ^ 2 = (y * cs - x * sn) ^ 2 + (y * sn + x * cs) ^ 2 := by
    have : (y * cs - x * sn) ^ 2 + (y * sn + x * cs) ^ 2 = (x ^ 2 + y ^ 2) * (sn * sn + cs * cs) := by ring
    rw [this, hc, mul_one]
  have k : (y * cs - x * sn) ^ 2 ≤ ((y * cs - x * sn) * aspect) * ((y * cs - x * sn) * aspect) := by
    have : (y * cs - x * sn) ^ 2 * 1 ≤ (y * cs - x * sn) ^ 2 * (aspect * aspect) :=
      mul_le_mul_of_nonneg_left (by nlinarith) (sq_nonneg _)
    linarith
  rw [e]
  nlinarith

theorem pixel_rr {s : Shape K} {i j : ℤ} (hx : s.x = i + 1 / 2) (hy : s.y = j + 1 / 2) (r0 : 0 < s.radius) (r1 : s.radius < 1 / 2)
    (ha : 1 ≤ s.aspect) (hc : s.sn * s.sn + s.cs * s.cs = 1) (X Y : Int) :
    ∃ rr, rrAt s X Y = some rr ∧ (rr ≤ 1 ↔ X = i ∧ Y = j) := by
  unfold rrAt
  rw [if_pos (by linarith)]
  unfold rrAntialiased
  have rr0 : 0 < s.radius * s.radius := mul_pos r0 r0
  have k0 : 0 < 1 / (s.radius * s.radius) := one_div_pos.mpr rr0
  by_cases q : X = i ∧ Y = j
  · obtain ⟨rfl, rfl⟩ := q
    have hn : aaNearest s X Y = (0, 0) := by
      unfold aaNearest
      dsimp only
      rw [hx, hy]
      exact if_pos ⟨by linarith, by linarith, by linarith, by linarith⟩
    have z : rSample (0 : K) 0 s.aspect s.sn s.cs = 0 := by unfold rSample; ring
    rw [hn]
    simp only [z, zero_mul]
    rw [if_neg (show ¬ (0 : K) > 1 by norm_num)]
    have hs : rAAStart s = 0 := by
      unfold rAAStart
      rw [if_neg (show ¬ s.radius > 1 by linarith)]
      simp
    have f0 : 0 ≤ rSample (aaFarthest s X Y).1 (aaFarthest s X Y).2 s.aspect s.sn s.cs :=
      le_trans (by positivity) (rSample_ge ha hc)
    generalize rSample (aaFarthest s X Y).1 (aaFarthest s X Y).2 s.aspect s.sn s.cs = f at *
    rw [hs, if_neg (not_lt.mpr f0)]
    have d0 : 0 < 1 + (f * (1 / (s.radius * s.radius)) - 0) := by
      have := mul_nonneg f0 k0.le
      linarith
    rw [if_neg d0.ne']
    refine ⟨_, rfl, iff_of_true ?_ (by simp)⟩
    have : 0 ≤ (1 - 0) / (1 + (f * (1 / (s.radius * s.radius)) - 0)) := div_nonneg (by norm_num) d0.le
    linarith
  · have far : 1 / 4 ≤ rSample (aaNearest s X Y).1 (aaNearest s X Y).2 s.aspect s.sn s.cs := by
      refine le_trans ?_ (rSample_ge ha hc)
      unfold aaNearest
      dsimp only
      rw [hx, hy]
      have key : ∀ {m n : ℤ}, m ≠ n → (1 / 2 ≤ (m : K) + 1 / 2 - n - 1 ∨ (m : K) + 1 / 2 - n ≤ -(1 / 2)) := by
        intro m n h
        rcases lt_or_gt_of_ne h with g | g
        · right
          have : (m : K) + 1 ≤ n := by exact_mod_cast g
          linarith
        · left
          have : (n : K) + 1 ≤ m := by exact_mod_cast g
          linarith
      have out : ¬ ((i : K) + 1 / 2 - X - 1 < 0 ∧ (i : K) + 1 / 2 - X > 0 ∧ (j : K) + 1 / 2 - Y - 1 < 0 ∧ (j : K) + 1 / 2 - Y > 0) := by
        rintro ⟨q1, q2, q3, q4⟩
        have hX : X = i := by
          by_contra h
          rcases key (Ne.symm h) with g | g <;> linarith
        have hY : Y = j := by
          by_contra h
          rcases key (Ne.symm h) with g | g <;> linarith
        exact q ⟨hX, hY⟩
      rw [if_neg out]
      simp only
      by_cases hX : X = i
      · have hY : j ≠ Y := fun h => q ⟨hX, h.symm⟩
        have := clampK_far (v := (closestPoint s.cs s.sn ((i : K) + 1 / 2 - X - 1 / 2) ((j : K) + 1 / 2 - Y - 1 / 2)).2) (key hY) (by linarith)
        have := sq_nonneg (clampK (closestPoint s.cs s.sn ((i : K) + 1 / 2 - X - 1 / 2) ((j : K) + 1 / 2 - Y - 1 / 2)).1
          ((i : K) + 1 / 2 - X - 1) ((i : K) + 1 / 2 - X))
        linarith
      · have := clampK_far (v := (closestPoint s.cs s.sn ((i : K) + 1 / 2 - X - 1 / 2) ((j : K) + 1 / 2 - Y - 1 / 2)).1)
          (key (Ne.symm hX)) (by linarith)
        have := sq_nonneg (clampK (closestPoint s.cs s.sn ((i : K) + 1 / 2 - X - 1 / 2) ((j : K) + 1 / 2 - Y - 1 / 2)).2
          ((j : K) + 1 / 2 - Y - 1) ((j : K) + 1 / 2 - Y))
        linarith
    have g : rSample (aaNearest s X Y).1 (aaNearest s X Y).2 s.aspect s.sn s.cs * (1 / (s.radius * s.radius)) > 1 := by
      rw [mul_one_div, gt_iff_lt, lt_div_iff₀ rr0]
      nlinarith
    simp only
    rw [if_pos g]
    exact ⟨_, rfl, iff_of_false (not_le.mpr g) q⟩

theorem pixel_prepare {a : Args K} (h : PixelDab a) : ∃ op, prepare a = .ok (some op) ∧ op.Valid ∧ op.x = a.x ∧ op.y = a.y ∧
    op.radius = a.radius ∧ op.hardness = 1 ∧ op.softness = 0 ∧ op.opaque' = 1 ∧ op.normal = 1 ∧
    op.lockAlpha = 0 ∧ op.colorize = 0 ∧ op.posterize = 0 ∧ op.paint = 0 ∧
    op.color = ⟨channel a.colorR, channel a.colorG, channel a.colorB⟩ ∧ op.colorA = if 1 ≤ a.colorA then 1 else 0 := by
  have c1 := (clampK_eq_one a.hardness).mpr h.hard
  have c2 := (clampK_eq_one a.opaque').mpr h.full
  have c3 := (clampK_eq_zero a.softness).mpr h.soft
  have c4 := (clampK_eq_zero a.lockAlpha).mpr h.lock
  have c5 := (clampK_eq_zero a.colorize).mpr h.colorize
  have c6 := (clampK_eq_zero a.posterize).mpr h.posterize
  have c7 := (clampK_eq_zero a.paint).mpr h.paint
  have c8 : clampK a.colorA 0 1 = if 1 ≤ a.colorA then 1 else 0 := by
    by_cases q : 1 ≤ a.colorA
    · rw [if_pos q]; exact (clampK_eq_one _).mpr q
    · rw [if_neg q]; exact (clampK_eq_zero _).mpr (h.alpha.resolve_left q)
  obtain ⟨n, hn⟩ := toInt_small h.levels
  rcases invisible_iff_nothing_queued a with ⟨-, f, q⟩ | ⟨q, -⟩ | ⟨-, op, ho, hv⟩
  · rw [hn] at q; cases q
  · exfalso
    rcases q with q | q | q | q
    · linarith [h.full]
    · linarith [h.hard]
    · linarith [h.soft]
    · linarith [h.radius.1]
  · refine ⟨op, ho, hv, ?_⟩
    unfold prepare at ho
    simp only [hn, bind, Except.bind, pure, Except.pure, c1, c2, c3, c4, c5, c6, c7, c8] at ho
    rw [if_neg (show ¬ a.radius < 1 / 10 by linarith [h.radius.1]), if_neg one_ne_zero, if_neg zero_ne_one, if_neg one_ne_zero] at ho
    have := Option.some.inj (Except.ok.inj ho)
    rw [← this]
    refine ⟨rfl, rfl, rfl, rfl, rfl, rfl, ?_, rfl, rfl, rfl, rfl, rfl, rfl⟩
    simp

open Classical in
theorem pixel_opacity {env : Dab.Env K} (he : env.Valid) {a : Args K} (h : PixelDab a) {op : Op K} (e1 : op.x = a.x)
    (e2 : op.y = a.y) (e3 : op.radius = a.radius) (e4 : op.hardness = 1) (e5 : op.softness = 0)
    (X Y : Int) : opacity env op X Y = if InPixel a X Y then 32768 else 0 := by
  obtain ⟨⟨i, hi⟩, j, hj⟩ := h.centre
  have s1 : (shapeOf env op).hardness = 1 := by
    show clampK op.hardness 0 1 = 1
    rw [e4]; exact (clampK_eq_one _).mpr le_rfl
  have s2 : (shapeOf env op).softness = 0 := e5
  obtain ⟨rr, k1, k2⟩ := pixel_rr (s := shapeOf env op) (i := i) (j := j) (e1.trans hi) (e2.trans hj)
    (by show 0 < op.radius; rw [e3]; linarith [h.radius.1]) (by show op.radius < 1 / 2; rw [e3]; exact h.radius.2)
    (by show 1 ≤ if op.aspect < 1 then 1 else op.aspect
        split_ifs with q
        · exact le_rfl
        · exact not_lt.mp q) (he.circle _) X Y
  unfold opacity opacityAt
  rw [k1]
  dsimp only
  unfold opaU16
  rw [s1, s2, opacity_profile_hard]
  have hd : rr ≤ 1 ↔ InPixel a X Y := by
    rw [k2]; unfold InPixel; rw [hi, hj, floor_centre, floor_centre]
  by_cases q : InPixel a X Y
  · rw [if_pos (hd.mpr q), if_pos q]
    have : ⌊((1 : K) - 0) * 32768⌋ = 32768 := by
      rw [show ((1 : K) - 0) * 32768 = ((32768 : ℤ) : K) by push_cast; ring, Int.floor_intCast]
    rw [this]; rfl
  · rw [if_neg (fun w => q (hd.mp w)), if_neg q]
    simp

open Classical in
/-- What such a dab does to a pixel of a valid canvas: the pixel it is in gets the colour, all others stay. -/
theorem pixel_dab_pixel {env : Dab.Env K} (he : env.Valid) {a : Args K} (h : PixelDab a) {c : Canvas} (hc : CanvasValid c) :
    ∃ op, prepare a = .ok (some op) ∧ CanvasValid (Spec.Surf.drawNow (kind env) c op) ∧ ∀ X Y,
      pixel (Spec.Surf.drawNow (kind env) c op) X Y = if InPixel a X Y then .ok (markOf a) else pixel c X Y := by
  obtain ⟨op, h0, hv, h1, h2, h3, h4, h5, h6, h8, h9, h10, h11, h12, h13, h14⟩ := pixel_prepare h
  have hval := dab_keeps_canvas_valid he hv ⟨h10, h11, .inl h9⟩ c hc
  refine ⟨op, h0, hval, fun X Y => ?_⟩
  obtain ⟨p, hp, hpv⟩ := hc X Y
  obtain ⟨p', hp', -⟩ := hval X Y
  have tile : ∀ {c : Canvas} {p : Px}, pixel c X Y = .ok p → ∃ t, c (tileOfPixel X Y) = .ok t := by
    intro c p q
    unfold pixel at q
    cases ht : c (tileOfPixel X Y) with
    | error f => rw [ht] at q; cases q
    | ok t => exact ⟨t, rfl⟩
  obtain ⟨t, ht⟩ := tile hp
  obtain ⟨t', ht'⟩ := tile hp'
  rw [dab_pixelwise he hv c X Y t t' ht ht', pixel_opacity he h h1 h2 h3 h4 h5]
  by_cases q : InPixel a X Y
  · rw [if_pos q, if_pos q, if_neg (by norm_num), hp]
    simp only [bind, Except.bind]
    exact hard_step hv h6 h8 h9 h10 h11 h12 h13 h14 hpv
  · rw [if_neg q, if_neg q, if_pos rfl]

/-! ## Sessions -/

theorem pixel_dabs {e : Engine.Env K R σ} (hp : ∀ y, 0 < y → e.pow 0 y = 0) {fuel : Nat} (ms : List (Motion K)) {b : Brush K R} (hb : Underway b) {p : Px}
    (hs : PixelBrush e b.settings p) (surf : σ) {r : Brush K R × (σ × List (Args K))}
    (h : strokes (recordDabs e) fuel b (surf, []) ms = .ok r) : ∀ a ∈ r.2.2, PixelDab a ∧ markOf a = p := by
  intro a ha
  obtain ⟨hcol, i1, hA⟩ := paints_own_colour e ms hb hs.colour surf h a ha
  obtain ⟨i2, q1, q2, q3, q4, q5, q6⟩ := passes_settings_on e ms hb surf h a ha
  obtain ⟨i3, hsh⟩ := dabs_shaped e ms hb surf h a ha
  obtain ⟨hh, hr⟩ := hsh.snappedRadius hs.random hs.snap hs.edge
  obtain ⟨sx, sy, -⟩ := hsh.snapped hs.snap
  have h1 : max 0 (min 1 (calculate (b.settings sHardness) i3)) = 1 := by
    rw [min_eq_left (hs.hard i3), max_eq_right zero_le_one]
  rw [h1] at hh
  have small : max 1 ⌊2 * askedRadius e (calculate (b.settings sRadiusLogarithmic) i3) + 1 / 2⌋ = 1 := by
    refine max_eq_left ?_
    have : ⌊2 * askedRadius e (calculate (b.settings sRadiusLogarithmic) i3) + 1 / 2⌋ < 2 := by
      rw [Int.floor_lt]; push_cast; linarith [hs.radius i3]
    omega
  have hr' : a.radius = ((1 : ℤ) : K) / 2 - 1 / 10000 := by rw [hr]; exact congrArg (fun n : ℤ => (n : K) / 2 - 1 / 10000) small
  have cr : a.colorR = (chosenColour b.settings).r := by rw [← hcol]
  have cg : a.colorG = (chosenColour b.settings).g := by rw [← hcol]
  have cb : a.colorB = (chosenColour b.settings).b := by rw [← hcol]
  refine ⟨⟨hh.ge, ?_, ?_, ?_, ?_, ?_, ?_, ?_, ?_, ⟨sx, sy⟩, ?_⟩, ?_⟩
  · obtain ⟨f1, f2⟩ := hs.full i3
    refine (hsh.full hs.random hs.linearize hp ?_).ge
    rw [max_eq_right (by linarith : (0 : K) ≤ calculate (b.settings sOpaque) i3)]
    exact one_le_mul_of_one_le_of_one_le f1 f2
  · rw [q6, (clampK_eq_zero _).mpr (hs.soft i2)]
  · rcases hs.mark with ⟨m, -⟩ | ⟨m, -⟩
    · left; rw [hA]; linarith [m i1]
    · right; rw [hA]; linarith [m i1]
  · rw [q1]; exact hs.lock i2
  · rw [q2]; exact hs.colorize i2
  · rw [q3]; exact hs.posterize i2
  · rw [q4]; exact hs.levels i2
  · rw [q5]; exact hs.paint i2
  · rw [hr']; push_cast; constructor <;> norm_num
  · unfold markOf
    rcases hs.mark with ⟨m, e⟩ | ⟨m, e⟩
    · rw [if_pos (by rw [hA]; linarith [m i1]), e, cr, cg, cb]
    · rw [if_neg (by rw [hA]; linarith [m i1]), e]

theorem no_copies {d : Symm.Data K} (hd : d.active = false) (a : Args K) : Spec.Now.copies d a = [] := by
  unfold Spec.Now.copies Symm.passes
  rw [if_neg (by rw [hd]; simp)]
  rfl

theorem pixel_list {env : Dab.Env K} (he : env.Valid) {d : Symm.Data K} (hd : d.active = false) {p : Px} : ∀ (l : List (Args K)) {c : Canvas}, CanvasValid c →
    (∀ a ∈ l, PixelDab a ∧ markOf a = p) → Stencil c (l.foldl (stamp env d) c) p fun X Y => ∃ a ∈ l, InPixel a X Y
  | [], c, hc, _ => fun X Y => ⟨fun q => absurd q (by simp), fun _ => rfl⟩
  | a :: l, c, hc, h => by
    obtain ⟨ha, hp⟩ := h a List.mem_cons_self
    obtain ⟨op, h0, h1, h2⟩ := pixel_dab_pixel he ha hc
    have e1 : stamp env d c a = Spec.Surf.drawNow (kind env) c op := by
      have hv : visible a = true := by unfold visible; rw [h0]
      unfold stamp
      rw [if_pos hv, no_copies hd]
      show Spec.Now.dabAt env c a = _
      unfold Spec.Now.dabAt; rw [h0]
    rw [List.foldl_cons, e1]
    have k2 := pixel_list he hd l h1 fun a ha => h a (List.mem_cons_of_mem _ ha)
    refine fun X Y => ⟨?_, ?_⟩
    · rintro ⟨a', ha', hw⟩
      by_cases q : ∃ a ∈ l, InPixel a X Y
      · exact (k2 X Y).1 q
      · rw [(k2 X Y).2 q, h2, if_pos, hp]
        rcases List.mem_cons.mp ha' with e | e
        · rw [← e]; exact hw
        · exact absurd ⟨a', e, hw⟩ q
    · intro q
      rw [(k2 X Y).2 (fun ⟨a', h', w⟩ => q ⟨a', List.mem_cons_of_mem _ h', w⟩), h2,
        if_neg (fun w => q ⟨a, List.mem_cons_self, w⟩)]

/-- **C101**. A session with a brush of one pixel, in any number of blocks, without symmetry: the pixels in which dabs have
their centres have exactly the colour of the brush, or are exactly transparent for an eraser, whatever was there before; all others are
exactly as before. There is nothing in between, wherever the pen goes. -/
theorem pixel_brush_paints_pixels {e : Engine.Env K R σ} (hp : ∀ y, 0 < y → e.pow 0 y = 0) {b : Build} {env : Dab.Env K} (he : env.Valid) {trig : Symm.Trig K}
    {sch : Schedule} {fuel : Nat} (bls : List (Block K)) {s s' : Studio K R} (hs : s.Fine b env trig) (hd : s.surf.symm.active = false)
    (hq : Unswerving bls) (hc : CanvasValid s.surf.surf.canvas) {p : Px} (hb : PixelBrush e s.brush.settings p)
    (h : paint e b env trig sch fuel s bls = .ok s') :
    ∃ dabs, strokes (recordDabs (e.on (Spec.Now.draw env s.surf.symm) (Spec.Now.getColor env sch))) fuel s.brush
        (⟨s.surf.surf.canvas, s.samples⟩, []) (bls.flatMap Block.motions) =
          .ok (s'.brush, ⟨s'.surf.surf.canvas, s'.samples⟩, dabs) ∧
      Stencil s.surf.surf.canvas s'.surf.surf.canvas p fun X Y => ∃ a ∈ dabs, InPixel a X Y := by
  have hn := paint_now bls hs.surf (InForce.agree (.inr hd)) hq h
  unfold Spec.Now.paint at hn
  obtain ⟨l, hl⟩ := strokes_recorded _ fuel _ s.brush _ [] hn
  refine ⟨l, hl, ?_⟩
  have k := (session_keeps (stamped_invariant e env s.surf.symm sch s.surf.surf.canvas) (fun _ => True) (fun _ _ _ _ => trivial)
    (fun _ _ _ _ => trivial) (fun _ _ => trivial) _ (fun _ _ => trivial) hs.brush rfl hl).1
  have hh := pixel_dabs (e := e.on (Spec.Now.draw env s.surf.symm) (Spec.Now.getColor env sch)) hp _ hs.brush (p := p)
    ⟨hb.colour, hb.mark, hb.hard, hb.edge, hb.full, hb.linearize, hb.random, hb.snap, hb.radius, hb.lock, hb.colorize,
      hb.posterize, hb.levels, hb.paint, hb.soft⟩ _ hl
  dsimp only at k hh
  rw [k]
  exact pixel_list he hd l hc hh

end

/-! ### Examples -/

namespace Demo

/-- A hard red brush of one pixel. -/
def onePixel : Brush ℚ Nat :=
  Engine.Demo.set (Engine.Demo.set pixelBrush sRadiusLogarithmic (-1 / 2)) sSnapToPixel 1

theorem onePixel_value (id : Nat) (i : Nat → ℚ) : calculate (onePixel.settings id) i = (onePixel.settings id).base := by
  show calculate (if id = sSnapToPixel then Engine.Demo.constant 1 else if id = sRadiusLogarithmic then Engine.Demo.constant (-1 / 2) else
    pixelBrush.settings id) i = (if id = sSnapToPixel then Engine.Demo.constant 1 else
    if id = sRadiusLogarithmic then Engine.Demo.constant (-1 / 2) else pixelBrush.settings id).base
  split_ifs
  · rfl
  · rfl
  · exact pixelBrush_value id i

example : PixelBrush Engine.Demo.env onePixel.settings ⟨32768, 0, 0, 32768⟩ := by
  refine ⟨⟨?_, ?_, ?_, ?_, ?_, ?_⟩, .inl ⟨?_, ?_⟩, ?_, ?_, ?_, ?_, ?_, ?_, ?_, ?_, ?_, ?_, ?_, ?_, ?_⟩
  any_goals
    intro i
    rw [onePixel_value]
    decide +kernel
  any_goals decide +kernel
  all_goals
    intro i
    rw [onePixel_value, onePixel_value]
    decide +kernel

/-- The stroke of `events`: a line of one pixel. -/
example : observe onePixel ⟨100, 200, 300, 400⟩ events [(60, 10), (61, 9), (61, 10), (61, 11), (66, 10)] =
    some ([⟨60, 9, 8, 3⟩], [some ⟨100, 200, 300, 400⟩, some ⟨100, 200, 300, 400⟩, some ⟨32768, 0, 0, 32768⟩, some ⟨100, 200, 300, 400⟩,
      some ⟨32768, 0, 0, 32768⟩]) := by decide +kernel

/-- Without snapping the line is two pixels wide. -/
theorem wide_without_snapping : observe (Engine.Demo.set onePixel sSnapToPixel 0) ⟨100, 200, 300, 400⟩ events [(61, 9), (61, 10), (61, 11)] =
    some ([⟨59, 8, 9, 4⟩], [some ⟨32768, 0, 0, 32768⟩, some ⟨32768, 0, 0, 32768⟩, some ⟨100, 200, 300, 400⟩]) := by decide +kernel

end Demo

end Verif.Painting
