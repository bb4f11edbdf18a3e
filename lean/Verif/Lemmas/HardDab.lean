import Verif.Props.C64_Painting
import Verif.Props.C13_Mask

/-!
# Lemmas for C94: dabs without soft edge at full opacity
-/

namespace Verif.Painting
open Verif.Full Verif.Dab Verif.Engine Verif.Blend Verif.Map Verif.Mask

section
variable {K R σ : Type} [Field K] [LinearOrder K] [IsStrictOrderedRing K] [FloorRing K]

/-- A round dab at full opacity, without soft edge, in the normal mode or erasing. -/
structure HardDab (a : Args K) : Prop where
  hard : 1 ≤ a.hardness
  full : 1 ≤ a.opaque'
  soft : a.softness ≤ 0
  alpha : 1 ≤ a.colorA ∨ a.colorA ≤ 0
  lock : a.lockAlpha ≤ 0
  colorize : a.colorize ≤ 0
  posterize : a.posterize ≤ 0
  levels : 0 ≤ a.posterizeNum ∧ a.posterizeNum ≤ 1000
  paint : a.paint ≤ 0
  round : a.aspect ≤ 1
  radius : 3 ≤ a.radius

/-- The centre of the pixel is in the disc of the dab. -/
def Within (a : Args K) (X Y : Int) : Prop :=
  ((X : K) + 1 / 2 - a.x) ^ 2 + ((Y : K) + 1 / 2 - a.y) ^ 2 ≤ a.radius ^ 2

/-- What such a dab leaves: its colour, opaque, or nothing. -/
def markOf (a : Args K) : Px :=
  if 1 ≤ a.colorA then ⟨channel a.colorR, channel a.colorG, channel a.colorB, 32768⟩ else ⟨0, 0, 0, 0⟩

theorem toInt_small {v : K} (h : 0 ≤ v ∧ v ≤ 1000) : ∃ n, toInt (v * 100 + 1 / 2) = .ok n := by
  unfold toInt
  dsimp only
  have h0 : 0 ≤ v * 100 + 1 / 2 := by linarith [h.1]
  rw [if_pos h0]
  have h1 : 0 ≤ ⌊v * 100 + 1 / 2⌋ := Int.floor_nonneg.mpr h0
  have h2 : ⌊v * 100 + 1 / 2⌋ < 200000 := by
    rw [Int.floor_lt]; push_cast; linarith [h.2]
  rw [if_pos ⟨by unfold intMin; omega, by unfold intMax; omega⟩]
  exact ⟨_, rfl⟩

/-- The operation that is queued. -/
theorem hard_prepare {a : Args K} (h : HardDab a) : ∃ op, prepare a = .ok (some op) ∧ op.Valid ∧ op.x = a.x ∧ op.y = a.y ∧
    op.radius = a.radius ∧ op.hardness = 1 ∧ op.softness = 0 ∧ op.opaque' = 1 ∧ op.aspect = 1 ∧ op.normal = 1 ∧
    op.lockAlpha = 0 ∧ op.colorize = 0 ∧ op.posterize = 0 ∧ op.paint = 0 ∧
    op.color = ⟨channel a.colorR, channel a.colorG, channel a.colorB⟩ ∧ op.colorA = if 1 ≤ a.colorA then 1 else 0 := by
  have c1 := (clampK_eq_one a.hardness).mpr h.hard
  have c2 := (clampK_eq_one a.opaque').mpr h.full
  have c3 := (clampK_eq_zero a.softness).mpr h.soft
  have c4 := (clampK_eq_zero a.lockAlpha).mpr h.lock
  have c5 := (clampK_eq_zero a.colorize).mpr h.colorize
  have c6 := (clampK_eq_zero a.posterize).mpr h.posterize
  have c7 := (clampK_eq_zero a.paint).mpr h.paint
  have c8 : clampK a.colorA 0 1 = if 1 ≤ a.colorA then 1 else 0 := by
    by_cases q : 1 ≤ a.colorA
    · rw [if_pos q]; exact (clampK_eq_one _).mpr q
    · rw [if_neg q]; exact (clampK_eq_zero _).mpr (h.alpha.resolve_left q)
  obtain ⟨n, hn⟩ := toInt_small h.levels
  rcases invisible_iff_nothing_queued a with ⟨-, f, q⟩ | ⟨q, -⟩ | ⟨-, op, ho, hv⟩
  · rw [hn] at q; cases q
  · exfalso
    rcases q with q | q | q | q
    · linarith [h.full]
    · linarith [h.hard]
    · linarith [h.soft]
    · linarith [h.radius]
  · refine ⟨op, ho, hv, ?_⟩
    unfold prepare at ho
    simp only [hn, bind, Except.bind, pure, Except.pure, c1, c2, c3, c4, c5, c6, c7, c8] at ho
    rw [if_neg (show ¬ a.radius < 1 / 10 by linarith [h.radius]), if_neg one_ne_zero, if_neg zero_ne_one, if_neg one_ne_zero] at ho
    have := Option.some.inj (Except.ok.inj ho)
    rw [← this]
    refine ⟨rfl, rfl, rfl, rfl, rfl, rfl, ?_, ?_, rfl, rfl, rfl, rfl, rfl, rfl⟩
    · dsimp only
      split_ifs with q
      · rfl
      · exact le_antisymm h.round (not_lt.mp q)
    · simp

open Classical in
theorem hard_opacity {env : Dab.Env K} (he : env.Valid) {a : Args K} (h : HardDab a) {op : Op K} (ho : op.Valid) (e1 : op.x = a.x)
    (e2 : op.y = a.y) (e3 : op.radius = a.radius) (e4 : op.hardness = 1) (e5 : op.softness = 0) (e6 : op.aspect = 1)
    (X Y : Int) : opacity env op X Y = if Within a X Y then 32768 else 0 := by
  have k := (opacity_distance (shapeOf env op) (by show 3 ≤ op.radius; rw [e3]; exact h.radius) X Y).2
    (by show (if op.aspect < 1 then 1 else op.aspect) = 1; rw [e6]; simp) (he.circle _)
  have s3 : (shapeOf env op).x = a.x := e1
  have s4 : (shapeOf env op).y = a.y := e2
  have s5 : (shapeOf env op).radius = a.radius := e3
  rw [s3, s4, s5] at k
  unfold opacity
  rw [k]
  have r0 : 0 < a.radius := by linarith [h.radius]
  unfold opaU16
  have s1 : (shapeOf env op).hardness = 1 := by
    show clampK op.hardness 0 1 = 1
    rw [e4]; exact (clampK_eq_one _).mpr le_rfl
  have s2 : (shapeOf env op).softness = 0 := e5
  rw [s1, s2, opacity_profile_hard]
  have hd : (((X : K) + 1 / 2 - a.x) ^ 2 + ((Y : K) + 1 / 2 - a.y) ^ 2) / a.radius ^ 2 ≤ 1 ↔ Within a X Y := by
    unfold Within
    rw [div_le_one (by positivity)]
  by_cases q : Within a X Y
  · rw [if_pos (hd.mpr q), if_pos q]
    have : ⌊((1 : K) - 0) * 32768⌋ = 32768 := by
      rw [show ((1 : K) - 0) * 32768 = ((32768 : ℤ) : K) by push_cast; ring, Int.floor_intCast]
    rw [this]; rfl
  · rw [if_neg (fun w => q (hd.mp w)), if_neg q]
    simp

theorem strength_one : strength (1 : K) = 32768 := by
  unfold strength Spectral.toUInt
  rw [show (1 : K) * 32768 = ((32768 : ℤ) : K) by push_cast; ring, Int.floor_intCast]
  rfl

theorem strength_zero : strength (0 : K) = 0 := by
  unfold strength Spectral.toUInt
  simp

theorem hard_step {env : Dab.Env K} {a : Args K} {op : Op K} (ho : op.Valid) (e1 : op.opaque' = 1) (e2 : op.normal = 1)
    (e3 : op.lockAlpha = 0) (e4 : op.colorize = 0) (e5 : op.posterize = 0) (e6 : op.paint = 0)
    (e7 : op.color = ⟨channel a.colorR, channel a.colorG, channel a.colorB⟩) (e8 : op.colorA = if 1 ≤ a.colorA then 1 else 0)
    {p : Px} (hp : p.Valid) : pixelStep (modes env op) 32768 p = .ok (markOf a) := by
  have hc : op.color.Valid := ho.color
  unfold pixelStep modes markOf
  rw [e1, e2, e3, e4, e5, e6, e8]
  by_cases q : 1 ≤ a.colorA
  · simp only [if_pos q]
    simp only [zero_lt_one, if_true, one_ne_zero, ne_eq, not_false_eq_true, not_true_eq_false, false_and, if_false, lt_irrefl,
      gt_iff_lt, List.append_nil, List.foldlM_cons, List.foldlM_nil, sub_zero, mul_one, strength_one]
    rw [normal_full hc hp, e7]
    rfl
  · simp only [if_neg q]
    simp only [zero_lt_one, if_true, one_ne_zero, zero_ne_one, ne_eq, not_false_eq_true, not_true_eq_false, false_and, if_false, lt_irrefl,
      gt_iff_lt, List.append_nil, List.foldlM_cons, List.foldlM_nil, sub_zero, mul_one, strength_one, strength_zero]
    have := erase_full (c := op.color) hc hp
    unfold erase at this
    rw [this]
    rfl

open Classical in
/-- What a hard dab does to a pixel of a valid canvas. -/
theorem hard_dab_pixel {env : Dab.Env K} (he : env.Valid) {a : Args K} (h : HardDab a) {c : Canvas} (hc : CanvasValid c) :
    ∃ op, prepare a = .ok (some op) ∧ CanvasValid (Spec.Surf.drawNow (kind env) c op) ∧ ∀ X Y,
      pixel (Spec.Surf.drawNow (kind env) c op) X Y = if Within a X Y then .ok (markOf a) else pixel c X Y := by
  obtain ⟨op, h0, hv, h1, h2, h3, h4, h5, h6, h7, h8, h9, h10, h11, h12, h13, h14⟩ := hard_prepare h
  have hval := dab_keeps_canvas_valid he hv ⟨h10, h11, .inl h9⟩ c hc
  refine ⟨op, h0, hval, fun X Y => ?_⟩
  obtain ⟨p, hp, hpv⟩ := hc X Y
  obtain ⟨p', hp', -⟩ := hval X Y
  have tile : ∀ {c : Canvas} {p : Px}, pixel c X Y = .ok p → ∃ t, c (tileOfPixel X Y) = .ok t := by
    intro c p q
    unfold pixel at q
    cases ht : c (tileOfPixel X Y) with
    | error f => rw [ht] at q; cases q
    | ok t => exact ⟨t, rfl⟩
  obtain ⟨t, ht⟩ := tile hp
  obtain ⟨t', ht'⟩ := tile hp'
  rw [dab_pixelwise he hv c X Y t t' ht ht', hard_opacity he h hv h1 h2 h3 h4 h5 h7]
  by_cases q : Within a X Y
  · rw [if_pos q, if_pos q, if_neg (by norm_num), hp]
    simp only [bind, Except.bind]
    exact hard_step hv h6 h8 h9 h10 h11 h12 h13 h14 hpv
  · rw [if_neg q, if_neg q, if_pos rfl]

end
end Verif.Painting
