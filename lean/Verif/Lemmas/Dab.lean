import Verif.Model.Dab
import Verif.Lemmas.MaskRender
import Verif.Lemmas.Spectral
import Verif.Lemmas.TileMap

/-! Pixel-level meaning of `process_op`. -/

namespace Verif.Dab
open Verif.Blend Verif.Mask Verif.Spectral

/-! ### Reading and writing pixels -/

theorem readPx_writePx_same (t : Tile) (i : Nat) (p : Px) : readPx (writePx t i p) i = p := by
  unfold readPx writePx
  ext <;> simp

theorem readPx_writePx_ne (t : Tile) (i j : Nat) (p : Px) (hi : i % 4 = 0) (hj : j % 4 = 0)
    (h : i ≠ j) : readPx (writePx t i p) j = readPx t j := by
  unfold readPx writePx
  ext <;> simp only
  · rw [if_neg (by omega), if_neg (by omega), if_neg (by omega), if_neg (by omega)]
  · rw [if_neg (by omega), if_neg (by omega), if_neg (by omega), if_neg (by omega)]
  · rw [if_neg (by omega), if_neg (by omega), if_neg (by omega), if_neg (by omega)]
  · rw [if_neg (by omega), if_neg (by omega), if_neg (by omega), if_neg (by omega)]

theorem writePx_other (t : Tile) (i j : Nat) (p : Px) (h : j < i ∨ i + 4 ≤ j) :
    writePx t i p j = t j := by
  unfold writePx
  rw [if_neg (by omega), if_neg (by omega), if_neg (by omega), if_neg (by omega)]

theorem readPx_ext (t t' : Tile) (i : Nat) (h : ∀ j, i ≤ j → j < i + 4 → t j = t' j) :
    readPx t i = readPx t' i := by
  unfold readPx
  rw [h i (by omega) (by omega), h (i + 1) (by omega) (by omega), h (i + 2) (by omega) (by omega),
    h (i + 3) (by omega) (by omega)]

/-- What a visit list must look like: aligned, inside the tile, no pixel twice. -/
structure Good (l : List (Nat × Nat)) : Prop where
  inside : ∀ v ∈ l, v.1 % 4 = 0 ∧ v.1 + 3 < tileLen
  nodup : (l.map Prod.fst).Nodup

theorem Good.tail {v : Nat × Nat} {l : List (Nat × Nat)} (h : Good (v :: l)) : Good l :=
  ⟨fun w hw => h.inside w (List.mem_cons_of_mem _ hw), (List.nodup_cons.mp (by simpa using h.nodup)).2⟩

theorem Good.head {v : Nat × Nat} {l : List (Nat × Nat)} (h : Good (v :: l)) :
    ∀ w ∈ l, w.1 ≠ v.1 := by
  intro w hw e
  have := (List.nodup_cons.mp (show (v.1 :: l.map Prod.fst).Nodup by simpa using h.nodup)).1
  exact this (e ▸ List.mem_map_of_mem hw)

/-- The untouched part of a tile. -/
def Same (l : List (Nat × Nat)) (t t' : Tile) : Prop :=
  ∀ j, (∀ v ∈ l, j < v.1 ∨ v.1 + 4 ≤ j) → t' j = t j

theorem applyBody_ok (body : Nat → Px → Except Fault Px) (l : List (Nat × Nat)) (hl : Good l)
    (t t' : Tile) : applyBody body l t = .ok t' →
      (∀ v ∈ l, body v.2 (readPx t v.1) = .ok (readPx t' v.1)) ∧ Same l t t' := by
  induction l generalizing t with
  | nil =>
    intro h
    simp only [applyBody] at h
    cases h
    exact ⟨by simp, fun _ _ => rfl⟩
  | cons v l ih =>
    intro h
    obtain ⟨i, m⟩ := v
    have hin := hl.inside (i, m) (by simp)
    simp only [applyBody, if_neg (show ¬ tileLen ≤ i + 3 by omega)] at h
    cases hb : body m (readPx t i) with
    | error e => simp [hb, bind, Except.bind] at h
    | ok p =>
      simp only [hb, bind, Except.bind] at h
      obtain ⟨h1, h2⟩ := ih hl.tail _ h
      have hne := hl.head
      have hread : readPx t' i = p := by
        rw [readPx_ext t' (writePx t i p) i, readPx_writePx_same]
        intro j hj1 hj2
        apply h2
        intro w hw
        have := hl.inside w (List.mem_cons_of_mem _ hw)
        have hn : w.1 ≠ i := hne w hw
        simp only at hin
        omega
      refine ⟨?_, ?_⟩
      · intro w hw
        rcases List.mem_cons.mp hw with rfl | hw
        · rw [hread]; exact hb
        · rw [← h1 w hw, readPx_writePx_ne _ _ _ _ hin.1
            (hl.inside w (List.mem_cons_of_mem _ hw)).1 (hne w hw).symm]
      · intro j hj
        rw [h2 j (fun w hw => hj w (List.mem_cons_of_mem _ hw)),
          writePx_other _ _ _ _ (hj (i, m) (by simp))]

theorem applyBody_exists (body : Nat → Px → Except Fault Px) (l : List (Nat × Nat)) (hl : Good l)
    (t : Tile) (h : ∀ v ∈ l, ∃ q, body v.2 (readPx t v.1) = .ok q) :
    ∃ t', applyBody body l t = .ok t' := by
  induction l generalizing t with
  | nil => exact ⟨t, rfl⟩
  | cons v l ih =>
    obtain ⟨i, m⟩ := v
    have hin := hl.inside (i, m) (by simp)
    obtain ⟨q, hq⟩ := h (i, m) (by simp)
    simp only at hq
    simp only [applyBody, if_neg (show ¬ tileLen ≤ i + 3 by omega), hq, bind, Except.bind]
    apply ih hl.tail
    intro w hw
    obtain ⟨q', hq'⟩ := h w (List.mem_cons_of_mem _ hw)
    refine ⟨q', ?_⟩
    rw [readPx_writePx_ne _ _ _ _ hin.1 (hl.inside w (List.mem_cons_of_mem _ hw)).1
      (hl.head w hw).symm]
    exact hq'

/-- All blend modes of a dab applied to one pixel, one after the other. -/
def pixelStep (ms : List (Nat → Px → Except Fault Px)) (m : Nat) (p : Px) : Except Fault Px :=
  ms.foldlM (fun p body => body m p) p

theorem modes_ok (l : List (Nat × Nat)) (hl : Good l) (ms : List (Nat → Px → Except Fault Px))
    (t t' : Tile) (h : ms.foldlM (fun t body => applyBody body l t) t = .ok t') :
    (∀ v ∈ l, pixelStep ms v.2 (readPx t v.1) = .ok (readPx t' v.1)) ∧ Same l t t' := by
  induction ms generalizing t with
  | nil =>
    simp only [List.foldlM_nil, pure, Except.pure] at h
    cases h
    exact ⟨fun _ _ => rfl, fun _ _ => rfl⟩
  | cons body ms ih =>
    simp only [List.foldlM_cons, bind, Except.bind] at h
    cases hb : applyBody body l t with
    | error e => simp [hb] at h
    | ok t1 =>
      simp only [hb] at h
      obtain ⟨a1, a2⟩ := applyBody_ok body l hl t t1 hb
      obtain ⟨b1, b2⟩ := ih t1 h
      refine ⟨?_, fun j hj => (b2 j hj).trans (a2 j hj)⟩
      intro v hv
      unfold pixelStep at *
      simp only [List.foldlM_cons, bind, Except.bind, a1 v hv]
      exact b1 v hv

theorem modes_exists (l : List (Nat × Nat)) (hl : Good l) (ms : List (Nat → Px → Except Fault Px))
    (t : Tile) (h : ∀ v ∈ l, ∃ q, pixelStep ms v.2 (readPx t v.1) = .ok q) :
    ∃ t', ms.foldlM (fun t body => applyBody body l t) t = .ok t' := by
  induction ms generalizing t with
  | nil => exact ⟨t, rfl⟩
  | cons body ms ih =>
    have h1 : ∀ v ∈ l, ∃ q, body v.2 (readPx t v.1) = .ok q := by
      intro v hv
      obtain ⟨q, hq⟩ := h v hv
      unfold pixelStep at hq
      simp only [List.foldlM_cons, bind, Except.bind] at hq
      cases hb : body v.2 (readPx t v.1) with
      | error e => simp [hb] at hq
      | ok p => exact ⟨p, rfl⟩
    obtain ⟨t1, ht1⟩ := applyBody_exists body l hl t h1
    obtain ⟨a1, _⟩ := applyBody_ok body l hl t t1 ht1
    obtain ⟨t', ht'⟩ := ih t1 (by
      intro v hv
      obtain ⟨q, hq⟩ := h v hv
      unfold pixelStep at hq ⊢
      simp only [List.foldlM_cons, bind, Except.bind, a1 v hv] at hq
      exact ⟨q, hq⟩)
    refine ⟨t', ?_⟩
    simp only [List.foldlM_cons, bind, Except.bind, ht1]
    exact ht'

/-! ### The visit list of a dab is good -/

theorem cRange_nodup (lo hi : Int) : (cRange lo hi).Nodup := by
  unfold cRange
  refine List.Nodup.map ?_ List.nodup_range
  intro a b h
  simp only at h
  omega

theorem visible_good (opa : Int → Int → Nat) (x0 x1 y0 y1 : Int) (hx0 : 0 ≤ x0) (hx1 : x1 ≤ 63)
    (hy0 : 0 ≤ y0) (hy1 : y1 ≤ 63) : Good (Mask.Spec.visible opa x0 x1 y0 y1) := by
  constructor
  · rintro ⟨pos, o⟩ hv
    simp only [Mask.Spec.visible, List.mem_flatMap, List.mem_filterMap, mem_cRange] at hv
    obtain ⟨y, ⟨_, _⟩, x, ⟨_, _⟩, hv⟩ := hv
    by_cases ho : opa x y = 0
    · simp [ho] at hv
    · simp only [ho, if_false, Option.some.injEq, Prod.mk.injEq] at hv
      obtain ⟨rfl, _⟩ := hv
      unfold tileLen
      exact ⟨by simp only; omega, by simp only; omega⟩
  · have hf : ∀ (x y : Int) (b : Nat × Nat),
        (if opa x y = 0 then none else some ((4 * (64 * y + x)).toNat, opa x y)) = some b →
        b.1 = (4 * (64 * y + x)).toNat := by
      intro x y b h
      by_cases ho : opa x y = 0
      · simp [ho] at h
      · simp only [ho, if_false, Option.some.injEq] at h
        rw [← h]
    unfold Mask.Spec.visible
    rw [List.map_flatMap, List.nodup_flatMap]
    constructor
    · intro y hy
      rw [mem_cRange] at hy
      unfold List.Nodup
      rw [List.pairwise_map, List.pairwise_filterMap]
      refine (cRange_nodup x0 (x1 + 1)).imp_of_mem ?_
      intro a b ha hb hab v hv w hw e
      rw [mem_cRange] at ha hb
      have h1 := hf _ _ _ hv
      have h2 := hf _ _ _ hw
      omega
    · refine (cRange_nodup y0 (y1 + 1)).imp_of_mem ?_
      intro a b ha hb hab
      simp only [Function.onFun]
      rw [List.disjoint_left]
      intro n hn hn'
      rw [mem_cRange] at ha hb
      simp only [List.mem_map, List.mem_filterMap, mem_cRange] at hn hn'
      obtain ⟨v, ⟨x, hx, hv⟩, rfl⟩ := hn
      obtain ⟨w, ⟨x', hx', hw⟩, e⟩ := hn'
      have h1 := hf _ _ _ hv
      have h2 := hf _ _ _ hw
      omega

/-! ### Whole operations -/

section
variable {K : Type} [Field K] [LinearOrder K] [IsStrictOrderedRing K] [FloorRing K]

/-- What `prepare` guarantees. -/
structure Op.Valid (op : Op K) : Prop where
  radius : 1 / 10 ≤ op.radius
  hard0 : 0 < op.hardness
  hard1 : op.hardness ≤ 1
  soft0 : 0 ≤ op.softness
  soft1 : op.softness < 1
  opa0 : 0 < op.opaque'
  opa1 : op.opaque' ≤ 1
  aspect : 1 ≤ op.aspect
  color : op.color.r ≤ 32768 ∧ op.color.g ≤ 32768 ∧ op.color.b ≤ 32768
  alpha : 0 ≤ op.colorA ∧ op.colorA ≤ 1
  normal : op.normal = (1 - op.lockAlpha) * (1 - op.colorize) * (1 - op.posterize)
  lock : 0 ≤ op.lockAlpha ∧ op.lockAlpha ≤ 1
  col : 0 ≤ op.colorize ∧ op.colorize ≤ 1
  post : 0 ≤ op.posterize ∧ op.posterize ≤ 1
  num : 1 ≤ op.posterizeNum ∧ op.posterizeNum ≤ 128
  paint : 0 ≤ op.paint ∧ op.paint ≤ 1

/-- What is used of the mathematical library. -/
structure Env.Valid (env : Env K) : Prop where
  circle : ∀ a, env.sin a * env.sin a + env.cos a * env.cos a = 1
  rad1 : 1 / 2 < env.rad1

theorem channel_le (v : K) : channel v ≤ 32768 := by
  unfold channel
  apply toUInt_le
  have := (clampK_unit v).2
  push_cast
  linarith

theorem prepare_valid {a : Args K} {op : Op K} (h : prepare a = .ok (some op)) : op.Valid := by
  unfold prepare at h
  cases hn : toInt (a.posterizeNum * 100 + 1 / 2) with
  | error e => simp only [hn, bind, Except.bind, reduceCtorEq] at h
  | ok n =>
    simp only [hn, bind, Except.bind, pure, Except.pure] at h
    by_cases h1 : a.radius < 1 / 10
    · simp only [if_pos h1, Except.ok.injEq, reduceCtorEq] at h
    by_cases h2 : clampK a.hardness 0 1 = 0
    · simp only [if_neg h1, if_pos h2, Except.ok.injEq, reduceCtorEq] at h
    by_cases h3 : clampK a.softness 0 1 = 1
    · simp only [if_neg h1, if_neg h2, if_pos h3, Except.ok.injEq, reduceCtorEq] at h
    by_cases h4 : clampK a.opaque' 0 1 = 0
    · simp only [if_neg h1, if_neg h2, if_neg h3, if_pos h4, Except.ok.injEq, reduceCtorEq] at h
    simp only [h1, h2, h3, h4, if_false] at h
    injection h with h
    injection h with h
    subst h
    have u1 := clampK_unit a.hardness
    have u2 := clampK_unit a.softness
    have u3 := clampK_unit a.opaque'
    exact
      { radius := not_lt.mp h1
        hard0 := lt_of_le_of_ne u1.1 (Ne.symm h2)
        hard1 := u1.2
        soft0 := u2.1
        soft1 := lt_of_le_of_ne u2.2 h3
        opa0 := lt_of_le_of_ne u3.1 (Ne.symm h4)
        opa1 := u3.2
        aspect := by
          simp only
          split_ifs with h5
          · exact le_rfl
          · exact not_lt.mp h5
        color := ⟨channel_le _, channel_le _, channel_le _⟩
        alpha := clampK_unit _
        normal := rfl
        lock := clampK_unit _
        col := clampK_unit _
        post := clampK_unit _
        num := by
          simp only
          split_ifs <;> omega
        paint := clampK_unit _ }

theorem clampK_of_mem {v : K} (h0 : 0 ≤ v) (h1 : v ≤ 1) : clampK v 0 1 = v := by
  unfold clampK
  rw [if_neg (not_lt.mpr h1), if_neg (not_lt.mpr h0)]

theorem shapeOf_valid {env : Env K} (he : env.Valid) {op : Op K} (ho : op.Valid) :
    (shapeOf env op).Valid where
  radius := lt_of_lt_of_le (by norm_num) ho.radius
  hard0 := by
    unfold shapeOf
    simp only
    rw [clampK_of_mem ho.hard0.le ho.hard1]
    exact ho.hard0
  hard1 := (clampK_unit _).2
  soft0 := ho.soft0
  soft1 := ho.soft1.le
  aspect := by
    unfold shapeOf
    simp only
    split_ifs with h
    · exact le_rfl
    · exact not_lt.mp h
  circle := he.circle _
  rad1 := he.rad1

/-- Opacity of the dab at a canvas pixel. -/
def opacity (env : Env K) (op : Op K) (X Y : Int) : Nat := opacityAt (shapeOf env op) X Y

/-- Offset of a canvas pixel in its tile. -/
def offset (X Y : Int) : Nat := (4 * (64 * (Y % 64) + X % 64)).toNat

/-- The tile of a canvas pixel. -/
def tileOfPixel (X Y : Int) : TileIndex := ⟨X / 64, Y / 64⟩

/-- `process_op` in terms of pixels: for each pixel of the tile, the blend modes are applied with
the dab's opacity at that pixel, and pixels of zero opacity are unchanged. -/
theorem processOp_ok {env : Env K} (he : env.Valid) {op : Op K} (ho : op.Valid) {t : TileIndex}
    {tile tile' : Tile} (h : processOp env t op tile = .ok tile') (X Y : Int)
    (ht : tileOfPixel X Y = t) :
    if opacity env op X Y = 0 then readPx tile' (offset X Y) = readPx tile (offset X Y)
    else pixelStep (modes env op) (opacity env op X Y) (readPx tile (offset X Y)) =
      .ok (readPx tile' (offset X Y)) := by
  have hv := shapeOf_valid he ho
  have hvt := hv.inTile t.x t.y
  obtain ⟨w1, w2, w3, w4⟩ := window_bounds ((shapeOf env op).inTile t.x t.y)
  have hvis := visits_encode (opacityAt ((shapeOf env op).inTile t.x t.y))
    (window ((shapeOf env op).inTile t.x t.y)) w1 w2 w3 w4
  have hgood := visible_good (opacityAt ((shapeOf env op).inTile t.x t.y)) _ _ _ _ w1 w2 w3 w4
  have hmem := mem_visible_inTile hv t.x t.y
  unfold processOp at h
  rw [clampK_of_mem ho.hard0.le ho.hard1, if_neg ho.hard0.ne', render_eq hvt] at h
  simp only [bind, Except.bind] at h
  split_ifs at h with hlen
  rw [hvis] at h
  simp only at h
  obtain ⟨h1, h2⟩ := modes_ok _ hgood _ _ _ h
  subst ht
  have hX : 64 * (X / 64) + X % 64 = X := Int.mul_ediv_add_emod X 64
  have hY : 64 * (Y / 64) + Y % 64 = Y := Int.mul_ediv_add_emod Y 64
  split_ifs with h0
  · apply readPx_ext
    intro j hj1 hj2
    apply h2
    rintro ⟨pos, o⟩ hmemv
    obtain ⟨xp, yp, a1, a2, a3, a4, e1, e2, e3⟩ := (hmem pos o).mp hmemv
    by_contra hc
    have hxy : xp = X % 64 ∧ yp = Y % 64 := by
      unfold offset at hj1 hj2
      simp only at hc
      omega
    rw [hxy.1, hxy.2] at e2
    change o = opacityAt (shapeOf env op) (64 * (X / 64) + X % 64) (64 * (Y / 64) + Y % 64) at e2
    rw [hX, hY] at e2
    exact e3 (e2.trans h0)
  · have hin : (offset X Y, opacity env op X Y) ∈ Mask.Spec.visible
        (opacityAt ((shapeOf env op).inTile (tileOfPixel X Y).x (tileOfPixel X Y).y))
        (window ((shapeOf env op).inTile (tileOfPixel X Y).x (tileOfPixel X Y).y)).x0
        (window ((shapeOf env op).inTile (tileOfPixel X Y).x (tileOfPixel X Y).y)).x1
        (window ((shapeOf env op).inTile (tileOfPixel X Y).x (tileOfPixel X Y).y)).y0
        (window ((shapeOf env op).inTile (tileOfPixel X Y).x (tileOfPixel X Y).y)).y1 := by
      rw [hmem]
      refine ⟨X % 64, Y % 64, by omega, by omega, by omega, by omega, rfl, ?_, h0⟩
      change _ = opacityAt (shapeOf env op) (64 * (X / 64) + X % 64) (64 * (Y / 64) + Y % 64)
      rw [hX, hY]
      rfl
    exact h1 _ hin

/-- Entries outside the tile buffer are never written. -/
theorem processOp_outside {env : Env K} (he : env.Valid) {op : Op K} (ho : op.Valid) {t : TileIndex}
    {tile tile' : Tile} (h : processOp env t op tile = .ok tile') (j : Nat) (hj : tileLen ≤ j) :
    tile' j = tile j := by
  have hv := shapeOf_valid he ho
  have hvt := hv.inTile t.x t.y
  obtain ⟨w1, w2, w3, w4⟩ := window_bounds ((shapeOf env op).inTile t.x t.y)
  have hvis := visits_encode (opacityAt ((shapeOf env op).inTile t.x t.y))
    (window ((shapeOf env op).inTile t.x t.y)) w1 w2 w3 w4
  have hgood := visible_good (opacityAt ((shapeOf env op).inTile t.x t.y)) _ _ _ _ w1 w2 w3 w4
  unfold processOp at h
  rw [clampK_of_mem ho.hard0.le ho.hard1, if_neg ho.hard0.ne', render_eq hvt] at h
  simp only [bind, Except.bind] at h
  split_ifs at h with hlen
  rw [hvis] at h
  simp only at h
  obtain ⟨h1, h2⟩ := modes_ok _ hgood _ _ _ h
  apply h2
  intro v hv
  have := (hgood.inside v hv).2
  omega

/-- `process_op` succeeds if the blend modes succeed on every pixel of the tile with non-zero
opacity. -/
theorem processOp_exists {env : Env K} (he : env.Valid) {op : Op K} (ho : op.Valid) {t : TileIndex}
    {tile : Tile}
    (h : ∀ X Y, tileOfPixel X Y = t → opacity env op X Y ≠ 0 →
      ∃ q, pixelStep (modes env op) (opacity env op X Y) (readPx tile (offset X Y)) = .ok q) :
    ∃ tile', processOp env t op tile = .ok tile' := by
  have hv := shapeOf_valid he ho
  have hvt := hv.inTile t.x t.y
  obtain ⟨w1, w2, w3, w4⟩ := window_bounds ((shapeOf env op).inTile t.x t.y)
  have hvis := visits_encode (opacityAt ((shapeOf env op).inTile t.x t.y))
    (window ((shapeOf env op).inTile t.x t.y)) w1 w2 w3 w4
  have hgood := visible_good (opacityAt ((shapeOf env op).inTile t.x t.y)) _ _ _ _ w1 w2 w3 w4
  have hmem := mem_visible_inTile hv t.x t.y
  obtain ⟨m, hm, hlen⟩ := render_length hvt
  rw [render_eq hvt] at hm
  injection hm with hm
  obtain ⟨t', ht'⟩ := modes_exists _ hgood (modes env op) tile (by
    rintro ⟨pos, o⟩ hin
    obtain ⟨xp, yp, a1, a2, a3, a4, e1, e2, e3⟩ := (hmem pos o).mp hin
    have hT : tileOfPixel (64 * t.x + xp) (64 * t.y + yp) = t := by
      obtain ⟨tx, ty⟩ := t
      simp only [tileOfPixel, TileIndex.mk.injEq]
      constructor <;> omega
    have hO : offset (64 * t.x + xp) (64 * t.y + yp) = pos := by
      unfold offset
      rw [e1]
      omega
    obtain ⟨q, hq⟩ := h _ _ hT (by rw [e2] at e3; exact e3)
    rw [hO] at hq
    refine ⟨q, ?_⟩
    simp only
    rw [e2]
    exact hq)
  refine ⟨t', ?_⟩
  unfold processOp
  rw [clampK_of_mem ho.hard0.le ho.hard1, if_neg ho.hard0.ne', render_eq hvt]
  simp only [bind, Except.bind]
  rw [if_neg (by rw [hm]; omega), hvis]
  exact ht'

/-- The tiles of a dab: exactly those meeting its bounding square. -/
theorem mem_tilesOf (op : Op K) (t : TileIndex) :
    t ∈ tilesOf op ↔ (tileLo op.x op.radius ≤ t.x ∧ t.x ≤ tileHi op.x op.radius) ∧
      (tileLo op.y op.radius ≤ t.y ∧ t.y ≤ tileHi op.y op.radius) := by
  unfold tilesOf
  simp only [List.mem_flatMap, List.mem_map, mem_cRange]
  constructor
  · rintro ⟨ty, hty, tx, htx, rfl⟩
    simp only
    omega
  · intro h
    exact ⟨t.y, by omega, t.x, by omega, rfl⟩

theorem tilesOf_nodup (op : Op K) : (tilesOf op).Nodup := by
  unfold tilesOf
  rw [List.nodup_flatMap]
  constructor
  · intro y _
    refine List.Nodup.map ?_ (cRange_nodup _ _)
    intro a b h
    simpa using h
  · refine (cRange_nodup _ _).imp ?_
    intro a b hab
    simp only [Function.onFun]
    rw [List.disjoint_left]
    intro u hu hu'
    simp only [List.mem_map] at hu hu'
    obtain ⟨x, _, rfl⟩ := hu
    obtain ⟨x', _, e⟩ := hu'
    simp only [TileIndex.mk.injEq] at e
    exact hab e.2.symm

/-- A pixel where the dab is visible lies in one of the dab's tiles. -/
theorem visible_in_tiles {env : Env K} (he : env.Valid) {op : Op K} (ho : op.Valid) {X Y : Int}
    (h : opacity env op X Y ≠ 0) : tileOfPixel X Y ∈ tilesOf op := by
  obtain ⟨h1, h2, h3, h4⟩ := opacityAt_support (shapeOf_valid he ho) h
  rw [mem_tilesOf]
  unfold tileOfPixel tileLo tileHi
  unfold shapeOf at h1 h2 h3 h4
  simp only at h1 h2 h3 h4 ⊢
  refine ⟨⟨?_, ?_⟩, ?_, ?_⟩ <;> exact Int.ediv_le_ediv (by norm_num) (by assumption)

end

end Verif.Dab
