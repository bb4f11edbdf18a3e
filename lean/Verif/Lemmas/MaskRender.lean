import Verif.Lemmas.MaskGeometry
import Mathlib.Tactic.LinearCombination

namespace Verif.Mask

variable {K : Type} [Field K] [LinearOrder K] [IsStrictOrderedRing K]

omit [LinearOrder K] [IsStrictOrderedRing K] in
theorem inTile_x (s : Shape K) (tx ty : Int) (xp : Int) :
    (s.inTile tx ty).x - (xp : K) = s.x - ((64 * tx + xp : Int) : K) := by
  simp only [Shape.inTile, tileSize]; push_cast; ring

omit [LinearOrder K] [IsStrictOrderedRing K] in
theorem inTile_y (s : Shape K) (tx ty : Int) (yp : Int) :
    (s.inTile tx ty).y - (yp : K) = s.y - ((64 * ty + yp : Int) : K) := by
  simp only [Shape.inTile, tileSize]; push_cast; ring

omit [IsStrictOrderedRing K] in
theorem aaNearest_inTile (s : Shape K) (tx ty xp yp : Int) :
    aaNearest (s.inTile tx ty) xp yp = aaNearest s (64 * tx + xp) (64 * ty + yp) := by
  unfold aaNearest
  simp only [inTile_x, inTile_y]
  rfl

omit [IsStrictOrderedRing K] in
theorem aaFarthest_inTile (s : Shape K) (tx ty xp yp : Int) :
    aaFarthest (s.inTile tx ty) xp yp = aaFarthest s (64 * tx + xp) (64 * ty + yp) := by
  unfold aaFarthest
  simp only [inTile_x, inTile_y, aaNearest_inTile]
  rfl

omit [IsStrictOrderedRing K] in
theorem rrAntialiased_inTile (s : Shape K) (tx ty xp yp : Int) :
    rrAntialiased (s.inTile tx ty) xp yp = rrAntialiased s (64 * tx + xp) (64 * ty + yp) := by
  unfold rrAntialiased
  simp only [aaNearest_inTile, aaFarthest_inTile]
  rfl

omit [LinearOrder K] [IsStrictOrderedRing K] in
theorem rrPlain_inTile (s : Shape K) (tx ty xp yp : Int) :
    rrPlain (s.inTile tx ty) xp yp = rrPlain s (64 * tx + xp) (64 * ty + yp) := by
  have e1 : (yp : K) + 1 / 2 - (s.inTile tx ty).y = ((64 * ty + yp : Int) : K) + 1 / 2 - s.y := by
    have := inTile_y s tx ty yp
    linear_combination -this
  have e2 : (xp : K) + 1 / 2 - (s.inTile tx ty).x = ((64 * tx + xp : Int) : K) + 1 / 2 - s.x := by
    have := inTile_x s tx ty xp
    linear_combination -this
  unfold rrPlain
  simp only [e1, e2]
  rfl

omit [IsStrictOrderedRing K] in
theorem rrAt_inTile (s : Shape K) (tx ty xp yp : Int) :
    rrAt (s.inTile tx ty) xp yp = rrAt s (64 * tx + xp) (64 * ty + yp) := by
  unfold rrAt
  rw [rrAntialiased_inTile, rrPlain_inTile]
  rfl

theorem Shape.Valid.inTile {s : Shape K} (h : s.Valid) (tx ty : Int) : (s.inTile tx ty).Valid :=
  ⟨h.radius, h.hard0, h.hard1, h.soft0, h.soft1, h.aspect, h.circle, h.rad1⟩

variable [FloorRing K]

/-- Opacity (15 bit fixed point) of the dab at a pixel. -/
def opacityAt (s : Shape K) (X Y : Int) : Nat :=
  match rrAt s X Y with
  | some rr => opaU16 s rr
  | none => 0

theorem opacityAt_inTile (s : Shape K) (tx ty xp yp : Int) :
    opacityAt (s.inTile tx ty) xp yp = opacityAt s (64 * tx + xp) (64 * ty + yp) := by
  unfold opacityAt
  rw [rrAt_inTile]
  rfl

theorem opacityAt_le {s : Shape K} (hv : s.Valid) (X Y : Int) : opacityAt s X Y ≤ 32768 := by
  unfold opacityAt
  split
  · exact opaU16_le hv (rrAt_nonneg ‹_›)
  · omega

/-- The columns and rows a dab can reach. -/
theorem opacityAt_support {s : Shape K} (hv : s.Valid) {X Y : Int} (h : opacityAt s X Y ≠ 0) :
    ⌊s.x - (s.radius + 1)⌋ ≤ X ∧ X ≤ ⌊s.x + (s.radius + 1)⌋ ∧
    ⌊s.y - (s.radius + 1)⌋ ≤ Y ∧ Y ≤ ⌊s.y + (s.radius + 1)⌋ := by
  by_contra hc
  have : X < ⌊s.x - (s.radius + 1)⌋ ∨ ⌊s.x + (s.radius + 1)⌋ < X ∨
         Y < ⌊s.y - (s.radius + 1)⌋ ∨ ⌊s.y + (s.radius + 1)⌋ < Y := by
    by_contra hh
    simp only [not_or, not_lt] at hh
    exact hc hh
  obtain ⟨rr, h1, h2⟩ := rrAt_outside hv this
  apply h
  unfold opacityAt
  rw [h1]
  exact opaU16_gt_one h2

omit [IsStrictOrderedRing K] in
theorem window_bounds (s : Shape K) :
    0 ≤ (window s).x0 ∧ (window s).x1 ≤ 63 ∧ 0 ≤ (window s).y0 ∧ (window s).y1 ≤ 63 := by
  unfold window
  simp only [tileSize]
  exact ⟨le_max_right _ _, min_le_right _ _, le_max_right _ _, min_le_right _ _⟩

theorem render_eq {s : Shape K} (hv : s.Valid) :
    render s = .ok (encode (opacityAt s) (window s)) := by
  unfold render
  simp only
  rw [if_pos]
  · rfl
  · simp only [List.all_eq_true]
    intro yp _ xp _
    exact rrAt_isSome hv xp yp

theorem visits_render {s : Shape K} (hv : s.Valid) :
    (render s >>= fun m => visits m 0) =
      .ok (Spec.visible (opacityAt s) (window s).x0 (window s).x1 (window s).y0 (window s).y1) := by
  rw [render_eq hv]
  obtain ⟨a, b, c, d⟩ := window_bounds s
  exact visits_encode (opacityAt s) (window s) a b c d

theorem window_width {s : Shape K} (h : s.radius < 3) :
    (window s).x1 - (window s).x0 ≤ 8 ∧ (window s).y1 - (window s).y0 ≤ 8 := by
  have key : ∀ c : K, ⌊c + (s.radius + 1)⌋ - ⌊c - (s.radius + 1)⌋ ≤ 8 := by
    intro c
    have h1 : ((⌊c + (s.radius + 1)⌋ : Int) : K) ≤ c + (s.radius + 1) := Int.floor_le _
    have h2 : c - (s.radius + 1) < (⌊c - (s.radius + 1)⌋ : K) + 1 := Int.lt_floor_add_one _
    have : ((⌊c + (s.radius + 1)⌋ - ⌊c - (s.radius + 1)⌋ : Int) : K) < ((9 : Int) : K) := by
      push_cast; linarith
    have := Int.cast_lt.mp this
    omega
  unfold window
  simp only
  have k1 := key s.x
  have k2 := key s.y
  constructor
  · have a := min_le_left ⌊s.x + (s.radius + 1)⌋ (tileSize - 1)
    have b := le_max_left ⌊s.x - (s.radius + 1)⌋ 0
    omega
  · have a := min_le_left ⌊s.y + (s.radius + 1)⌋ (tileSize - 1)
    have b := le_max_left ⌊s.y - (s.radius + 1)⌋ 0
    omega

theorem render_length {s : Shape K} (hv : s.Valid) :
    ∃ m, render s = .ok m ∧ m.length ≤ 4162 := by
  refine ⟨_, render_eq hv, ?_⟩
  obtain ⟨a, b, c, d⟩ := window_bounds s
  by_cases h : s.radius < 3
  · obtain ⟨h1, h2⟩ := window_width h
    have := encode_length_small (opacityAt s) (window s) h1 h2
    omega
  · have e : opacityAt s = fun xp yp => opaU16 s (rrPlain s xp yp) := by
      funext xp yp
      unfold opacityAt rrAt
      simp only [h, if_false]
    rw [e]
    exact encode_length_convex (plain_rowsConvex hv) _ a b c d

/-- Membership in the list of visited pixels, in canvas coordinates. -/
theorem mem_visible_inTile {s : Shape K} (hv : s.Valid) (tx ty : Int) (pos o : Nat) :
    (pos, o) ∈ Spec.visible (opacityAt (s.inTile tx ty)) (window (s.inTile tx ty)).x0
        (window (s.inTile tx ty)).x1 (window (s.inTile tx ty)).y0 (window (s.inTile tx ty)).y1 ↔
      ∃ xp yp : Int, 0 ≤ xp ∧ xp < 64 ∧ 0 ≤ yp ∧ yp < 64 ∧ pos = (4 * (64 * yp + xp)).toNat ∧
        o = opacityAt s (64 * tx + xp) (64 * ty + yp) ∧ o ≠ 0 := by
  have hvt := hv.inTile tx ty
  simp only [Spec.visible, List.mem_flatMap, List.mem_filterMap, mem_cRange]
  obtain ⟨a, b, c, d⟩ := window_bounds (s.inTile tx ty)
  constructor
  · rintro ⟨yp, ⟨hy0, hy1⟩, xp, ⟨hx0, hx1⟩, h⟩
    by_cases ho : opacityAt (s.inTile tx ty) xp yp = 0
    · simp [ho] at h
    · simp only [ho, if_false, Option.some.injEq, Prod.mk.injEq] at h
      refine ⟨xp, yp, by omega, by omega, by omega, by omega, h.1.symm, ?_, ?_⟩
      · rw [← h.2, opacityAt_inTile]
      · rw [← h.2]; exact ho
  · rintro ⟨xp, yp, hx0, hx1, hy0, hy1, hp, ho, hne⟩
    have e := opacityAt_inTile s tx ty xp yp
    have hne' : opacityAt (s.inTile tx ty) xp yp ≠ 0 := by rw [e, ← ho]; exact hne
    obtain ⟨p, q, r, t⟩ := opacityAt_support hvt hne'
    refine ⟨yp, ⟨?_, ?_⟩, xp, ⟨?_, ?_⟩, ?_⟩
    · unfold window; exact max_le r (by omega)
    · have : yp ≤ (window (s.inTile tx ty)).y1 := by
        unfold window; exact le_min t (by simp only [tileSize]; omega)
      omega
    · unfold window; exact max_le p (by omega)
    · have : xp ≤ (window (s.inTile tx ty)).x1 := by
        unfold window; exact le_min q (by simp only [tileSize]; omega)
      omega
    · simp only [hne', if_false, Option.some.injEq, Prod.mk.injEq]
      exact ⟨hp.symm, by rw [ho, e]⟩

end Verif.Mask
