import Verif.Lemmas.MaskRender
import Mathlib.Algebra.Order.Ring.Rat
import Mathlib.Data.Rat.Floor
import Mathlib.Tactic.NormNum

/-!
# C13, C14, C15: the dab mask
-/

namespace Verif.Mask

/-! ## C13 The run-length mask loses nothing -/

/-- For every opacity function and every window inside the tile, decoding the compressed mask the
way the blend modes do visits exactly the pixels with non-zero opacity, once each, in row order,
at their own offset and with their own opacity, and stops without reading past the mask. -/
theorem mask_round_trip (opa : Int → Int → Nat) (w : Window)
    (hx0 : 0 ≤ w.x0) (hx1 : w.x1 ≤ 63) (hy0 : 0 ≤ w.y0) (hy1 : w.y1 ≤ 63) :
    visits (encode opa w) 0 = .ok (Spec.visible opa w.x0 w.x1 w.y0 w.y1) :=
  visits_encode opa w hx0 hx1 hy0 hy1

/-- Every visited pixel lies inside the tile buffer of 64·64·4 channels. -/
theorem mask_visits_inside_tile (opa : Int → Int → Nat) (w : Window)
    (hx0 : 0 ≤ w.x0) (hx1 : w.x1 ≤ 63) (hy0 : 0 ≤ w.y0) (hy1 : w.y1 ≤ 63)
    (l : List (Nat × Nat)) (h : visits (encode opa w) 0 = .ok l) :
    ∀ v ∈ l, v.1 % 4 = 0 ∧ v.1 + 3 < 64 * 64 * 4 := by
  rw [mask_round_trip opa w hx0 hx1 hy0 hy1] at h
  injection h with h
  subst h
  rintro ⟨pos, o⟩ hv
  simp only [Spec.visible, List.mem_flatMap, List.mem_filterMap, mem_cRange] at hv
  obtain ⟨y, ⟨_, _⟩, x, ⟨_, _⟩, hv⟩ := hv
  by_cases ho : opa x y = 0
  · simp [ho] at hv
  · simp only [ho, if_false, Option.some.injEq, Prod.mk.injEq] at hv
    obtain ⟨rfl, _⟩ := hv
    exact ⟨by simp only; omega, by simp only; omega⟩

/-- A small mask by hand: two pixels in row 1 and one in row 2. -/
example : encode (fun x y => if y = 1 ∧ (x = 2 ∨ x = 3) then 7 else if y = 2 ∧ x = 3 then 9 else 0)
    ⟨2, 4, 1, 3⟩ = [0, 264, 7, 7, 0, 252, 9, 0, 0] := by decide +kernel
example : visits [0, 264, 7, 7, 0, 252, 9, 0, 0] 0 = .ok [(264, 7), (268, 7), (524, 9)] := by
  decide +kernel

section
variable {K : Type} [Field K] [LinearOrder K] [IsStrictOrderedRing K] [FloorRing K]

/-- For an actual dab: rendering the mask of a dab for tile (tx, ty) never fails, and decoding it
visits exactly the pixels of the tile where the dab, seen as a function on the whole canvas, has
non-zero opacity. -/
theorem dab_mask_exact (s : Shape K) (hv : s.Valid) (tx ty : Int) :
    ∃ m l, render (s.inTile tx ty) = .ok m ∧ visits m 0 = .ok l ∧
      (∀ pos o, (pos, o) ∈ l ↔ ∃ xp yp : Int, 0 ≤ xp ∧ xp < 64 ∧ 0 ≤ yp ∧ yp < 64 ∧
        pos = (4 * (64 * yp + xp)).toNat ∧
        o = opacityAt s (64 * tx + xp) (64 * ty + yp) ∧ o ≠ 0) := by
  refine ⟨_, _, render_eq (hv.inTile tx ty), ?_, mem_visible_inTile hv tx ty⟩
  obtain ⟨a, b, c, d⟩ := window_bounds (s.inTile tx ty)
  exact visits_encode _ _ a b c d

/-! ## C14 The mask buffer is never overrun -/

/-- The mask written for any dab, in any tile, fits into the buffer (with room to spare). -/
theorem mask_fits (s : Shape K) (hv : s.Valid) (tx ty : Int) :
    ∃ m, render (s.inTile tx ty) = .ok m ∧ m.length ≤ Spec.bufferSize := by
  obtain ⟨m, h1, h2⟩ := render_length (hv.inTile tx ty)
  exact ⟨m, h1, by unfold Spec.bufferSize; omega⟩

end

/-- The bound rests on the shape of dabs: an opacity function that switches on and off at every
pixel would overrun the buffer. -/
theorem mask_of_checkerboard_overruns :
    Spec.bufferSize < (encode (fun x _ => if x % 2 = 0 then 1 else 0) ⟨0, 63, 0, 63⟩).length := by
  rw [checkerboard_length]
  decide

/-- A dab meeting `Valid`: radius 20, hardness 1/2, aspect 2, turned by the 3-4-5 angle. -/
def sampleShape : Shape ℚ :=
  { x := 30, y := 65 / 2, radius := 20, hardness := 1 / 2, softness := 0, aspect := 2,
    sn := 3 / 5, cs := 4 / 5, rad1 := 141 / 250 }

example : sampleShape.Valid := by
  constructor <;> norm_num [sampleShape]

example : opacityAt sampleShape 31 33 = 32499 := by decide +kernel
example : opacityAt sampleShape 11 33 = 0 := by decide +kernel

/-! ## C15 Dab opacity falls off smoothly -/

section
variable {K : Type} [Field K] [LinearOrder K] [IsStrictOrderedRing K]

/-- The straight line through (x0, y0) and (x1, y1). -/
def Spec.line (x0 y0 x1 y1 r : K) : K := y0 + (y1 - y0) * ((r - x0) / (x1 - x0))

/-- Opacity as a function of `rr` (squared distance over squared radius): two straight lines,
from (0, 1-softness) to (hardness, hardness·(1-softness)) to (1, 0). Both lines include the
boundary `rr = hardness`, so there is no jump there. -/
theorem opacity_profile (h s : K) (h0 : 0 < h) (h1 : h < 1) (rr : K) :
    (rr ≤ h → opaOf h s rr = Spec.line 0 (1 - s) h (h * (1 - s)) rr) ∧
    (h ≤ rr → rr ≤ 1 → opaOf h s rr = Spec.line h (h * (1 - s)) 1 0 rr) ∧
    (1 ≤ rr → opaOf h s rr = 0) := by
  have hl : (1 : K) - h ≠ 0 := (sub_pos.mpr h1).ne'
  have e2 : h ≤ rr → rr ≤ 1 → opaOf h s rr = Spec.line h (h * (1 - s)) 1 0 rr := by
    intro a b
    rcases eq_or_lt_of_le a with a | a
    · subst a
      rw [opaOf_le_hard h0 h1.le (le_refl _)]
      unfold Spec.line
      field_simp
      ring
    · rw [opaOf_gt_hard a b]
      unfold Spec.line
      field_simp
      ring
  refine ⟨?_, e2, ?_⟩
  · intro a
    rw [opaOf_le_hard h0 h1.le a]
    unfold Spec.line
    rw [sub_zero, sub_zero]
    field_simp
    ring
  · intro a
    rcases eq_or_lt_of_le a with a | a
    · subst a
      rw [e2 h1.le (le_refl _)]
      unfold Spec.line
      field_simp
      ring
    · exact opaOf_gt_one a

/-- With hardness 1 the dab is a disc of constant opacity. -/
theorem opacity_profile_hard (s rr : K) :
    opaOf 1 s rr = if rr ≤ 1 then 1 - s else 0 := by
  split
  · rename_i h
    rw [opaOf_le_hard one_pos (le_refl _) h]; simp
  · rename_i h
    exact opaOf_gt_one (not_le.mp h)

/-- The opacity stays within 0..1-softness and never increases outwards. -/
theorem opa_in_unit_interval (h s : K) (h0 : 0 < h) (h1 : h ≤ 1) (s0 : 0 ≤ s) (s1 : s ≤ 1)
    (r r' : K) (r0 : 0 ≤ r) (hr : r ≤ r') :
    0 ≤ opaOf h s r' ∧ opaOf h s r' ≤ opaOf h s r ∧ opaOf h s r ≤ 1 - s ∧ 1 - s ≤ 1 ∧
      opaOf h s 0 = 1 - s := by
  refine ⟨(opaOf_bounds h0 h1 s0 s1 (r0.trans hr)).1, opaOf_antitone h0 h1 s0 s1 r0 hr,
    (opaOf_bounds h0 h1 s0 s1 r0).2, by linarith, ?_⟩
  rw [opaOf_le_hard h0 h1 h0.le]
  simp

/-- For a dab of radius at least 3, `rr` is the squared distance of the pixel centre from the dab
centre, over the squared radius, after stretching the direction across the dab by the aspect
ratio; so a round dab has equal opacity at equal distances. -/
theorem opacity_distance [FloorRing K] (s : Shape K) (hr : 3 ≤ s.radius) (X Y : Int) :
    let dx := (X : K) + 1 / 2 - s.x
    let dy := (Y : K) + 1 / 2 - s.y
    opacityAt s X Y = opaU16 s
      (((dx * s.cs + dy * s.sn) ^ 2 + (s.aspect * (dy * s.cs - dx * s.sn)) ^ 2) / s.radius ^ 2) ∧
    (s.aspect = 1 → s.sn * s.sn + s.cs * s.cs = 1 →
      opacityAt s X Y = opaU16 s ((dx ^ 2 + dy ^ 2) / s.radius ^ 2)) := by
  intro dx dy
  have e : opacityAt s X Y = opaU16 s (rrPlain s X Y) := by
    unfold opacityAt rrAt
    simp only [not_lt.mpr hr, if_false]
  have e2 : rrPlain s X Y =
      ((dx * s.cs + dy * s.sn) ^ 2 + (s.aspect * (dy * s.cs - dx * s.sn)) ^ 2) / s.radius ^ 2 := by
    rw [rrPlain_eq]
    unfold rSample
    simp only [dx, dy]
    ring
  refine ⟨by rw [e, e2], ?_⟩
  intro ha hc
  rw [e, e2, ha]
  congr 2
  have : (dx * s.cs + dy * s.sn) ^ 2 + (1 * (dy * s.cs - dx * s.sn)) ^ 2 =
      (dx ^ 2 + dy ^ 2) * (s.sn * s.sn + s.cs * s.cs) := by ring
  rw [this, hc, mul_one]

end

example : opaOf (1 / 4 : ℚ) 0 (1 / 8) = 5 / 8 ∧ opaOf (1 / 4 : ℚ) 0 (1 / 2) = 1 / 6 := by
  decide +kernel

end Verif.Mask
