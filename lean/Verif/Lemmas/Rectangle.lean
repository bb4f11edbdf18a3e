import Verif.Spec.Rectangle

/-! Helper lemmas for rectangles. -/

namespace Verif.Rect

open Spec.Rect

theorem not_has_empty {r : Rect} (h : r.width = 0) (px py : Int) : ¬ Has r px py := by
  unfold Has; omega

/-- The corners decide inclusion. -/
theorem sub_iff {r r' : Rect} (h : 1 ≤ r.width ∧ 1 ≤ r.height) :
    Sub r r' ↔ (r'.x ≤ r.x ∧ r.x + r.width ≤ r'.x + r'.width ∧
      r'.y ≤ r.y ∧ r.y + r.height ≤ r'.y + r'.height) := by
  constructor
  · intro hs
    have h1 := hs r.x r.y (by unfold Has; omega)
    have h2 := hs (r.x + r.width - 1) (r.y + r.height - 1) (by unfold Has; omega)
    unfold Has at h1 h2; omega
  · intro hb px py hp
    unfold Has at *; omega

theorem expandPoint_width (r : Rect) (x y : Int) (h : Proper r) :
    1 ≤ (r.expandPoint x y).width ∧ 1 ≤ (r.expandPoint x y).height := by
  unfold Proper at h
  unfold expandPoint
  by_cases h0 : r.width = 0
  · simp [h0]
  · rw [if_neg h0]
    by_cases h1 : x < r.x <;> by_cases h2 : x ≥ r.x + r.width <;> by_cases h3 : y < r.y <;>
      by_cases h4 : y ≥ r.y + r.height <;> simp only [h1, h2, h3, h4, if_true, if_false] <;> omega

/-- Edges of the expansion of a non-empty rectangle. -/
theorem expandPoint_edges {r : Rect} (x y : Int) (h : 1 ≤ r.width ∧ 1 ≤ r.height) :
    let e := r.expandPoint x y
    e.x = min r.x x ∧ e.y = min r.y y ∧ e.x + e.width = max (r.x + r.width) (x + 1) ∧
      e.y + e.height = max (r.y + r.height) (y + 1) := by
  have hne : r.width ≠ 0 := by omega
  simp only [expandPoint, if_neg hne]
  by_cases h1 : x < r.x <;> by_cases h2 : x ≥ r.x + r.width <;> by_cases h3 : y < r.y <;>
    by_cases h4 : y ≥ r.y + r.height <;> simp only [h1, h2, h3, h4, if_true, if_false] <;> omega

end Verif.Rect
