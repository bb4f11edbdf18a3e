import Verif.Lemmas.Rectangle

/-!
# C10: dirty rectangles grow to the smallest enclosing rectangle
-/

namespace Verif.Rect

open Spec.Rect

/-- **C10, points.**  Expanding a rectangle by a point gives the smallest rectangle that contains both,
and the result is never empty. -/
theorem expandPoint_is_hull (r : Rect) (x y : Int) (h : Proper r) :
    IsHull (r.expandPoint x y) r (fun px py => px = x ∧ py = y) ∧
      1 ≤ (r.expandPoint x y).width ∧ 1 ≤ (r.expandPoint x y).height := by
  refine ⟨?_, expandPoint_width r x y h⟩
  by_cases h0 : r.width = 0
  · have he : r.expandPoint x y = ⟨x, y, 1, 1⟩ := by simp [expandPoint, h0]
    rw [he]
    refine ⟨fun px py hp => absurd hp (not_has_empty h0 px py), ?_, ?_⟩
    · rintro px py ⟨rfl, rfl⟩; unfold Has; simp only; omega
    · intro r' _ hp px py hh
      have : px = x ∧ py = y := by unfold Has at hh; simp only at hh; omega
      exact hp px py this
  · have h1 : 1 ≤ r.width ∧ 1 ≤ r.height := by unfold Proper at h; omega
    obtain ⟨ex, ey, ew, eh⟩ := expandPoint_edges x y h1
    have hw := expandPoint_width r x y h
    refine ⟨?_, ?_, ?_⟩
    · rw [sub_iff h1]; omega
    · rintro px py ⟨rfl, rfl⟩; unfold Has; omega
    · intro r' hr hp
      rw [sub_iff h1] at hr
      have := hp x y ⟨rfl, rfl⟩
      unfold Has at this
      rw [sub_iff hw]; omega

example : Proper ⟨0, 0, 0, 0⟩ ∧ Proper ⟨-3, 7, 2, 5⟩ := by decide

/-- **C10, many points.**  Expanding the empty rectangle by any non-empty list of points gives the
bounding box of the points: the smallest rectangle containing all of them, whatever their order. -/
theorem expand_points_is_bounding_box (ps : List (Int × Int)) (hps : ps ≠ []) :
    IsHull (ps.foldl (fun r p => r.expandPoint p.1 p.2) zero) zero
      (fun px py => (px, py) ∈ ps) := by
  have key : ∀ (ps : List (Int × Int)) (r : Rect), Proper r →
      IsHull (ps.foldl (fun r p => r.expandPoint p.1 p.2) r) r (fun px py => (px, py) ∈ ps) := by
    intro ps
    induction ps with
    | nil =>
      intro r _
      exact ⟨fun _ _ h => h, fun _ _ h => by simp at h, fun _ h _ => h⟩
    | cons p ps ih =>
      intro r hr
      obtain ⟨⟨h1, h2, h3⟩, hw⟩ := expandPoint_is_hull r p.1 p.2 hr
      obtain ⟨g1, g2, g3⟩ := ih (r.expandPoint p.1 p.2) (Or.inr hw)
      refine ⟨fun px py h => g1 px py (h1 px py h), ?_, ?_⟩
      · intro px py h
        simp only [List.mem_cons] at h
        rcases h with h | h
        · apply g1; apply h2; simp [← h]
        · exact g2 px py h
      · intro r' hsub hall
        apply g3 r'
        · apply h3 r' hsub
          rintro px py ⟨rfl, rfl⟩
          exact hall _ _ (by simp)
        · intro px py h; exact hall px py (by simp [h])
  exact key ps zero (Or.inl rfl)

/-- **C10, rectangles.**  Expanding by a non-empty rectangle gives the smallest rectangle that contains
both. -/
theorem expandRect_is_hull (r other : Rect) (h : Proper r)
    (ho : 1 ≤ other.width ∧ 1 ≤ other.height) :
    IsHull (r.expandRect other) r (Has other) ∧
      1 ≤ (r.expandRect other).width ∧ 1 ≤ (r.expandRect other).height := by
  obtain ⟨⟨a1, a2, a3⟩, aw⟩ := expandPoint_is_hull r other.x other.y h
  obtain ⟨⟨b1, b2, b3⟩, bw⟩ := expandPoint_is_hull (r.expandPoint other.x other.y)
    (other.x + other.width - 1) (other.y + other.height - 1) (Or.inr aw)
  refine ⟨⟨fun px py hp => b1 _ _ (a1 _ _ hp), ?_, ?_⟩, bw⟩
  · have hc1 := b1 _ _ (a2 other.x other.y ⟨rfl, rfl⟩)
    have hc2 := b2 (other.x + other.width - 1) (other.y + other.height - 1) ⟨rfl, rfl⟩
    intro px py hp
    unfold expandRect
    unfold Has at *; omega
  · intro r' hr hall
    apply b3
    · apply a3 r' hr
      rintro px py ⟨rfl, rfl⟩
      exact hall _ _ (by unfold Has; omega)
    · rintro px py ⟨rfl, rfl⟩
      exact hall _ _ (by unfold Has; omega)

example : expandRect ⟨0, 0, 2, 2⟩ ⟨-5, 3, 1, 4⟩ = ⟨-5, 0, 7, 7⟩ := by decide

/-- Remark: an empty second rectangle is *not* neutral; the pixels `(-1,-1)` and `(0,0)` are added.
(Harmless where it occurs: the reported region only becomes larger.) -/
theorem expandRect_empty_not_neutral :
    expandRect ⟨10, 10, 1, 1⟩ zero = ⟨-1, -1, 12, 12⟩ := by decide

end Verif.Rect
