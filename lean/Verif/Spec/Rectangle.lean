import Verif.Model.Rectangle

/-!
# Specification of rectangles: sets of pixels
-/

namespace Verif.Spec.Rect

open Verif

/-- Pixel `(px, py)` lies in the rectangle. -/
def Has (r : Rect) (px py : Int) : Prop :=
  r.x ≤ px ∧ px < r.x + r.width ∧ r.y ≤ py ∧ py < r.y + r.height

instance (r : Rect) (px py : Int) : Decidable (Has r px py) := by unfold Has; infer_instance

/-- Every pixel of `r` is a pixel of `r'`. -/
def Sub (r r' : Rect) : Prop := ∀ px py, Has r px py → Has r' px py

/-- A rectangle as the library produces it: empty (width 0) or with at least one pixel. -/
def Proper (r : Rect) : Prop := r.width = 0 ∨ (1 ≤ r.width ∧ 1 ≤ r.height)

instance (r : Rect) : Decidable (Proper r) := by unfold Proper; infer_instance

/-- `h` is the smallest rectangle whose pixels include those of `r` and satisfy `P`. -/
def IsHull (h r : Rect) (P : Int → Int → Prop) : Prop :=
  Sub r h ∧ (∀ px py, P px py → Has h px py) ∧
  ∀ r', Sub r r' → (∀ px py, P px py → Has r' px py) → Sub h r'

end Verif.Spec.Rect
