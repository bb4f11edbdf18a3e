import Verif.Model.Basic

/-!
# What a dab mask means, independently of the run-length encoding
-/

namespace Verif.Mask.Spec

/-- The pixels of the window `x0..x1 × y0..y1` with non-zero opacity, row by row, as
(offset of the pixel's first channel in the tile, opacity). A tile is 64 rows of 64 pixels of four
16 bit channels. -/
def visible (opa : Int → Int → Nat) (x0 x1 y0 y1 : Int) : List (Nat × Nat) :=
  (cRange y0 (y1 + 1)).flatMap fun y =>
    (cRange x0 (x1 + 1)).filterMap fun x =>
      if opa x y = 0 then none else some ((4 * (64 * y + x)).toNat, opa x y)

/-- In every row the visible pixels are consecutive. -/
def RowsConvex (opa : Int → Int → Nat) : Prop :=
  ∀ y a b c, a ≤ b → b ≤ c → opa a y ≠ 0 → opa c y ≠ 0 → opa b y ≠ 0

/-- Number of 16 bit entries of the mask buffer (`/repo/mypaint-tiled-surface.c` line 583). -/
def bufferSize : Nat := 64 * 64 + 2 * 64

end Verif.Mask.Spec
