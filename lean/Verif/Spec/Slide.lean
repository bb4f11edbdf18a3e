import Verif.Model.Painting
import Verif.Props.C11_Dab

/-!
# Specification for C80: the same stroke somewhere else
-/

namespace Verif.Engine
open Verif.Map

section
variable {K R : Type} [Field K]

/-- A coordinate moved by `u`. -/
def Flt.slide (u : K) : Flt K → Flt K
  | .fin v => .fin (v + u)
  | f => f

/-- The same motion `u` pixels to the right and `w` pixels down. -/
def Motion.slide (u w : K) (m : Motion K) : Motion K := { m with x := m.x.slide u, y := m.y.slide w }

/-- The same dab `u` pixels to the right and `w` pixels down. -/
def slideDab (u w : K) (a : Dab.Args K) : Dab.Args K := { a with x := a.x + u, y := a.y + w }

variable [LinearOrder K]

/-- The same brush at a place `u` pixels to the right and `w` pixels down. The grid map may differ, and so may the place
where skipping started if no distance is being skipped. -/
def Elsewhere (u w : K) (b b' : Brush K R) : Prop :=
  ∃ gx gy sx sy, b' = { b with
    st := { b.st with x := b.st.x + u, y := b.st.y + w, actualX := b.st.actualX + u, actualY := b.st.actualY + w
                      gridmapX := gx, gridmapY := gy }
    skipX := sx, skipY := sy } ∧ (b.skip > 1 / 1000 → sx = b.skipX + u ∧ sy = b.skipY + w)

/-- A brush whose next event starts a new stroke, at the pointer: as new or after `mypaint_brush_reset`, nothing being
skipped, without slow tracking. -/
structure Fresh (b : Brush K R) : Prop where
  reset : b.resetRequested = true
  skip : b.skip = 0
  tracking : b.baseval sSlowTracking ≤ 1 / 1000

/-- A coordinate the code accepts. -/
def Flt.Near : Flt K → Prop
  | .fin v => |v| < 10 ^ 8
  | _ => False

/-- A motion to a place the code accepts. -/
def Motion.Near (m : Motion K) : Prop := m.x.Near ∧ m.y.Near

/-- No setting depends on the grid map. -/
def NoGridmap (settings : Load.Brush K) : Prop :=
  ∀ id i j, (∀ k, k ≠ iGridmapX → k ≠ iGridmapY → i k = j k) → calculate (settings id) i = calculate (settings id) j

end
end Verif.Engine

namespace Verif.Painting
open Verif.Dab

/-- The second picture is the first one `u` pixels to the right and `w` pixels down, as far as both are defined. -/
def SamePicture (u w : Int) (c c' : Canvas) : Prop :=
  ∀ X Y p p', pixel c X Y = .ok p → pixel c' (X + u) (Y + w) = .ok p' → p' = p

/-- The same block of motion events `u` pixels to the right and `w` pixels down; no change of the symmetry setting. The
order in which tiles are processed and which allocations succeed may differ. -/
structure SameBlock {K : Type} [Field K] (u w : Int) (bl bl' : Block K) : Prop where
  plain : bl.symmetry = none
  plain' : bl'.symmetry = none
  motions : bl'.motions = bl.motions.map (Engine.Motion.slide (u : K) (w : K))

end Verif.Painting
