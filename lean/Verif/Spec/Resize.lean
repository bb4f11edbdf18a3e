import Verif.Model.Painting
import Verif.Spec.Slide
import Verif.Lemmas.EngineSafe

/-!
# Specification for C110: the same stroke at another size
-/

namespace Verif.Engine
open Verif.Map Verif.Color Verif.Mask

section
variable {K R σ : Type} [Field K]

/-- A coordinate `c` times as far out. -/
def Flt.resize (c : K) : Flt K → Flt K
  | .fin v => .fin (c * v)
  | f => f

/-- The same motion `c` times as large, in a view that is zoomed out by the same factor. -/
def Motion.resize (c : K) (m : Motion K) : Motion K :=
  { m with x := m.x.resize c, y := m.y.resize c, viewzoom := m.viewzoom / c }

/-- The same dab `c` times as large. -/
def resizeDab (c : K) (a : Dab.Args K) : Dab.Args K := { a with x := c * a.x, y := c * a.y, radius := c * a.radius }

/-- The same settings, with `d` added to the logarithm of the radius. -/
def resizeSettings (d : K) (s : Load.Brush K) : Load.Brush K :=
  fun id => if id = sRadiusLogarithmic then { s id with base := (s id).base + d } else s id

/-- The same brush with another radius, at a place `c` times as far out. -/
def resizeBrush (c d : K) (b : Brush K R) : Brush K R :=
  { b with
    settings := resizeSettings d b.settings
    st := { b.st with
      x := c * b.st.x, y := c * b.st.y, actualX := c * b.st.actualX, actualY := c * b.st.actualY
      actualRadius := c * b.st.actualRadius, viewzoom := b.st.viewzoom / c } }

/-- The second brush is the first one with another radius, at a place `c` times as far out, up to the grid map, the clocks for
splitting strokes, and the values of the settings, which every step computes anew. -/
def Resized (c d : K) (b b' : Brush K R) : Prop :=
  ∃ gx gy idle total vals, b' = { resizeBrush c d b with
    st := { (resizeBrush c d b).st with gridmapX := gx, gridmapY := gy }, idle := idle, total := total, vals := vals }

/-- The inputs that depend on the size: the place on the grid, the zoom, and the radius itself. -/
def sizeInputs : List Nat := [iGridmapX, iGridmapY, iViewzoom, iBrushRadius]

variable [LinearOrder K]

/-- The engine limits the radius; at both sizes the radius is within the limits. -/
def BothFit (c r : K) : Prop := (1 / 5 ≤ r ∧ r ≤ 1000) ∧ (1 / 5 ≤ c * r ∧ c * r ≤ 1000)

/-- Anti-aliasing acts on edges narrower than `fadeout`; at both sizes the edge of the dab is not. -/
def BothSmooth (c fadeout hardness r : K) : Prop := fadeout ≤ r * (1 - hardness) ∧ fadeout ≤ c * r * (1 - hardness)

/-- The sum of the offsets of a dab, in radii. -/
def offsetSum (v : Nat → K) : K :=
  |v sOffsetX| + |v sOffsetY| + |v sOffsetAngle| + |v sOffsetAngleAsc| + |v sOffsetAngleView| +
    maxC 0 (v sOffsetAngle2) + maxC 0 (v sOffsetAngle2Asc) + maxC 0 (v sOffsetAngle2View)

/-- A brush that can be resized: no setting has a curve for an input that depends on the size, it picks no colours up, the
limits for the radius and for offsets do not matter, and neither does anti-aliasing; snapping to pixels and tracking noise are
off. -/
structure Resizable (e : Env K R σ) (c : K) (s : Load.Brush K) : Prop where
  inputs : ∀ id, ∀ k ∈ sizeInputs, ((s id).pts k).n = 0
  samples : NeverSamples s
  base : BothFit c (e.exp (s sRadiusLogarithmic).base)
  radius : ∀ i, let r := e.exp (calculate (s sRadiusLogarithmic) i)
    BothFit c r ∧ BothSmooth c (calculate (s sAntiAliasing) i) (clampK (calculate (s sHardness) i) 0 1) r
  random : ∀ i g, calculate (s sRadiusByRandom) i ≠ 0 →
    let r := e.exp (calculate (s sRadiusLogarithmic) i + (e.gauss g).1 * calculate (s sRadiusByRandom) i)
    BothFit c r ∧ BothSmooth c (calculate (s sAntiAliasing) i) (clampK (calculate (s sHardness) i) 0 1) r
  offsets : ∀ i, let far := offsetSum (fun id => calculate (s id) i) * (e.exp (s sRadiusLogarithmic).base *
    e.exp (calculate (s sOffsetMultiplier) i)); far ≤ 3240 ∧ c * far ≤ 3240
  free : ∀ i, calculate (s sSnapToPixel) i ≤ 0
  steady : (s sTrackingNoise).base = 0

end
end Verif.Engine
