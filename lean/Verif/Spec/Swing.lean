import Verif.Model.Painting
import Verif.Spec.Slide
import Verif.Lemmas.EngineSafe

/-!
# Specification for C111: the same stroke in a turned view
-/

namespace Verif.Engine
open Verif.Map Verif.Color Verif.Mask

section
variable {K R σ : Type} [Field K]

/-- A point turned about the origin; `c` and `s` are the cosine and the sine of the angle. -/
def swingX (c s x y : K) : K := c * x - s * y

def swingY (c s x y : K) : K := s * x + c * y

/-- The same motion turned on the canvas, in a view that is turned back by the same angle (`r`, in radians): the movement and the
tilt of the pen on the screen stay what they are. -/
def Motion.swing (c s r : K) (m : Motion K) : Motion K :=
  match m.x, m.y with
  | .fin x, .fin y => { m with x := .fin (swingX c s x y), y := .fin (swingY c s x y), viewrotation := m.viewrotation - r }
  | _, _ => { m with viewrotation := m.viewrotation - r }

variable [LinearOrder K] [FloorRing K]

/-- An angle of a dab, from -180 to 0 as the engine gives it, turned by `a`. -/
def swingAngle (a t : K) : K := modArith (t + a + 180) 180 - 180

/-- The same dab, turned. -/
def swingDab (c s a : K) (d : Dab.Args K) : Dab.Args K :=
  { d with x := swingX c s d.x d.y, y := swingY c s d.x d.y, angle := swingAngle a d.angle }

/-- The same brush, turned: its place, and the directions it remembers. -/
def swingBrush (c s a : K) (b : Brush K R) : Brush K R :=
  { b with st := { b.st with
      x := swingX c s b.st.x b.st.y, y := swingY c s b.st.x b.st.y
      actualX := swingX c s b.st.actualX b.st.actualY, actualY := swingY c s b.st.actualX b.st.actualY
      normDxSlow := swingX c s b.st.normDxSlow b.st.normDySlow, normDySlow := swingY c s b.st.normDxSlow b.st.normDySlow
      directionDx := swingX c s b.st.directionDx b.st.directionDy, directionDy := swingY c s b.st.directionDx b.st.directionDy
      directionAngleDx := swingX c s b.st.directionAngleDx b.st.directionAngleDy
      directionAngleDy := swingY c s b.st.directionAngleDx b.st.directionAngleDy
      angle := swingAngle a b.st.angle } }

/-- The second brush is the first one, turned, up to the angles of the last dab and of the last view, the grid map, the clocks for
splitting strokes, and the values of the settings, which every step computes anew. -/
def Swung (c s a : K) (b b' : Brush K R) : Prop :=
  ∃ gx gy angle view idle total vals, b' = { swingBrush c s a b with
    st := { (swingBrush c s a b).st with gridmapX := gx, gridmapY := gy, angle := angle, viewrotation := view }
    idle := idle, total := total, vals := vals }

/-- The inputs that depend on directions on the canvas, or on the place. -/
def swingInputs : List Nat := [iDirection, iDirectionAngle, iAttackAngle, iTiltAscension, iGridmapX, iGridmapY]

/-- The laws of sine and cosine, in degrees, and the turn of the view by `r` radians, which are `a` degrees. -/
structure SwingLaws (e : Env K R σ) (a r : K) : Prop where
  cos_add : ∀ t u, e.cos (t + u) = e.cos t * e.cos u - e.sin t * e.sin u
  sin_add : ∀ t u, e.sin (t + u) = e.sin t * e.cos u + e.cos t * e.sin u
  half : e.cos 180 = -1 ∧ e.sin 180 = 0
  degrees : ∀ t, e.degrees (t - r) = e.degrees t - a

/-- The sum of the offsets of a dab that follow the view or the tilt, in radii. -/
def swingSum (v : Nat → K) : K :=
  |v sOffsetAngleAsc| + |v sOffsetAngleView| + maxC 0 (v sOffsetAngle2Asc) + maxC 0 (v sOffsetAngle2View)

/-- A brush that turns with the view: no setting has a curve for an input that depends on directions on the canvas, it picks no
colours up, has no offsets along the axes of the canvas or along its own direction, does not scatter, does not snap to pixels
and has no tracking noise; the limit for offsets does not matter. -/
structure Swinging (e : Env K R σ) (s : Load.Brush K) : Prop where
  inputs : ∀ id, ∀ k ∈ swingInputs, ((s id).pts k).n = 0
  samples : NeverSamples s
  axes : ∀ i, calculate (s sOffsetX) i = 0 ∧ calculate (s sOffsetY) i = 0
  ahead : ∀ i, calculate (s sOffsetAngle) i = 0 ∧ calculate (s sOffsetAngle2) i ≤ 0
  offsets : ∀ i, swingSum (fun id => calculate (s id) i) * (e.exp (s sRadiusLogarithmic).base *
    e.exp (calculate (s sOffsetMultiplier) i)) ≤ 3240
  scatter : ∀ i, calculate (s sOffsetByRandom) i ≤ 0
  free : ∀ i, calculate (s sSnapToPixel) i ≤ 0
  steady : (s sTrackingNoise).base = 0

end
end Verif.Engine
