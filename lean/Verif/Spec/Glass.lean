import Verif.Model.Painting
import Verif.Spec.Swing
import Verif.Lemmas.EngineSafe

/-!
# Specification for C113: a stroke in the looking glass
-/

namespace Verif.Engine
open Verif.Map Verif.Color Verif.Mask

section
variable {K R σ : Type} [Field K]

/-- The same motion mirrored at the upright line x = n/2, in a mirrored view. -/
def Motion.glass (n : K) (m : Motion K) : Motion K :=
  match m.x with
  | .fin x => { m with x := .fin (n - x), viewrotation := -m.viewrotation }
  | _ => { m with viewrotation := -m.viewrotation }

/-- A setting with the opposite value: base value and curves negated. -/
def glassMap (m : Mapping K) : Mapping K :=
  { m with base := -m.base, pts := fun k => { m.pts k with ys := fun i => -(m.pts k).ys i } }

/-- The settings of the mirrored brush: the angle of elongated dabs and the offset to the right are negated. -/
def glassSettings (s : Load.Brush K) : Load.Brush K :=
  fun id => if id = sEllipticalDabAngle ∨ id = sOffsetX then glassMap (s id) else s id

variable [LinearOrder K] [FloorRing K]

/-- The mirror image of an angle, from -180 to 0 as the engine gives it. -/
def glassAngle (t : K) : K := modArith (180 - t) 180 - 180

/-- The mirror image of a dab. -/
def glassDab (n : K) (d : Dab.Args K) : Dab.Args K := { d with x := n - d.x, angle := glassAngle d.angle }

/-- The mirror image of a brush: its settings, its place, and the directions it remembers. -/
def glassBrush (n : K) (b : Brush K R) : Brush K R :=
  { b with
    settings := glassSettings b.settings
    st := { b.st with
      x := n - b.st.x, actualX := n - b.st.actualX, normDxSlow := -b.st.normDxSlow, directionDx := -b.st.directionDx
      directionAngleDx := -b.st.directionAngleDx, angle := glassAngle b.st.angle } }

/-- The second brush is the mirror image of the first one, up to the angles of the last dab and of the last view, the grid map, the
clocks for splitting strokes, and the values of the settings, which every step computes anew. -/
def InGlass (n : K) (b b' : Brush K R) : Prop :=
  ∃ gx gy angle view idle total vals, b' = { glassBrush n b with
    st := { (glassBrush n b).st with gridmapX := gx, gridmapY := gy, angle := angle, viewrotation := view }
    idle := idle, total := total, vals := vals }

/-- The laws of sine and cosine, in degrees, that mirroring rests on. -/
structure GlassLaws (e : Env K R σ) : Prop where
  cos_neg : ∀ t, e.cos (-t) = e.cos t
  sin_neg : ∀ t, e.sin (-t) = -e.sin t
  half : ∀ t, e.cos (t + 180) = -e.cos t ∧ e.sin (t + 180) = -e.sin t
  degrees : ∀ t, e.degrees (-t) = -e.degrees t

/-- A brush that can be mirrored: no setting has a curve for an input that depends on directions on the canvas, it picks no colours
up, has no offsets along angles, does not scatter, does not snap to pixels and has no tracking noise. -/
structure Mirrorable (s : Load.Brush K) : Prop where
  inputs : ∀ id, ∀ k ∈ swingInputs, ((s id).pts k).n = 0
  samples : NeverSamples s
  angles : ∀ i, calculate (s sOffsetAngle) i = 0 ∧ calculate (s sOffsetAngleAsc) i = 0 ∧ calculate (s sOffsetAngleView) i = 0
  mirrored : ∀ i, calculate (s sOffsetAngle2) i ≤ 0 ∧ calculate (s sOffsetAngle2Asc) i ≤ 0 ∧ calculate (s sOffsetAngle2View) i ≤ 0
  scatter : ∀ i, calculate (s sOffsetByRandom) i ≤ 0
  free : ∀ i, calculate (s sSnapToPixel) i ≤ 0
  steady : (s sTrackingNoise).base = 0

end
end Verif.Engine
