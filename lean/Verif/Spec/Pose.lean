import Verif.Model.Painting

/-!
# Specification for C85: how the pen is held
-/

namespace Verif.Engine
open Verif.Map

section
variable {K R : Type} [Field K] [LinearOrder K]

/-- The inputs that come from the tilt and the rotation of the pen. -/
def poseInputs : List Nat :=
  [iTiltDeclination, iTiltAscension, iAttackAngle, iTiltDeclinationx, iTiltDeclinationy, iBarrelRotation]

/-- A brush that does not use the tilt or the rotation of the pen: no setting has a curve for one of these inputs, and the
two offsets in the direction of the tilt are constants that switch them off. -/
structure IgnoresPose (settings : Load.Brush K) : Prop where
  curves : ∀ id, ∀ k ∈ poseInputs, ((settings id).pts k).n = 0
  offset : isConstant (settings sOffsetAngleAsc) = true ∧ (settings sOffsetAngleAsc).base = 0
  mirrored : isConstant (settings sOffsetAngle2Asc) = true ∧ (settings sOffsetAngle2Asc).base ≤ 0

/-- The same motion, with the pen held in another way. -/
structure SameMotion (m m' : Motion K) : Prop where
  same : m' = { m with xtilt := m'.xtilt, ytilt := m'.ytilt, barrel := m'.barrel }
  /-- a tilt that is not a number makes an assertion fail -/
  number : m.xtilt ≠ .nan ∧ m.ytilt ≠ .nan
  number' : m'.xtilt ≠ .nan ∧ m'.ytilt ≠ .nan

/-- The same brush, up to what it knows about the tilt and the rotation of the pen. -/
def SameBrush (b b' : Brush K R) : Prop :=
  ∃ dec asc decX decY barrel, b' = { b with
    st := { b.st with declination := dec, ascension := asc, declinationX := decX, declinationY := decY
                      barrelRotation := barrel } }

end
end Verif.Engine

namespace Verif.Painting

/-- The same block of events, with the pen held in another way. -/
structure SameMotions {K : Type} [Field K] [LinearOrder K] (bl bl' : Block K) : Prop where
  same : bl' = { bl with motions := bl'.motions }
  motions : List.Forall₂ Engine.SameMotion bl.motions bl'.motions

/-- The same surface, and the same brush up to what it knows about how the pen is held. -/
structure SameStudio {K R : Type} [Field K] [LinearOrder K] (s s' : Studio K R) : Prop where
  surf : s'.surf = s.surf
  samples : s'.samples = s.samples
  brush : Engine.SameBrush s.brush s'.brush

end Verif.Painting
