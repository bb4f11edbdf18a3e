import Verif.Model.Painting

/-!
# Specification for C109: how fast the pen moves, and how far the view is zoomed in
-/

namespace Verif.Engine
open Verif.Map

section
variable {K R : Type} [Field K] [LinearOrder K]

/-- The inputs that come from the direction of the stroke on the screen, and the zoom itself. -/
def viewInputs : List Nat := [iDirection, iDirectionAngle, iAttackAngle, iViewzoom]

/-- A brush that does not use the speed of the pen: no setting has a curve for the speed inputs, and the offset by speed is
off. If the times of the events differ (`T`), it neither makes dabs by the second, nor has slow tracking or tracking noise. If
the zoom differs (`Z`), no setting has a curve for the zoom or the direction, and the offsets in the direction of the
stroke are off. -/
structure IgnoresPace (T Z : Prop) (settings : Load.Brush K) : Prop where
  speed : ∀ id, ((settings id).pts iSpeed1).n = 0 ∧ ((settings id).pts iSpeed2).n = 0
  bySpeed : isConstant (settings sOffsetBySpeed) = true ∧ (settings sOffsetBySpeed).base = 0
  dabs : T → isConstant (settings sDabsPerSecond) = true ∧ (settings sDabsPerSecond).base = 0
  tracking : T → (settings sSlowTracking).base ≤ 1 / 1000 ∧ (settings sTrackingNoise).base = 0
  view : Z → ∀ id, ∀ k ∈ viewInputs, ((settings id).pts k).n = 0
  offset : Z → isConstant (settings sOffsetAngle) = true ∧ (settings sOffsetAngle).base = 0
  mirrored : Z → isConstant (settings sOffsetAngle2) = true ∧ (settings sOffsetAngle2).base ≤ 0

/-- Another time between the events; but pauses stay pauses: of more than a tenth of a second, in which the pen may have been in
the air, and of more than five seconds, after which the brush starts over (the two tests for that differ by the time that the
inserted event leaves to its successor). -/
structure SamePause (t t' : K) : Prop where
  short : t > 1 / 10 ↔ t' > 1 / 10
  long : t > 5 ↔ t' > 5
  inserted : t - 1 / 10000 > 5 ↔ t' - 1 / 10000 > 5

/-- The same motion, with another time (if `T`) and another zoom (if `Z`). -/
structure SameWay (T Z : Prop) (m m' : Motion K) : Prop where
  same : m' = { m with dtime := m'.dtime, viewzoom := m'.viewzoom }
  time : m'.dtime = m.dtime ∨ T
  pause : SamePause m.dtime m'.dtime
  zoom : m'.viewzoom = m.viewzoom ∨ Z

/-- The same brush, up to what it knows about the speed, its clocks for splitting strokes, and the zoom and the direction of
the stroke on the screen. -/
def SameButPace (b b' : Brush K R) : Prop :=
  ∃ speed1 speed2 dx dy idle total zoom dirX dirY angX angY, b' = { b with
    idle := idle, total := total
    st := { b.st with
      normSpeed1Slow := speed1, normSpeed2Slow := speed2, normDxSlow := dx, normDySlow := dy, viewzoom := zoom
      directionDx := dirX, directionDy := dirY, directionAngleDx := angX, directionAngleDy := angY } }

end
end Verif.Engine

namespace Verif.Painting

/-- The same block of events, at another pace or under another zoom. -/
structure SameWays (T Z : Prop) {K : Type} [Field K] [LinearOrder K] (bl bl' : Block K) : Prop where
  same : bl' = { bl with motions := bl'.motions }
  motions : List.Forall₂ (Engine.SameWay T Z) bl.motions bl'.motions

end Verif.Painting
