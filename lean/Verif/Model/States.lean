import Verif.Model.Engine

/-!
# Reading and writing the states of a brush (`/repo/mypaint-brush.c` lines 421-445)

"Normally used for debugging, but can be used to implement record & replay functionality."
-/

namespace Verif.Engine

section
variable {K R : Type} [Field K] [LinearOrder K]

/-- The array `states` (line 94), in the order of brushsettings.json. -/
def State.toList (st : State K) : List K :=
  [st.x, st.y, st.pressure, st.partialDabs, st.actualRadius, st.smudge.r, st.smudge.g, st.smudge.b, st.smudge.a,
    st.smudge.prevR, st.smudge.prevG, st.smudge.prevB, st.smudge.prevA, st.smudge.recentness, st.actualX,
    st.actualY, st.normDxSlow, st.normDySlow, st.normSpeed1Slow, st.normSpeed2Slow, st.stroke, st.strokeStarted,
    st.customInput, st.rngSeed, st.ratio, st.angle, st.directionDx, st.directionDy, st.declination, st.ascension,
    st.viewzoom, st.viewrotation, st.directionAngleDx, st.directionAngleDy, st.attackAngle, st.flip, st.gridmapX,
    st.gridmapY, st.declinationX, st.declinationY, st.dabsPerBasicRadius, st.dabsPerActualRadius,
    st.dabsPerSecond, st.barrelRotation]

/-- The states as fields, from the array. -/
def State.ofList (l : List K) : State K where
  x := l.getD 0 0
  y := l.getD 1 0
  pressure := l.getD 2 0
  partialDabs := l.getD 3 0
  actualRadius := l.getD 4 0
  smudge := ⟨l.getD 5 0, l.getD 6 0, l.getD 7 0, l.getD 8 0, l.getD 9 0, l.getD 10 0, l.getD 11 0, l.getD 12 0, l.getD 13 0⟩
  actualX := l.getD 14 0
  actualY := l.getD 15 0
  normDxSlow := l.getD 16 0
  normDySlow := l.getD 17 0
  normSpeed1Slow := l.getD 18 0
  normSpeed2Slow := l.getD 19 0
  stroke := l.getD 20 0
  strokeStarted := l.getD 21 0
  customInput := l.getD 22 0
  rngSeed := l.getD 23 0
  ratio := l.getD 24 0
  angle := l.getD 25 0
  directionDx := l.getD 26 0
  directionDy := l.getD 27 0
  declination := l.getD 28 0
  ascension := l.getD 29 0
  viewzoom := l.getD 30 0
  viewrotation := l.getD 31 0
  directionAngleDx := l.getD 32 0
  directionAngleDy := l.getD 33 0
  attackAngle := l.getD 34 0
  flip := l.getD 35 0
  gridmapX := l.getD 36 0
  gridmapY := l.getD 37 0
  declinationX := l.getD 38 0
  declinationY := l.getD 39 0
  dabsPerBasicRadius := l.getD 40 0
  dabsPerActualRadius := l.getD 41 0
  dabsPerSecond := l.getD 42 0
  barrelRotation := l.getD 43 0

/-- `mypaint_brush_get_state` (lines 427-432). -/
def getState (b : Brush K R) (i : Nat) : Except Fault K :=
  if i < Settings.statesCount then .ok (b.st.toList.getD i 0) else .error .assertFail

/-- `mypaint_brush_set_state` (lines 440-445). -/
def setState (b : Brush K R) (i : Nat) (v : K) : Except Fault (Brush K R) :=
  if i < Settings.statesCount then .ok { b with st := State.ofList (b.st.toList.set i v) } else .error .assertFail

end
end Verif.Engine
