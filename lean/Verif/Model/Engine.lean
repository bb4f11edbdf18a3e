import Verif.Model.Buckets
import Verif.Model.Ids
import Verif.Model.Load
import Verif.Model.Colors
import Verif.Model.Dab

/-!
# The brush engine (`/repo/mypaint-brush.c` lines 85-231, 300-319, 533-1547)

`float` and `double` values are elements of an ordered field `K`, so that arithmetic is exact. The functions
of the C library, the random generator and the surface are parameters (`Env`). Where the C code would produce
an infinity or a not-a-number by a division, the model reports the fault `nonFinite`.
`settings_base_values_have_changed` runs after every change of a base value (lines 195, 330), so that its
cached results are always those of the current base values; the model computes them where they are used.
Debug output is left out.
-/

namespace Verif.Engine
open Verif.Mask Verif.Color Verif.Spectral Verif.Map

/-- The C library, the random generator (state `R`) and the surface (state `σ`). Angles are in degrees. -/
structure Env (K R σ : Type) where
  exp : K → K
  log : K → K
  sqrt : K → K
  pow : K → K → K
  /-- `DEGREES(atan2f(y, x))` -/
  atan2 : K → K → K
  /-- `cos(RADIANS(a))` -/
  cos : K → K
  /-- `sin(RADIANS(a))` -/
  sin : K → K
  /-- `DEGREES(a)` -/
  degrees : K → K
  /-- `rng_double_next` -/
  next : R → K × R
  /-- `rand_gauss` -/
  gauss : R → K × R
  /-- `mypaint_surface_draw_dab` -/
  draw : σ → Dab.Args K → Bool × σ
  /-- `mypaint_surface_get_color`: position, radius, paint factor -/
  getColor : σ → Int → Int → K → K → Rgba K × σ

/-- `states` (line 94), one field for each state of brushsettings.json; the nine smudge states are used
through a bucket pointer (line 908) and form one field. -/
structure State (K : Type) where
  x : K
  y : K
  pressure : K
  partialDabs : K
  actualRadius : K
  smudge : Bucket K
  actualX : K
  actualY : K
  normDxSlow : K
  normDySlow : K
  normSpeed1Slow : K
  normSpeed2Slow : K
  stroke : K
  strokeStarted : K
  customInput : K
  rngSeed : K
  ratio : K
  angle : K
  directionDx : K
  directionDy : K
  declination : K
  ascension : K
  viewzoom : K
  viewrotation : K
  directionAngleDx : K
  directionAngleDy : K
  attackAngle : K
  flip : K
  gridmapX : K
  gridmapY : K
  declinationX : K
  declinationY : K
  dabsPerBasicRadius : K
  dabsPerActualRadius : K
  dabsPerSecond : K
  barrelRotation : K

/-- `struct MyPaintBrush` (lines 85-126). `mix` is the static buffer of `mix_colors` (helpers.c 566). -/
structure Brush (K R : Type) where
  total : K
  idle : K
  st : State K
  buckets : Buckets K
  random : K
  skip : K
  skipX : K
  skipY : K
  skippedTime : K
  rng : R
  settings : Load.Brush K
  vals : Nat → K
  resetRequested : Bool
  mix : Rgba K

section
variable {K R σ : Type} [Field K] [LinearOrder K]

/-- `BASEVAL` (line 137). -/
def Brush.baseval (b : Brush K R) (id : Nat) : K := (b.settings id).base

/-- `memset(states, 0)` and `FLIP = -1` (lines 151-154). -/
def State.cleared : State K where
  x := 0
  y := 0
  pressure := 0
  partialDabs := 0
  actualRadius := 0
  smudge := ⟨0, 0, 0, 0, 0, 0, 0, 0, 0⟩
  actualX := 0
  actualY := 0
  normDxSlow := 0
  normDySlow := 0
  normSpeed1Slow := 0
  normSpeed2Slow := 0
  stroke := 0
  strokeStarted := 0
  customInput := 0
  rngSeed := 0
  ratio := 0
  angle := 0
  directionDx := 0
  directionDy := 0
  declination := 0
  ascension := 0
  viewzoom := 0
  viewrotation := 0
  directionAngleDx := 0
  directionAngleDy := 0
  attackAngle := 0
  flip := -1
  gridmapX := 0
  gridmapY := 0
  declinationX := 0
  declinationY := 0
  dabsPerBasicRadius := 0
  dabsPerActualRadius := 0
  dabsPerSecond := 0
  barrelRotation := 0

/-- `brush_reset` (lines 144-167). -/
def brushReset (b : Brush K R) : Except Fault (Brush K R) := do
  let buckets ← resetBuckets b.buckets
  return { b with skip := 0, skipX := 0, skipY := 0, skippedTime := 0, st := State.cleared, buckets := buckets }

/-- `mypaint_brush_reset` (lines 303-307). -/
def requestReset (b : Brush K R) : Brush K R := { b with resetRequested := true }

/-- `mypaint_brush_new_stroke` (lines 314-319). -/
def newStroke (b : Brush K R) : Brush K R := { b with idle := 0, total := 0 }

/-- `mypaint_brush_new_with_buckets` (lines 188-231), after the allocations. `junk` is what the fresh memory
of the structure holds: `settings_value` is not initialised. `mem`: the fresh memory of the mappings. -/
def newBrush (junk : Brush K R) (fresh : List K) (num : Int) (mem : Nat → Nat → Points K) (rng : R) :
    Except Fault (Brush K R) := do
  let b := { junk with
    buckets := newBuckets fresh num (junk.buckets.minUsed, junk.buckets.maxUsed)
    settings := Load.newBrush mem, rng := rng, random := 0 }
  let b ← brushReset b
  return { newStroke b with resetRequested := true }

/-! ### One simulation step (lines 708-904) -/

/-- The arguments of `update_states_and_setting_values` (line 708). -/
structure Step (K : Type) where
  ddab : K
  dx : K
  dy : K
  dpressure : K
  declination : K
  ascension : K
  dtime : K
  viewzoom : K
  viewrotation : K
  declinationX : K
  declinationY : K
  barrelRotation : K

/-- `exp_decay` (lines 535-544). -/
def expDecay (e : Env K R σ) (T t : K) : K := if T ≤ 1 / 1000 then 0 else e.exp (-t / T)

/-- `hypotf`, `hypot`. -/
def hypot (e : Env K R σ) (a b : K) : K := e.sqrt (a * a + b * b)

variable [FloorRing K]

/-- `fmodf(a, b)` for positive `b`. -/
def fmod (a b : K) : K := if 0 ≤ a then modArith a b else -modArith (-a) b

/-- `roundf`: to nearest, halves away from zero. -/
def roundHalf (a : K) : Int := if 0 ≤ a then ⌊a + 1 / 2⌋ else ⌈a - 1 / 2⌉

/-- Lines 710-716. -/
def stepTime (dtime : K) : K := if dtime < 0 then 1 / 1000 else if dtime = 0 then 1 / 1000 else dtime

/-- Line 728: the view rotation in degrees. -/
def viewRotation (e : Env K R σ) (radians : K) : K := modArith (e.degrees radians + 180) 360 - 180

/-- Lines 731-746, one axis: `pos` is the filtered position, `axis` the scale of the axis. -/
def gridmap (scaledSize axis pos : K) : K :=
  let g := modArith |pos * axis| scaledSize / scaledSize * 256
  if pos < 0 then 256 - g else g

/-- Lines 718-767: position, pressure, tilt, view, grid map, barrel rotation, start and end of the stroke.
`SETTING` still has the values of the step before. -/
def moveStates (e : Env K R σ) (b : Brush K R) (s : Step K) : State K :=
  let st := b.st
  let scaledSize := e.exp (b.vals sGridmapScale) * 256
  let p := st.pressure + s.dpressure
  let p := if p ≤ 0 then 0 else p
  let threshold := b.baseval sStrokeThreshold
  let starts := st.strokeStarted = 0 ∧ p > threshold + 1 / 10000
  let ends := st.strokeStarted ≠ 0 ∧ p ≤ threshold * (9 / 10) + 1 / 10000
  { st with
    x := st.x + s.dx
    y := st.y + s.dy
    pressure := p
    declination := st.declination + s.declination
    ascension := st.ascension + s.ascension
    declinationX := st.declinationX + s.declinationX
    declinationY := st.declinationY + s.declinationY
    viewzoom := s.viewzoom
    viewrotation := viewRotation e s.viewrotation
    gridmapX := gridmap scaledSize (b.vals sGridmapScaleX) st.actualX
    gridmapY := gridmap scaledSize (b.vals sGridmapScaleY) st.actualY
    barrelRotation := st.barrelRotation + s.barrelRotation
    strokeStarted := if starts then 1 else if ends then 0 else st.strokeStarted
    stroke := if starts then 0 else st.stroke }

/-- `inputs` (line 779): one field for each input of brushsettings.json. -/
structure Inputs (K : Type) where
  pressure : K
  random : K
  stroke : K
  direction : K
  tiltDeclination : K
  tiltAscension : K
  speed1 : K
  speed2 : K
  custom : K
  directionAngle : K
  attackAngle : K
  tiltDeclinationX : K
  tiltDeclinationY : K
  gridmapX : K
  gridmapY : K
  viewzoom : K
  brushRadius : K
  barrelRotation : K

/-- The array handed to `mypaint_mapping_calculate` (line 819). -/
def Inputs.get (i : Inputs K) (id : Nat) : K :=
  if id = iPressure then i.pressure
  else if id = iRandom then i.random
  else if id = iStroke then i.stroke
  else if id = iDirection then i.direction
  else if id = iTiltDeclination then i.tiltDeclination
  else if id = iTiltAscension then i.tiltAscension
  else if id = iSpeed1 then i.speed1
  else if id = iSpeed2 then i.speed2
  else if id = iCustom then i.custom
  else if id = iDirectionAngle then i.directionAngle
  else if id = iAttackAngle then i.attackAngle
  else if id = iTiltDeclinationx then i.tiltDeclinationX
  else if id = iTiltDeclinationy then i.tiltDeclinationY
  else if id = iGridmapX then i.gridmapX
  else if id = iGridmapY then i.gridmapY
  else if id = iViewzoom then i.viewzoom
  else if id = iBrushRadius then i.brushRadius
  else if id = iBarrelRotation then i.barrelRotation
  else 0

/-- Lines 562-577 and 783-788: the speed input, with the constants of `settings_base_values_have_changed`;
`gammaLog` is the base value of the gamma setting. -/
def speedInput (e : Env K R σ) (gammaLog speed : K) : K :=
  let gamma := e.exp gammaLog
  let c1 := e.log (45 + gamma)
  let m := 15 / 1000 * (45 + gamma)
  let q := 1 / 2 - m * c1
  e.log (gamma + speed) * m + q

/-- Lines 781-812; `st` is the state after `moveStates`. -/
def inputsOf (e : Env K R σ) (b : Brush K R) (st : State K) : Inputs K :=
  let baseRadius := e.exp (b.baseval sRadiusLogarithmic)
  let dirAngle := e.atan2 st.directionDy st.directionDx
  let dirAngle360 := e.atan2 st.directionAngleDy st.directionAngleDx
  { pressure := st.pressure * e.exp (b.baseval sPressureGainLog)
    random := b.random
    stroke := minC st.stroke 1
    direction := modArith (dirAngle + st.viewrotation + 180) 180
    tiltDeclination := st.declination
    tiltAscension := modArith (st.ascension + st.viewrotation + 180) 360 - 180
    speed1 := speedInput e (b.baseval sSpeed1Gamma) st.normSpeed1Slow
    speed2 := speedInput e (b.baseval sSpeed2Gamma) st.normSpeed2Slow
    custom := st.customInput
    directionAngle := fmod (dirAngle360 + st.viewrotation + 360) 360
    attackAngle := smallestDiff st.ascension (modArith (dirAngle360 + 90) 360)
    tiltDeclinationX := st.declinationX
    tiltDeclinationY := st.declinationY
    gridmapX := clampK st.gridmapX 0 256
    gridmapY := clampK st.gridmapY 0 256
    viewzoom := b.baseval sRadiusLogarithmic - e.log (baseRadius / st.viewzoom)
    brushRadius := b.baseval sRadiusLogarithmic
    barrelRotation := modArith st.barrelRotation 360 }

/-- Whether the value of an input reaches any setting (mapping.c 149-158). -/
def usesInput (settings : Load.Brush K) (input : Nat) : Bool :=
  (List.range Settings.settingsCount).any fun i => (settings i).used ≠ 0 && ((settings i).pts input).n ≠ 0

/-- A low-pass filter: `value += (target - value) * fac`. -/
def approach (value target fac : K) : K := value + (target - value) * fac

/-- Lines 879-892: the stroke length. -/
def strokeLength (e : Env K R σ) (vals : Nat → K) (stroke normDist : K) : K :=
  let frequency := e.exp (-vals sStrokeDurationLogarithmic)
  let stroke := maxC 0 (stroke + normDist * frequency)
  let wrap := 1 + maxC 0 (vals sStrokeHoldtime)
  if stroke ≥ wrap ∧ wrap > 99 / 10 + 1 then 1
  else if stroke ≥ wrap then fmod stroke wrap
  else stroke

/-- Lines 894-898: the radius from its logarithm. -/
def finalRadius (e : Env K R σ) (radiusLog : K) : K :=
  let r := e.exp radiusLog
  let r := if r < 1 / 5 then 1 / 5 else r
  if r > 1000 then 1000 else r

/-- Lines 771-777 and 822-903: everything that follows the settings. `st` is the state after `moveStates`,
`vals` the new values of the settings. -/
def followStates (e : Env K R σ) (b : Brush K R) (st : State K) (vals : Nat → K) (s : Step K) : State K :=
  let dtime := stepTime s.dtime
  let baseRadius := e.exp (b.baseval sRadiusLogarithmic)
  let normDx := s.dx / dtime * st.viewzoom
  let normDy := s.dy / dtime * st.viewzoom
  let normSpeed := hypot e normDx normDy
  let normDist := hypot e (s.dx / dtime / baseRadius) (s.dy / dtime / baseRadius) * dtime
  let facPos := 1 - expDecay e (vals sSlowTrackingPerDab) s.ddab
  let fac1 := 1 - expDecay e (vals sSpeed1Slowness) dtime
  let fac2 := 1 - expDecay e (vals sSpeed2Slowness) dtime
  let timeConstant := e.exp (vals sOffsetBySpeedSlowness * (1 / 100)) - 1
  let timeConstant := if timeConstant < 2 / 1000 then 2 / 1000 else timeConstant
  let facSpeed := 1 - expDecay e timeConstant dtime
  let dx := s.dx * st.viewzoom
  let dy := s.dy * st.viewzoom
  let facDir := 1 - expDecay e (e.exp (vals sDirectionFilter * (1 / 2)) - 1) (hypot e dx dy)
  let opposite := (st.directionDx - dx) * (st.directionDx - dx) + (st.directionDy - dy) * (st.directionDy - dy) >
    (st.directionDx - -dx) * (st.directionDx - -dx) + (st.directionDy - -dy) * (st.directionDy - -dy)
  let facCustom := 1 - expDecay e (vals sCustomInputSlowness) (1 / 10)
  { st with
    dabsPerBasicRadius := vals sDabsPerBasicRadius
    dabsPerActualRadius := vals sDabsPerActualRadius
    dabsPerSecond := vals sDabsPerSecond
    actualX := approach st.actualX st.x facPos
    actualY := approach st.actualY st.y facPos
    normSpeed1Slow := approach st.normSpeed1Slow normSpeed fac1
    normSpeed2Slow := approach st.normSpeed2Slow normSpeed fac2
    normDxSlow := approach st.normDxSlow normDx facSpeed
    normDySlow := approach st.normDySlow normDy facSpeed
    directionAngleDx := approach st.directionAngleDx dx facDir
    directionAngleDy := approach st.directionAngleDy dy facDir
    directionDx := approach st.directionDx (if opposite then -dx else dx) facDir
    directionDy := approach st.directionDy (if opposite then -dy else dy) facDir
    customInput := approach st.customInput (vals sCustomInput) facCustom
    stroke := strokeLength e vals st.stroke normDist
    actualRadius := finalRadius e (vals sRadiusLogarithmic)
    ratio := vals sEllipticalDabRatio
    angle := modArith (vals sEllipticalDabAngle - st.viewrotation + 180) 180 - 180 }

/-- Lines 818-820: the value of every setting. -/
def settingValues (settings : Load.Brush K) (i : Inputs K) : Nat → K := fun id => calculate (settings id) i.get

/-- `update_states_and_setting_values` (lines 708-904). `logf(base_radius / VIEWZOOM)` (line 801) is not a
finite number for a view zoom of 0 or less; this matters when a setting depends on the input. -/
def update (e : Env K R σ) (b : Brush K R) (s : Step K) : Except Fault (Brush K R) :=
  let st := moveStates e b s
  if s.viewzoom ≤ 0 ∧ usesInput b.settings iViewzoom then .error .nonFinite
  else
    let vals := settingValues b.settings (inputsOf e b st)
    .ok { b with st := followStates e b st vals s, vals := vals }

/-! ### Drawing one dab (lines 581-664, 906-1250) -/

/-- `directional_offsets` (lines 586-664); the test of line 591 for an infinite multiplier has no counterpart. The terms that
the code skips because a factor is zero are zero. -/
def directionalOffsets (e : Env K R σ) (b : Brush K R) (baseRadius flip : K) : K × K :=
  let v := b.vals
  let st := b.st
  let adj := v sOffsetAngleAdj
  let angleDeg := fmod (e.atan2 st.directionAngleDy st.directionAngleDx - 90) 360
  let dir := angleDeg + adj
  let asc := st.ascension - st.viewrotation + adj
  let view := st.viewrotation + adj
  let mDir := maxC 0 (v sOffsetAngle2)
  let mAsc := maxC 0 (v sOffsetAngle2Asc)
  let mView := maxC 0 (v sOffsetAngle2View)
  let dirM := angleDeg + adj * flip
  let ascM := st.ascension - st.viewrotation + adj * flip
  let dx := v sOffsetX + e.cos dir * v sOffsetAngle + e.cos asc * v sOffsetAngleAsc +
    e.cos (-view) * v sOffsetAngleView + e.cos dirM * (mDir * flip) + e.cos ascM * (flip * mAsc) +
    e.cos (-view) * (flip * mView)
  let dy := v sOffsetY + e.sin dir * v sOffsetAngle + e.sin asc * v sOffsetAngleAsc +
    e.sin (-view) * v sOffsetAngleView + e.sin dirM * (mDir * flip) + e.sin ascM * (flip * mAsc) +
    e.sin (-view) * (flip * mView)
  let mul := baseRadius * e.exp (v sOffsetMultiplier)
  (clampK (dx * mul) (-3240) 3240, clampK (dy * mul) (-3240) 3240)

/-- Lines 1044-1073: the opacity of one dab. -/
def dabOpacity (e : Env K R σ) (b : Brush K R) : Except Fault K := do
  let opaque' := maxC 0 (b.vals sOpaque)
  let opaque' := clampK (opaque' * b.vals sOpaqueMultiply) 0 1
  let linearize := b.baseval sOpaqueLinearize
  if linearize = 0 then return opaque'
  else
    let d := (b.st.dabsPerActualRadius + b.st.dabsPerBasicRadius) * 2
    let d := if d < 1 then 1 else d
    let d := 1 + linearize * (d - 1)
    if d = 0 then .error .nonFinite
    else return 1 - e.pow (1 - opaque') (1 / d)

/-- Lines 1075-1097: the centre of the dab. -/
def dabPosition (e : Env K R σ) (b : Brush K R) : Except Fault (K × K × Brush K R) := do
  let baseRadius := e.exp (b.baseval sRadiusLogarithmic)
  let o := directionalOffsets e b baseRadius b.st.flip
  let x := b.st.actualX + o.1
  let y := b.st.actualY + o.2
  let bySpeed := b.vals sOffsetBySpeed
  if bySpeed ≠ 0 ∧ b.st.viewzoom = 0 then .error .nonFinite
  else
    let x := if bySpeed ≠ 0 then x + b.st.normDxSlow * bySpeed * (1 / 10) / b.st.viewzoom else x
    let y := if bySpeed ≠ 0 then y + b.st.normDySlow * bySpeed * (1 / 10) / b.st.viewzoom else y
    let byRandom := b.vals sOffsetByRandom
    if byRandom ≠ 0 then
      let amp := maxC 0 byRandom
      let g1 := e.gauss b.rng
      let g2 := e.gauss g1.2
      return (x + g1.1 * amp * baseRadius, y + g2.1 * amp * baseRadius, { b with rng := g2.2 })
    else return (x, y, b)

/-- Lines 1099-1109: radius and opacity, with the random variation of the radius. -/
def dabRadius (e : Env K R σ) (b : Brush K R) (opaque' : K) : K × K × Brush K R :=
  let byRandom := b.vals sRadiusByRandom
  if byRandom ≠ 0 then
    let g := e.gauss b.rng
    let radius := clampK (e.exp (b.vals sRadiusLogarithmic + g.1 * byRandom)) (1 / 5) 1000
    let correction := (b.st.actualRadius / radius) * (b.st.actualRadius / radius)
    (radius, if correction ≤ 1 then opaque' * correction else opaque', { b with rng := g.2 })
  else (b.st.actualRadius, opaque', b)

/-- Lines 1111-1113. -/
def legacySmudge (b : Brush K R) : Bool := b.vals sPaintMode ≤ 0 ∧ isConstant (b.settings sPaintMode) = true

/-- `fetch_smudge_bucket` (lines 906-918): where the bucket is; `none` stands for the states. -/
def fetchSmudge (b : Brush K R) : Option Int × Brush K R :=
  if b.buckets.mem.isEmpty ∨ b.buckets.num = 0 then (none, b)
  else
    let p := fetchBucket b.buckets (roundHalf (b.vals sSmudgeBucket))
    (some p.1, { b with buckets := p.2 })

/-- Reading through the pointer `fetch_smudge_bucket` returned. -/
def loadSmudge (b : Brush K R) : Option Int → Except Fault (Bucket K)
  | none => .ok b.st.smudge
  | some o => readBucket b.buckets.mem o

/-- Writing through that pointer. -/
def storeSmudge (b : Brush K R) (v : Bucket K) : Option Int → Except Fault (Brush K R)
  | none => .ok { b with st := { b.st with smudge := v } }
  | some o => do
    let mem ← writeBucket b.buckets.mem o v
    return { b with buckets := { b.buckets with mem := mem } }

/-- `update_smudge_color` (lines 920-997): whether to stop, the new bucket, the surface, the static buffer of
`mix_colors`. -/
def updateSmudge (e : Env K R σ) (b : Brush K R) (surf : σ) (v : Bucket K) (px py : Int) (radius : K) :
    Bool × Bucket K × σ × Rgba K :=
  let length := b.vals sSmudgeLength
  let paint := b.vals sPaintMode
  let legacy := legacySmudge b
  let update := maxC (1 / 100) length
  let recentness := v.recentness * update
  let v := { v with recentness := recentness }
  let resample := recentness < minC 1 (e.pow (1 / 2 * update) (b.vals sSmudgeLengthLog) + 1 / 10 ^ 16)
  let update := if resample ∧ recentness = 0 then 0 else update
  let smudgeRadius := clampK (radius * e.exp (b.vals sSmudgeRadiusLog)) (1 / 5) 1000
  let got := e.getColor surf px py smudgeRadius (if legacy then -1 else paint)
  let surf := if resample then got.2 else surf
  let v := if resample then { v with recentness := 1 } else v
  let lim := b.vals sSmudgeTransparency
  if resample ∧ ((lim > 0 ∧ got.1.a < lim) ∨ (lim < 0 ∧ got.1.a > -lim)) then (true, v, surf, b.mix)
  else
    let v := if resample then
        { v with prevR := got.1.r, prevG := got.1.g, prevB := got.1.b, prevA := got.1.a }
      else v
    let c : Rgba K := ⟨v.prevR, v.prevG, v.prevB, v.prevA⟩
    if legacy then
      let facNew := (1 - update) * c.a
      (false, { v with
        r := update * v.r + facNew * c.r
        g := update * v.g + facNew * c.g
        b := update * v.b + facNew * c.b
        a := clampK (update * v.a + facNew) 0 1 }, surf, b.mix)
    else if c.a > 1 / 1000 * 10 then
      let m := mixColors e.pow b.mix ⟨v.r, v.g, v.b, v.a⟩ c update paint
      (false, { v with r := m.r, g := m.g, b := m.b, a := m.a }, surf, m)
    else (false, { v with a := (v.a + c.a) / 2 }, surf, b.mix)

/-- `apply_smudge` (lines 999-1035): the target alpha, the colour, the static buffer of `mix_colors`. -/
def applySmudge (e : Env K R σ) (b : Brush K R) (v : Bucket K) (c : Rgb K) : K × Rgb K × Rgba K :=
  let f := minC 1 (b.vals sSmudge)
  let target := clampK ((1 - f) + f * v.a) 0 1
  if target > 0 then
    if legacySmudge b then
      let cf := 1 - f
      (target, ⟨(f * v.r + cf * c.r) / target, (f * v.g + cf * c.g) / target, (f * v.b + cf * c.b) / target⟩,
        b.mix)
    else
      let m := mixColors e.pow b.mix ⟨v.r, v.g, v.b, v.a⟩ ⟨c.r, c.g, c.b, 1⟩ f (b.vals sPaintMode)
      (target, ⟨m.r, m.g, m.b⟩, m)
  else (target, ⟨1, 0, 0⟩, b.mix)

/-- Lines 1153-1190: changes of hue, saturation and lightness. -/
def colorDynamics (e : Env K R σ) (b : Brush K R) (linear : Bool) (c : Rgb K) : Rgb K :=
  let v := b.vals
  let hsv := v sChangeColorH ≠ 0 ∨ v sChangeColorHsvS ≠ 0 ∨ v sChangeColorV ≠ 0
  let hsl := v sChangeColorL ≠ 0 ∨ v sChangeColorHslS ≠ 0
  let gamma (p : K) (c : Rgb K) : Rgb K :=
    if linear = true ∧ (hsv ∨ hsl) then ⟨e.pow c.r p, e.pow c.g p, e.pow c.b p⟩ else c
  let c := gamma (1 / (22 / 10)) c
  let c := if hsv then
      let h := rgbToHsv c
      hsvToRgb ⟨h.h + v sChangeColorH, h.s + h.s * h.v * v sChangeColorHsvS, h.v + v sChangeColorV⟩
    else c
  let c := if hsl then
      let h := rgbToHsl c
      let l := h.v + v sChangeColorL
      hslToRgb ⟨h.h, h.s + h.s * minC |1 - l| |l| * 2 * v sChangeColorHslS, l⟩
    else c
  gamma (22 / 10) c

/-- Lines 1195-1215: anti-aliasing. The new hardness and radius. -/
def antiAlias (b : Brush K R) (hardness radius : K) : K × K :=
  let fadeout := b.vals sAntiAliasing
  if radius * (1 - hardness) < fadeout then
    let optical := radius - (1 - hardness) * radius / 2
    let hardnessNew := (optical - fadeout / 2) / (optical + fadeout / 2)
    (hardnessNew, fadeout / (1 - hardnessNew))
  else (hardness, radius)

/-- Lines 1217-1238: snapping to pixels. The new centre and radius. -/
def snap (b : Brush K R) (x y radius : K) : K × K × K :=
  let snapTo := b.vals sSnapToPixel
  if snapTo > 0 then
    let sx : K := ⌊x⌋ + 1 / 2
    let sy : K := ⌊y⌋ + 1 / 2
    let sr : K := roundHalf (radius * 2) / 2
    let sr := if sr < 1 / 2 then 1 / 2 else sr
    let sr := if snapTo > 9999 / 10000 then sr - 1 / 10000 else sr
    (x + (sx - x) * snapTo, y + (sy - y) * snapTo, radius + (sr - radius) * snapTo)
  else (x, y, radius)

/-- Lines 1122-1132: sampling the canvas into the smudge bucket. The result says whether to stop. `ROUND`
(helpers.h line 9) converts to `int`. -/
def smudgeStage (e : Env K R σ) (b : Brush K R) (surf : σ) (x y radius : K) :
    Except Fault (Bool × Brush K R × σ) := do
  if b.vals sSmudgeLength < 1 ∧ (b.vals sSmudge ≠ 0 ∨ isConstant (b.settings sSmudge) = false) then
    let f := fetchSmudge b
    let v ← loadSmudge f.2 f.1
    let px ← Dab.toInt (x + 1 / 2)
    let py ← Dab.toInt (y + 1 / 2)
    let u := updateSmudge e f.2 surf v px py radius
    let b ← storeSmudge f.2 u.2.1 f.1
    return (u.1, { b with mix := u.2.2.2 }, u.2.2.1)
  else return (false, b, surf)

/-- Lines 1134-1141: mixing the smudge colour into the brush colour. -/
def smudgeColor (e : Env K R σ) (b : Brush K R) (c : Rgb K) : Except Fault (K × Rgb K × Brush K R) := do
  if b.vals sSmudge > 0 then
    let f := fetchSmudge b
    let v ← loadSmudge f.2 f.1
    let u := applySmudge e f.2 v c
    return (u.1, u.2.1, { f.2 with mix := u.2.2 })
  else return (1, c, b)

/-- The last lines (1143-1249) of `prepare_and_draw_dab`: the arguments of the dab. -/
def dabArgs (e : Env K R σ) (b : Brush K R) (linear : Bool) (x y radius opaque' target : K) (c : Rgb K) :
    Dab.Args K :=
  let target := if b.vals sEraser ≠ 0 then target * (1 - b.vals sEraser) else target
  let c := colorDynamics e b linear c
  let hr := antiAlias b (clampK (b.vals sHardness) 0 1) radius
  let p := snap b x y hr.2
  { x := p.1, y := p.2.1, radius := p.2.2, colorR := c.r, colorG := c.g, colorB := c.b, opaque' := opaque'
    hardness := hr.1, softness := clampK (b.vals sSoftness) 0 1, colorA := target, aspect := b.st.ratio
    angle := b.st.angle, lockAlpha := b.vals sLockAlpha, colorize := b.vals sColorize
    posterize := b.vals sPosterize, posterizeNum := b.vals sPosterizeNum, paint := b.vals sPaintMode }

/-- `prepare_and_draw_dab` (lines 1042-1250). -/
def drawDab (e : Env K R σ) (b : Brush K R) (surf : σ) (linear : Bool) : Except Fault (Bool × Brush K R × σ) := do
  let opaque' ← dabOpacity e b
  let pos ← dabPosition e b
  let rad := dabRadius e pos.2.2 opaque'
  let c := hsvToRgb ⟨b.baseval sColorH, b.baseval sColorS, b.baseval sColorV⟩
  let sm ← smudgeStage e rad.2.2 surf pos.1 pos.2.1 rad.1
  if sm.1 then return (false, sm.2)
  else
    let col ← smudgeColor e sm.2.1 c
    let d := e.draw sm.2.2 (dabArgs e col.2.2 linear pos.1 pos.2.1 rad.1 rad.2.1 col.1 col.2.1)
    return (d.1, col.2.2, d.2)

/-! ### Motion events (lines 1253-1547) -/

/-- `count_dabs_to` (lines 1253-1287); it may also set the radius. -/
def countDabs (e : Env K R σ) (b : Brush K R) (x y dt : K) : K × Brush K R :=
  let baseRadius := clampK (e.exp (b.baseval sRadiusLogarithmic)) (1 / 5) 1000
  let st := if b.st.actualRadius = 0 then { b.st with actualRadius := baseRadius } else b.st
  let dx := x - st.x
  let dy := y - st.y
  let dist :=
    if st.ratio > 1 then
      let cs := e.cos st.angle
      let sn := e.sin st.angle
      hypot e ((dy * cs - dx * sn) * st.ratio) (dy * sn + dx * cs)
    else hypot e dx dy
  let res := dist / st.actualRadius * st.dabsPerActualRadius + dist / baseRadius * st.dabsPerBasicRadius +
    dt * st.dabsPerSecond
  (if res < 0 then 0 else res, { b with st := st })

/-- A `float` argument, which may be anything. -/
inductive Flt (K : Type) where
  | fin (v : K)
  | posInf
  | negInf
  | nan
deriving DecidableEq

/-- The arguments of `mypaint_brush_stroke_to` (lines 1300-1302). -/
structure Motion (K : Type) where
  x : Flt K
  y : Flt K
  pressure : K
  xtilt : Flt K
  ytilt : Flt K
  dtime : K
  viewzoom : K
  viewrotation : K
  barrel : K
  linear : Bool

/-- The same after the first checks (lines 1304-1344). -/
structure Event (K : Type) where
  x : K
  y : K
  pressure : K
  ascension : K
  declination : K
  declinationX : K
  declinationY : K
  dtime : K
  viewzoom : K
  viewrotation : K
  barrel : K
  linear : Bool

/-- `CLAMP(tilt, -1.0, 1.0)` of an arbitrary float, and the assertion of line 1314. -/
def clampTilt : Flt K → Except Fault K
  | .fin v => .ok (clampK v (-1) 1)
  | .posInf => .ok 1
  | .negInf => .ok (-1)
  | .nan => .error .assertFail

/-- Lines 1306-1326: ascension, declination, declination in x and y. -/
def tilt (e : Env K R σ) (xtilt ytilt : Flt K) : Except Fault (K × K × K × K) := do
  if xtilt ≠ .fin 0 ∨ ytilt ≠ .fin 0 then
    let xt ← clampTilt xtilt
    let yt ← clampTilt ytilt
    return (e.atan2 (-xt) yt, 90 - hypot e xt yt * 60, xt * 60, yt * 60)
  else return (0, 90, 90, 90)

/-- Lines 1329-1330: a coordinate that is not finite or beyond 1e10; otherwise its value. -/
def sane : Flt K → Option K
  | .fin v => if v > 10 ^ 10 ∨ v < -10 ^ 10 then none else some v
  | _ => none

/-- Lines 1304-1344. -/
def sanitise (e : Env K R σ) (m : Motion K) : Except Fault (Event K) := do
  let t ← tilt e m.xtilt m.ytilt
  let pressure := if m.pressure ≤ 0 then 0 else m.pressure
  let dtime := if m.dtime ≤ 0 then 1 / 10000 else m.dtime
  match sane m.x, sane m.y with
  | some x, some y =>
    if x < 10 ^ 8 ∧ y < 10 ^ 8 ∧ x > -10 ^ 8 ∧ y > -10 ^ 8 then
      return { x, y, pressure, ascension := t.1, declination := t.2.1, declinationX := t.2.2.1,
               declinationY := t.2.2.2, dtime, viewzoom := m.viewzoom, viewrotation := m.viewrotation,
               barrel := m.barrel, linear := m.linear }
    else .error .assertFail
  | _, _ =>
    return { x := 0, y := 0, pressure := 0, ascension := t.1, declination := t.2.1, declinationX := t.2.2.1,
             declinationY := t.2.2.2, dtime, viewzoom := 0, viewrotation := 0, barrel := 0, linear := m.linear }

/-- `enum { UNKNOWN, YES, NO }` (line 1420). -/
inductive Painted where
  | unknown
  | yes
  | no
deriving DecidableEq, Repr

/-- Lines 1353-1370: skipping events for the tracking noise. The result: the brush, the time to use, whether to
return right away. -/
def skipStage (e : Env K R σ) (b : Brush K R) (x y dtime : K) : Brush K R × K × Bool :=
  if b.skip > 1 / 1000 then
    let dist := hypot e (b.skipX - x) (b.skipY - y)
    let t := b.skippedTime + dtime
    let skip := b.skip - dist
    if skip > 1 / 1000 ∧ ¬ (t > 5 ∨ b.resetRequested = true) then
      ({ b with skipX := x, skipY := y, skippedTime := t, skip := skip }, t, true)
    else ({ b with skip := 0, skipX := 0, skipY := 0, skippedTime := 0 }, t, false)
  else (b, dtime, false)

/-- Lines 1372-1396: the position the brush is pulled to. -/
def cursor (e : Env K R σ) (b : Brush K R) (x y dtime : K) : K × K × Brush K R :=
  let noise := e.exp (b.baseval sRadiusLogarithmic) * b.baseval sTrackingNoise
  let n : K × K × Brush K R :=
    if b.baseval sTrackingNoise ≠ 0 ∧ noise > 1 / 1000 then
      let g1 := e.gauss b.rng
      let g2 := e.gauss g1.2
      (x + noise * g1.1, y + noise * g2.1,
        { b with skip := 1 / 2 * noise, skipX := x, skipY := y, rng := g2.2 })
    else (x, y, b)
  let fac := 1 - expDecay e (b.baseval sSlowTracking) (100 * dtime)
  (approach b.st.x n.1 fac, approach b.st.y n.2.1 fac, n.2.2)

/-- Lines 1398-1418: starting over at a position. -/
def startOver (e : Env K R σ) (b : Brush K R) (x y pressure : K) : Except Fault (Brush K R) := do
  let b ← brushReset b
  let n := e.next b.rng
  return { b with
    resetRequested := false, random := n.1, rng := n.2
    st := { b.st with x := x, y := y, pressure := pressure, actualX := x, actualY := y, stroke := 1 } }

/-- Lines 1440-1451 and 1482-1491: the step that covers the fraction `frac` of what is left of the event. The
last step (lines 1476-1494) is the one with `frac = 1`. -/
def stepTo (st : State K) (ev : Event K) (x y ddab frac dtimeLeft : K) : Step K where
  ddab := ddab
  dx := frac * (x - st.x)
  dy := frac * (y - st.y)
  dpressure := frac * (ev.pressure - st.pressure)
  declination := frac * (ev.declination - st.declination)
  ascension := frac * smallestDiff st.ascension ev.ascension
  dtime := frac * dtimeLeft
  viewzoom := ev.viewzoom
  viewrotation := ev.viewrotation
  declinationX := frac * (ev.declinationX - st.declinationX)
  declinationY := frac * (ev.declinationY - st.declinationY)
  barrelRotation := frac * smallestDiff st.barrelRotation (ev.barrel * 360)

/-- What the dab loop changes. -/
structure Loop (K R σ : Type) where
  b : Brush K R
  surf : σ
  moved : K
  todo : K
  dtimeLeft : K
  painted : Painted

/-- The body of the loop (lines 1431-1473). -/
def dabStep (e : Env K R σ) (ev : Event K) (x y : K) (l : Loop K R σ) : Except Fault (Loop K R σ) := do
  let ddab := if l.moved > 0 then 1 - l.moved else 1
  let moved := if l.moved > 0 then 0 else l.moved
  if l.todo = 0 then .error .nonFinite
  else
    let s := stepTo l.b.st ev x y ddab (ddab / l.todo) l.dtimeLeft
    let b ← update e l.b s
    let b := { b with st := { b.st with flip := b.st.flip * -1 } }
    let d ← drawDab e b l.surf ev.linear
    let painted := if d.1 then .yes else if l.painted = .unknown then .no else l.painted
    let n := e.next d.2.1.rng
    let b := { d.2.1 with random := n.1, rng := n.2 }
    let left := l.dtimeLeft - s.dtime
    let c := countDabs e b x y left
    return { b := c.2, surf := d.2.2, moved := moved, todo := c.1, dtimeLeft := left, painted := painted }

/-- `while (dabs_moved + dabs_todo >= 1.0)` (line 1430). -/
def dabLoop (e : Env K R σ) (ev : Event K) (x y : K) : Nat → Loop K R σ → Except Fault (Loop K R σ)
  | 0, l => if l.moved + l.todo ≥ 1 then .error .outOfFuel else .ok l
  | fuel + 1, l =>
    if l.moved + l.todo ≥ 1 then do
      let l ← dabStep e ev x y l
      dabLoop e ev x y fuel l
    else .ok l

/-- Lines 1504-1546: the clocks and the decision to split the stroke. -/
def splitStroke (b : Brush K R) (painted : Painted) (dtime pressure dpressure : K) : Bool × Brush K R :=
  let painted :=
    if painted = .unknown then (if b.idle > 0 ∨ b.total = 0 then .no else .yes) else painted
  if painted = .yes then
    let b := { b with total := b.total + dtime, idle := 0 }
    (decide (b.total > 4 + 3 * pressure ∧ dpressure ≥ 0), b)
  else
    let b := { b with idle := b.idle + dtime }
    if b.total = 0 then (decide (b.idle > 1), b) else (decide (b.total + b.idle > 9 / 10 + 5 * pressure), b)

/-- Lines 1420-1546: moving from the current position to `(x, y)`. -/
def moveTo (e : Env K R σ) (fuel : Nat) (b : Brush K R) (surf : σ) (ev : Event K) (x y dtime : K) :
    Except Fault (Bool × Brush K R × σ) := do
  let c := countDabs e b x y dtime
  let l ← dabLoop e ev x y fuel
    { b := c.2, surf := surf, moved := b.st.partialDabs, todo := c.1, dtimeLeft := dtime, painted := .unknown }
  let s := stepTo l.b.st ev x y l.todo 1 l.dtimeLeft
  let b ← update e l.b s
  let b := { b with st := { b.st with partialDabs := l.moved + l.todo } }
  let r := splitStroke b l.painted dtime ev.pressure s.dpressure
  return (r.1, r.2, l.surf)

/-- Lines 1353-1546: an event after the checks and the workaround. -/
def strokeEvent (e : Env K R σ) (fuel : Nat) (b : Brush K R) (surf : σ) (ev : Event K) :
    Except Fault (Bool × Brush K R × σ) := do
  let s := skipStage e b ev.x ev.y ev.dtime
  if s.2.2 then return (false, s.1, surf)
  else
    let c := cursor e s.1 ev.x ev.y s.2.1
    if s.2.1 > 5 ∨ b.resetRequested = true then
      let b ← startOver e c.2.2 c.1 c.2.1 ev.pressure
      return (true, b, surf)
    else moveTo e fuel c.2.2 surf ev c.1 c.2.1 s.2.1

/-- The event of the inner call (line 1349), without pressure. -/
def workaroundMotion (ev : Event K) : Motion K where
  x := .fin ev.x
  y := .fin ev.y
  pressure := 0
  xtilt := .fin 90
  ytilt := .fin 0
  dtime := ev.dtime - 1 / 10000
  viewzoom := ev.viewzoom
  viewrotation := ev.viewrotation
  barrel := 0
  linear := ev.linear

/-- `mypaint_brush_stroke_to` (lines 1300-1547). The inner call of line 1349 has no pressure, so that it does
not itself make another one; its result is ignored. -/
def strokeTo (e : Env K R σ) (fuel : Nat) (b : Brush K R) (surf : σ) (m : Motion K) :
    Except Fault (Bool × Brush K R × σ) := do
  let ev ← sanitise e m
  if ev.dtime > 1 / 10 ∧ ev.pressure ≠ 0 ∧ b.st.pressure = 0 then
    let inner ← sanitise e (workaroundMotion ev)
    let r ← strokeEvent e fuel b surf inner
    strokeEvent e fuel r.2.1 r.2.2 { ev with dtime := 1 / 10000 }
  else strokeEvent e fuel b surf ev

/-- A sequence of events; the results of the calls are dropped. -/
def strokes (e : Env K R σ) (fuel : Nat) : Brush K R → σ → List (Motion K) → Except Fault (Brush K R × σ)
  | b, surf, [] => .ok (b, surf)
  | b, surf, m :: ms => do
    let r ← strokeTo e fuel b surf m
    strokes e fuel r.2.1 r.2.2 ms

end

end Verif.Engine
