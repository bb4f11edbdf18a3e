import Mathlib.Data.Rat.Defs
import Mathlib.Algebra.Order.Field.Rat

/-!
# Motion events with values that are not numbers

The path of the position and the pressure of the pen through `mypaint_brush_stroke_to`, with the special values of
floating point arithmetic: infinities, and the value that is not a number. The rest of the engine decides how many
dabs an event makes and how far each of them lies along the way; here these are parts of the event, so that what is
proved holds for every such decision.
-/

namespace Verif.Insane

/-- The values of the type `float`: not a number, the infinities, and numbers. Simplification: numbers are exact and
do not overflow. -/
inductive Num
  | nan
  | ninf
  | pinf
  | fin (q : ℚ)
  deriving DecidableEq

namespace Num

/-- Negation (IEEE 754). -/
def neg : Num → Num
  | nan => nan
  | ninf => pinf
  | pinf => ninf
  | fin q => fin (-q)

/-- Addition (IEEE 754): with anything that is not a number, and of opposite infinities, it is not a number. -/
def add : Num → Num → Num
  | fin a, fin b => fin (a + b)
  | fin _, pinf => pinf
  | pinf, fin _ => pinf
  | pinf, pinf => pinf
  | fin _, ninf => ninf
  | ninf, fin _ => ninf
  | ninf, ninf => ninf
  | _, _ => nan

/-- Subtraction. -/
def sub (a b : Num) : Num := add a (neg b)

/-- An infinity with the sign of a number; with zero, the product is not a number. -/
def infTimes (q : ℚ) : Num := if 0 < q then pinf else if q < 0 then ninf else nan

/-- Multiplication (IEEE 754). -/
def mul : Num → Num → Num
  | fin a, fin b => fin (a * b)
  | fin a, pinf => infTimes a
  | pinf, fin a => infTimes a
  | fin a, ninf => neg (infTimes a)
  | ninf, fin a => neg (infTimes a)
  | pinf, pinf => pinf
  | ninf, ninf => pinf
  | pinf, ninf => ninf
  | ninf, pinf => ninf
  | _, _ => nan

/-- `a <= b`, false when one of them is not a number. -/
def le : Num → Num → Bool
  | fin a, fin b => decide (a ≤ b)
  | fin _, pinf => true
  | pinf, pinf => true
  | ninf, fin _ => true
  | ninf, pinf => true
  | ninf, ninf => true
  | _, _ => false

/-- `a < b`, false when one of them is not a number. -/
def lt : Num → Num → Bool
  | fin a, fin b => decide (a < b)
  | fin _, pinf => true
  | ninf, fin _ => true
  | ninf, pinf => true
  | _, _ => false

/-- `isfinite`. -/
def isFin : Num → Bool
  | fin _ => true
  | _ => false

end Num

open Num

/-- What of the brush matters here: the base value of the setting `slow_tracking`, and the function `expf`. The base
value of `tracking_noise` is 0, so that no input is skipped (mypaint-brush.c:1354-1391). -/
structure Brush where
  tracking : ℚ
  exp : Num → Num

/-- The states of the brush that keep the position and the pressure, and whether a reset was requested
(mypaint-brush.c:85-110). -/
structure State where
  x : Num
  y : Num
  actualX : Num
  actualY : Num
  pressure : Num
  requested : Bool
  deriving DecidableEq

/-- What the rest of the engine decides about one dab: the fraction `frac` of the remaining way
(mypaint-brush.c:1440), and the fraction `fac` of slow tracking per dab (mypaint-brush.c:827). -/
structure Step where
  frac : Num
  follow : Num

/-- A motion event: position, pressure and time, and what the rest of the engine decides: the steps to the dabs, the
slow tracking in the last step, and the same for the extra event that is inserted after a pause. -/
structure Event where
  x : Num
  y : Num
  pressure : Num
  dt : Num
  steps : List Step
  follow : Num
  earlySteps : List Step
  earlyFollow : Num

/-- Where the engine places a dab (before offsets), and the pressure that the dab reads. -/
structure Dab where
  x : Num
  y : Num
  pressure : Num
  deriving DecidableEq

/-- `exp_decay` (mypaint-brush.c:535-544); `T_const` is a number. -/
def expDecay (b : Brush) (T : ℚ) (t : Num) : Num :=
  if T ≤ 1 / 1000 then fin 0 else b.exp (mul (neg t) (fin (1 / T)))

/-- The part of `update_states_and_setting_values` that moves the position and the pressure
(mypaint-brush.c:718-720, 752, 826-830). -/
def move (s : State) (dx dy dp follow : Num) : State :=
  let x := add s.x dx
  let y := add s.y dy
  let p := add s.pressure dp
  { s with
    x := x
    y := y
    pressure := if le p (fin 0) then fin 0 else p
    actualX := add s.actualX (mul (sub x s.actualX) follow)
    actualY := add s.actualY (mul (sub y s.actualY) follow) }

/-- The loop over the dabs of an event (mypaint-brush.c:1430-1474). -/
def drawDabs (x y p : Num) : State → List Step → State × List Dab
  | s, [] => (s, [])
  | s, d :: ds =>
    let s' := move s (mul d.frac (sub x s.x)) (mul d.frac (sub y s.y)) (mul d.frac (sub p s.pressure)) d.follow
    let r := drawDabs x y p s' ds
    (r.1, ⟨s'.actualX, s'.actualY, s'.pressure⟩ :: r.2)

/-- `mypaint_brush_stroke_to` from the virtual cursor position on (mypaint-brush.c:1393-1494): slow tracking, the
reset, the dabs, and the last step. -/
def track (b : Brush) (s : State) (x y p dt : Num) (steps : List Step) (follow : Num) : State × List Dab :=
  let fac := sub (fin 1) (expDecay b b.tracking (mul (fin 100) dt))
  let x := add s.x (mul (sub x s.x) fac)
  let y := add s.y (mul (sub y s.y) fac)
  if lt (fin 5) dt || s.requested then
    ({ x := x, y := y, actualX := x, actualY := y, pressure := p, requested := false }, [])
  else
    let r := drawDabs x y p s steps
    (move r.1 (sub x r.1.x) (sub y r.1.y) (sub p r.1.pressure) follow, r.2)

/-- The test for insane coordinates (mypaint-brush.c:1329-1330). -/
def insane (x y : Num) : Bool :=
  !x.isFin || !y.isFin || (lt (fin (10 ^ 10)) x || lt (fin (10 ^ 10)) y || lt x (fin (-10 ^ 10)) || lt y (fin (-10 ^ 10)))

/-- The assertion about large coordinates (mypaint-brush.c:1341). -/
def allowed (x y : Num) : Bool :=
  lt x (fin (10 ^ 8)) && lt y (fin (10 ^ 8)) && lt (fin (-10 ^ 8)) x && lt (fin (-10 ^ 8)) y

/-- The time is made positive (mypaint-brush.c:1344). -/
def positive (dt : Num) : Num := if le dt (fin 0) then fin (1 / 10000) else dt

/-- `mypaint_brush_stroke_to` after its assertion (mypaint-brush.c:1343-1353): the time is made positive, and after a
pause an extra event without pressure is inserted. That inner call goes through the same checks without effect: its
coordinates have passed them, its pressure is 0, and its time is positive. -/
def afterChecks (b : Brush) (s : State) (x y p : Num) (e : Event) : State × List Dab :=
  let dt := positive e.dt
  if lt (fin (1 / 10)) dt && decide (p ≠ fin 0) && decide (s.pressure = fin 0) then
    let r := track b s x y (fin 0) (sub dt (fin (1 / 10000))) e.earlySteps e.earlyFollow
    let r' := track b r.1 x y p (fin (1 / 10000)) e.steps e.follow
    (r'.1, r.2 ++ r'.2)
  else track b s x y p dt e.steps e.follow

/-- `mypaint_brush_stroke_to` (mypaint-brush.c:1300-1494), for the position, the pressure and the time. `none` is the
failed assertion. Tilt, view and barrel rotation are left out. -/
def event (b : Brush) (s : State) (e : Event) : Option (State × List Dab) :=
  let p := if le e.pressure (fin 0) then fin 0 else e.pressure
  if insane e.x e.y then some (afterChecks b s (fin 0) (fin 0) (fin 0) e)
  else if allowed e.x e.y then some (afterChecks b s e.x e.y p e)
  else none

/-- What a program does with a brush: `mypaint_brush_reset` (mypaint-brush.c:303-306) and `mypaint_brush_stroke_to`. -/
inductive Call
  | reset
  | motion (e : Event)

/-- One call. -/
def call (b : Brush) (s : State) : Call → Option (State × List Dab)
  | .reset => some ({ s with requested := true }, [])
  | .motion e => event b s e

/-- A session: the state after it and all its dabs. -/
def session (b : Brush) : State → List Call → Option (State × List Dab)
  | s, [] => some (s, [])
  | s, c :: cs =>
    match call b s c with
    | none => none
    | some (s', ds) =>
      match session b s' cs with
      | none => none
      | some (s'', ds') => some (s'', ds ++ ds')

/-- A new brush (mypaint-brush.c:189-230): all states are 0 and a reset is requested. -/
def new : State := ⟨fin 0, fin 0, fin 0, fin 0, fin 0, true⟩

end Verif.Insane
