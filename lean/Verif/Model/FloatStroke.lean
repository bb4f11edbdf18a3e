import Verif.Model.Float32

/-!
# Model of the loop over the dabs of a motion event, in single precision

The loop of `mypaint_brush_stroke_to` with every rounding of the code.  Only what decides how often it
runs is kept: the position of the brush, the fraction of a dab already done and the time left.  All else
a dab does (drawing it, and the dynamics that set radius and dab rates) enters through the values
`count_dabs_to` reads afterwards, which may be any sequence.

Expressions are evaluated in the precision of their types (`FLT_EVAL_METHOD` 0) and not contracted.
`double` is used where the code has it: for the time left and for literals such as `1.0`.
-/

namespace Verif.FloatStroke

open Float32

/-- The functions of the C library that the loop calls: `hypotf`, and `sqrt` on `double`. -/
structure Libm where
  hypotf : ℚ → ℚ → ℚ
  sqrt : ℚ → ℚ

/-- What `count_dabs_to` reads of the brush, mypaint-brush.c:1255-1285: actual radius, base radius, the
three dab rates, and aspect ratio, cosine and sine of the angle of the dab. -/
structure Spacing where
  radius : ℚ
  base : ℚ
  perActual : ℚ
  perBasic : ℚ
  perSecond : ℚ
  ratio : ℚ
  cs : ℚ
  sn : ℚ

/-- The brush within the loop: `STATE(X)`, `STATE(Y)`, `dabs_moved` (all `float`) and `dtime_left`
(`double`). -/
structure Pen where
  x : ℚ
  y : ℚ
  moved : ℚ
  left : ℚ

/-- The distance in `count_dabs_to`, mypaint-brush.c:1262-1278. -/
def distance (L : Libm) (s : Spacing) (dx dy : ℚ) : ℚ :=
  if s.ratio > 1 then
    let yyr := rnd (rnd (rnd (dy * s.cs) - rnd (dx * s.sn)) * s.ratio)
    let xxr := rnd (rnd (dy * s.sn) + rnd (dx * s.cs))
    rnd (L.sqrt (rnd (rnd (yyr * yyr) + rnd (xxr * xxr))))
  else L.hypotf dx dy

/-- `count_dabs_to`, mypaint-brush.c:1253-1289, for an actual radius other than 0; the time is handed
over as a `float`. -/
def countDabs (L : Libm) (s : Spacing) (p : Pen) (x y : ℚ) : ℚ :=
  let dist := distance L s (rnd (x - p.x)) (rnd (y - p.y))
  let res1 := rnd (rnd (dist / s.radius) * s.perActual)
  let res2 := rnd (rnd (dist / s.base) * s.perBasic)
  let res3 := rnd (rnd p.left * s.perSecond)
  let res4 := rnd (rnd (res1 + res2) + res3)
  if res4 < 0 then 0 else res4

/-- `step_ddab`, mypaint-brush.c:1433-1439. -/
def stepDabs (p : Pen) : ℚ := if p.moved > 0 then rnd (rnd64 (1 - p.moved)) else 1

/-- One iteration, mypaint-brush.c:1431-1473 with 718-719: the brush moves a fraction of the way to
`(x, y)`. -/
def iter (x y todo : ℚ) (p : Pen) : Pen :=
  let frac := rnd (stepDabs p / todo)
  { x := rnd (p.x + rnd (frac * rnd (x - p.x)))
    y := rnd (p.y + rnd (frac * rnd (y - p.y)))
    moved := 0
    left := rnd64 (p.left - rnd (rnd64 (frac * p.left))) }

/-- The loop, mypaint-brush.c:1428-1474; `sp i` is what the brush says after `i` dabs.  The result is
the brush behind the loop and the number of dabs; `none` if the loop has not ended after `fuel` dabs. -/
def loop (L : Libm) (sp : Nat → Spacing) (x y : ℚ) : Nat → Nat → Pen → Option (Pen × Nat)
  | fuel, i, p =>
    let todo := countDabs L (sp i) p x y
    if rnd (p.moved + todo) ≥ 1 then
      match fuel with
      | 0 => none
      | fuel + 1 => loop L sp x y fuel (i + 1) (iter x y todo p)
    else some (p, i)

/-- The position after the event, mypaint-brush.c:1483-1484 with 718-719. -/
def arrive (x y : ℚ) (p : Pen) : ℚ × ℚ := (rnd (p.x + rnd (x - p.x)), rnd (p.y + rnd (y - p.y)))

/-- The motion to `(x, y)` within `dt` seconds, mypaint-brush.c:1428-1497, with the fraction of a dab saved at the end;
`none` if it has not ended after `fuel` dabs. -/
def event (L : Libm) (fuel : Nat) (b : Pen) (sp : Nat → Spacing) (x y dt : ℚ) : Option Pen :=
  match loop L sp x y fuel 0 { b with left := dt } with
  | none => none
  | some (p, i) => some ⟨(arrive x y p).1, (arrive x y p).2, rnd (p.moved + countDabs L (sp i) p x y), 0⟩

/-- A motion: where to, in what time, and what the brush says after each dab. -/
structure Motion where
  x : ℚ
  y : ℚ
  dt : ℚ
  sp : Nat → Spacing

/-- Several motions. -/
def session (L : Libm) (fuel : Nat) : Pen → List Motion → Option Pen
  | b, [] => some b
  | b, m :: rest =>
    match event L fuel b m.sp m.x m.y m.dt with
    | none => none
    | some b' => session L fuel b' rest

end Verif.FloatStroke
