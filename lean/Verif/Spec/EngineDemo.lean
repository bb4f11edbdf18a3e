import Verif.Model.Engine
import Mathlib.Data.Rat.Floor

/-!
# A brush to try the engine on

Rational numbers, simple replacements for the functions of the C library, and a surface that only writes down
the dabs it is given. Used in examples that show that the hypotheses of the theorems can be met.
-/

namespace Verif.Engine.Demo
open Verif.Map

/-- Newton's method for the integer square root, from above. -/
def isqrtLoop (n : Nat) : Nat → Nat → Nat
  | 0, x => x
  | k + 1, x => let y := (x + n / x) / 2; if y < x then isqrtLoop n k y else x

def isqrt (n : Nat) : Nat := if n = 0 then 0 else isqrtLoop n (n.log2 + 5) n

/-- Exact on squares of rational numbers. -/
def qsqrt (q : ℚ) : ℚ := if q ≤ 0 then 0 else (isqrt q.num.natAbs : ℚ) / isqrt q.den

/-- `R` counts the calls of the generator, `σ` holds the dabs. -/
def env : Env ℚ Nat (List (Dab.Args ℚ)) where
  exp t := if 0 ≤ t then 1 + t else 1 / (1 - t)
  log t := t - 1
  sqrt := qsqrt
  pow a _ := a
  atan2 y x := if x > 0 ∧ y = 0 then 0 else 90
  cos a := if a = 0 then 1 else 0
  sin a := if a = 0 then 0 else 1
  degrees t := t * 57
  next r := (1 / 2, r + 1)
  gauss r := (1, r + 1)
  draw s a := (decide (a.opaque' > 0), s ++ [a])
  getColor s _ _ _ _ := (⟨1, 1 / 2, 0, 1⟩, s)

def constant (v : ℚ) : Mapping ℚ := { base := v, inputs := 18, pts := fun _ => ⟨fun _ => 0, fun _ => 0, 0⟩, used := 0 }

/-- The default base values, with full opacity; no dynamics. -/
def settings : Load.Brush ℚ := fun i =>
  constant (if i = sOpaqueMultiply then 1 else (Settings.settings.map Settings.SettingInfo.default).getD i 0)

def set (b : Brush ℚ Nat) (id : Nat) (v : ℚ) : Brush ℚ Nat :=
  { b with settings := fun i => if i = id then constant v else b.settings i }

def brush : Brush ℚ Nat where
  total := 0
  idle := 0
  st := State.cleared
  buckets := ⟨[], 0, 0, 0⟩
  random := 0
  skip := 0
  skipX := 0
  skipY := 0
  skippedTime := 0
  rng := 0
  settings := settings
  vals := fun _ => 0
  resetRequested := true
  mix := ⟨0, 0, 0, 0⟩

def motion (x y pressure dtime : ℚ) : Motion ℚ where
  x := .fin x
  y := .fin y
  pressure := pressure
  xtilt := .fin 0
  ytilt := .fin 0
  dtime := dtime
  viewzoom := 1
  viewrotation := 0
  barrel := 0
  linear := false

/-- What can be compared of a result: the return value and some numbers. -/
def look {α β : Type} (f : α → β) : Except Fault α → Option β
  | .ok a => some (f a)
  | .error _ => none

end Verif.Engine.Demo
