import Verif.Model.Painting
import Verif.Spec.EngineDemo
import Verif.Props.C09_DirtyRects

/-!
# A picture to try the brush on

A new surface, transparent, and the brush of `EngineDemo`, over rational numbers.
-/

namespace Verif.Painting.Demo
open Verif.Full Verif.Dab Verif.Blend Verif.Engine Verif.Map

def sch : Schedule := ⟨fun _ l => l, fun _ _ _ => false⟩

/-- A block without symmetry that asks for up to four rectangles. -/
def strokeBlock (ms : List (Motion ℚ)) : Block ℚ :=
  ⟨none, fun _ => true, fun _ => true, ms, id, some (4, fun _ => Rect.zero)⟩

/-- A canvas of one colour. -/
def uniform (p : Px) : Canvas := fun _ => .ok fun i =>
  if i % 4 = 0 then p.r else if i % 4 = 1 then p.g else if i % 4 = 2 then p.b else p.a

def studio (br : Brush ℚ Nat) (p : Px) : Except Fault (Studio ℚ Nat) :=
  match init .normal demoTrig (fun _ => true) (fun _ => Symm.unit) 0 (uniform p) with
  | .error f => .error f
  | .ok s0 => .ok ⟨br, s0, 0⟩

/-- One block on a canvas of one colour. -/
def session (br : Brush ℚ Nat) (p : Px) (ms : List (Motion ℚ)) : Except Fault (List Rect × Studio ℚ Nat) := do
  let s ← studio br p
  block Engine.Demo.env .normal Dab.demoEnv demoTrig sch 100 s (strokeBlock ms)

/-- The rectangles, and some pixels afterwards. -/
def observe (br : Brush ℚ Nat) (p : Px) (ms : List (Motion ℚ)) (ps : List (Int × Int)) :
    Option (List Rect × List (Option Px)) :=
  match session br p ms with
  | .error _ => none
  | .ok (rs, s) => some (rs, ps.map fun q => (pixel s.surf.surf.canvas q.1 q.2).toOption)

/-- A short stroke to the right, across the border between two tiles. -/
def events : List (Motion ℚ) :=
  [Engine.Demo.motion 60 10 (1 / 2) (1 / 10), Engine.Demo.motion 61 10 (1 / 2) (1 / 10),
    Engine.Demo.motion 66 10 (1 / 2) (1 / 10)]

/-- A red brush without pigment mixing. -/
def red : Brush ℚ Nat :=
  Engine.Demo.set (Engine.Demo.set (Engine.Demo.set Engine.Demo.brush sPaintMode 0) sColorS 1) sColorV 1

/-- The same stroke, but the pen is lifted slowly. -/
def lifting : List (Motion ℚ) :=
  [Engine.Demo.motion 60 10 (1 / 2) (1 / 10), Engine.Demo.motion 61 10 (1 / 2) (1 / 10),
    Engine.Demo.motion 66 10 0 (1 / 10), Engine.Demo.motion 69 10 0 (1 / 10)]

/-- The opacity is the pressure. -/
def fading : Brush ℚ Nat :=
  { red with settings := fun i => if i = sOpaqueMultiply then
      { base := 0, inputs := 18, used := 1
        pts := fun j => if j = 0 then ⟨fun k => if k = 0 then 0 else 1, fun k => if k = 0 then 0 else 1, 2⟩
          else ⟨fun _ => 0, fun _ => 0, 0⟩ }
    else red.settings i }

/-- A brush without dynamics has the base values. -/
theorem red_value (id : Nat) (i : Nat → ℚ) : calculate (red.settings id) i = (red.settings id).base := by
  show calculate (if id = sColorV then Engine.Demo.constant 1 else if id = sColorS then Engine.Demo.constant 1 else
    if id = sPaintMode then Engine.Demo.constant 0 else Engine.Demo.settings id) i =
    (if id = sColorV then Engine.Demo.constant 1 else if id = sColorS then Engine.Demo.constant 1 else
    if id = sPaintMode then Engine.Demo.constant 0 else Engine.Demo.settings id).base
  split_ifs <;> rfl

end Verif.Painting.Demo
