import Verif.Model.Painting
import Verif.Spec.Quiet

/-!
# Specification for C88: brushes whose colour does not matter
-/

namespace Verif.Engine
open Verif.Map

section
variable {K R : Type} [Field K] [LinearOrder K]

/-- The settings after choosing another colour: `mypaint_brush_set_base_value` for hue, saturation and value. -/
def recolour (h s v : K) (settings : Load.Brush K) : Load.Brush K := fun id =>
  { settings id with base :=
      if id = sColorH then h else if id = sColorS then s else if id = sColorV then v else (settings id).base }

/-- A brush that only smudges. -/
def OnlySmudges (settings : Load.Brush K) : Prop := ∀ i, 1 ≤ calculate (settings sSmudge) i

/-- An eraser: it erases fully and does not colorize. (Negative pigment mixing, which no user can set, would make the colour
picked up by one brush leak into others, see C73.) -/
structure Erases (settings : Load.Brush K) : Prop where
  eraser : ∀ i, calculate (settings sEraser) i = 1
  colorize : ∀ i, calculate (settings sColorize) i ≤ 0
  paint : PaintOk settings

/-- Brushes whose colour should not matter. -/
def Colourless (settings : Load.Brush K) : Prop := OnlySmudges settings ∨ Erases settings

/-- What the power function must fulfil: with exponent 0 it gives the same for all numbers. -/
def PowZero (pow : K → K → K) : Prop := ∀ x y, pow x 0 = pow y 0

/-- The same brush but for its colour. The values of the colour settings from the last step differ as well, and so does
the buffer of the last mixed colour. -/
structure SameButColour (b b' : Brush K R) : Prop where
  rest : b' = { b with settings := b'.settings, vals := b'.vals, mix := b'.mix }
  settings : ∃ h s v, b'.settings = recolour h s v b.settings
  vals : ∀ id, id ≠ sColorH → id ≠ sColorS → id ≠ sColorV → b'.vals id = b.vals id

end
end Verif.Engine

namespace Verif.Painting

section
variable {K R σ : Type} [Field K] [LinearOrder K] [FloorRing K]

/-- Choose the colour of the brush. -/
def Studio.choose (c : K × K × K) (s : Studio K R) : Studio K R :=
  { s with brush := { s.brush with settings := Engine.recolour c.1 c.2.1 c.2.2 s.brush.settings } }

/-- A session in which a colour is chosen before every block. -/
def paintIn (e : Engine.Env K R σ) (b : Build) (env : Dab.Env K) (trig : Symm.Trig K) (sch : Schedule) (fuel : Nat) :
    Studio K R → List ((K × K × K) × Block K) → Except Fault (Studio K R)
  | s, [] => .ok s
  | s, (c, bl) :: l => do
    let r ← block e b env trig sch fuel (s.choose c) bl
    paintIn e b env trig sch fuel r.2 l

end

/-- The same picture, the same symmetry setting, the same changed areas. -/
structure SameView {K : Type} (s s' : Full.FSurf K) : Prop where
  canvas : s'.surf.canvas = s.surf.canvas
  symm : s'.symm = s.symm
  boxes : s'.boxes = s.boxes
  num : s'.numB = s.numB
  cap : s'.boxCap = s.boxCap
  dirty : s'.dirty = s.dirty

end Verif.Painting
