import Verif.Model.Engine
import Verif.Model.FullSurface
import Verif.Model.GetColor

/-!
# The brush engine painting on the tiled surface

`Verif.Model.Engine` leaves the surface open, `Verif.Model.FullSurface` and `Verif.Model.GetColor` model the tiled
surface. Here they are put together, the way an application does (`/repo/examples/minimal.c` lines 33-47):
`begin_atomic`, motion events, `end_atomic`.
-/

namespace Verif.Engine

/-- The same C library and generator, another surface. -/
def Env.on {K R σ : Type} (e : Env K R σ) {τ : Type} (draw : τ → Dab.Args K → Bool × τ)
    (getColor : τ → Int → Int → K → K → Color.Rgba K × τ) : Env K R τ :=
  { exp := e.exp, log := e.log, sqrt := e.sqrt, pow := e.pow, atan2 := e.atan2, cos := e.cos, sin := e.sin
    degrees := e.degrees, next := e.next, gauss := e.gauss, draw := draw, getColor := getColor }

end Verif.Engine

namespace Verif.Painting
open Verif.Full

/-- The surface as the engine sees it: the tiled surface, or the fault that drawing ran into; and the number of colours
sampled so far. -/
structure World (K : Type) where
  surf : Except Fault (FSurf K)
  samples : Nat

/-- What the operating system decides when a colour is sampled: the order in which the threads add up the tiles
(mypaint-tiled-surface.c lines 852-896), and the outcomes of `rand()` (brushmodes.c line 585), for the n-th time. -/
structure Schedule where
  order : Nat → List TileIndex → List TileIndex
  coin : Nat → TileIndex → Nat → Bool

section
variable {K : Type} [Field K] [LinearOrder K] [FloorRing K]

/-- Does `draw_dab_internal` get past its early returns (mypaint-tiled-surface.c lines 642-645)? -/
def visible (a : Dab.Args K) : Bool :=
  match Dab.prepare a with
  | .ok (some _) => true
  | _ => false

/-- `mypaint_surface_draw_dab` (mypaint-surface.c lines 26-45) on a tiled surface. After a fault nothing more is drawn;
this is a device of the model, the program has no defined behaviour then; so is the answer in that case. -/
def draw (b : Build) (env : Dab.Env K) (w : World K) (a : Dab.Args K) : Bool × World K :=
  match w.surf with
  | .error _ => (visible a, w)
  | .ok s =>
    match Full.drawDab b env s a with
    | .error f => (visible a, { w with surf := .error f })
    | .ok r => (r.1, { w with surf := .ok r.2 })

/-- `mypaint_surface_get_color` (mypaint-surface.c lines 48-58) on a tiled surface. -/
def getColor (env : Dab.Env K) (sch : Schedule) (w : World K) (x y : Int) (radius paint : K) :
    Color.Rgba K × World K :=
  match w.surf with
  | .error _ => (⟨0, 0, 0, 0⟩, w)
  | .ok s =>
    match Sample.getColor env s.surf (x : K) (y : K) radius paint (sch.order w.samples) (sch.coin w.samples) with
    | .error f => (⟨0, 0, 0, 0⟩, { w with surf := .error f })
    | .ok r => (⟨r.1.r, r.1.g, r.1.b, r.1.a⟩, { surf := .ok { s with surf := r.2 }, samples := w.samples + 1 })

/-- The engine with the tiled surface. -/
def onTiles {R σ : Type} (e : Engine.Env K R σ) (b : Build) (env : Dab.Env K) (sch : Schedule) :
    Engine.Env K R (World K) := e.on (draw b env) (getColor env sch)

/-- A block of an application (examples/minimal.c lines 33-47): maybe a new symmetry setting, `begin_atomic`, any number of motion
events, `end_atomic`. -/
structure Block (K : Type) where
  /-- the arguments of `mypaint_tiled_surface_set_symmetry_state`: active, centre, angle, type, number of lines -/
  symmetry : Option (Bool × K × K × K × Symm.SymType × Int)
  /-- which allocations of `begin_atomic` succeed -/
  alloc : Int → Bool
  balloc : Int → Bool
  motions : List (Engine.Motion K)
  /-- the order in which `end_atomic` processes the tiles -/
  order : List TileIndex → List TileIndex
  /-- the list for the changed areas -/
  roi : Option (Int × (Int → Rect))

/-- The brush, the surface and the number of colours sampled so far. -/
structure Studio (K R : Type) where
  brush : Engine.Brush K R
  surf : FSurf K
  samples : Nat

/-- The surface with the new symmetry setting, if there is one (mypaint-tiled-surface.c lines 192-201). -/
def Block.setUp (bl : Block K) (s : FSurf K) : FSurf K :=
  match bl.symmetry with
  | none => s
  | some (active, cx, cy, angle, type, lines) => { s with symm := Symm.setPending s.symm active cx cy angle type lines }

/-- Paint a block: the changed areas, and what everything looks like afterwards. -/
def block {R σ : Type} (e : Engine.Env K R σ) (b : Build) (env : Dab.Env K) (trig : Symm.Trig K) (sch : Schedule)
    (fuel : Nat) (s : Studio K R) (bl : Block K) : Except Fault (List Rect × Studio K R) := do
  let s1 ← beginAtomic trig bl.alloc bl.balloc (bl.setUp s.surf)
  let r ← Engine.strokes (onTiles e b env sch) fuel s.brush ⟨.ok s1, s.samples⟩ bl.motions
  let s2 ← r.2.surf
  let t ← endAtomic env bl.order bl.roi s2
  return (t.1, { brush := r.1, surf := t.2, samples := r.2.samples })

/-- A painting session: block after block. -/
def paint {R σ : Type} (e : Engine.Env K R σ) (b : Build) (env : Dab.Env K) (trig : Symm.Trig K) (sch : Schedule)
    (fuel : Nat) : Studio K R → List (Block K) → Except Fault (Studio K R)
  | s, [] => .ok s
  | s, bl :: bls => do
    let r ← block e b env trig sch fuel s bl
    paint e b env trig sch fuel r.2 bls

end
end Verif.Painting
