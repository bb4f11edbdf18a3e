import Verif.Model.Painting
import Verif.Spec.TiledSurface

/-!
# Painting at once

What a user would take the library for: a picture on which every dab, with its symmetric copies, appears at the moment it is
drawn, and from which colours are picked as it is then. There are no blocks, no queues of dabs and no lists of changed tiles.
-/

namespace Verif.Spec.Now
open Verif Verif.Full Verif.Dab

/-- The picture, and the number of colours sampled so far. -/
structure Picture where
  canvas : TileIndex → Except Fault Tile
  samples : Nat

section
variable {K : Type} [Field K] [LinearOrder K] [FloorRing K]

/-- Put a dab on the canvas where it is, if it is visible. -/
def dabAt (env : Dab.Env K) (c : TileIndex → Except Fault Tile) (a : Args K) : TileIndex → Except Fault Tile :=
  match prepare a with
  | .ok (some op) => Surf.drawNow (kind env) c op
  | _ => c

/-- The symmetric copies of a dab. -/
def copies (d : Symm.Data K) (a : Args K) : List (Args K) :=
  match Symm.passes d 32 a.x a.y a.angle with
  | .ok r => r.1.map fun p => { a with x := p.x, y := p.y, angle := p.angle }
  | .error _ => []

/-- Draw a dab: it and its copies, at once. -/
def draw (env : Dab.Env K) (d : Symm.Data K) (v : Picture) (a : Args K) : Bool × Picture :=
  if Painting.visible a then (true, { v with canvas := (a :: copies d a).foldl (dabAt env) v.canvas }) else (false, v)

/-- Pick a colour: the weighted sum over the pixels under the mask, of the tiles as they are. -/
def look (env : Dab.Env K) (c : TileIndex → Except Fault Tile) (x y radius paint : K)
    (order : List TileIndex → List TileIndex) (coin : TileIndex → Nat → Bool) : Except Fault (Sample.Result K) := do
  let sh := Sample.shape x y radius env.rad1
  if Sample.convertible x y sh.radius = false then .error .floatConv
  else
    let n ← Sample.interval sh.radius
    let ts := order (Sample.tilesFor x y sh.radius)
    let acc ← Sample.accumulateAll env.pow sh paint n coin (ts.zip (ts.map c)) ⟨0, 0, 0, 0, 0⟩
    Sample.finish paint acc

/-- Pick a colour for the n-th time. -/
def getColor (env : Dab.Env K) (sch : Painting.Schedule) (v : Picture) (x y : Int) (radius paint : K) :
    Color.Rgba K × Picture :=
  match look env v.canvas (x : K) (y : K) radius paint (sch.order v.samples) (sch.coin v.samples) with
  | .error _ => (⟨0, 0, 0, 0⟩, v)
  | .ok r => (⟨r.r, r.g, r.b, r.a⟩, { v with samples := v.samples + 1 })

/-- Paint all motion events one after the other. -/
def paint {R σ : Type} (e : Engine.Env K R σ) (env : Dab.Env K) (d : Symm.Data K) (sch : Painting.Schedule) (fuel : Nat)
    (b : Engine.Brush K R) (v : Picture) (ms : List (Engine.Motion K)) : Except Fault (Engine.Brush K R × Picture) :=
  Engine.strokes (e.on (draw env d) (getColor env sch)) fuel b v ms

end
end Verif.Spec.Now
