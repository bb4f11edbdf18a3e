import Verif.Model.Spectral
import Verif.Model.TiledSurface

/-!
# Concrete dabs: `draw_dab_internal` and `process_op`
(`/repo/mypaint-tiled-surface.c` lines 495-562 and 610-686)

This instantiates the generic surface of `Verif.Model.TiledSurface`.
-/

namespace Verif.Dab
open Verif.Blend Verif.Mask Verif.Spectral

/-- Functions of the C library and constants the dab code uses. Angles are in degrees
(lines 411-414). -/
structure Env (K : Type) where
  sin : K → K
  cos : K → K
  /-- `fastpow` -/
  pow : K → K → K
  /-- `sqrtf(1/M_PI)` -/
  rad1 : K

/-- The arguments of `draw_dab` (lines 690-700). -/
structure Args (K : Type) where
  x : K
  y : K
  radius : K
  colorR : K
  colorG : K
  colorB : K
  opaque' : K
  hardness : K
  softness : K
  colorA : K
  aspect : K
  angle : K
  lockAlpha : K
  colorize : K
  posterize : K
  posterizeNum : K
  paint : K

/-- `OperationDataDrawDab` (`/repo/operationqueue.h`). -/
structure Op (K : Type) where
  x : K
  y : K
  radius : K
  color : Color
  colorA : K
  opaque' : K
  hardness : K
  softness : K
  aspect : K
  angle : K
  normal : K
  lockAlpha : K
  colorize : K
  posterize : K
  posterizeNum : Nat
  paint : K

section
variable {K : Type} [Field K] [LinearOrder K] [FloorRing K]

/-- Conversion `(int)v`: truncation towards zero, undefined outside the range of `int`. -/
def toInt (v : K) : Except Fault Int :=
  let t : Int := if 0 ≤ v then ⌊v⌋ else ⌈v⌉
  if intMin ≤ t ∧ t ≤ intMax then .ok t else .error .floatConv

/-- `op->color_r = color_r * (1<<15)` with `color_r` clamped (lines 649-656). -/
def channel (v : K) : Nat := toUInt (clampK v 0 1 * 32768)

/-- Lines 629-666 of `draw_dab_internal`: the operation to be queued, or `none` if the dab is
invisible (`return FALSE`). -/
def prepare (a : Args K) : Except Fault (Option (Op K)) := do
  let opaque' := clampK a.opaque' 0 1
  let hardness := clampK a.hardness 0 1
  let softness := clampK a.softness 0 1
  let lockAlpha := clampK a.lockAlpha 0 1
  let colorize := clampK a.colorize 0 1
  let posterize := clampK a.posterize 0 1
  let num ← toInt (a.posterizeNum * 100 + 1 / 2)
  let num : Int := if num > 128 then 128 else if num < 1 then 1 else num
  let paint := clampK a.paint 0 1
  if a.radius < 1 / 10 then return none
  if hardness = 0 then return none
  if softness = 1 then return none
  if opaque' = 0 then return none
  return some
    { x := a.x, y := a.y, radius := a.radius
      color := ⟨channel a.colorR, channel a.colorG, channel a.colorB⟩
      colorA := clampK a.colorA 0 1
      opaque' := opaque', hardness := hardness, softness := softness
      aspect := if a.aspect < 1 then 1 else a.aspect
      angle := a.angle
      normal := (1 - lockAlpha) * (1 - colorize) * (1 - posterize)
      lockAlpha := lockAlpha, colorize := colorize, posterize := posterize
      posterizeNum := num.toNat
      paint := paint }

/-- Tile column or row range: `floor(floor(c ∓ r_fringe) / MYPAINT_TILE_SIZE)` (lines 669-674). -/
def tileLo (c radius : K) : Int := ⌊c - (radius + 1)⌋ / 64
def tileHi (c radius : K) : Int := ⌊c + (radius + 1)⌋ / 64

/-- The tiles a dab is queued for, in the order of the loops of lines 676-683. -/
def tilesOf (op : Op K) : List TileIndex :=
  (cRange (tileLo op.y op.radius) (tileHi op.y op.radius + 1)).flatMap fun ty =>
    (cRange (tileLo op.x op.radius) (tileHi op.x op.radius + 1)).map fun tx => ⟨tx, ty⟩

/-- A tile buffer: `uint16_t rgba[64*64*4]`, by offset. -/
abbrev Tile := Nat → Nat

/-- Number of `uint16_t` in a tile. -/
def tileLen : Nat := 64 * 64 * 4

/-- The pixel starting at offset `i`. -/
def readPx (t : Tile) (i : Nat) : Px := ⟨t i, t (i + 1), t (i + 2), t (i + 3)⟩

/-- Write the pixel starting at offset `i`. -/
def writePx (t : Tile) (i : Nat) (p : Px) : Tile := fun j =>
  if j = i then p.r else if j = i + 1 then p.g else if j = i + 2 then p.b
  else if j = i + 3 then p.a else t j

/-- The executions of a blend mode's body for the visited pixels (`Verif.Mask.visits`). -/
def applyBody (body : Nat → Px → Except Fault Px) : List (Nat × Nat) → Tile → Except Fault Tile
  | [], t => .ok t
  | (i, m) :: l, t => do
    if tileLen ≤ i + 3 then .error .outOfBounds
    else
      let p ← body m (readPx t i)
      applyBody body l (writePx t i p)

/-- A strength factor converted to `uint16_t`: `strength*(1<<15)`. -/
def strength (v : K) : Nat := toUInt (v * 32768)

/-- The shape given to `render_dab_mask` by `process_op` (lines 500-508, 385-386, 411-414). -/
def shapeOf (env : Env K) (op : Op K) : Shape K :=
  { x := op.x, y := op.y, radius := op.radius
    hardness := clampK op.hardness 0 1
    softness := op.softness
    aspect := if op.aspect < 1 then 1 else op.aspect
    sn := env.sin op.angle, cs := env.cos op.angle, rad1 := env.rad1 }

/-- The blend modes `process_op` runs one after the other over the same mask (lines 511-561), each
as the body for one pixel. -/
def modes (env : Env K) (op : Op K) : List (Nat → Px → Except Fault Px) :=
  (if op.paint < 1 then
    (if op.normal ≠ 0 then
      (if op.colorA = 1 then
        [fun m p => .ok (Blend.normal op.color (strength (op.normal * op.opaque' * (1 - op.paint))) m p)]
      else
        [fun m p => .ok (normalAndEraser op.color (strength op.colorA)
          (strength (op.normal * op.opaque' * (1 - op.paint))) m p)])
    else [])
    ++ (if op.lockAlpha ≠ 0 ∧ op.colorA ≠ 0 then
        [fun m p => .ok (Blend.lockAlpha op.color
          (strength (op.lockAlpha * op.opaque' * (1 - op.colorize) * (1 - op.posterize) * (1 - op.paint)))
          m p)]
      else [])
  else [])
  ++ (if op.paint > 0 then
    (if op.normal ≠ 0 then
      (if op.colorA = 1 then
        [normalPaint env.pow op.color (strength (op.normal * op.opaque' * op.paint))]
      else
        [normalAndEraserPaint env.pow op.color (strength op.colorA)
          (strength (op.normal * op.opaque' * op.paint))])
    else [])
    ++ (if op.lockAlpha ≠ 0 ∧ op.colorA ≠ 0 then
        [lockAlphaPaint env.pow op.color
          (strength (op.lockAlpha * op.opaque' * (1 - op.colorize) * (1 - op.posterize) * op.paint))]
      else [])
  else [])
  ++ (if op.colorize ≠ 0 then
    [Blend.colorize op.color (strength (op.colorize * op.opaque'))] else [])
  ++ (if op.posterize ≠ 0 then
    [fun m p => .ok (Blend.posterize op.posterizeNum (strength (op.posterize * op.opaque')) m p)]
  else [])

/-- `process_op` (lines 495-562). -/
def processOp (env : Env K) (t : TileIndex) (op : Op K) (tile : Tile) : Except Fault Tile := do
  if clampK op.hardness 0 1 = 0 then .error .assertFail
  else
    let mask ← render ((shapeOf env op).inTile t.x t.y)
    if 64 * 64 + 2 * 64 < mask.length then .error .outOfBounds
    else
      let l ← visits mask 0
      (modes env op).foldlM (fun tile body => applyBody body l tile) tile

/-- The concrete kind of dab for the surface model. A tile whose processing has undefined
behaviour stays `error`. -/
def kind (env : Env K) : DabKind (Op K) (Except Fault Tile) where
  tilesOf := tilesOf
  processOp t op tile := tile.bind (processOp env t op)

end

end Verif.Dab
