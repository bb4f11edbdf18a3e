import Verif.Model.Dab

/-!
# Sampling a colour (`get_color`, `/repo/mypaint-tiled-surface.c` lines 803-926, and
`get_color_pixels_legacy`, `get_color_pixels_accumulate`, `/repo/brushmodes.c` lines 491-626)

Sums that are `float` in C are elements of an ordered field `K`; the 32 bit integer sums of the
legacy code are exact, with wrap-around.
-/

namespace Verif.Sample
open Verif.Blend Verif.Mask Verif.Spectral Verif.Dab

section
variable {K : Type} [Field K] [LinearOrder K]

/-- The mask geometry of `get_color` (lines 811-815): hardness and softness one half, round, angle 0. -/
def shape (x y radius rad1 : K) : Shape K :=
  { x := x, y := y, radius := if radius < 1 then 1 else radius, hardness := 1 / 2, softness := 1 / 2
    aspect := 1, sn := 0, cs := 1, rad1 := rad1 }

/-- `sum_weight`, `sum_r`, `sum_g`, `sum_b`, `sum_a`. -/
structure Acc (K : Type) where
  w : K
  r : K
  g : K
  b : K
  a : K

/-- The pixels the loop visits, with their mask values; reading outside the tile is a fault. -/
def readAll (t : Tile) : List (Nat × Nat) → Except Fault (List (Nat × Px))
  | [] => .ok []
  | (i, m) :: l => do
    if tileLen ≤ i + 3 then .error .outOfBounds
    else
      let r ← readAll t l
      return (m, readPx t i) :: r

/-- The integer sums `weight`, `r`, `g`, `b`, `a` of `get_color_pixels_legacy` (brushmodes.c 505-521). -/
def legacySums (l : List (Nat × Px)) : Nat × Nat × Nat × Nat × Nat :=
  l.foldl (fun s v =>
    (u32 (s.1 + v.1), u32 (s.2.1 + u32 (v.1 * v.2.r) / 32768), u32 (s.2.2.1 + u32 (v.1 * v.2.g) / 32768),
      u32 (s.2.2.2.1 + u32 (v.1 * v.2.b) / 32768), u32 (s.2.2.2.2 + u32 (v.1 * v.2.a) / 32768)))
    (0, 0, 0, 0, 0)

/-- `get_color_pixels_legacy` (brushmodes.c 491-532). -/
def legacyTile (l : List (Nat × Px)) (acc : Acc K) : Acc K :=
  let s := legacySums l
  { w := acc.w + (s.1 : K), r := acc.r + (s.2.1 : K), g := acc.g + (s.2.2.1 : K)
    b := acc.b + (s.2.2.2.1 : K), a := acc.a + (s.2.2.2.2 : K) }

/-- The variables of the sampling loop (brushmodes.c 568-581). -/
structure LoopSt (K : Type) where
  w : K
  a : K
  avg : Rgb K
  spec : List K

/-- One sampled pixel (brushmodes.c 587-612). -/
def sampleOne (pow : K → K → K) (paint : K) (st : LoopSt K) (v : Nat × Px) : LoopSt K :=
  let m := v.1
  let p := v.2
  let a : K := (m : K) * (p.a : K) / 1073741824
  let sums := a + st.a
  let facA : K := if 0 < sums then a / sums else 1
  let facB : K := if 0 < sums then 1 - facA else 1
  { w := st.w + (m : K) / 32768
    a := st.a + a
    spec := if 0 < paint ∧ 0 < p.a then wgm pow (pixelSpectrum p) st.spec facA facB else st.spec
    avg := if paint < 1 ∧ 0 < p.a then
        { r := (p.r : K) * facA / (p.a : K) + st.avg.r * facB
          g := (p.g : K) * facA / (p.a : K) + st.avg.g * facB
          b := (p.b : K) * facA / (p.a : K) + st.avg.b * facB }
      else st.avg }

/-- The loop over the visited pixels (brushmodes.c 583-619). `counter` is `interval_counter`; `coin j`
is the outcome of `rand() < random_sample_threshold` for the `j`-th visited pixel (not drawn when the
counter is 0). -/
def sampleLoop (pow : K → K → K) (paint : K) (interval : Nat) (coin : Nat → Bool) :
    Nat → Nat → List (Nat × Px) → LoopSt K → Except Fault (LoopSt K)
  | _, _, [], st => .ok st
  | j, counter, v :: l, st =>
    let st := if counter = 0 ∨ coin j = true then sampleOne pow paint st v else st
    if interval = 0 then .error .divByZero
    else sampleLoop pow paint interval coin (j + 1) ((counter + 1) % interval) l st

/-- `get_color_pixels_accumulate` (brushmodes.c 546-626). -/
def accumulateTile (pow : K → K → K) (paint : K) (interval : Nat) (coin : Nat → Bool)
    (l : List (Nat × Px)) (acc : Acc K) : Except Fault (Acc K) :=
  if paint < 0 then .ok (legacyTile l acc)
  else do
    let rgb : Rgb K := ⟨acc.r, acc.g, acc.b⟩
    let st ← sampleLoop pow paint interval coin 0 0 l
      { w := acc.w, a := acc.a, avg := rgb
        spec := if 0 < paint then rgbToSpectral rgb else List.replicate 10 0 }
    let s := spectralToRgb st.spec
    return { w := st.w, a := st.a
             r := s.r * paint + (1 - paint) * st.avg.r
             g := s.g * paint + (1 - paint) * st.avg.g
             b := s.b * paint + (1 - paint) * st.avg.b }

/-- The colour handed back. -/
structure Result (K : Type) where
  r : K
  g : K
  b : K
  a : K

/-- The end of `get_color` (lines 898-925). -/
def finish (paint : K) (acc : Acc K) : Except Fault (Result K) :=
  if ¬ 0 < acc.w then .error .assertFail
  else
    let sa := acc.a / acc.w
    let sr := if paint < 0 then acc.r / acc.w else acc.r
    let sg := if paint < 0 then acc.g / acc.w else acc.g
    let sb := if paint < 0 then acc.b / acc.w else acc.b
    if 0 < sa then
      let demul := if paint < 0 then sa else 1
      .ok { r := clampK (sr / demul) 0 1, g := clampK (sg / demul) 0 1, b := clampK (sb / demul) 0 1
            a := clampK sa 0 1 }
    else .ok { r := 0, g := 1, b := 0, a := clampK sa 0 1 }

variable [FloorRing K]

/-- The mask of one tile, decoded, over the tile's contents (lines 873-889). -/
def tilePixels (s : Shape K) (t : TileIndex) (tile : Tile) : Except Fault (List (Nat × Px)) := do
  let mask ← render (s.inTile t.x t.y)
  if 64 * 64 + 2 * 64 < mask.length then .error .outOfBounds
  else
    let l ← visits mask 0
    readAll tile l

/-- The tiles of the loops of lines 853-855. -/
def tilesFor (x y radius : K) : List TileIndex :=
  (cRange (tileLo y radius) (tileHi y radius + 1)).flatMap fun ty =>
    (cRange (tileLo x radius) (tileHi x radius + 1)).map fun tx => ⟨tx, ty⟩

/-- `sample_interval` (line 848), as the `uint16_t` it is passed as. -/
def interval (radius : K) : Except Fault Nat :=
  if radius ≤ 2 then .ok 1
  else do
    let n ← toInt (radius * 7)
    return (n % 65536).toNat

/-- The conversions to `int` of lines 829-832 stay in range. -/
def convertible (x y radius : K) : Bool :=
  let inInt (n : Int) : Bool := decide (intMin ≤ n ∧ n ≤ intMax)
  inInt (tileLo x radius) && inInt (tileHi x radius) && inInt (tileLo y radius) && inInt (tileHi y radius)

/-- Accumulate tile after tile. -/
def accumulateAll (pow : K → K → K) (s : Shape K) (paint : K) (n : Nat) (coin : TileIndex → Nat → Bool) :
    List (TileIndex × Except Fault Tile) → Acc K → Except Fault (Acc K)
  | [], acc => .ok acc
  | (t, tile) :: l, acc => do
    let tile ← tile
    let px ← tilePixels s t tile
    let acc ← accumulateTile pow paint n (coin t) px acc
    accumulateAll pow s paint n coin l acc

/-- `get_color` (lines 803-926), with a backend that delivers every tile. `order` is the order in which
the tiles are accumulated: with OpenMP, lines 852-896 run in parallel with a critical section around the
accumulation, so that any rearrangement is possible. Processing a tile and reading it are independent of
the sums, so that here all tiles are processed and read first. -/
def getColor (env : Env K) (s : Surf (Op K) (Except Fault Tile)) (x y radius paint : K)
    (order : List TileIndex → List TileIndex) (coin : TileIndex → Nat → Bool) :
    Except Fault (Result K × Surf (Op K) (Except Fault Tile)) := do
  let sh := shape x y radius env.rad1
  if convertible x y sh.radius = false then .error .floatConv
  else
    let n ← interval sh.radius
    let ts := order (tilesFor x y sh.radius)
    let (vs, s') ← Surf.sample (kind env) s ts
    let acc ← accumulateAll env.pow sh paint n coin (ts.zip vs) ⟨0, 0, 0, 0, 0⟩
    let res ← finish paint acc
    return (res, s')

end
end Verif.Sample
