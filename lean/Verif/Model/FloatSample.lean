import Verif.Model.FloatPaint
import Verif.Model.GetColor

/-!
# Sampling a colour in single precision (`/repo/brushmodes.c` 491-626, `/repo/mypaint-tiled-surface.c` 817-818 and 898-925)

The same code as in `Verif.Model.GetColor`, with every rounding and the approximate power function. A tile is given by the pixels
its mask visits, with their mask values, and the outcomes of `rand()`. Simplified as in `Verif.Model.FloatPaint`.
-/

namespace Verif.FloatSample
open Float32 FastPow FloatPaint Blend Spectral Sample

/-- `get_color_pixels_legacy` (brushmodes.c 526-531): the integer sums are converted to `float` and added. -/
def legacyTile (l : List (Nat × Px)) (acc : Acc ℚ) : Acc ℚ :=
  let s := legacySums l
  { w := rnd (acc.w + rnd s.1), r := rnd (acc.r + rnd s.2.1), g := rnd (acc.g + rnd s.2.2.1)
    b := rnd (acc.b + rnd s.2.2.2.1), a := rnd (acc.a + rnd s.2.2.2.2) }

/-- One component of the additive average (brushmodes.c 607). -/
def addTo (c a : Nat) (facA facB avg : ℚ) : ℚ := rnd (rnd (rnd (c * facA) / a) + rnd (avg * facB))

/-- One sampled pixel (brushmodes.c 588-610). -/
def sampleOne (paint : ℚ) (st : LoopSt ℚ) (v : Nat × Px) : Except Fault (LoopSt ℚ) := do
  let m := v.1
  let p := v.2
  let a := rnd (rnd ((m : ℚ) * p.a) / 1073741824)
  let sums := rnd (a + st.a)
  let facA : ℚ := if 0 < sums then rnd (a / sums) else 1
  let facB : ℚ := if 0 < sums then rnd (rnd64 (1 - facA)) else 1
  let spec ← if 0 < paint ∧ 0 < p.a then
      mixSpectra (toSpectrum ⟨rnd ((p.r : ℚ) / p.a), rnd ((p.g : ℚ) / p.a), rnd ((p.b : ℚ) / p.a)⟩) st.spec facA facB
    else .ok st.spec
  return { w := rnd (st.w + rnd ((m : ℚ) / 32768))
           a := rnd (st.a + a)
           spec := spec
           avg := if paint < 1 ∧ 0 < p.a then
               ⟨addTo p.r p.a facA facB st.avg.r, addTo p.g p.a facA facB st.avg.g, addTo p.b p.a facA facB st.avg.b⟩
             else st.avg }

/-- The loop over the visited pixels (brushmodes.c 582-617). -/
def sampleLoop (paint : ℚ) (interval : Nat) (coin : Nat → Bool) :
    Nat → Nat → List (Nat × Px) → LoopSt ℚ → Except Fault (LoopSt ℚ)
  | _, _, [], st => .ok st
  | j, counter, v :: l, st => do
    let st ← if counter = 0 ∨ coin j = true then sampleOne paint st v else .ok st
    if interval = 0 then .error .divByZero
    else sampleLoop paint interval coin (j + 1) ((counter + 1) % interval) l st

/-- `spec_rgb[0] * paint + (1.0 - paint) * avg_rgb[0]` (brushmodes.c 623-625): the second product and the sum are `double`s. -/
def blend (paint s avg : ℚ) : ℚ := rnd (rnd64 (rnd (s * paint) + rnd64 (rnd64 (1 - paint) * avg)))

/-- `get_color_pixels_accumulate` (brushmodes.c 546-626). -/
def accumulateTile (paint : ℚ) (interval : Nat) (coin : Nat → Bool) (l : List (Nat × Px)) (acc : Acc ℚ) :
    Except Fault (Acc ℚ) :=
  if paint < 0 then .ok (legacyTile l acc)
  else do
    let rgb : Rgb ℚ := ⟨acc.r, acc.g, acc.b⟩
    let st ← sampleLoop paint interval coin 0 0 l
      { w := acc.w, a := acc.a, avg := rgb, spec := if 0 < paint then toSpectrum rgb else List.replicate 10 0 }
    let s := toRgb st.spec
    return { w := st.w, a := st.a, r := blend paint s.r st.avg.r, g := blend paint s.g st.avg.g, b := blend paint s.b st.avg.b }

/-- The end of `get_color` (mypaint-tiled-surface.c 898-925). -/
def finish (paint : ℚ) (acc : Acc ℚ) : Except Fault (Result ℚ) :=
  if ¬ 0 < acc.w then .error .assertFail
  else
    let sa := rnd (acc.a / acc.w)
    let over (x : ℚ) := if paint < 0 then rnd (x / acc.w) else x
    if 0 < sa then
      let demul := if paint < 0 then sa else 1
      .ok { r := Mask.clampK (rnd (over acc.r / demul)) 0 1, g := Mask.clampK (rnd (over acc.g / demul)) 0 1
            b := Mask.clampK (rnd (over acc.b / demul)) 0 1, a := Mask.clampK sa 0 1 }
    else .ok { r := 0, g := 1, b := 0, a := Mask.clampK sa 0 1 }

/-- What one tile contributes: the visited pixels and the outcomes of `rand()`. -/
abbrev Visit := List (Nat × Px) × (Nat → Bool)

/-- The sums over the tiles (mypaint-tiled-surface.c 853-896, with every tile delivered). -/
def total (paint : ℚ) (interval : Nat) (tiles : List Visit) : Except Fault (Acc ℚ) :=
  tiles.foldlM (fun acc t => accumulateTile paint interval t.2 t.1 acc) ⟨0, 0, 0, 0, 0⟩

/-- `get_color` from the sums on (mypaint-tiled-surface.c 817-925). -/
def pick (paint : ℚ) (interval : Nat) (tiles : List Visit) : Except Fault (Result ℚ) := do
  finish paint (← total paint interval tiles)

end Verif.FloatSample
