import Verif.Model.Rng

/-!
# Smudge buckets (`/repo/mypaint-brush.c` lines 57-63, 144-167, 446-532, 906-918)

The bucket array is flat memory of `float`s, 9 for each bucket. An access outside of it is the fault
`outOfBounds`; the NULL pointer of a brush without buckets is the empty array.
-/

namespace Verif.Engine
open Verif.Rng

variable {K : Type}

/-- The contents of one bucket, in the order of the enum of lines 58-63. -/
@[ext] structure Bucket (K : Type) where
  r : K
  g : K
  b : K
  a : K
  prevR : K
  prevG : K
  prevB : K
  prevA : K
  recentness : K
deriving DecidableEq, Repr

/-- `SMUDGE_BUCKET_SIZE` (line 62). -/
def bucketSize : Int := 9

/-- The nine reads through a bucket pointer at the float position `o` (e.g. lines 495-503). -/
def readBucket (l : List K) (o : Int) : Except Fault (Bucket K) := do
  let r ← rd l o
  let g ← rd l (o + 1)
  let b ← rd l (o + 2)
  let a ← rd l (o + 3)
  let prevR ← rd l (o + 4)
  let prevG ← rd l (o + 5)
  let prevB ← rd l (o + 6)
  let prevA ← rd l (o + 7)
  let recentness ← rd l (o + 8)
  return { r, g, b, a, prevR, prevG, prevB, prevA, recentness }

/-- The nine writes through a bucket pointer at the float position `o` (e.g. lines 463-471). -/
def writeBucket (l : List K) (o : Int) (v : Bucket K) : Except Fault (List K) := do
  let l ← wr l o v.r
  let l ← wr l (o + 1) v.g
  let l ← wr l (o + 2) v.b
  let l ← wr l (o + 3) v.a
  let l ← wr l (o + 4) v.prevR
  let l ← wr l (o + 5) v.prevG
  let l ← wr l (o + 6) v.prevB
  let l ← wr l (o + 7) v.prevA
  wr l (o + 8) v.recentness

/-- The bucket fields of `MyPaintBrush` (lines 98-101). -/
structure Buckets (K : Type) where
  mem : List K
  num : Int
  minUsed : Int
  maxUsed : Int

/-- Lines 197-212 of `mypaint_brush_new_with_buckets`: `fresh` is what `malloc` returned, `junk` what the
fields hold that are not initialised when there are no buckets. -/
def newBuckets (fresh : List K) (num : Int) (junk : Int × Int) : Buckets K :=
  if num > 0 then { mem := fresh, num := num, minUsed := 0, maxUsed := num - 1 }
  else { mem := [], num := 0, minUsed := junk.1, maxUsed := junk.2 }

/-- `memset(p + start, 0, n * sizeof(float))`, floats one after the other. -/
def zeroFill [Zero K] (start : Int) : Nat → List K → Except Fault (List K)
  | 0, l => .ok l
  | n + 1, l => do
    let l ← wr l start 0
    zeroFill (start + 1) n l

/-- Lines 155-166 of `brush_reset`. -/
def resetBuckets [Zero K] (b : Buckets K) : Except Fault (Buckets K) := do
  if b.mem.isEmpty then return b
  else if b.minUsed ≠ -1 then
    let mem ← zeroFill b.minUsed ((b.maxUsed - b.minUsed + 1) * bucketSize).toNat b.mem
    return { b with mem := mem, minUsed := -1, maxUsed := -1 }
  else return b

/-- `mypaint_brush_set_smudge_bucket_state` (lines 455-476). -/
def setBucketState (b : Buckets K) (index : Int) (v : Bucket K) : Except Fault (Bool × Buckets K) := do
  if b.num > index then
    let mem ← writeBucket b.mem index v
    return (true, { b with mem := mem })
  else return (false, b)

/-- `mypaint_brush_get_smudge_bucket_state` (lines 487-508). -/
def getBucketState (b : Buckets K) (index : Int) : Except Fault (Option (Bucket K)) := do
  if b.num > index then
    let v ← readBucket b.mem index
    return some v
  else return none

/-- `fetch_smudge_bucket` (lines 906-918) after its first test: the float position of the bucket, and the
updated range of used buckets. `want` is `roundf(SETTING(self, SMUDGE_BUCKET))`. -/
def fetchBucket (b : Buckets K) (want : Int) : Int × Buckets K :=
  let index := if want > b.num - 1 then b.num - 1 else if want < 0 then 0 else want
  let b := if b.minUsed = -1 ∨ b.minUsed > index then { b with minUsed := index } else b
  let b := if b.maxUsed < index then { b with maxUsed := index } else b
  (index * bucketSize, b)

end Verif.Engine
