import Verif.Model.Basic
import Mathlib.Algebra.Field.Basic

/-!
# The random generator (`/repo/rng-double.c`, `rand_gauss` of `/repo/helpers.c` lines 62-70)

All numbers the generator handles are multiples of 2^-52; here they are integers counting that unit.
They stay below 2^53 units (`Props/C27_Rng.lean`: all stored numbers are below 2^52, and no operation adds
more than two), so that every C `double` operation is exact and the integers below are exactly what C computes.
Reading or writing outside an array is a fault. The loops over arrays take the addition as a parameter `add`
(the macro `mod_sum` of line 53 in the generator).
-/

namespace Verif.Rng

section arrays
variable {V : Type}

/-- Read `l[i]`. -/
def rd (l : List V) (i : Int) : Except Fault V :=
  if i < 0 then .error .outOfBounds
  else match l[i.toNat]? with
    | some v => .ok v
    | none => .error .outOfBounds

/-- `l[i] = v`. -/
def wr (l : List V) (i : Int) (v : V) : Except Fault (List V) :=
  if i < 0 then .error .outOfBounds
  else if i.toNat < l.length then .ok (l.set i.toNat v) else .error .outOfBounds

/-- `rng_double_get_array` (lines 60-68): the new contents of `aa` and of `ran_u`. -/
def getArray (add : V → V → V) (u aa : List V) (n : Int) : Except Fault (List V × List V) := do
  let aa ← (cRange 0 10).foldlM (fun aa j => do wr aa j (← rd u j)) aa
  let aa ← (cRange 10 n).foldlM (fun aa j => do wr aa j (add (← rd aa (j - 10)) (← rd aa (j - 7)))) aa
  let j0 := max 10 n
  let u ← (cRange 0 7).foldlM (fun u i => do
    wr u i (add (← rd aa (j0 + i - 10)) (← rd aa (j0 + i - 7)))) u
  let u ← (cRange 7 10).foldlM (fun u i => do
    wr u i (add (← rd aa (j0 + i - 10)) (← rd u (i - 7)))) u
  return (aa, u)

/-- Lines 102-107: "square". -/
def square (add : V → V → V) (zero : V) (u : List V) : Except Fault (List V) := do
  let u ← (cRange 1 10).reverse.foldlM (fun u j => do
    let u ← wr u (j + j) (← rd u j)
    wr u (j + j - 1) zero) u
  (cRange 10 19).reverse.foldlM (fun u j => do
    let u ← wr u (j - 3) (add (← rd u (j - 3)) (← rd u j))
    wr u (j - 10) (add (← rd u (j - 10)) (← rd u j))) u

/-- Lines 109-111: "multiply by z". -/
def timesZ (add : V → V → V) (u : List V) : Except Fault (List V) := do
  let u ← (cRange 1 11).reverse.foldlM (fun u j => do wr u j (← rd u (j - 1))) u
  let u ← wr u 0 (← rd u 10)
  wr u 7 (add (← rd u 7) (← rd u 10))

/-- The loop of lines 101-114. `fuel` bounds the number of iterations; running out of it is a fault. -/
def seedLoop (add : V → V → V) (zero : V) : Nat → Nat → Nat → List V → Except Fault (List V)
  | _, _, 0, u => .ok u
  | 0, _, _, _ => .error .outOfFuel
  | fuel + 1, s, t + 1, u => do
    let u ← square add zero u
    let u ← if s % 2 = 1 then timesZ add u else .ok u
    if s = 0 then seedLoop add zero fuel s t u else seedLoop add zero fuel (s / 2) (t + 1) u

/-- Lines 115-116: the buffer becomes the generator's state. -/
def install (u ranU : List V) : Except Fault (List V) := do
  let r ← (cRange 0 7).foldlM (fun r j => do wr r (j + 3) (← rd u j)) ranU
  (cRange 7 10).foldlM (fun r j => do wr r (j - 7) (← rd u j)) r

/-- Line 117: ten rounds of warming up; `u` has 19 elements. -/
def warmUp (add : V → V → V) : Nat → List V → List V → Except Fault (List V)
  | 0, _, ranU => .ok ranU
  | k + 1, u, ranU => do
    let (u, ranU) ← getArray add ranU u 19
    warmUp add k u ranU

end arrays

/-- 1.0 -/
def unit : Int := 2 ^ 52

/-- `mod_sum` (line 53): `x + y` minus its integer part (conversion to `int` drops the fraction). -/
def modSum (x y : Int) : Int := (x + y) - unit * Int.tdiv (x + y) unit

/-- Lines 96-98: fill the buffer; the list of `k` values starting with `ss`. -/
def bootstrap : Nat → Int → List Int
  | 0, _ => []
  | k + 1, ss => ss :: bootstrap k (let d := ss + ss; if unit ≤ d then d - (unit - 2) else d)

/-- Where `ranf_arr_ptr` points. -/
inductive Ptr where
  /-- at one of the constants -1.0 -/
  | sentinel
  /-- at element `i` of `ranf_arr_buf` -/
  | at (i : Int)
deriving DecidableEq

/-- `RngDouble` (lines 54-58). -/
structure Rng where
  ranU : List Int
  buf : List Int
  ptr : Ptr
deriving DecidableEq

/-- The low 30 bits of the seed, `seed & 0x3fffffff`. -/
def low30 (seed : Int) : Nat := (seed % 2 ^ 30).toNat

/-- `u[KK+KK-1]` after lines 96-100: the first ten elements are set, the other nine hold whatever was in
memory (`junk`). -/
def seedBuffer (seed : Int) (junk : List Int) : Except Fault (List Int) := do
  let u := bootstrap 10 (2 * (low30 seed + 2)) ++ junk
  wr u 1 ((← rd u 1) + 1)

/-- `rng_double_set_seed` (lines 89-119). `junk`: the nine uninitialised elements of the local array. -/
def setSeed (junk : List Int) (r : Rng) (seed : Int) : Except Fault Rng := do
  let u ← seedBuffer seed junk
  let u ← seedLoop modSum 0 64 (low30 seed) 6 u
  let ranU ← install u r.ranU
  let ranU ← warmUp modSum 10 u ranU
  return { r with ranU := ranU, ptr := .sentinel }

/-- `rng_double_new` (lines 71-81): the memory obtained from `malloc` holds anything. -/
def new (junk : List Int) (mem : Rng) (seed : Int) : Except Fault Rng :=
  setSeed junk { mem with ptr := .sentinel } seed

/-- `rng_double_cycle` (lines 123-130). -/
def cycle (r : Rng) : Except Fault (Int × Rng) := do
  let (buf, ranU) ← getArray modSum r.ranU r.buf 19
  let buf ← wr buf 10 (-unit)
  let v ← rd buf 0
  return (v, { ranU := ranU, buf := buf, ptr := .at 1 })

/-- `rng_double_next` (lines 132-136). -/
def next (r : Rng) : Except Fault (Int × Rng) :=
  match r.ptr with
  | .sentinel => cycle r
  | .at i => do
    let v ← rd r.buf i
    if 0 ≤ v then return (v, { r with ptr := .at (i + 1) }) else cycle r

/-- `k` draws. -/
def draws : Nat → Rng → Except Fault (List Int × Rng)
  | 0, r => .ok ([], r)
  | k + 1, r => do
    let (v, r) ← next r
    let (vs, r) ← draws k r
    return (v :: vs, r)

/-- `rand_gauss` (`/repo/helpers.c` lines 62-70), for four numbers drawn: `K` is an ordered field, `rnd` the
rounding of each operation, `c` the double nearest to 1.73205080757 (the other constant of line 69 is its
double, because 3.46410161514 is twice 1.73205080757). -/
def gauss {K : Type} [Field K] (rnd : K → K) (c : K) (v0 v1 v2 v3 : K) : K :=
  let sum := rnd (rnd (rnd (rnd (0 + v0) + v1) + v2) + v3)
  rnd (rnd (sum * c) - 2 * c)

end Verif.Rng
