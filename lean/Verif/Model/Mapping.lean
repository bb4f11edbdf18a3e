import Verif.Model.Basic
import Mathlib.Algebra.Order.Field.Basic

/-!
# Brush dynamics curves (`/repo/mypaint-mapping.c`)

`float` values are elements of an ordered field `K`; a failing `assert` is the fault `assertFail`. The memory of
new control points is uninitialised: `new` takes its contents as an argument.
-/

namespace Verif.Map

variable {K : Type} [Field K] [LinearOrder K]

/-- `ControlPoints` (lines 36-41); only indices below 64 exist. -/
structure Points (K : Type) where
  xs : Nat → K
  ys : Nat → K
  n : Nat

/-- `MyPaintMapping` (lines 43-50). -/
structure Mapping (K : Type) where
  base : K
  inputs : Nat
  pts : Nat → Points K
  used : Int

/-- `mypaint_mapping_new` (lines 53-67). `mem`: what the fresh memory holds. -/
def new (mem : Nat → Points K) (inputs : Nat) : Mapping K :=
  { base := 0, inputs := inputs, pts := fun i => { mem i with n := 0 }, used := 0 }

/-- `mypaint_mapping_set_base_value` (lines 81-84). -/
def setBase (m : Mapping K) (v : K) : Mapping K := { m with base := v }

def update (m : Mapping K) (input : Nat) (p : Points K) : Mapping K :=
  { m with pts := fun i => if i = input then p else m.pts i }

/-- `mypaint_mapping_set_n` (lines 86-99). -/
def setN (m : Mapping K) (input n : Int) : Except Fault (Mapping K) :=
  if ¬ (0 ≤ input ∧ input < m.inputs) then .error .assertFail
  else if ¬ (0 ≤ n ∧ n ≤ 64) then .error .assertFail
  else if n = 1 then .error .assertFail
  else
    let p := m.pts input.toNat
    let used := if n ≠ 0 ∧ p.n = 0 then m.used + 1 else m.used
    let used := if n = 0 ∧ p.n ≠ 0 then used - 1 else used
    if ¬ 0 ≤ used then .error .assertFail
    else if ¬ used ≤ m.inputs then .error .assertFail
    else .ok { update m input.toNat { p with n := n.toNat } with used := used }

/-- `mypaint_mapping_get_n` (lines 102-107). -/
def getN (m : Mapping K) (input : Int) : Except Fault Nat :=
  if ¬ (0 ≤ input ∧ input < m.inputs) then .error .assertFail else .ok (m.pts input.toNat).n

/-- `mypaint_mapping_set_point` (lines 109-122). -/
def setPoint (m : Mapping K) (input index : Int) (x y : K) : Except Fault (Mapping K) :=
  if ¬ (0 ≤ input ∧ input < m.inputs) then .error .assertFail
  else if ¬ (0 ≤ index ∧ index < 64) then .error .assertFail
  else
    let p := m.pts input.toNat
    if ¬ index < p.n then .error .assertFail
    else if 0 < index ∧ ¬ p.xs (index.toNat - 1) ≤ x then .error .assertFail
    else .ok (update m input.toNat
      { p with xs := fun i => if i = index.toNat then x else p.xs i
               ys := fun i => if i = index.toNat then y else p.ys i })

/-- `mypaint_mapping_get_point` (lines 124-133). -/
def getPoint (m : Mapping K) (input index : Int) : Except Fault (K × K) :=
  if ¬ (0 ≤ input ∧ input < m.inputs) then .error .assertFail
  else if ¬ (0 ≤ index ∧ index < 64) then .error .assertFail
  else
    let p := m.pts input.toNat
    if ¬ index < p.n then .error .assertFail else .ok (p.xs index.toNat, p.ys index.toNat)

/-- `mypaint_mapping_is_constant` (lines 135-138). -/
def isConstant (m : Mapping K) : Bool := m.used = 0

/-- The loop of lines 169-174, started with `i`, `x1 = xs (i-1)`: the index of the right end of the segment
found. `fuel` is the number of points left. -/
def findSegment (p : Points K) (x : K) : Nat → Nat → Nat
  | 0, i => i - 1
  | fuel + 1, i => if i < p.n ∧ p.xs (i - 1) < x then findSegment p x fuel (i + 1) else i - 1

/-- Lines 156-182: the value of one curve. -/
def evaluate (p : Points K) (x : K) : K :=
  let i := findSegment p x p.n 2
  let x0 := p.xs (i - 1)
  let y0 := p.ys (i - 1)
  let x1 := p.xs i
  let y1 := p.ys i
  if x0 = x1 ∨ y0 = y1 then y0 else (y1 * (x - x0) + y0 * (x1 - x)) / (x1 - x0)

/-- `mypaint_mapping_calculate` (lines 146-188); `data` has as many elements as there are inputs. -/
def calculate (m : Mapping K) (data : Nat → K) : K :=
  if m.used = 0 then m.base
  else (List.range m.inputs).foldl
    (fun result j => if (m.pts j).n ≠ 0 then result + evaluate (m.pts j) (data j) else result) m.base

/-- `mypaint_mapping_calculate_single_input` (lines 191-195). -/
def calculateSingle (m : Mapping K) (x : K) : Except Fault K :=
  if m.inputs = 1 then .ok (calculate m fun _ => x) else .error .assertFail

/-- A change made through the API. -/
inductive Edit (K : Type) where
  | base (v : K)
  | setN (input n : Int)
  | setPoint (input index : Int) (x y : K)

def edit (m : Mapping K) : Edit K → Except Fault (Mapping K)
  | .base v => .ok (setBase m v)
  | .setN i n => setN m i n
  | .setPoint i k x y => setPoint m i k x y

/-- A history of changes; it ends at the first failing assertion. -/
def run : Mapping K → List (Edit K) → Except Fault (Mapping K)
  | m, [] => .ok m
  | m, e :: es => do run (← edit m e) es

end Verif.Map
