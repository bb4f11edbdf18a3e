import Verif.Model.Blend
import Mathlib.Algebra.Order.Field.Basic
import Mathlib.Algebra.Order.Floor.Ring

/-!
# Symmetry (`/repo/mypaint-matrix.c`, `/repo/mypaint-symmetry.c`, and the symmetry pass of `draw_dab`,
`/repo/mypaint-tiled-surface.c` lines 690-800)

Matrix entries and coordinates are elements of an ordered field `K`; cosine, sine and π are
parameters (`Trig`). The number of symmetry lines, a `float` in C, is kept as an integer, with the
rounding to 24 bits that storing an `int` in a `float` performs.
-/

namespace Verif.Symm

/-- `MyPaintTransform` (`/repo/mypaint-matrix.h`). -/
@[ext] structure Transform (K : Type) where
  r00 : K
  r01 : K
  r02 : K
  r10 : K
  r11 : K
  r12 : K
  r20 : K
  r21 : K
  r22 : K

/-- Cosine, sine and π of the C library. -/
structure Trig (K : Type) where
  cos : K → K
  sin : K → K
  pi : K

/-- `MyPaintSymmetryType` (mypaint-symmetry.h 33-40); `other` is any value outside the enumeration. -/
inductive SymType where
  | vertical
  | horizontal
  | verthorz
  | rotational
  | snowflake
  | other (n : Int)
deriving DecidableEq, Repr

/-- `MyPaintSymmetryState` (mypaint-symmetry.h 50-56). -/
structure State (K : Type) where
  type : SymType
  cx : K
  cy : K
  angle : K
  lines : Int

/-- `MyPaintSymmetryData` (mypaint-symmetry.h 66-73). `cap` is the number of matrices that really
fit the allocated block, `cells` the memory (arbitrary where not yet written). -/
structure Data (K : Type) where
  current : State K
  pending : State K
  pendingChanges : Bool
  active : Bool
  num : Int
  cap : Int
  cells : Int → Transform K

section
variable {K : Type} [Field K]

/-- `mypaint_matrix_multiply` (matrix.c 20-33). -/
def multiply (m1 m2 : Transform K) : Transform K :=
  { r00 := m1.r00 * m2.r00 + m1.r10 * m2.r01 + m1.r20 * m2.r02
    r01 := m1.r01 * m2.r00 + m1.r11 * m2.r01 + m1.r21 * m2.r02
    r02 := m1.r02 * m2.r00 + m1.r12 * m2.r01 + m1.r22 * m2.r02
    r10 := m1.r00 * m2.r10 + m1.r10 * m2.r11 + m1.r20 * m2.r12
    r11 := m1.r01 * m2.r10 + m1.r11 * m2.r11 + m1.r21 * m2.r12
    r12 := m1.r02 * m2.r10 + m1.r12 * m2.r11 + m1.r22 * m2.r12
    r20 := m1.r00 * m2.r20 + m1.r10 * m2.r21 + m1.r20 * m2.r22
    r21 := m1.r01 * m2.r20 + m1.r11 * m2.r21 + m1.r21 * m2.r22
    r22 := m1.r02 * m2.r20 + m1.r12 * m2.r21 + m1.r22 * m2.r22 }

/-- `mypaint_transform_unit` (matrix.c 35-40). -/
def unit : Transform K := ⟨1, 0, 0, 0, 1, 0, 0, 0, 1⟩

/-- `mypaint_transform_rotate_cw` (matrix.c 42-48). -/
def rotateCw (trig : Trig K) (t : Transform K) (a : K) : Transform K :=
  multiply t ⟨trig.cos a, trig.sin a, 0, -trig.sin a, trig.cos a, 0, 0, 0, 1⟩

/-- `mypaint_transform_rotate_ccw` (matrix.c 50-60). -/
def rotateCcw (trig : Trig K) (t : Transform K) (a : K) : Transform K :=
  multiply t ⟨trig.cos a, -trig.sin a, 0, trig.sin a, trig.cos a, 0, 0, 0, 1⟩

/-- `mypaint_transform_reflect` (matrix.c 62-73). -/
def reflect (trig : Trig K) (t : Transform K) (a : K) : Transform K :=
  let x := trig.cos a
  let y := trig.sin a
  multiply t ⟨x * x - y * y, 2 * x * y, 0, 2 * x * y, y * y - x * x, 0, 0, 0, 1⟩

/-- `mypaint_transform_translate` (matrix.c 76-85). -/
def translate (t : Transform K) (x y : K) : Transform K := multiply t ⟨1, 0, x, 0, 1, y, 0, 0, 1⟩

/-- `mypaint_transform_point` (matrix.c 87-92). -/
def point (t : Transform K) (x y : K) : K × K :=
  (t.r00 * x + t.r01 * y + t.r02, t.r10 * x + t.r11 * y + t.r12)

/-- An `int` stored in a `float`. -/
def f32 (n : Int) : Int := Blend.rne24 n

/-- `num_matrices_required` (symmetry.c 38-54). -/
def numRequired (s : State K) : Int :=
  match s.type with
  | .vertical => 1
  | .horizontal => 1
  | .verthorz => 3
  | .rotational => f32 (s.lines - 1)
  | .snowflake => f32 (f32 (2 * s.lines) - 1)
  | .other _ => 0

/-- Conversion of a `size_t` to `int`. -/
def toI32 (n : Int) : Int := (n + 2147483648) % 4294967296 - 2147483648

/-- `allocate_symmetry_matrices` (symmetry.c 15-29). `sizeof(MyPaintTransform)` is 36; the byte
count is an `int`. `alloc` says whether `realloc` delivers that many bytes (never for a negative
count, which becomes a huge `size_t`). -/
def allocate (alloc : Int → Bool) (d : Data K) (n : Int) : Bool × Data K :=
  let bytes := toI32 (n * 36)
  if 0 ≤ bytes ∧ alloc bytes = true then
    (true, { d with num := n, cap := bytes / 36 })
  else (false, { d with num := 0 })

/-- Store `matrices[i] = v`. -/
def store (d : Data K) (i : Int) (v : Transform K) : Except Fault (Data K) :=
  if 0 ≤ i ∧ i < d.cap then
    .ok { d with cells := fun j => if j = i then v else d.cells j }
  else .error .outOfBounds

/-- Load `matrices[i]`. -/
def load (d : Data K) (i : Int) : Except Fault (Transform K) :=
  if 0 ≤ i ∧ i < d.cap then .ok (d.cells i) else .error .outOfBounds

variable [LinearOrder K]

/-- `symmetry_states_equal` (symmetry.c 31-36). -/
def statesEqual (s1 s2 : State K) : Bool :=
  decide (s1.type = s2.type ∧ s1.cx = s2.cx ∧ s1.cy = s2.cy ∧ s1.angle = s2.angle ∧
    s1.lines = s2.lines)

/-- The matrices before the final translation (symmetry.c 83-113): the writes of the `switch`. -/
def fill (trig : Trig K) (d : Data K) (s : State K) : Except Fault (Data K) :=
  let angle := s.angle * (trig.pi / 180)
  let rot := 2 * trig.pi / (s.lines : K)
  let m := translate unit (-s.cx) (-s.cy)
  let rotational (d : Data K) : Except Fault (Data K) :=
    (cRange 1 s.lines).foldlM (fun d i => store d (i - 1) (rotateCw trig m (rot * (i : K)))) d
  match s.type with
  | .vertical => store d 0 (reflect trig m (-(angle + trig.pi / 2)))
  | .horizontal => store d 0 (reflect trig m (-angle))
  | .verthorz => do
    let vAngle := angle + trig.pi / 2
    let d ← store d 0 (reflect trig m (-angle))
    let m0 ← load d 0
    let d ← store d 1 (reflect trig m0 (-vAngle))
    let m1 ← load d 1
    store d 2 (reflect trig m1 (-angle))
  | .snowflake => do
    let base := s.lines - 1
    let d ← (cRange 0 s.lines).foldlM (fun d i =>
      store d (base + i) (reflect trig (rotateCw trig m (rot * (i : K))) (-(i : K) * rot - angle))) d
    rotational d
  | .rotational => rotational d
  | .other _ => .ok d

/-- `mypaint_update_symmetry_state` (symmetry.c 67-121). -/
def update (trig : Trig K) (alloc : Int → Bool) (d : Data K) : Except Fault (Data K) :=
  if !d.pendingChanges || statesEqual d.current d.pending then .ok d
  else
    let required := numRequired d.pending
    let r := if d.num < required then allocate alloc d required else (true, d)
    if r.1 = false then .ok r.2
    else do
      let s := r.2.pending
      let d ← fill trig { r.2 with current := s } s
      match s.type with
      | .other _ => .ok d
      | _ => do
        let d ← (cRange 0 required).foldlM (fun d i => do
          let m ← load d i
          store d i (translate m s.cx s.cy)) d
        .ok { d with pendingChanges := false }

/-- `mypaint_symmetry_set_pending` (symmetry.c 147-161). -/
def setPending (d : Data K) (active : Bool) (cx cy angle : K) (type : SymType) (lines : Int) : Data K :=
  { d with
    active := active
    pending := { type := type, cx := cx, cy := cy, angle := angle, lines := f32 (max 2 lines) }
    pendingChanges := true }

/-- `mypaint_default_symmetry_data` (symmetry.c 123-138); `garbage` is the uninitialised memory. -/
def default (trig : Trig K) (alloc : Int → Bool) (garbage : Int → Transform K) :
    Except Fault (Data K) :=
  let d : Data K :=
    { current := { type := .other (-1), cx := 0, cy := 0, angle := 0, lines := 0 }
      pending := { type := .vertical, cx := 0, cy := 0, angle := 0, lines := 2 }
      pendingChanges := true, active := false, num := 16, cap := 0, cells := garbage }
  let r := allocate alloc d 16
  if r.1 then update trig alloc r.2 else .ok r.2

/-- One call `DDI(x, y, angle, bb_idx)` (tiled-surface.c 706-709). -/
structure Pass (K : Type) where
  x : K
  y : K
  angle : K
  bbox : Int

variable [FloorRing K]

/-- `roundf` of a non-negative number. -/
def roundf (v : K) : Int := ⌊v + 1 / 2⌋

/-- Transform the dab centre with `matrices[i]` and make a pass. -/
def pass (d : Data K) (i : Int) (x y angle : K) (bbox : Int) : Except Fault (Pass K) := do
  let m ← load d i
  let p := point m x y
  return ⟨p.1, p.2, angle, bbox⟩

/-- The reflected passes of a snowflake (tiled-surface.c 757-775). -/
def snowflakePasses (d : Data K) (numB : Int) (x y angle : K) : Except Fault (List (Pass K)) :=
  let s := d.current
  let rot : K := 360 / (s.lines : K)
  let offset := min (numB / 2) s.lines
  let perBox : K := max 1 ((s.lines : K) * 2 / (numB : K))
  let base := s.lines - 1
  let baseAngle := -2 * s.angle - angle
  (cRange 0 s.lines).mapM fun k =>
    pass d (base + k) x y (baseAngle - (k : K) * rot)
      (offset + min (roundf ((k : K) / perBox)) (numB - 1))

/-- The rotated passes (tiled-surface.c 777-795). -/
def rotationalPasses (d : Data K) (numB : Int) (x y angle : K) : Except Fault (List (Pass K)) :=
  let s := d.current
  let rot : K := 360 / (s.lines : K)
  let snow : K := if s.type = .snowflake then 2 else 1
  let perBox : K := max 1 ((s.lines : K) * snow / (numB : K))
  (cRange 1 s.lines).mapM fun k =>
    pass d (k - 1) x y (angle - (k : K) * rot) (min (roundf ((k : K) / perBox)) (numB - 1))

/-- The symmetry passes of `draw_dab` (tiled-surface.c 722-796), with the number of bounding boxes
used (`used` before: 1). -/
def passes (d : Data K) (numB : Int) (x y angle : K) : Except Fault (List (Pass K) × Int) :=
  if d.active = true ∧ d.num ≠ 0 then
    let s := d.current
    match s.type with
    | .vertical => do
      let p ← pass d 0 x y (-2 * (90 + s.angle) - angle) 1
      return ([p], 2)
    | .horizontal => do
      let p ← pass d 0 x y (-2 * s.angle - angle) 1
      return ([p], 2)
    | .verthorz => do
      let p0 ← pass d 0 x y (-2 * s.angle - angle) 1
      let p1 ← pass d 1 x y angle 2
      let p2 ← pass d 2 x y (-2 * s.angle - angle) 3
      return ([p0, p1, p2], 4)
    | .snowflake => do
      let a ← snowflakePasses d numB x y angle
      let used := min numB (s.lines * 2)
      let b ← rotationalPasses d numB x y angle
      return (a ++ b, min numB (max s.lines used))
    | .rotational => do
      let b ← rotationalPasses d numB x y angle
      return (b, min numB (max s.lines 1))
    | .other _ => .ok ([], 1)
  else .ok ([], 1)

end

end Verif.Symm
