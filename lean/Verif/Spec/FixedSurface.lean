import Verif.Model.FixedSurface

/-!
# What a fixed-size surface is: a canvas of tiles with a border

Independent of how tiles are laid out in memory.
-/

namespace Verif.Fixed

/-- The tile contains at least one pixel of a `width` x `height` image. -/
def InImage (width height : Int) (t : TileIndex) : Prop :=
  0 ≤ t.x ∧ 64 * t.x < width ∧ 0 ≤ t.y ∧ 64 * t.y < height

instance (w h : Int) (t : TileIndex) : Decidable (InImage w h t) := by
  unfold InImage; infer_instance

/-- Contents of every tile. -/
abbrev Canvas := TileIndex → Nat → Nat

/-- A client working on one tile of its own: the values it reads and the tile it leaves. -/
def Client.onTile : Client → (Nat → Nat) → List Nat × (Nat → Nat)
  | .done, f => ([], f)
  | .read i k, f => let r := (k (f i)).onTile f; (f i :: r.1, r.2)
  | .write i v k, f => k.onTile (fun j => if j = i then v else f j)

/-- A request on the canvas: tiles of the image keep what was written, all others stay blank. -/
def canvasRequest (width height : Int) (c : Canvas) (t : TileIndex) (cl : Client) :
    List Nat × Canvas :=
  let r := cl.onTile (c t)
  (r.1, fun u => if u = t ∧ InImage width height t then r.2 else c u)

/-- A sequence of requests on the canvas. -/
def canvasRequests (width height : Int) :
    Canvas → List (TileIndex × Client) → List (List Nat) × Canvas
  | c, [] => ([], c)
  | c, (t, cl) :: rest =>
    let r := canvasRequest width height c t cl
    let rs := canvasRequests width height r.2 rest
    (r.1 :: rs.1, rs.2)

/-- The canvas a client finds on a new surface: 65535 in every cell of the image, 0 around it. -/
def freshCanvas (width height : Int) : Canvas := fun t _ =>
  if InImage width height t then 65535 else 0

end Verif.Fixed
