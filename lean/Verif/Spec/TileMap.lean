import Verif.Model.TileMap

/-!
# Specification of a tile map: a function on the square of positions around the origin
-/

namespace Verif.Spec.TileMap

/-- Sizes whose square map fits an `int`. -/
def ValidSize (s : Int) : Prop := 1 ≤ s ∧ s ≤ 23170

instance (s : Int) : Decidable (ValidSize s) := by unfold ValidSize; infer_instance

/-- Positions inside a map of size `s`. -/
def InBox (s : Int) (i : TileIndex) : Prop := -s ≤ i.x ∧ i.x < s ∧ -s ≤ i.y ∧ i.y < s

instance (s : Int) (i : TileIndex) : Decidable (InBox s i) := by unfold InBox; infer_instance

/-- Client calls on a map: store an item, read an item, move everything to a larger map. -/
inductive Op (α : Type) where
  | put (i : TileIndex) (v : Option α)
  | get (i : TileIndex)
  | grow (newSize : Int)

/-- The calls the map's contract allows when its size is `s`. -/
def Allowed {α : Type} (s : Int) : Op α → Prop
  | .put i _ => InBox s i
  | .get i => InBox s i
  | .grow t => s ≤ t ∧ ValidSize t

/-- Size after a call. -/
def nextSize {α : Type} (s : Int) : Op α → Int
  | .grow t => t
  | _ => s

/-- Contents after a call; positions never stored to hold nothing. -/
def next {α : Type} (f : TileIndex → Option α) : Op α → TileIndex → Option α
  | .put i v => fun j => if j = i then v else f j
  | _ => f

/-- Result of a call. -/
def out {α : Type} (f : TileIndex → Option α) : Op α → Option α
  | .get i => f i
  | _ => none

/-- Results of a history. -/
def outs {α : Type} (f : TileIndex → Option α) : List (Op α) → List (Option α)
  | [] => []
  | op :: ops => out f op :: outs (next f op) ops

/-- Every call of the history is allowed. -/
def AllAllowed {α : Type} (s : Int) : List (Op α) → Prop
  | [] => True
  | op :: ops => Allowed s op ∧ AllAllowed (nextSize s op) ops

end Verif.Spec.TileMap
