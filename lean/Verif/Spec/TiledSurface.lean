import Verif.Model.TiledSurface

/-!
# Specification of drawing: every dab is applied at once

No queue: a canvas is a function from tile positions to tiles, a dab changes the tiles it touches,
sampling reads tiles, finishing a block does nothing.
-/

namespace Verif.Spec.Surf

open Verif

variable {D T : Type}

/-- Apply a dab now. -/
def drawNow (k : DabKind D T) (c : TileIndex → T) (d : D) : TileIndex → T :=
  fun t => if t ∈ k.tilesOf d then k.processOp t d (c t) else c t

/-- Effect of an event on the canvas. -/
def next (k : DabKind D T) (c : TileIndex → T) : Surf.Event D → TileIndex → T
  | .dab d => drawNow k c d
  | .sample _ => c
  | .endAtomic _ => c

/-- What an event reads. -/
def out (c : TileIndex → T) : Surf.Event D → List T
  | .sample ts => ts.map c
  | _ => []

/-- What a session reads. -/
def outs (k : DabKind D T) (c : TileIndex → T) : List (Surf.Event D) → List (List T)
  | [] => []
  | e :: es => out c e :: outs k (next k c e) es

/-- The canvas after a session. -/
def final (k : DabKind D T) (c : TileIndex → T) (es : List (Surf.Event D)) : TileIndex → T :=
  es.foldl (next k) c

/-- The processing order of an event is a rearrangement: no tile left out, none added. -/
def OrderOk : Surf.Event D → Prop
  | .endAtomic order => ∀ l, (order l).Perm l
  | _ => True

end Verif.Spec.Surf
