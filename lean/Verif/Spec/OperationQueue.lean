import Verif.Model.OperationQueue

/-!
# Specification of the operation queue

State: for each tile of the unbounded plane, the operations waiting for it (oldest first), and the
set of tiles that are *marked*: those that received an operation while they had none waiting, since
the last time the marks were cleared.  No map, no array, no growth.
-/

namespace Verif.Spec.OpQueue

open Verif (TileIndex)
open Verif.OpQueue (Op Out)

/-- Abstract state. -/
structure St (β : Type) where
  pend : TileIndex → List β
  marked : TileIndex → Prop

/-- Nothing waiting, nothing marked. -/
def init {β : Type} : St β := ⟨fun _ => [], fun _ => False⟩

/-- Replace the operations waiting for one tile. -/
def setPend {β : Type} (s : St β) (t : TileIndex) (l : List β) : TileIndex → List β :=
  fun u => if u = t then l else s.pend u

/-- Effect of a call. -/
def next {β : Type} (s : St β) : Op β → St β
  | .add t op => { pend := setPend s t (s.pend t ++ [op]),
                   marked := fun u => s.marked u ∨ (u = t ∧ s.pend t = []) }
  | .pop t => { s with pend := setPend s t (s.pend t).tail }
  | .clearDirty => { s with marked := fun _ => False }
  | _ => s

/-- Is `o` a correct answer to the call in state `s`? -/
def OutOk {β : Type} (s : St β) : Op β → Out β → Prop
  | .add _ _, .unit => True
  | .pop t, .op o => o = (s.pend t).head?
  | .peekFirst t, .op o => o = (s.pend t).head?
  | .peekLast t, .op o => o = (s.pend t).getLast?
  | .getDirty, .tiles l => l.Nodup ∧ ∀ t, t ∈ l ↔ s.marked t
  | .clearDirty, .unit => True
  | _, _ => False

/-- Correct answers to a whole history. -/
def OutsOk {β : Type} (s : St β) : List (Op β) → List (Out β) → Prop
  | [], [] => True
  | op :: ops, o :: os => OutOk s op o ∧ OutsOk (next s op) ops os
  | _, _ => False

/-- State after a history. -/
def after {β : Type} (s : St β) (ops : List (Op β)) : St β := ops.foldl next s

end Verif.Spec.OpQueue

namespace Verif.Spec.OpQueue

open Verif (TileIndex)
open Verif.OpQueue (Op Out)

/-- The way the surface uses the queue: the marks are cleared only when nothing is waiting. -/
def Disciplined {β : Type} (s : St β) : List (Op β) → Prop
  | [] => True
  | op :: ops => (match op with | .clearDirty => ∀ t, s.pend t = [] | _ => True) ∧
      Disciplined (next s op) ops

/-- Calls that take operations out of the queue. -/
def IsPop {β : Type} : Op β → Prop
  | .pop _ => True
  | _ => False

end Verif.Spec.OpQueue

namespace Verif.Spec.OpQueue

/-- The farthest tile coordinate (exclusive) the queue can handle: the largest map size reachable by
growth whose area still fits an `int`. -/
def farthest : Verif.Build → Int
  | .normal => 20480
  | .heavyDebug => 23170

end Verif.Spec.OpQueue
