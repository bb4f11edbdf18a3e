import Verif.Model.QueueMemory

/-!
# Specification of the memory of the queue of operations

What it means that a block of memory is reachable, and what is expected of `malloc`.
-/

namespace Verif.Spec.QueueMemory

open Verif Verif.QueueMemory

variable {β : Type}

/-- `i` is one of the items found by following `next` from the pointer `p`. -/
inductive Linked (h : Fifo.Heap Nat) : Option Nat → Nat → Prop
  | here {a : Nat} {it : Fifo.Item Nat} : h a = some it → Linked h (some a) a
  | next {a i : Nat} {it : Fifo.Item Nat} : h a = some it → Linked h it.next i → Linked h (some a) i

/-- The `struct fifo` of tile `t` is at address `a`. -/
def Slot (s : State β) (t : TileIndex) (a : Nat) : Prop :=
  s.q.tileMap.contains t = true ∧ s.q.tileMap.get t = .ok (some a)

/-- Item `i` is linked into the queue of tile `t`. -/
def ItemOf (s : State β) (t : TileIndex) (i : Nat) : Prop :=
  ∃ a hdr, Slot s t a ∧ s.mem.fifos a = some hdr ∧ Linked s.mem.items hdr.first i

/-- The operation at address `o` waits for tile `t`. -/
def Waits (s : State β) (t : TileIndex) (o : Nat) : Prop :=
  ∃ i it, ItemOf s t i ∧ s.mem.items i = some it ∧ it.payload = o

/-- Nothing dangles, nothing is shared and nothing is lost: the blocks in use are the `struct fifo`s
the map points to, one for each tile for which something waits, the items linked into them and the
operations these point to; no two tiles share a block. -/
structure Tidy (s : State β) : Prop where
  fifo : ∀ a, s.mem.fifos a ≠ none ↔ ∃ t, Slot s t a
  fifoOwn : ∀ a t t', Slot s t a → Slot s t' a → t = t'
  fifoFull : ∀ t a, Slot s t a → ∃ o, Waits s t o
  item : ∀ i, s.mem.items i ≠ none ↔ ∃ t, ItemOf s t i
  itemOwn : ∀ i t t', ItemOf s t i → ItemOf s t' i → t = t'
  op : ∀ o, s.mem.ops o ≠ none ↔ ∃ t, Waits s t o
  opOwn : ∀ o t t', Waits s t o → Waits s t' o → t = t'

/-- No block of memory is in use. -/
def AllFree (m : Mem β) : Prop :=
  ∀ a, m.fifos a = none ∧ m.items a = none ∧ m.ops a = none

/-- What `malloc` promises: as long as only finitely many blocks are in use it returns addresses
that are not. -/
def AllocOk (al : Alloc β) : Prop :=
  ∀ (n : Nat) (m : Mem β),
    (∃ N, ∀ a, N ≤ a → m.fifos a = none ∧ m.items a = none ∧ m.ops a = none) →
    m.ops (al n m).op = none ∧ m.fifos (al n m).fifo = none ∧ m.items (al n m).item = none

/-- Applying the operations of a session to a canvas. -/
def applied {T : Type} (k : DabKind β T) (c : TileIndex → T) (r : List (TileIndex × List β)) :
    TileIndex → T :=
  r.foldl (fun c p => Surf.setTile c p.1 (p.2.foldl (fun v d => k.processOp p.1 d v) (c p.1))) c

end Verif.Spec.QueueMemory
