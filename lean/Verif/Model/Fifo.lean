/-!
# Model of `fifo.c`: the linked list behind deferred drawing

The heap is explicit: a partial map from addresses to list items.  Reading, writing or freeing an
address that is not allocated is a *fault* (`none`), as is dereferencing a NULL returned by
`malloc`.  The address returned by `malloc` is an input of `push` (the allocator may reuse freed
addresses); `none` stands for NULL.

Not modelled: the allocation of the `struct fifo` header itself (it is the value `FifoHdr`).
-/

namespace Verif.Fifo

/-- `struct fifo_item`, fifo.c:23-27. -/
structure Item (α : Type) where
  next : Option Nat
  payload : α

/-- `struct fifo`, fifo.c:29-34. -/
structure Hdr where
  first : Option Nat
  last : Option Nat
  itemCount : Int
  deriving DecidableEq

/-- The heap cells that hold list items. -/
abbrev Heap (α : Type) := Nat → Option (Item α)

/-- Overwrite one heap cell. -/
def Heap.set {α : Type} (h : Heap α) (a : Nat) (v : Option (Item α)) : Heap α :=
  fun b => if b = a then v else h b

/-- Heap and queue header. -/
structure State (α : Type) where
  heap : Heap α
  q : Hdr

/-- `fifo_new`, fifo.c:41-48. -/
def new : Hdr := { first := none, last := none, itemCount := 0 }

/-- `fifo_push`, fifo.c:72-82.  `addr` is what `malloc` returned; NULL is dereferenced by the code. -/
def push {α : Type} (s : State α) (addr : Option Nat) (data : α) : Option (State α) :=
  match addr with
  | none => none                                              -- item->next = NULL with item == NULL
  | some a =>
    let heap := s.heap.set a (some { next := none, payload := data })
    match s.q.last with
    | none => some { heap := heap, q := { s.q with first := some a, last := some a } }
    | some l =>
      match heap l with
      | none => none                                          -- queue->last dangling
      | some it =>
        some { heap := heap.set l (some { it with next := some a }), q := { s.q with last := some a } }

/-- `fifo_pop`, fifo.c:89-106.  The outer `Option` is the fault, the inner one the returned pointer. -/
def pop {α : Type} (s : State α) : Option (Option α × State α) :=
  match s.q.first with
  | none => some (none, s)
  | some a =>
    match s.heap a with
    | none => none                                            -- queue->first dangling
    | some it =>
      some (some it.payload,
        { heap := s.heap.set a none,
          q := { first := it.next,
                 last := if it.next = none then none else s.q.last,
                 itemCount := s.q.itemCount - 1 } })

/-- `fifo_peek_first`, fifo.c:108-110. -/
def peekFirst {α : Type} (s : State α) : Option (Option α) :=
  match s.q.first with
  | none => some none
  | some a => (s.heap a).map (fun it => some it.payload)

/-- `fifo_peek_last`, fifo.c:112-114. -/
def peekLast {α : Type} (s : State α) : Option (Option α) :=
  match s.q.last with
  | none => some none
  | some a => (s.heap a).map (fun it => some it.payload)

/-- The loop of `fifo_free`, fifo.c:59-63, with a fuel bound on the number of iterations
(`none` = fault or out of fuel).  As in the code the *items* are handed to `user_free`, not their
payloads. -/
def freeLoop {α : Type} : Nat → Heap α → Option Nat → Option (Heap α)
  | _, h, none => some h
  | 0, _, some _ => none
  | fuel + 1, h, some a =>
    match h a with
    | none => none
    | some it => freeLoop fuel (h.set a none) it.next

/-- The operations a client can perform on one queue. -/
inductive Op (α : Type) where
  | push (addr : Option Nat) (data : α)
  | pop
  | peekFirst
  | peekLast

/-- One operation: new state and returned pointer, or a fault. -/
def step {α : Type} (s : State α) : Op α → Option (Option α × State α)
  | .push addr d => (push s addr d).map (fun s' => (none, s'))
  | .pop => pop s
  | .peekFirst => (peekFirst s).map (fun r => (r, s))
  | .peekLast => (peekLast s).map (fun r => (r, s))

/-- A whole history: the returned pointers in order, and the final state. -/
def run {α : Type} (s : State α) : List (Op α) → Option (List (Option α) × State α)
  | [] => some ([], s)
  | op :: ops =>
    match step s op with
    | none => none
    | some (r, s') =>
      match run s' ops with
      | none => none
      | some (rs, s'') => some (r :: rs, s'')

/-- What `malloc` promises, along a run: it returns a non-NULL address that is not in use. -/
def MallocSound {α : Type} (s : State α) : List (Op α) → Prop
  | [] => True
  | op :: ops =>
    (match op with
     | .push addr _ => ∃ a, addr = some a ∧ s.heap a = none
     | _ => True) ∧
    ∀ r s', step s op = some (r, s') → MallocSound s' ops

end Verif.Fifo
