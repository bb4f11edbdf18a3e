/-!
# Specification of a queue: a list, oldest item first

Independent of the linked-list model: an operation, what it returns and what it does to the list.
-/

namespace Verif.Spec.Fifo

/-- Client operations. -/
inductive Op (α : Type) where
  | push (data : α)
  | pop
  | peekFirst
  | peekLast

/-- What each operation returns. -/
def out {α : Type} (q : List α) : Op α → Option α
  | .push _ => none
  | .pop => q.head?
  | .peekFirst => q.head?
  | .peekLast => q.getLast?

/-- What each operation does to the contents. -/
def next {α : Type} (q : List α) : Op α → List α
  | .push d => q ++ [d]
  | .pop => q.tail
  | .peekFirst => q
  | .peekLast => q

/-- The results of a whole history. -/
def outs {α : Type} (q : List α) : List (Op α) → List (Option α)
  | [] => []
  | op :: ops => out q op :: outs (next q op) ops

/-- The contents after a whole history. -/
def final {α : Type} (q : List α) (ops : List (Op α)) : List α :=
  ops.foldl next q

end Verif.Spec.Fifo
