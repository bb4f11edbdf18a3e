import Verif.Model.Engine

/-!
# Several brushes in one process

The brushes share one thing: the static buffer `result` of `mix_colors` (`/repo/helpers.c` line 566). In the model of one
brush the buffer is a field; here it is kept apart and lent to the brush that paints.
-/

namespace Verif.Engine

section
variable {K R σ : Type} [Field K] [LinearOrder K] [FloorRing K]

/-- Brushes by number, each with the surface it paints on, and the shared buffer. -/
structure Table (K R σ : Type) where
  brush : Nat → Brush K R
  surf : Nat → σ
  mix : Color.Rgba K

/-- One motion event for brush `i`. -/
def Table.stroke (e : Env K R σ) (fuel : Nat) (d : Table K R σ) (i : Nat) (m : Motion K) : Except Fault (Table K R σ) := do
  let r ← strokeTo e fuel { d.brush i with mix := d.mix } (d.surf i) m
  return { brush := fun j => if j = i then r.2.1 else d.brush j
           surf := fun j => if j = i then r.2.2 else d.surf j
           mix := r.2.1.mix }

/-- A sequence of events for the brushes. -/
def Table.run (e : Env K R σ) (fuel : Nat) : Table K R σ → List (Nat × Motion K) → Except Fault (Table K R σ)
  | d, [] => .ok d
  | d, (i, m) :: ms => do
    let d ← d.stroke e fuel i m
    d.run e fuel ms

end
end Verif.Engine
