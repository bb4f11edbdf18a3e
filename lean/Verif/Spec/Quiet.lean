import Verif.Model.Engine

/-!
# Brushes without chance (used by C72 and C73)
-/

namespace Verif.Engine
open Verif.Map

section
variable {K : Type} [Field K] [LinearOrder K]

/-- Nothing in the settings is random, and no setting depends on the grid map. -/
structure Quiet (settings : Load.Brush K) : Prop where
  noise : (settings sTrackingNoise).base = 0
  offset : ∀ i, calculate (settings sOffsetByRandom) i = 0
  radius : ∀ i, calculate (settings sRadiusByRandom) i = 0
  inputs : ∀ id i j, (∀ k, k ≠ iRandom → k ≠ iGridmapX → k ≠ iGridmapY → i k = j k) →
    calculate (settings id) i = calculate (settings id) j

/-- Pigment mixing is constant or never negative. -/
def PaintOk (settings : Load.Brush K) : Prop :=
  isConstant (settings sPaintMode) = true ∨ ∀ i, 0 ≤ calculate (settings sPaintMode) i

end
end Verif.Engine
