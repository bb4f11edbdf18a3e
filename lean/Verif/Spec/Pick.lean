import Verif.Model.FloatSample

/-!
# Picking a colour with exact arithmetic

What the sampling code would give if numbers were not rounded and the power function were exact: `pow` is the power function.
-/

namespace Verif.Spec
open Verif.Sample Verif.FloatSample

/-- The colour picked from the tiles. -/
def pick {K : Type} [Field K] [LinearOrder K] (pow : K → K → K) (paint : K) (interval : Nat) (tiles : List Visit) :
    Except Fault (Result K) := do
  let acc ← tiles.foldlM (fun acc t => accumulateTile pow paint interval t.2 t.1 acc) ⟨0, 0, 0, 0, 0⟩
  finish paint acc

end Verif.Spec
