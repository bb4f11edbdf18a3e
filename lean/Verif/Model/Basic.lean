/-!
# Shared vocabulary of the models
-/

namespace Verif

/-- Ways in which the C code leaves defined behaviour. -/
inductive Fault where
  | assertFail      -- a failed `assert` / `g_assert`: abort
  | intOverflow     -- signed `int` overflow: undefined behaviour
  | divByZero       -- integer division or modulo by zero: undefined behaviour (SIGFPE)
  | outOfBounds     -- access outside an array: undefined behaviour
  | nullDeref       -- NULL pointer dereferenced: undefined behaviour
  | useAfterFree    -- access to or release of memory already released
  | nonFinite       -- a float becomes infinite or not a number: no crash, but outside the numbers of the model
  | floatConv       -- conversion of an out-of-range float to an integer: undefined behaviour
  | outOfFuel       -- artefact of the model: a loop bound was too small (proved unreachable)
  deriving DecidableEq, Repr

/-- Largest and smallest `int` (32 bit). -/
def intMax : Int := 2147483647
def intMin : Int := -2147483648

/-- The result of a signed 32-bit operation whose exact value is `z`. -/
def chk (z : Int) : Except Fault Int :=
  if intMin ≤ z ∧ z ≤ intMax then .ok z else .error .intOverflow

/-- `TileIndex`, tilemap.h:28-31. -/
structure TileIndex where
  x : Int
  y : Int
  deriving DecidableEq, Repr

/-- The C loop `for (int i = lo; i < hi; i++)` as the list of values of `i`. -/
def cRange (lo hi : Int) : List Int :=
  (List.range (hi - lo).toNat).map (fun (k : Nat) => lo + (k : Int))

end Verif
