import Verif.Model.SettingsApi

/-!
# What was set last

The values a list of calls sets, read off the list alone.
-/

namespace Verif.Spec.Settings
open Verif.Load

variable {K : Type}

/-- All base values set for a setting, in order. -/
def bases (cs : List (Call K)) (id : Nat) : List K :=
  cs.filterMap fun c => match c with
    | .base i v => if i = id then some v else none
    | _ => none

/-- All numbers of control points set for a curve, in order. -/
def counts (cs : List (Call K)) (id input : Nat) : List Nat :=
  cs.filterMap fun c => match c with
    | .count i j n => if i = id ∧ j = input then some n.toNat else none
    | _ => none

/-- All places a control point was put at, in order. -/
def points (cs : List (Call K)) (id input k : Nat) : List (K × K) :=
  cs.filterMap fun c => match c with
    | .point i j l x y => if i = id ∧ j = input ∧ l = k then some (x, y) else none
    | _ => none

end Verif.Spec.Settings
