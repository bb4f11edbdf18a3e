import Verif.Model.Engine

/-!
# The angle of the dabs

What it means that two brushes differ only in the setting for the angle of their dabs.
-/

namespace Verif.Engine
open Verif.Map

section
variable {K R σ : Type} [Field K] [LinearOrder K]

/-- Another setting for the angle. -/
def turnSetting (m : Mapping K) (s : Load.Brush K) : Load.Brush K := fun id => if id = sEllipticalDabAngle then m else s id

/-- Values of one setting that are values of the other plus a number of half turns. -/
def HalfTurns (m m' : Mapping K) : Prop := ∀ i, ∃ k : ℤ, calculate m' i = calculate m i + 180 * k

/-- A brush with dabs that are round and have a radius of at least 3. -/
structure RoundBrush (e : Env K R σ) (s : Load.Brush K) : Prop where
  ratio : ∀ i, calculate (s sEllipticalDabRatio) i ≤ 1
  radius : ∀ i, 3 ≤ e.exp (calculate (s sRadiusLogarithmic) i)
  random : ∀ i, calculate (s sRadiusByRandom) i = 0
  snap : ∀ i, calculate (s sSnapToPixel) i ≤ 0

/-- The same brush, but for the setting for the angle, its value and the angle in the state. -/
def SameButAngle (b b' : Brush K R) : Prop :=
  ∃ m w a, b' = { b with settings := turnSetting m b.settings, vals := fun id => if id = sEllipticalDabAngle then w else b.vals id,
                         st := { b.st with angle := a } }

end
end Verif.Engine
