import Mathlib.Algebra.Field.Basic
import Mathlib.Data.Prod.Basic

/-!
# Plane symmetries, by elementary geometry
-/

namespace Verif.Symm.Spec

variable {K : Type} [Field K]

/-- Reflection of a point in the line through `c` with direction `(dx, dy)` (a unit vector): the
component along the line is kept, the perpendicular one reversed. -/
def reflectIn (c : K × K) (dx dy : K) (p : K × K) : K × K :=
  let u := p.1 - c.1
  let v := p.2 - c.2
  let along := u * dx + v * dy
  (c.1 + (2 * along * dx - u), c.2 + (2 * along * dy - v))

/-- Rotation about `c` by the angle with cosine `co` and sine `si` (from the positive x axis towards
the positive y axis). -/
def rotateBy (c : K × K) (co si : K) (p : K × K) : K × K :=
  let u := p.1 - c.1
  let v := p.2 - c.2
  (c.1 + (co * u - si * v), c.2 + (si * u + co * v))

/-- Point reflection. -/
def halfTurn (c : K × K) (p : K × K) : K × K := (2 * c.1 - p.1, 2 * c.2 - p.2)

/-- Squared distance. -/
def dist2 (p q : K × K) : K := (p.1 - q.1) * (p.1 - q.1) + (p.2 - q.2) * (p.2 - q.2)

end Verif.Symm.Spec
