import Verif.Spec.PaintNow
import Verif.Props.C11_Dab
import Verif.Lemmas.Symmetry

/-!
# Specification for C86: mirror images
-/

namespace Verif.Painting
open Verif.Dab

/-- A line between pixels or through the middle of pixels: `upright n` is the line x = n/2, `level n` the line y = n/2. -/
inductive Line where
  | upright (n : Int)
  | level (n : Int)
deriving DecidableEq, Repr

/-- The mirror image of a pixel. The pixel at X covers the positions from X to X + 1. -/
def Line.image : Line → Int → Int → Int × Int
  | .upright n, X, Y => (n - 1 - X, Y)
  | .level n, X, Y => (X, n - 1 - Y)

/-- The picture is its own mirror image, as far as it is defined. -/
def Symmetric (l : Line) (c : Canvas) : Prop :=
  ∀ X Y p p', pixel c X Y = .ok p → pixel c (l.image X Y).1 (l.image X Y).2 = .ok p' → p' = p

section
variable {K : Type} [Field K] [LinearOrder K]

/-- The square around a dab does not touch the line. -/
def Aside (l : Line) (a : Args K) : Prop :=
  match l with
  | .upright n => 2 * (a.x + a.radius) < n ∨ n < 2 * (a.x - a.radius)
  | .level n => 2 * (a.y + a.radius) < n ∨ n < 2 * (a.y - a.radius)

/-- The dab is not small, or its angle is a multiple of 90°. -/
def Straight (env : Dab.Env K) (a : Args K) : Prop := 3 ≤ a.radius ∨ env.sin a.angle = 0 ∨ env.cos a.angle = 0

/-- The symmetry setting mirrors at the line. -/
def MirrorsAt (l : Line) (d : Symm.Data K) : Prop :=
  d.active = true ∧ d.num ≠ 0 ∧ d.current.angle = 0 ∧
  match l with
  | .upright n => d.current.type = .vertical ∧ 2 * d.current.cx = n
  | .level n => d.current.type = .horizontal ∧ 2 * d.current.cy = n

/-- The laws of sine and cosine (of degrees) that mirroring an angle rests on. -/
def MirrorLaws (l : Line) (env : Dab.Env K) : Prop :=
  match l with
  | .upright _ => ∀ a, env.sin (-180 - a) = env.sin a ∧ env.cos (-180 - a) = -env.cos a
  | .level _ => ∀ a, env.sin (-a) = -env.sin a ∧ env.cos (-a) = env.cos a

end
end Verif.Painting
