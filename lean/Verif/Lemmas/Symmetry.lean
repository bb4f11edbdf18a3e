import Verif.Model.Symmetry
import Verif.Spec.Symmetry
import Verif.Lemmas.TileMap
import Mathlib.Tactic.Ring
import Mathlib.Tactic.LinearCombination
import Mathlib.Tactic.FieldSimp
import Mathlib.Tactic.Linarith

/-! Matrices as plane maps; the memory of the symmetry tables. -/

namespace Verif.Symm

section
variable {K : Type} [Field K]

/-- The laws of trigonometry that are used; they hold for the real functions (`realTrig_laws`). -/
structure Trig.Laws (t : Trig K) : Prop where
  cos_add : ∀ a b, t.cos (a + b) = t.cos a * t.cos b - t.sin a * t.sin b
  sin_add : ∀ a b, t.sin (a + b) = t.sin a * t.cos b + t.cos a * t.sin b
  cos_neg : ∀ a, t.cos (-a) = t.cos a
  sin_neg : ∀ a, t.sin (-a) = -t.sin a
  circle : ∀ a, t.sin a * t.sin a + t.cos a * t.cos a = 1
  cos_half_pi : t.cos (t.pi / 2) = 0
  sin_half_pi : t.sin (t.pi / 2) = 1

/-- The last row of an affine transformation. -/
def Affine (t : Transform K) : Prop := t.r20 = 0 ∧ t.r21 = 0 ∧ t.r22 = 1

theorem affine_unit : Affine (unit : Transform K) := ⟨rfl, rfl, rfl⟩

theorem affine_multiply {a b : Transform K} (ha : Affine a) (hb : Affine b) :
    Affine (multiply a b) := by
  obtain ⟨a0, a1, a2⟩ := ha
  obtain ⟨b0, b1, b2⟩ := hb
  refine ⟨?_, ?_, ?_⟩ <;> simp [multiply, *]

/-- Multiplying composes the maps: first `a`, then `b`. -/
theorem point_multiply {a b : Transform K} (ha : Affine a) (p : K × K) :
    point (multiply a b) p.1 p.2 = point b (point a p.1 p.2).1 (point a p.1 p.2).2 := by
  obtain ⟨a0, a1, a2⟩ := ha
  unfold point multiply
  simp only [a0, a1, a2]
  ext <;> simp only <;> ring

theorem affine_translate {t : Transform K} (h : Affine t) (x y : K) : Affine (translate t x y) :=
  affine_multiply h ⟨rfl, rfl, rfl⟩

theorem affine_rotateCw (trig : Trig K) {t : Transform K} (h : Affine t) (a : K) :
    Affine (rotateCw trig t a) := affine_multiply h ⟨rfl, rfl, rfl⟩

theorem affine_reflect (trig : Trig K) {t : Transform K} (h : Affine t) (a : K) :
    Affine (reflect trig t a) := affine_multiply h ⟨rfl, rfl, rfl⟩

theorem point_translate {t : Transform K} (h : Affine t) (x y : K) (p : K × K) :
    point (translate t x y) p.1 p.2 = ((point t p.1 p.2).1 + x, (point t p.1 p.2).2 + y) := by
  unfold translate
  rw [point_multiply h]
  unfold point
  ext <;> simp only <;> ring

theorem point_rotateCw (trig : Trig K) {t : Transform K} (h : Affine t) (a : K) (p : K × K) :
    point (rotateCw trig t a) p.1 p.2 =
      (trig.cos a * (point t p.1 p.2).1 + trig.sin a * (point t p.1 p.2).2,
       -trig.sin a * (point t p.1 p.2).1 + trig.cos a * (point t p.1 p.2).2) := by
  unfold rotateCw
  rw [point_multiply h]
  unfold point
  ext <;> simp only <;> ring

/-- The factor of a reflection, with the double angle. -/
theorem point_reflect {trig : Trig K} (l : trig.Laws) {t : Transform K} (h : Affine t) (a : K)
    (p : K × K) :
    point (reflect trig t a) p.1 p.2 =
      (trig.cos (a + a) * (point t p.1 p.2).1 + trig.sin (a + a) * (point t p.1 p.2).2,
       trig.sin (a + a) * (point t p.1 p.2).1 - trig.cos (a + a) * (point t p.1 p.2).2) := by
  unfold reflect
  rw [point_multiply h, l.cos_add, l.sin_add]
  unfold point
  ext <;> simp only <;> ring

/-- `m = translate(unit, -cx, -cy)`. -/
theorem point_centre (cx cy : K) (p : K × K) :
    point (translate unit (-cx) (-cy)) p.1 p.2 = (p.1 - cx, p.2 - cy) := by
  rw [point_translate affine_unit]
  simp only [point, unit]
  ext <;> simp only <;> ring

theorem affine_centre (cx cy : K) : Affine (translate (unit : Transform K) (-cx) (-cy)) :=
  affine_translate affine_unit _ _

/-- Reflection in the line through the centre in direction `a`. -/
theorem reflectIn_eq {trig : Trig K} (l : trig.Laws) (c : K × K) (a : K) (p : K × K) :
    Spec.reflectIn c (trig.cos a) (trig.sin a) p =
      (trig.cos (a + a) * (p.1 - c.1) + trig.sin (a + a) * (p.2 - c.2) + c.1,
       trig.sin (a + a) * (p.1 - c.1) - trig.cos (a + a) * (p.2 - c.2) + c.2) := by
  have h := l.circle a
  unfold Spec.reflectIn
  rw [l.cos_add, l.sin_add]
  ext <;> simp only
  · linear_combination (p.1 - c.1) * h
  · linear_combination (p.2 - c.2) * h

/-- The matrix of one reflection. -/
theorem matrix_reflect {trig : Trig K} (l : trig.Laws) (cx cy a : K) (p : K × K) :
    point (translate (reflect trig (translate unit (-cx) (-cy)) a) cx cy) p.1 p.2 =
      Spec.reflectIn (cx, cy) (trig.cos a) (trig.sin a) p := by
  rw [point_translate (affine_reflect trig (affine_centre cx cy) a),
    point_reflect l (affine_centre cx cy), point_centre, reflectIn_eq l]

/-- The matrix of one rotation: by `-a`. -/
theorem matrix_rotate {trig : Trig K} (l : trig.Laws) (cx cy a : K) (p : K × K) :
    point (translate (rotateCw trig (translate unit (-cx) (-cy)) a) cx cy) p.1 p.2 =
      Spec.rotateBy (cx, cy) (trig.cos (-a)) (trig.sin (-a)) p := by
  rw [point_translate (affine_rotateCw trig (affine_centre cx cy) a),
    point_rotateCw trig (affine_centre cx cy), point_centre, l.cos_neg, l.sin_neg]
  unfold Spec.rotateBy
  ext <;> simp only <;> ring

/-- A rotation by `-r` followed by a reflection in direction `b` is the reflection in a direction
`g` with `2g = 2b + r`. -/
theorem matrix_rotate_reflect {trig : Trig K} (l : trig.Laws) (cx cy r b g : K)
    (hg : g + g = b + b + r) (p : K × K) :
    point (translate (reflect trig (rotateCw trig (translate unit (-cx) (-cy)) r) b) cx cy) p.1 p.2 =
      Spec.reflectIn (cx, cy) (trig.cos g) (trig.sin g) p := by
  have hc := affine_centre cx cy
  rw [point_translate (affine_reflect trig (affine_rotateCw trig hc r) b),
    point_reflect l (affine_rotateCw trig hc r), point_rotateCw trig hc, point_centre,
    reflectIn_eq l, hg, l.cos_add (b + b) r, l.sin_add (b + b) r]
  ext <;> simp only <;> ring

theorem double_add_half_pi {trig : Trig K} (l : trig.Laws) (a : K) :
    trig.cos (-(a + trig.pi / 2) + -(a + trig.pi / 2)) = -trig.cos (-a + -a) ∧
    trig.sin (-(a + trig.pi / 2) + -(a + trig.pi / 2)) = -trig.sin (-a + -a) := by
  have e : -(a + trig.pi / 2) + -(a + trig.pi / 2) = (-a + -a) + -(trig.pi / 2 + trig.pi / 2) := by
    ring
  have c : trig.cos (-(trig.pi / 2 + trig.pi / 2)) = -1 := by
    rw [l.cos_neg, l.cos_add, l.cos_half_pi, l.sin_half_pi]; ring
  have s : trig.sin (-(trig.pi / 2 + trig.pi / 2)) = 0 := by
    rw [l.sin_neg, l.sin_add, l.cos_half_pi, l.sin_half_pi]; ring
  rw [e, l.cos_add (-a + -a), l.sin_add (-a + -a), c, s]
  exact ⟨by ring, by ring⟩

/-- Reflecting horizontally and then vertically is a half turn. -/
theorem matrix_half_turn {trig : Trig K} (l : trig.Laws) (cx cy a : K) (p : K × K) :
    point (translate (reflect trig (reflect trig (translate unit (-cx) (-cy)) (-a))
      (-(a + trig.pi / 2))) cx cy) p.1 p.2 = Spec.halfTurn (cx, cy) p := by
  have hc := affine_centre cx cy
  obtain ⟨h1, h2⟩ := double_add_half_pi l a
  have h3 := l.circle (-a + -a)
  rw [point_translate (affine_reflect trig (affine_reflect trig hc _) _),
    point_reflect l (affine_reflect trig hc _), point_reflect l hc, point_centre, h1, h2]
  unfold Spec.halfTurn
  ext <;> simp only
  · linear_combination (-(p.1 - cx)) * h3
  · linear_combination (-(p.2 - cy)) * h3

/-- … and reflecting horizontally again gives the vertical reflection. -/
theorem matrix_vertical {trig : Trig K} (l : trig.Laws) (cx cy a : K) (p : K × K) :
    point (translate (reflect trig (reflect trig (reflect trig (translate unit (-cx) (-cy)) (-a))
      (-(a + trig.pi / 2))) (-a)) cx cy) p.1 p.2 =
      Spec.reflectIn (cx, cy) (trig.cos (-(a + trig.pi / 2))) (trig.sin (-(a + trig.pi / 2))) p := by
  have hc := affine_centre cx cy
  obtain ⟨h1, h2⟩ := double_add_half_pi l a
  have h3 := l.circle (-a + -a)
  rw [point_translate (affine_reflect trig (affine_reflect trig (affine_reflect trig hc _) _) _),
    point_reflect l (affine_reflect trig (affine_reflect trig hc _) _),
    point_reflect l (affine_reflect trig hc _), point_reflect l hc, point_centre, reflectIn_eq l,
    h1, h2]
  ext <;> simp only
  · linear_combination (-(trig.cos (-a + -a) * (p.1 - cx) + trig.sin (-a + -a) * (p.2 - cy))) * h3
  · linear_combination (-(trig.sin (-a + -a) * (p.1 - cx) - trig.cos (-a + -a) * (p.2 - cy))) * h3

end
end Verif.Symm
