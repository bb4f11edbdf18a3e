import Verif.Lemmas.SymmetryTable
import Verif.Model.Mask

/-! Rotations and mirror images compose; the dab's own shape turns with it. -/

namespace Verif.Symm

section
variable {K : Type} [Field K]

/-- Rotation about `c` by `a`. -/
def turn (trig : Trig K) (c : K × K) (a : K) (p : K × K) : K × K :=
  Spec.rotateBy c (trig.cos a) (trig.sin a) p

/-- Reflection in the line through `c` in direction `a`. -/
def mirror (trig : Trig K) (c : K × K) (a : K) (p : K × K) : K × K :=
  Spec.reflectIn c (trig.cos a) (trig.sin a) p

/-- Reflection in the line whose direction doubled is `f`. -/
def flip (trig : Trig K) (c : K × K) (f : K) (p : K × K) : K × K :=
  (trig.cos f * (p.1 - c.1) + trig.sin f * (p.2 - c.2) + c.1,
   trig.sin f * (p.1 - c.1) - trig.cos f * (p.2 - c.2) + c.2)

variable {trig : Trig K} (l : trig.Laws) (c : K × K)
include l

theorem mirror_eq_flip (a : K) : mirror trig c a = flip trig c (a + a) := by
  funext p; exact reflectIn_eq l c a p

theorem turn_turn (a b : K) (p : K × K) : turn trig c a (turn trig c b p) = turn trig c (a + b) p := by
  unfold turn Spec.rotateBy
  rw [l.cos_add, l.sin_add]
  ext <;> simp only <;> ring

theorem turn_flip (a f : K) (p : K × K) :
    turn trig c a (flip trig c f p) = flip trig c (f + a) p := by
  unfold turn flip Spec.rotateBy
  rw [l.cos_add, l.sin_add]
  ext <;> simp only <;> ring

theorem flip_turn (a f : K) (p : K × K) :
    flip trig c f (turn trig c a p) = flip trig c (f + -a) p := by
  unfold turn flip Spec.rotateBy
  rw [l.cos_add, l.sin_add, l.cos_neg, l.sin_neg]
  ext <;> simp only <;> ring

theorem flip_flip (f g : K) (p : K × K) :
    flip trig c f (flip trig c g p) = turn trig c (f + -g) p := by
  unfold turn flip Spec.rotateBy
  rw [l.cos_add, l.sin_add, l.cos_neg, l.sin_neg]
  ext <;> simp only <;> ring

theorem turn_dist (a : K) (p q : K × K) :
    Spec.dist2 (turn trig c a p) (turn trig c a q) = Spec.dist2 p q := by
  have h := l.circle a
  unfold Spec.dist2 turn Spec.rotateBy
  simp only
  linear_combination ((p.1 - q.1) * (p.1 - q.1) + (p.2 - q.2) * (p.2 - q.2)) * h

theorem flip_dist (f : K) (p q : K × K) :
    Spec.dist2 (flip trig c f p) (flip trig c f q) = Spec.dist2 p q := by
  have h := l.circle f
  unfold Spec.dist2 flip
  simp only
  linear_combination ((p.1 - q.1) * (p.1 - q.1) + (p.2 - q.2) * (p.2 - q.2)) * h

theorem cos_zero : trig.cos 0 = 1 ∧ trig.sin 0 = 0 := by
  have h1 := l.cos_add 0 (trig.pi / 2)
  have h2 := l.sin_add 0 (trig.pi / 2)
  rw [zero_add, l.cos_half_pi, l.sin_half_pi] at h1
  rw [zero_add, l.cos_half_pi, l.sin_half_pi] at h2
  constructor
  · linear_combination -h2
  · linear_combination h1

theorem turn_zero (p : K × K) : turn trig c 0 p = p := by
  obtain ⟨h1, h2⟩ := cos_zero l
  unfold turn Spec.rotateBy
  rw [h1, h2]
  ext <;> simp only <;> ring

theorem cos_two_pi [CharZero K] : trig.cos (2 * trig.pi) = 1 ∧ trig.sin (2 * trig.pi) = 0 := by
  have e : 2 * trig.pi = (trig.pi / 2 + trig.pi / 2) + (trig.pi / 2 + trig.pi / 2) := by ring
  rw [e, l.cos_add (trig.pi / 2 + trig.pi / 2), l.sin_add (trig.pi / 2 + trig.pi / 2),
    l.cos_add, l.sin_add, l.cos_half_pi, l.sin_half_pi]
  constructor <;> ring

theorem cos_add_two_pi [CharZero K] (a : K) :
    trig.cos (a + 2 * trig.pi) = trig.cos a ∧ trig.sin (a + 2 * trig.pi) = trig.sin a := by
  obtain ⟨h1, h2⟩ := cos_two_pi l
  rw [l.cos_add, l.sin_add, h1, h2]
  constructor <;> ring

theorem cos_sub_two_pi [CharZero K] (a : K) :
    trig.cos (a - 2 * trig.pi) = trig.cos a ∧ trig.sin (a - 2 * trig.pi) = trig.sin a := by
  obtain ⟨h1, h2⟩ := cos_add_two_pi l (a - 2 * trig.pi)
  rw [sub_add_cancel] at h1 h2
  exact ⟨h1.symm, h2.symm⟩

theorem cos_periods [CharZero K] (a : K) (m : Int) :
    trig.cos (a + (m : K) * (2 * trig.pi)) = trig.cos a ∧
    trig.sin (a + (m : K) * (2 * trig.pi)) = trig.sin a := by
  induction m using Int.induction_on with
  | zero => simp
  | succ m ih =>
    have e : a + (((m : Int) + 1 : Int) : K) * (2 * trig.pi) =
        (a + ((m : Int) : K) * (2 * trig.pi)) + 2 * trig.pi := by push_cast; ring
    obtain ⟨h1, h2⟩ := cos_add_two_pi l (a + ((m : Int) : K) * (2 * trig.pi))
    rw [e, h1, h2]; exact ih
  | pred m ih =>
    have e : a + ((-(m : Int) - 1 : Int) : K) * (2 * trig.pi) =
        (a + ((-(m : Int) : Int) : K) * (2 * trig.pi)) - 2 * trig.pi := by push_cast; ring
    obtain ⟨h1, h2⟩ := cos_sub_two_pi l (a + ((-(m : Int) : Int) : K) * (2 * trig.pi))
    rw [e, h1, h2]; exact ih

omit l in
/-- `k` reduced modulo `n`, as angles. -/
theorem angle_mod [CharZero K] {n : Int} (hn : n ≠ 0) (k : Int) (p : K) :
    (k : K) * (2 * p / (n : K)) = ((k % n : Int) : K) * (2 * p / (n : K)) + ((k / n : Int) : K) * (2 * p) := by
  have hk : (k : K) = ((k % n : Int) : K) + (n : K) * ((k / n : Int) : K) := by
    rw [← Int.cast_mul, ← Int.cast_add, Int.emod_add_mul_ediv]
  have hn' : (n : K) ≠ 0 := by exact_mod_cast hn
  rw [hk, add_mul]
  congr 1
  field_simp

theorem turn_mod [CharZero K] {n : Int} (hn : n ≠ 0) (k : Int) (a : K) :
    turn trig c (a + -((k : K) * (2 * trig.pi / (n : K)))) =
      turn trig c (a + -(((k % n : Int) : K) * (2 * trig.pi / (n : K)))) := by
  have e : a + -((k : K) * (2 * trig.pi / (n : K))) =
      (a + -(((k % n : Int) : K) * (2 * trig.pi / (n : K)))) + ((-(k / n) : Int) : K) * (2 * trig.pi) := by
    rw [angle_mod hn k]; push_cast; ring
  funext p
  unfold turn
  rw [e, (cos_periods l _ _).1, (cos_periods l _ _).2]

theorem flip_mod [CharZero K] {n : Int} (hn : n ≠ 0) (k : Int) (a : K) :
    flip trig c (a + -((k : K) * (2 * trig.pi / (n : K)))) =
      flip trig c (a + -(((k % n : Int) : K) * (2 * trig.pi / (n : K)))) := by
  have e : a + -((k : K) * (2 * trig.pi / (n : K))) =
      (a + -(((k % n : Int) : K) * (2 * trig.pi / (n : K)))) + ((-(k / n) : Int) : K) * (2 * trig.pi) := by
    rw [angle_mod hn k]; push_cast; ring
  funext p
  unfold flip
  rw [e, (cos_periods l _ _).1, (cos_periods l _ _).2]

omit l in
theorem rSample_congr {px py sn cs px' py' sn' cs' : K} (aspect : K)
    (h1 : (py' * cs' - px' * sn') = (py * cs - px * sn) ∨ (py' * cs' - px' * sn') = -(py * cs - px * sn))
    (h2 : py' * sn' + px' * cs' = py * sn + px * cs ∨ py' * sn' + px' * cs' = -(py * sn + px * cs)) :
    Mask.rSample px' py' aspect sn' cs' = Mask.rSample px py aspect sn cs := by
  unfold Mask.rSample
  simp only
  rcases h1 with h1 | h1 <;> rcases h2 with h2 | h2 <;> rw [h1, h2] <;> ring

/-- Turning the point and the ellipse by the same angle. -/
theorem rSample_turn (a th aspect : K) (p q : K × K) :
    Mask.rSample ((turn trig c a q).1 - (turn trig c a p).1) ((turn trig c a q).2 - (turn trig c a p).2)
      aspect (trig.sin (th + a)) (trig.cos (th + a)) =
    Mask.rSample (q.1 - p.1) (q.2 - p.2) aspect (trig.sin th) (trig.cos th) := by
  have h := l.circle a
  apply rSample_congr
  · left
    rw [l.cos_add, l.sin_add]
    unfold turn Spec.rotateBy
    simp only
    linear_combination ((q.2 - p.2) * trig.cos th - (q.1 - p.1) * trig.sin th) * h
  · left
    rw [l.cos_add, l.sin_add]
    unfold turn Spec.rotateBy
    simp only
    linear_combination ((q.2 - p.2) * trig.sin th + (q.1 - p.1) * trig.cos th) * h

/-- Reflecting the point and the ellipse in the same line. -/
theorem rSample_flip (f th aspect : K) (p q : K × K) :
    Mask.rSample ((flip trig c f q).1 - (flip trig c f p).1) ((flip trig c f q).2 - (flip trig c f p).2)
      aspect (trig.sin (f + -th)) (trig.cos (f + -th)) =
    Mask.rSample (q.1 - p.1) (q.2 - p.2) aspect (trig.sin th) (trig.cos th) := by
  have h := l.circle f
  apply rSample_congr
  · right
    rw [l.cos_add, l.sin_add, l.cos_neg, l.sin_neg]
    unfold flip
    simp only
    linear_combination (-((q.2 - p.2) * trig.cos th - (q.1 - p.1) * trig.sin th)) * h
  · left
    rw [l.cos_add, l.sin_add, l.cos_neg, l.sin_neg]
    unfold flip
    simp only
    linear_combination ((q.2 - p.2) * trig.sin th + (q.1 - p.1) * trig.cos th) * h

/-- An ellipse is the same after half a turn. -/
theorem rSample_half [CharZero K] (th aspect : K) (u v : K) :
    Mask.rSample u v aspect (trig.sin (th + trig.pi)) (trig.cos (th + trig.pi)) =
    Mask.rSample u v aspect (trig.sin th) (trig.cos th) := by
  have e : trig.cos trig.pi = -1 ∧ trig.sin trig.pi = 0 := by
    have e : trig.pi = trig.pi / 2 + trig.pi / 2 := by ring
    rw [e, l.cos_add, l.sin_add, l.cos_half_pi, l.sin_half_pi]
    constructor <;> ring
  apply rSample_congr
  · right
    rw [l.cos_add, l.sin_add, e.1, e.2]; ring
  · right
    rw [l.cos_add, l.sin_add, e.1, e.2]; ring

end
end Verif.Symm
