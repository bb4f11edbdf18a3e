import Mathlib.Data.Real.Basic
import Mathlib.Tactic.Ring
import Mathlib.Tactic.Linarith

/-!
# A checker for polynomial inequalities on an interval

Polynomials are lists of rational coefficients. `nonneg n p h` bisects `[0, h]` up to `n` times and bounds the polynomial from below
on every part; its answer is proved right (`nonneg_sound`), and computed by the kernel where it is used.
-/

namespace Verif.PolyCheck

/-- The value at a real number. -/
noncomputable def ev : List ℚ → ℝ → ℝ
  | [], _ => 0
  | a :: p, x => a + x * ev p x

def add : List ℚ → List ℚ → List ℚ
  | [], q => q
  | p, [] => p
  | a :: p, b :: q => (a + b) :: add p q

def scale (c : ℚ) : List ℚ → List ℚ
  | [] => []
  | a :: p => (c * a) :: scale c p

def mul : List ℚ → List ℚ → List ℚ
  | [], _ => []
  | a :: p, q => add (scale a q) (0 :: mul p q)

/-- The polynomial in `x + c`. -/
def shift (c : ℚ) : List ℚ → List ℚ
  | [] => []
  | a :: p => add [a] (mul [c, 1] (shift c p))

/-- The polynomial in `q x`. -/
def comp : List ℚ → List ℚ → List ℚ
  | [], _ => []
  | a :: p, q => add [a] (mul q (comp p q))

/-- A lower bound on `[0, h]`. -/
def low (h : ℚ) : List ℚ → ℚ
  | [] => 0
  | a :: p => a + min 0 (h * low h p)

def nonneg : ℕ → List ℚ → ℚ → Bool
  | 0, p, h => decide (0 ≤ low h p)
  | n + 1, p, h => decide (0 ≤ low h p) || (nonneg n p (h / 2) && nonneg n (shift (h / 2) p) (h / 2))

theorem ev_add : ∀ (p q : List ℚ) (x : ℝ), ev (add p q) x = ev p x + ev q x
  | [], q, x => by simp [add, ev]
  | a :: p, [], x => by simp [add, ev]
  | a :: p, b :: q, x => by
    simp only [add, ev, ev_add p q x]; push_cast; ring

theorem ev_scale (c : ℚ) : ∀ (p : List ℚ) (x : ℝ), ev (scale c p) x = c * ev p x
  | [], x => by simp [scale, ev]
  | a :: p, x => by simp only [scale, ev, ev_scale c p x]; push_cast; ring

theorem ev_mul : ∀ (p q : List ℚ) (x : ℝ), ev (mul p q) x = ev p x * ev q x
  | [], q, x => by simp [mul, ev]
  | a :: p, q, x => by
    simp only [mul, ev_add, ev_scale, ev, ev_mul p q x]; push_cast; ring

theorem ev_shift (c : ℚ) : ∀ (p : List ℚ) (x : ℝ), ev (shift c p) x = ev p (x + c)
  | [], x => by simp [shift, ev]
  | a :: p, x => by
    simp only [shift, ev_add, ev_mul, ev, ev_shift c p x]; push_cast; ring

theorem ev_comp : ∀ (p q : List ℚ) (x : ℝ), ev (comp p q) x = ev p (ev q x)
  | [], q, x => by simp [comp, ev]
  | a :: p, q, x => by
    simp only [comp, ev_add, ev_mul, ev, ev_comp p q x]; ring

theorem low_le {h : ℚ} {x : ℝ} (hx : 0 ≤ x) (hh : x ≤ h) : ∀ p : List ℚ, (low h p : ℝ) ≤ ev p x
  | [] => by simp [low, ev]
  | a :: p => by
    have k := low_le hx hh p
    simp only [low, ev]
    push_cast
    have : min 0 ((h : ℝ) * (low h p : ℝ)) ≤ x * ev p x := by
      rcases le_total 0 (low h p : ℝ) with q | q
      · exact (min_le_left _ _).trans (mul_nonneg hx (q.trans k))
      · refine (min_le_right _ _).trans ?_
        nlinarith [mul_le_mul_of_nonneg_left k hx, mul_le_mul_of_nonpos_right hh q]
    linarith

theorem nonneg_sound : ∀ (n : ℕ) (p : List ℚ) (h : ℚ), nonneg n p h = true → ∀ x : ℝ, 0 ≤ x → x ≤ h → 0 ≤ ev p x
  | 0, p, h, hc, x, hx, hh => by
    have k : 0 ≤ low h p := of_decide_eq_true hc
    have k' : (0 : ℝ) ≤ (low h p : ℝ) := by exact_mod_cast k
    exact k'.trans (low_le hx hh p)
  | n + 1, p, h, hc, x, hx, hh => by
    unfold nonneg at hc
    rw [Bool.or_eq_true, Bool.and_eq_true] at hc
    rcases hc with k | ⟨k1, k2⟩
    · have k : 0 ≤ low h p := of_decide_eq_true k
      have k' : (0 : ℝ) ≤ (low h p : ℝ) := by exact_mod_cast k
      exact k'.trans (low_le hx hh p)
    · rcases le_total x ((h / 2 : ℚ) : ℝ) with q | q
      · exact nonneg_sound n p (h / 2) k1 x hx q
      · have := nonneg_sound n _ (h / 2) k2 (x - ((h / 2 : ℚ) : ℝ)) (by linarith) (by push_cast at q ⊢; linarith)
        rw [ev_shift, sub_add_cancel] at this
        exact this

end Verif.PolyCheck
