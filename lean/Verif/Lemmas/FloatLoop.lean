import Verif.Lemmas.FloatCount

/-! # Progress of the loop over the dabs in single precision -/

namespace Verif.FloatStroke

open Float32 Spec.FloatStroke

/-- What the loop maintains. -/
structure Near (M x y : ℚ) (p : Pen) : Prop where
  fx : F32 p.x
  fy : F32 p.y
  dx : |x - p.x| ≤ M * (21 / 10)
  dy : |y - p.y| ≤ M * (21 / 10)

/-- The fraction of a full dab. -/
theorem frac_full {todo T : ℚ} (h1 : 1 ≤ todo) (hT : todo ≤ T) (hT1 : T ≤ 2 ^ 40) :
    0 ≤ rnd (1 / todo) ∧ rnd (1 / todo) ≤ 1 ∧ 1 - 1 / 2 ^ 20 ≤ rnd (1 / todo) * T := by
  have h0 : 0 < todo := by linarith
  have hq0 : 0 < 1 / todo := by positivity
  refine ⟨rnd_nonneg hq0.le, rnd_le float_one (by rw [div_le_one h0]; exact h1), ?_⟩
  have h2 := rnd_err (1 / todo)
  rw [abs_of_pos hq0] at h2
  have h3 := (abs_le.mp h2).1
  have h4 : 1 ≤ 1 / todo * T := by rw [div_mul_eq_mul_div, one_mul, one_le_div h0]; exact hT
  have h5 : (1 / todo * (1 - 1 / 16777216) - 1 / 10 ^ 40) * T ≤ rnd (1 / todo) * T :=
    mul_le_mul_of_nonneg_right (by linarith) (by linarith)
  have h6 : (1 / todo * (1 - 1 / 16777216) - 1 / 10 ^ 40) * T
      = 1 / todo * T * (1 - 1 / 16777216) - T / 10 ^ 40 := by ring
  rw [h6] at h5
  linarith

/-- The sums of the estimates. -/
theorem sum_progress {A B M Dx Dy l f Dx' Dy' l' ax ay : ℚ} (hA : 0 ≤ A) (hB : 0 ≤ B) (hAM : A * M ≤ 2 ^ 19)
    (hA1 : A ≤ 2 ^ 19) (hB1 : B ≤ 2 ^ 40) (hT1 : A * (Dx + Dy) + B * l ≤ 2 ^ 40) (hl : 0 ≤ l)
    (hDx0 : 0 ≤ Dx) (hDy0 : 0 ≤ Dy) (hax : ax ≤ M) (hay : ay ≤ M)
    (hDx : Dx ≤ M * (21 / 10)) (hDy : Dy ≤ M * (21 / 10)) (hf : 0 ≤ f)
    (hfT : 1 - 1 / 2 ^ 20 ≤ f * (A * (Dx + Dy) + B * l))
    (h1 : Dx' ≤ Dx - f * Dx * (1 - 1 / 2 ^ 20) + (ax + Dx) / 16777216 + 1 / 10 ^ 30)
    (h2 : Dy' ≤ Dy - f * Dy * (1 - 1 / 2 ^ 20) + (ay + Dy) / 16777216 + 1 / 10 ^ 30)
    (h3 : l' ≤ l * (1 - f) + f * l * (3 / 16777216) + l / 2 ^ 50 + 1 / 10 ^ 30) :
    A * (Dx' + Dy') + B * l' ≤ A * (Dx + Dy) + B * l - 1 / 2 := by
  have a1 : A * Dx' ≤ A * Dx - f * (A * Dx) * (1 - 1 / 2 ^ 20) + A * M * (31 / 10) / 16777216 + A / 10 ^ 30 := by
    have := mul_le_mul_of_nonneg_left (le_trans h1 (by linarith : _ ≤ Dx - f * Dx * (1 - 1 / 2 ^ 20)
      + M * (31 / 10) / 16777216 + 1 / 10 ^ 30)) hA
    linarith
  have a2 : A * Dy' ≤ A * Dy - f * (A * Dy) * (1 - 1 / 2 ^ 20) + A * M * (31 / 10) / 16777216 + A / 10 ^ 30 := by
    have := mul_le_mul_of_nonneg_left (le_trans h2 (by linarith : _ ≤ Dy - f * Dy * (1 - 1 / 2 ^ 20)
      + M * (31 / 10) / 16777216 + 1 / 10 ^ 30)) hA
    linarith
  have a3 : B * l' ≤ B * l - f * (B * l) * (1 - 1 / 2 ^ 20) + B * l / 2 ^ 50 + B / 10 ^ 30 := by
    have e := mul_nonneg hf hl
    have := mul_le_mul_of_nonneg_left (le_trans h3 (by linarith : _ ≤ l - f * l * (1 - 1 / 2 ^ 20)
      + l / 2 ^ 50 + 1 / 10 ^ 30)) hB
    linarith
  have a4 : 0 ≤ A * (Dx + Dy) := by positivity
  have e1 : f * (A * Dx) + f * (A * Dy) + f * (B * l) = f * (A * (Dx + Dy) + B * l) := by ring
  linarith

theorem iter_full {x y todo : ℚ} {p : Pen} (hm : p.moved = 0) :
    iter x y todo p = ⟨go x p.x (rnd (1 / todo)), go y p.y (rnd (1 / todo)), 0, rest p.left (rnd (1 / todo))⟩ := by
  simp only [iter, stepDabs, hm, gt_iff_lt, lt_irrefl, if_false, go, rest]

/-- A dab later less than half a dab remains to be explained away. -/
theorem iter_progress {A B M x y todo : ℚ} {p : Pen} (hA : 0 ≤ A) (hB : 0 ≤ B) (hM : 1 ≤ M)
    (hAM : A * M ≤ 2 ^ 19) (hB1 : B ≤ 2 ^ 40) (hx : F32 x) (hy : F32 y) (hxM : |x| ≤ M) (hyM : |y| ≤ M)
    (hn : Near M x y p) (hm : p.moved = 0) (h1 : 1 ≤ todo) (hT : todo ≤ ahead A B p x y)
    (hT1 : ahead A B p x y ≤ 2 ^ 40) :
    Near M x y (iter x y todo p) ∧ (iter x y todo p).moved = 0 ∧
      ahead A B (iter x y todo p) x y ≤ ahead A B p x y - 1 / 2 := by
  obtain ⟨f0, f1, fT⟩ := frac_full h1 hT hT1
  have hA1 : A ≤ 2 ^ 19 := le_trans (le_mul_of_one_le_right hA hM) hAM
  rw [iter_full hm]
  obtain ⟨f, hf⟩ : ∃ f, f = rnd (1 / todo) := ⟨_, rfl⟩
  rw [← hf] at f0 f1 fT ⊢
  refine ⟨⟨rnd_float _, rnd_float _, le_trans (go_closer hx hn.fx f0 f1) hn.dx,
    le_trans (go_closer hy hn.fy f0 f1) hn.dy⟩, rfl, ?_⟩
  have g1 := go_left hx hn.fx f0 f1
  have g2 := go_left hy hn.fy f0 f1
  have g3 := rest_err (left := p.left) f0 (by linarith)
  have e3 : |p.left - f * p.left| = |p.left| * (1 - f) := by
    rw [show p.left - f * p.left = p.left * (1 - f) by ring, abs_mul, abs_of_nonneg (by linarith : 0 ≤ 1 - f)]
  rw [e3] at g3
  exact sum_progress hA hB hAM hA1 hB1 hT1 (abs_nonneg _) (abs_nonneg _) (abs_nonneg _) hxM hyM hn.dx hn.dy
    f0 fT g1 g2 g3

/-- With at most `n / 2` dabs ahead the loop ends. -/
theorem loop_ends {L : Libm} (hL : LibmOk L) {A B M x y : ℚ} (hM : 1 ≤ M) (hAM : A * M ≤ 2 ^ 19)
    (hB1 : B ≤ 2 ^ 40) (hx : F32 x) (hy : F32 y) (hxM : |x| ≤ M) (hyM : |y| ≤ M) (hA : 0 ≤ A) (hB : 0 ≤ B)
    {sp : Nat → Spacing} (hsp : ∀ i, Bounded A B (sp i)) :
    ∀ (fuel i : Nat) (p : Pen), Near M x y p → p.moved = 0 → ahead A B p x y ≤ 2 ^ 40 →
      ahead A B p x y ≤ (fuel : ℚ) / 2 → ∃ q n, loop L sp x y fuel i p = some (q, n) ∧ Near M x y q ∧ n ≤ i + fuel := by
  have hA1 : A ≤ 2 ^ 19 := le_trans (le_mul_of_one_le_right hA hM) hAM
  intro fuel
  induction fuel with
  | zero =>
    intro i p hn hm hT1 hT
    have hc := countDabs_le hL (hsp i) hA1 hB1 hx hy hn.fx hn.fy
    have hf := countDabs_float L (sp i) p x y
    have : ¬ rnd (p.moved + countDabs L (sp i) p x y) ≥ 1 := by
      rw [hm, zero_add, rnd_of_float hf, ge_iff_le, not_le]
      norm_num at hT
      linarith
    refine ⟨p, i, ?_, hn, by omega⟩
    rw [loop]; rw [if_neg this]
  | succ fuel ih =>
    intro i p hn hm hT1 hT
    by_cases hc : rnd (p.moved + countDabs L (sp i) p x y) ≥ 1
    · have hf := countDabs_float L (sp i) p x y
      have h1 := hc
      rw [hm, zero_add, rnd_of_float hf, ge_iff_le] at h1
      have hle := countDabs_le hL (hsp i) hA1 hB1 hx hy hn.fx hn.fy
      have hT' : countDabs L (sp i) p x y ≤ ahead A B p x y := by linarith
      obtain ⟨a, b, c⟩ := iter_progress hA hB hM hAM hB1 hx hy hxM hyM hn hm h1 hT' hT1
      push_cast at hT
      obtain ⟨q, n, h2, h3, h4⟩ := ih (i + 1) _ a b (by linarith) (by linarith)
      refine ⟨q, n, ?_, h3, by omega⟩
      rw [loop]; rw [if_pos hc]; exact h2
    · refine ⟨p, i, ?_, hn, by omega⟩
      rw [loop]; rw [if_neg hc]

/-! ### The first dab -/

/-- A float below 1 is not too close to it. -/
theorem float_below_one {z : ℚ} (hz : F32 z) (h : z < 1) : z ≤ 1 - 1 / 16777216 := by
  obtain ⟨n, e, he, hn, rfl⟩ := hz
  have h2 : (2 : ℚ) ≠ 0 := by norm_num
  by_cases hc : -24 ≤ e
  · obtain ⟨d, rfl⟩ := Int.le.dest hc
    have e1 : (n : ℚ) * 2 ^ (-24 + (d : ℤ)) = ((n * 2 ^ d : ℤ) : ℚ) / 16777216 := by
      rw [zpow_add₀ h2, zpow_natCast]; push_cast; norm_num; ring
    rw [e1] at h ⊢
    rw [div_lt_one (by norm_num)] at h
    have h3 : n * 2 ^ d < 16777216 := by exact_mod_cast h
    have h4 : ((n * 2 ^ d : ℤ) : ℚ) ≤ 16777215 := by
      have : n * 2 ^ d ≤ 16777215 := by omega
      exact_mod_cast this
    rw [div_le_iff₀ (by norm_num)]
    norm_num at h4 ⊢
    exact h4
  · have h3 : (2 : ℚ) ^ e ≤ 2 ^ (-25 : ℤ) := two_zpow_le (by omega)
    have h4 : (n : ℚ) ≤ 16777216 := by
      have := le_trans (le_abs_self n) hn
      norm_num at this
      exact_mod_cast this
    have h5 := two_pos_zpow e
    have h6 : (2 : ℚ) ^ (-25 : ℤ) = 1 / 33554432 := by norm_num
    rw [h6] at h3
    rcases le_total 0 (n : ℚ) with h7 | h7
    · nlinarith
    · nlinarith

/-- The first dab is due: what is to do is at least half of what is missing. -/
theorem first_due {m todo : ℚ} (hm : F32 m) (h0 : 0 ≤ m) (h1 : m < 1) (ht : 0 ≤ todo)
    (h : rnd (m + todo) ≥ 1) : 1 - m ≤ 2 * todo := by
  have hb := float_below_one hm h1
  by_contra hc
  push_neg at hc
  -- then the sum is below the middle of the last gap before 1
  have h2 : m + todo < 1 - 1 / 33554432 := by linarith
  have hg : F32 (1 - 1 / 16777216) := ⟨16777215, -24, by norm_num, by norm_num, by norm_num⟩
  rcases le_total (m + todo) (1 - 1 / 16777216) with h3 | h3
  · have := rnd_le hg h3
    linarith
  · have h4 := round_nearest 24 (-149) (by norm_num) (m + todo) hg
    rw [abs_of_nonpos (by linarith : 1 - 1 / 16777216 - (m + todo) ≤ 0)] at h4
    have h5 := le_abs_self (rnd (m + todo) - (m + todo))
    unfold rnd at h h5
    linarith

theorem stepDabs_le {p : Pen} (h0 : 0 ≤ p.moved) (h1 : p.moved < 1) :
    0 ≤ stepDabs p ∧ stepDabs p ≤ (1 - p.moved) * (1 + 3 / 16777216) + 1 / 10 ^ 39 := by
  unfold stepDabs
  split_ifs with h
  · have h2 : 0 ≤ 1 - p.moved := by linarith
    have h3 := rnd64_err (1 - p.moved)
    rw [abs_of_nonneg h2] at h3
    have h4 := (abs_le.mp h3).2
    have h5 : 0 ≤ rnd64 (1 - p.moved) :=
      le_round 53 (-1074) (by norm_num) ⟨0, 0, by norm_num, by norm_num, by simp⟩ h2
    refine ⟨rnd_nonneg h5, ?_⟩
    have h6 := rnd_upper h5
    linarith
  · have : p.moved = 0 := le_antisymm (not_lt.mp h) h0
    rw [this]; norm_num

/-- The fraction of the first dab. -/
theorem frac_first {p : Pen} {todo : ℚ} (hm : F32 p.moved) (h0 : 0 ≤ p.moved) (h1 : p.moved < 1)
    (ht : 0 ≤ todo) (h : rnd (p.moved + todo) ≥ 1) :
    0 ≤ rnd (stepDabs p / todo) ∧ rnd (stepDabs p / todo) ≤ 2 + 1 / 2 ^ 10 := by
  have hd := first_due hm h0 h1 ht h
  have hb := float_below_one hm h1
  obtain ⟨s0, s1⟩ := stepDabs_le h0 h1
  have ht0 : 0 < todo := by linarith
  have hq : stepDabs p / todo ≤ 2 + 1 / 2 ^ 12 := by
    rw [div_le_iff₀ ht0]
    linarith
  have hq0 : 0 ≤ stepDabs p / todo := div_nonneg s0 ht0.le
  refine ⟨rnd_nonneg hq0, ?_⟩
  have := rnd_upper hq0
  linarith

/-- The first dab does not lead far away. -/
theorem iter_first {A B M x y todo : ℚ} {p : Pen} (hA : 0 ≤ A) (hB : 0 ≤ B) (hM : 1 ≤ M)
    (hAM : A * M ≤ 2 ^ 19) (hB1 : B ≤ 2 ^ 40) (hx : F32 x) (hy : F32 y) (hxM : |x| ≤ M) (hyM : |y| ≤ M)
    (hpx : F32 p.x) (hpy : F32 p.y) (hdx : |p.x| ≤ M) (hdy : |p.y| ≤ M)
    (hm : F32 p.moved) (h0 : 0 ≤ p.moved) (h1 : p.moved < 1) (ht : 0 ≤ todo)
    (h : rnd (p.moved + todo) ≥ 1) :
    Near M x y (iter x y todo p) ∧ (iter x y todo p).moved = 0 ∧
      ahead A B (iter x y todo p) x y ≤ ahead A B p x y * (1 + 1 / 100) + 1 := by
  obtain ⟨f0, f1⟩ := frac_first hm h0 h1 ht h
  have hA1 : A ≤ 2 ^ 19 := le_trans (le_mul_of_one_le_right hA hM) hAM
  obtain ⟨f, hf⟩ : ∃ f, f = rnd (stepDabs p / todo) := ⟨_, rfl⟩
  rw [← hf] at f0 f1
  have hi : iter x y todo p = ⟨go x p.x f, go y p.y f, 0, rest p.left f⟩ := by rw [hf]; rfl
  rw [hi]
  have g1 := go_first hx hpx f0 f1
  have g2 := go_first hy hpy f0 f1
  have g3 := rest_err (left := p.left) f0 (by linarith)
  have d1 : |x - p.x| ≤ 2 * M := le_trans (abs_sub _ _) (by linarith)
  have d2 : |y - p.y| ≤ 2 * M := le_trans (abs_sub _ _) (by linarith)
  refine ⟨⟨rnd_float _, rnd_float _, ?_, ?_⟩, rfl, ?_⟩
  · show |x - go x p.x f| ≤ _
    linarith
  · show |y - go y p.y f| ≤ _
    linarith
  · unfold ahead
    dsimp only
    have hl := abs_nonneg p.left
    have e3 : |p.left - f * p.left| ≤ |p.left| * (1 + 1 / 2 ^ 10) := by
      rw [show p.left - f * p.left = p.left * (1 - f) by ring, abs_mul]
      refine mul_le_mul_of_nonneg_left ?_ hl
      rw [abs_le]; constructor <;> linarith
    have e4 : f * |p.left| ≤ 3 * |p.left| := mul_le_mul_of_nonneg_right (by linarith) hl
    have g4 : |rest p.left f| ≤ |p.left| * (1 + 1 / 100) + 1 / 10 ^ 30 := by linarith
    have g5 : |x - go x p.x f| + |y - go y p.y f|
        ≤ (|x - p.x| + |y - p.y|) * (1 + 1 / 100) + M * 2 / 16777216 + 2 / 10 ^ 30 := by
      linarith [abs_nonneg (x - p.x), abs_nonneg (y - p.y)]
    have a1 := mul_le_mul_of_nonneg_left g5 hA
    have a2 := mul_le_mul_of_nonneg_left g4 hB
    linarith

end Verif.FloatStroke
