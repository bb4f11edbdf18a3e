import Verif.Lemmas.FloatMapping
import Verif.Props.C30_Mapping

/-!
# C89: dynamics curves in single precision

C30 says what a curve is with exact numbers. Here: how far the floats of the program are from that.
-/

namespace Verif.FloatMap
open Float32 FloatMask Map FloatStroke

/-- One curve. -/
theorem evaluate_err {p : Points ℚ} (hn : 2 ≤ p.n) (hp : Points.Modest p) {x : ℚ} (hx : Modest x) :
    ∃ y, evaluate p x = .fin y ∧ F32 y ∧ |y - Map.evaluate p x| ≤ weightAt p x / 2 ^ 21 + 1 / 2 ^ 100 := by
  obtain ⟨r1, r2, -, -⟩ := findSegment_spec p x hn p.n 2 (le_refl _) hn (by omega) (by omega)
  unfold evaluate Map.evaluate weightAt
  dsimp only
  generalize findSegment p x p.n 2 = i at *
  obtain ⟨k, rfl⟩ : ∃ k, i = k + 1 := ⟨i - 1, by omega⟩
  rw [Nat.add_sub_cancel]
  exact segment_err (hp.xs _ (by omega)) (hp.ys _ (by omega)) (hp.xs _ r2) (hp.ys _ r2) hx (hp.gap k r2)

theorem weight_between {x0 y0 x1 y1 x : ℚ} (h0 : x0 ≤ x) (h1 : x ≤ x1) : weight x0 y0 x1 y1 x ≤ max |y0| |y1| := by
  unfold weight
  split_ifs with hc
  · exact le_max_left _ _
  · have hd : 0 < x1 - x0 := sub_pos.mpr (lt_of_le_of_ne (le_trans h0 h1) fun h => hc (.inl h))
    rw [abs_of_pos hd, abs_of_nonneg (sub_nonneg.mpr h0), abs_of_nonneg (sub_nonneg.mpr h1), div_le_iff₀ hd]
    have a := mul_le_mul_of_nonneg_right (le_max_right |y0| |y1|) (sub_nonneg.mpr h0)
    have b := mul_le_mul_of_nonneg_right (le_max_left |y0| |y1|) (sub_nonneg.mpr h1)
    linarith

theorem weight_left {x0 y0 x1 y1 : ℚ} : weight x0 y0 x1 y1 x0 = |y0| := by
  unfold weight
  split_ifs with hc
  · rfl
  · have hd : |x1 - x0| ≠ 0 := abs_ne_zero.mpr fun h => hc (.inl (by linarith))
    rw [sub_self, abs_zero, mul_zero, zero_add, mul_div_assoc, div_self hd, mul_one]

theorem weight_right {x0 y0 x1 y1 : ℚ} (h : x0 ≠ x1) : weight x0 y0 x1 y1 x1 = |y1| := by
  unfold weight
  split_ifs with hc
  · rw [hc.resolve_left h]
  · have hd : |x1 - x0| ≠ 0 := abs_ne_zero.mpr fun h => hc (.inl (by linarith))
    rw [sub_self, abs_zero, mul_zero, add_zero, mul_div_assoc, div_self hd, mul_one]

theorem segment_of {p : Points ℚ} (hn : 2 ≤ p.n) (hs : p.Sorted) {k : Nat} (hk : k + 1 < p.n) {x : ℚ}
    (h0 : p.xs k < x) (h1 : x ≤ p.xs (k + 1)) : findSegment p x p.n 2 = k + 1 := by
  obtain ⟨r1, r2, r3, r4⟩ := findSegment_spec p x hn p.n 2 (le_refl _) hn (by omega) (by omega)
  rcases Nat.lt_trichotomy (findSegment p x p.n 2) (k + 1) with h | h | h
  · have h2 := r4 (by omega)
    have h3 := hs (findSegment p x p.n 2) k (by omega) (by omega)
    exact absurd h0 (not_lt.mpr (le_trans h2 h3))
  · exact h
  · exact absurd (r3 (k + 1) (by omega) h) (not_lt.mpr h1)

/-- **C89, between two control points**: a finite number, within 2^-21 of the larger end from the line. -/
theorem curve_accurate {p : Points ℚ} (hn : 2 ≤ p.n) (hs : p.Sorted) (hp : Points.Modest p) {k : Nat} (hk : k + 1 < p.n)
    {x : ℚ} (hx : Modest x) (h0 : p.xs k < x) (h1 : x ≤ p.xs (k + 1)) :
    ∃ y, evaluate p x = .fin y ∧
      |y - line (p.xs k) (p.ys k) (p.xs (k + 1)) (p.ys (k + 1)) x| ≤ max |p.ys k| |p.ys (k + 1)| / 2 ^ 21 + 1 / 2 ^ 100 := by
  obtain ⟨y, e, -, h⟩ := evaluate_err hn hp hx
  rw [evaluate_between p hn hs k hk x h0 h1] at h
  refine ⟨y, e, le_trans h ?_⟩
  unfold weightAt
  rw [segment_of hn hs hk h0 h1, Nat.add_sub_cancel]
  have := weight_between (y0 := p.ys k) (y1 := p.ys (k + 1)) h0.le h1
  have := div_le_div_of_nonneg_right this (by norm_num : (0 : ℚ) ≤ 2 ^ 21)
  linarith

/-- **C89, at a control point**: its value up to a relative error of 2^-21. -/
theorem control_point_accurate {p : Points ℚ} (hn : 2 ≤ p.n) (hs : p.Sorted) (hp : Points.Modest p) {k : Nat} (hk : k < p.n)
    (hleft : 0 < k → p.xs (k - 1) < p.xs k) (hright : k + 1 < p.n → p.xs k < p.xs (k + 1)) :
    ∃ y, evaluate p (p.xs k) = .fin y ∧ |y - p.ys k| ≤ |p.ys k| / 2 ^ 21 + 1 / 2 ^ 100 := by
  obtain ⟨y, e, -, h⟩ := evaluate_err hn hp (hp.xs k hk)
  rw [evaluate_at p hn hs k hk hleft hright] at h
  have w : weightAt p (p.xs k) = |p.ys k| := by
    unfold weightAt
    cases k with
    | zero =>
      have h01 := hright (by omega)
      obtain ⟨r1, r2, r3, r4⟩ := findSegment_spec p (p.xs 0) hn p.n 2 (le_refl _) hn (by omega) (by omega)
      have : findSegment p (p.xs 0) p.n 2 = 0 + 1 := by
        by_contra h
        have := r3 1 (by omega) (by omega)
        exact absurd this (not_lt.mpr (hs 0 1 (by omega) (by omega)))
      rw [this, Nat.add_sub_cancel]
      exact weight_left
    | succ k =>
      have hl := hleft (by omega)
      rw [Nat.add_sub_cancel] at hl
      rw [segment_of hn hs hk hl (le_refl _), Nat.add_sub_cancel]
      exact weight_right hl.ne
  rw [w] at h
  exact ⟨y, e, h⟩

theorem abs_evaluate_le (p : Points ℚ) (x : ℚ) : |Map.evaluate p x| ≤ weightAt p x := by
  unfold Map.evaluate weightAt weight
  dsimp only
  split_ifs with hc
  · exact le_refl _
  · rw [abs_div]
    refine div_le_div_of_nonneg_right ?_ (abs_nonneg _)
    refine le_trans (abs_add_le _ _) ?_
    rw [abs_mul, abs_mul]

/-- One addition of the sum. -/
theorem add_err {c k S T r R y Y : ℚ} (hc : c = 1 / 2 ^ 24) (k0 : 0 ≤ k) (k1 : k ≤ 64) (S0 : 0 ≤ S) (T0 : 0 ≤ T)
    (hR : |R| ≤ (k + 1) * S) (hr : |r - R| ≤ (k + 8) ^ 2 * (c * S) + k * (2 * T)) (hY : |Y| ≤ S) (hy : |y - Y| ≤ S * (8 * c) + T) :
    |r + y - (R + Y)| ≤ (k + 8) ^ 2 * (c * S) + 8 * (c * S) + k * (2 * T) + T ∧ |r + y| ≤ (k + 3) * S + 130 * T := by
  have h1 : |r + y - (R + Y)| ≤ (k + 8) ^ 2 * (c * S) + 8 * (c * S) + k * (2 * T) + T := by
    rw [show r + y - (R + Y) = (r - R) + (y - Y) by ring]
    refine le_trans (abs_add_le _ _) ?_
    linarith
  refine ⟨h1, ?_⟩
  have h2 := abs_sub_abs_le_abs_sub (r + y) (R + Y)
  have h3 := abs_add_le R Y
  have h4 : (k + 8) ^ 2 * (c * S) ≤ 72 ^ 2 * (c * S) := by
    refine mul_le_mul_of_nonneg_right ?_ (by rw [hc]; positivity)
    exact pow_le_pow_left₀ (by linarith) (by linarith) 2
  have h5 : k * (2 * T) ≤ 64 * (2 * T) := mul_le_mul_of_nonneg_right k1 (by linarith)
  have h6 : (72 ^ 2 + 8) * (c * S) ≤ S := by
    rw [hc]
    linarith
  linarith

theorem fold_err {m : Mapping ℚ} {data : Nat → ℚ} {S : ℚ} (S0 : 0 ≤ S) (S1 : S ≤ 2 ^ 100) (good : ∀ j < m.inputs, (m.pts j).n ≠ 0 →
      2 ≤ (m.pts j).n ∧ Points.Modest (m.pts j) ∧ Modest (data j) ∧ weightAt (m.pts j) (data j) ≤ S) :
    ∀ (l : List Nat) (k : Nat) (r R : ℚ), (∀ j ∈ l, j < m.inputs) → k + l.length ≤ 64 → F32 r → |R| ≤ (k + 1) * S →
      |r - R| ≤ (k + 8) ^ 2 * (1 / 2 ^ 24 * S) + k * (2 * (1 / 2 ^ 100)) →
      ∃ y, l.foldl (fun result j => if (m.pts j).n ≠ 0 then result.add (evaluate (m.pts j) (data j)) else result) (Val.fin r) = .fin y ∧
        |y - l.foldl (fun result j => if (m.pts j).n ≠ 0 then result + Map.evaluate (m.pts j) (data j) else result) R| ≤
          ((k + l.length : Nat) + 8) ^ 2 * (1 / 2 ^ 24 * S) + (k + l.length : Nat) * (2 * (1 / 2 ^ 100)) := by
  intro l
  induction l with
  | nil =>
    intro k r R _ _ _ _ h
    exact ⟨r, rfl, h⟩
  | cons j l ih =>
    intro k r R hl hk hr hR h
    have hk' : k + 1 + l.length ≤ 64 := by rw [List.length_cons] at hk; omega
    have hkq : (k : ℚ) ≤ 64 := by exact_mod_cast (by omega : k ≤ 64)
    have k0 : (0 : ℚ) ≤ k := Nat.cast_nonneg k
    have e : k + (j :: l).length = k + 1 + l.length := by rw [List.length_cons]; omega
    rw [List.foldl_cons, List.foldl_cons, e]
    have cS : (0 : ℚ) ≤ 1 / 2 ^ 24 * S := mul_nonneg (by norm_num) S0
    by_cases hj : (m.pts j).n ≠ 0
    · rw [if_pos hj, if_pos hj]
      obtain ⟨g1, g2, g3, g4⟩ := good j (hl j (by simp)) hj
      obtain ⟨y, e1, e2, e3⟩ := evaluate_err g1 g2 g3
      have hY := le_trans (abs_evaluate_le (m.pts j) (data j)) g4
      generalize Map.evaluate (m.pts j) (data j) = Y at *
      have hy : |y - Y| ≤ S * (8 * (1 / 2 ^ 24)) + 1 / 2 ^ 100 := by
        refine le_trans e3 ?_
        have : weightAt (m.pts j) (data j) / 2 ^ 21 ≤ S / 2 ^ 21 := div_le_div_of_nonneg_right g4 (by norm_num)
        have q : S * (8 * (1 / 2 ^ 24)) = S / 2 ^ 21 := by ring
        linarith
      obtain ⟨s1, s2⟩ := add_err rfl k0 hkq S0 (by norm_num : (0 : ℚ) ≤ 1 / 2 ^ 100) hR h hY hy
      have hS : (k + 3) * S ≤ 67 * 2 ^ 100 := mul_le_mul (by linarith) S1 S0 (by norm_num)
      rw [e1]
      have e4 : (Val.fin r).add (.fin y) = .fin (rnd (r + y)) :=
        ofExact_small (le_trans s2 (by norm_num at hS ⊢; linarith))
      rw [e4]
      have rS : |rnd (r + y) - (r + y)| ≤ |r + y| * (1 / 2 ^ 24) := by
        have := rnd_sub_err' hr e2.neg
        rwa [sub_neg_eq_add] at this
      refine ih (k + 1) _ _ (fun i hi => hl i (by simp [hi])) hk' (isFloat_round 24 (-149) _) ?_ ?_
      · push_cast
        have := abs_add_le R Y
        linarith
      · have t := abs_sub_le (rnd (r + y)) (r + y) (R + Y)
        have q : |r + y| * (1 / 2 ^ 24) ≤ ((k + 3) * S + 130 * (1 / 2 ^ 100)) * (1 / 2 ^ 24) :=
          mul_le_mul_of_nonneg_right s2 (by norm_num)
        push_cast
        have q2 : ((k + 3) * S + 130 * (1 / 2 ^ 100)) * (1 / 2 ^ 24) =
            (k + 3) * (1 / 2 ^ 24 * S) + 130 * (1 / 2 ^ 100) * (1 / 2 ^ 24) := by ring
        rw [q2] at q
        generalize (1 : ℚ) / 2 ^ 24 * S = z at *
        have q3 : (0 : ℚ) ≤ k * z := mul_nonneg k0 cS
        have q4 : ((k : ℚ) + 1 + 8) ^ 2 * z = (k + 8) ^ 2 * z + 2 * (k * z) + 17 * z := by ring
        rw [q4]
        have q5 : (130 : ℚ) * (1 / 2 ^ 100) * (1 / 2 ^ 24) ≤ 1 / 2 ^ 100 := by norm_num
        linarith
    · rw [if_neg hj, if_neg hj]
      refine ih (k + 1) r R (fun i hi => hl i (by simp [hi])) hk' hr ?_ ?_
      · push_cast
        linarith
      · push_cast
        refine le_trans h ?_
        have q3 : (0 : ℚ) ≤ k * (1 / 2 ^ 24 * S) := mul_nonneg k0 cS
        have q4 : ((k : ℚ) + 1 + 8) ^ 2 * (1 / 2 ^ 24 * S) =
            (k + 8) ^ 2 * (1 / 2 ^ 24 * S) + 2 * (k * (1 / 2 ^ 24 * S)) + 17 * (1 / 2 ^ 24 * S) := by ring
        rw [q4]
        have q5 : (0 : ℚ) ≤ 1 / 2 ^ 100 := by norm_num
        linarith

/-- **C89, all curves of a setting**. A mapping with up to 64 inputs, after any history of changes: if the base value and, at
the values of the inputs, all the curves weigh at most `S`, then the result is finite and within `(inputs + 8)^2 / 2^24 * S`
of the exact value (for the 18 inputs of a brush, 676 / 2^24). -/
theorem value_accurate {mem : Nat → Points ℚ} {inputs : Nat} {es : List (Edit ℚ)} {m : Mapping ℚ}
    (h : run (new mem inputs) es = .ok m) (hi : inputs ≤ 64) {data : Nat → ℚ} {S : ℚ} (hS : S ≤ 2 ^ 100) (hb : F32 m.base)
    (hbS : |m.base| ≤ S) (good : ∀ j < inputs, (m.pts j).n ≠ 0 →
      Points.Modest (m.pts j) ∧ Modest (data j) ∧ weightAt (m.pts j) (data j) ≤ S) :
    ∃ y, calculate m data = .fin y ∧
      |y - Map.calculate m data| ≤ (inputs + 8) ^ 2 / 2 ^ 24 * S + inputs / 2 ^ 99 := by
  have S0 : 0 ≤ S := le_trans (abs_nonneg _) hbS
  obtain ⟨-, hin⟩ := run_inv es (new_inv mem inputs) h
  have hin : m.inputs = inputs := hin
  unfold calculate Map.calculate
  split_ifs with hu
  · refine ⟨_, rfl, ?_⟩
    rw [sub_self, abs_zero]
    positivity
  · obtain ⟨y, e1, e2⟩ := fold_err (m := m) (data := data) S0 hS (fun j hj hn => by
      rw [hin] at hj
      obtain ⟨g1, g2, g3⟩ := good j hj hn
      exact ⟨((point_count mem inputs es m h j hj).resolve_left hn).1, g1, g2, g3⟩) (List.range m.inputs) 0 m.base m.base
      (fun j hj => List.mem_range.mp hj) (by rw [List.length_range, hin]; omega) hb (by push_cast; linarith)
      (by rw [sub_self, abs_zero]; positivity)
    refine ⟨y, e1, le_trans e2 ?_⟩
    rw [List.length_range, hin, Nat.zero_add]
    have : ((inputs : ℚ) + 8) ^ 2 * (1 / 2 ^ 24 * S) + inputs * (2 * (1 / 2 ^ 100)) =
      (inputs + 8) ^ 2 / 2 ^ 24 * S + inputs / 2 ^ 99 := by ring
    rw [this]

/-! ### What is lost -/

/-- The curve through `(0, 0.85)` and `(0.7, 0.22)`, the nearest floats of these. -/
def falling : Points ℚ :=
  ⟨fun i => if i = 0 then 0 else 11744051 / 16777216, fun i => if i = 0 then 7130317 / 8388608 else 7381975 / 33554432, 2⟩

/-- The curve through `(0, 0.49)` and `(0.5, 0.65)`. -/
def rising : Points ℚ :=
  ⟨fun i => if i = 0 then 0 else 1 / 2, fun i => if i = 0 then 2055209 / 4194304 else 5452595 / 8388608, 2⟩

/-- **C89** A control point is not always met, and the value can be outside the range of the control points: at the first
point of `falling` the curve is one unit in the last place too high. -/
theorem control_point_missed :
    falling.xs 0 = 0 ∧ evaluate falling 0 = .fin (14260635 / 16777216) ∧ falling.ys 0 < 14260635 / 16777216 ∧ falling.ys 1 < falling.ys 0 := by
  refine ⟨rfl, by decide +kernel, ?_, ?_⟩ <;> norm_num [falling]

/-- **C89** A rising curve can fall: the next larger input gives a smaller value. -/
theorem rising_curve_falls :
    rising.ys 0 < rising.ys 1 ∧
    evaluate rising (14184549 / 33554432) = .fin (2622591 / 4194304) ∧
    evaluate rising (7092275 / 16777216) = .fin (10490363 / 16777216) ∧
    (14184549 / 33554432 : ℚ) < 7092275 / 16777216 ∧ (10490363 / 16777216 : ℚ) < 2622591 / 4194304 := by
  refine ⟨?_, by decide +kernel, by decide +kernel, ?_, ?_⟩ <;> norm_num [rising]

/-- **C89** Two points 2^-149 apart, with the values 1/4 and 1/8: between them, at both of them, the curve is 0. -/
theorem close_points_lose_everything :
    segment 0 (1 / 4) (1 / 2 ^ 149) (1 / 8) 0 = .fin 0 ∧ segment 0 (1 / 4) (1 / 2 ^ 149) (1 / 8) (1 / 2 ^ 149) = .fin 0 := by
  constructor <;> decide +kernel

/-- **C89** Very large points: infinite between two finite ends, or no number at all. -/
theorem large_points_overflow :
    segment 0 (2 ^ 100) (2 ^ 100) (2 ^ 99) (2 ^ 98) = .inf ∧
    segment 0 (2 ^ 100) (2 ^ 100) (-2 ^ 100) (2 ^ 99) = .nan := by
  constructor <;> decide +kernel

/-- The bound is not empty: the two curves are modest. -/
theorem modest_ratio {n : ℤ} {k : ℕ} (hn : |n| ≤ 2 ^ 24) (hk : k ≤ 149) : Modest ((n : ℚ) / 2 ^ k) := by
  refine ⟨⟨n, -(k : ℤ), by omega, hn, by rw [zpow_neg, zpow_natCast, div_eq_mul_inv]⟩, ?_⟩
  rw [abs_div, div_le_iff₀ (by positivity), abs_of_pos (by positivity : (0 : ℚ) < 2 ^ k)]
  have h1 : |(n : ℚ)| ≤ 2 ^ 24 := by exact_mod_cast hn
  have h2 : (1 : ℚ) ≤ 2 ^ k := one_le_pow₀ (by norm_num)
  linarith [mul_le_mul_of_nonneg_left h2 (by norm_num : (0 : ℚ) ≤ 2 ^ 40)]

theorem falling_modest : Points.Modest falling := by
  have hx : Modest (11744051 / 16777216) := by
    have := modest_ratio (n := 11744051) (k := 24) (by decide) (by decide)
    norm_num at this ⊢
    exact this
  have h0 : Modest 0 := by
    have := modest_ratio (n := 0) (k := 0) (by decide) (by decide)
    norm_num at this
    exact this
  have hy : Modest (7130317 / 8388608) := by
    have := modest_ratio (n := 7130317) (k := 23) (by decide) (by decide)
    norm_num at this ⊢
    exact this
  have hz : Modest (7381975 / 33554432) := by
    have := modest_ratio (n := 7381975) (k := 25) (by decide) (by decide)
    norm_num at this ⊢
    exact this
  refine ⟨fun i _ => ?_, fun i _ => ?_, fun i hi => ?_⟩
  · show Modest (if i = 0 then 0 else _)
    split_ifs <;> assumption
  · show Modest (if i = 0 then _ else _)
    split_ifs <;> assumption
  · have : i = 0 := by
      have : i + 1 < 2 := hi
      omega
    subst this
    right
    norm_num [falling]

theorem falling_sorted : falling.Sorted := by
  intro i j hij hj
  show (if i = 0 then (0 : ℚ) else _) ≤ if j = 0 then 0 else _
  split_ifs <;> first | omega | norm_num

example : ∃ y, evaluate falling (1 / 2) = .fin y ∧ |y - 2 / 5| ≤ 1 / 10 ^ 6 := by
  have hx : Modest (1 / 2) := by
    have := modest_ratio (n := 1) (k := 1) (by decide) (by decide)
    norm_num at this ⊢
    exact this
  obtain ⟨y, e, h⟩ := curve_accurate (p := falling) (le_refl _) falling_sorted falling_modest (k := 0) (by decide) hx
    (by norm_num [falling]) (by norm_num [falling])
  refine ⟨y, e, ?_⟩
  have l : |line (falling.xs 0) (falling.ys 0) (falling.xs (0 + 1)) (falling.ys (0 + 1)) (1 / 2) - 2 / 5| ≤ 1 / 10 ^ 7 := by
    rw [abs_le]
    constructor <;> norm_num [falling, line]
  have m : max |falling.ys 0| |falling.ys (0 + 1)| / 2 ^ 21 + 1 / 2 ^ 100 ≤ 5 / 10 ^ 7 := by
    norm_num [falling]
  have := abs_sub_le y (line (falling.xs 0) (falling.ys 0) (falling.xs (0 + 1)) (falling.ys (0 + 1)) (1 / 2)) (2 / 5)
  linarith

/-- A setting with the base value 1/4 and this curve on its only input, at the input 1/2. -/
example : ∃ m y, run (new (fun _ => falling) 1) [.setN 0 2, .setPoint 0 0 (falling.xs 0) (falling.ys 0),
      .setPoint 0 1 (falling.xs 1) (falling.ys 1), .base (1 / 4)] = .ok m ∧
    calculate m (fun _ => 1 / 2) = .fin y ∧ |y - Map.calculate m fun _ => 1 / 2| ≤ 1 / 10 ^ 5 := by
  have hx : Modest (1 / 2) := by
    have := modest_ratio (n := 1) (k := 1) (by decide) (by decide)
    norm_num at this ⊢
    exact this
  have hb : Modest (1 / 4) := by
    have := modest_ratio (n := 1) (k := 2) (by decide) (by decide)
    norm_num at this ⊢
    exact this
  refine ⟨{ base := 1 / 4, inputs := 1, pts := fun i => if i = 0 then falling else { falling with n := 0 }, used := 1 }, ?_⟩
  have hr : run (new (fun _ => falling) 1) [.setN 0 2, .setPoint 0 0 (falling.xs 0) (falling.ys 0),
      .setPoint 0 1 (falling.xs 1) (falling.ys 1), .base (1 / 4)] =
      .ok { base := 1 / 4, inputs := 1, pts := fun i => if i = 0 then falling else { falling with n := 0 }, used := 1 } := by
    have h0 : (fun i => if i = 1 then falling.xs 1 else if i = 0 then falling.xs 0 else falling.xs i) = falling.xs := by
      funext i; split_ifs <;> simp only [*]
    have h1 : (fun i => if i = 1 then falling.ys 1 else if i = 0 then falling.ys 0 else falling.ys i) = falling.ys := by
      funext i; split_ifs <;> simp only [*]
    have h2 : falling.xs 0 ≤ falling.xs 1 := by norm_num [falling]
    have h3 : ({ xs := falling.xs, ys := falling.ys, n := 2 } : Points ℚ) = falling := rfl
    simp [run, edit, setN, setPoint, setBase, update, new, bind, Except.bind, h0, h1, h2]
    funext i
    by_cases hi : i = 0
    · simp only [hi, if_pos]; rw [h3]
    · simp only [if_neg hi]
  obtain ⟨y, e, h⟩ := value_accurate hr (data := fun _ => 1 / 2) (S := 1) (by norm_num) (by norm_num) hb.float
    (by norm_num) (fun j hj _ => by
      obtain rfl : j = 0 := by omega
      refine ⟨falling_modest, hx, ?_⟩
      have := weight_between (x0 := falling.xs 0) (y0 := falling.ys 0) (x1 := falling.xs 1) (y1 := falling.ys 1) (x := 1 / 2)
        (by norm_num [falling]) (by norm_num [falling])
      refine le_trans this ?_
      norm_num [falling])
  refine ⟨y, hr, e, le_trans h ?_⟩
  norm_num

end Verif.FloatMap
