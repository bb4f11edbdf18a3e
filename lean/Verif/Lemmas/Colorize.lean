import Verif.Lemmas.Blend
import Mathlib.Algebra.Order.Ring.Int

namespace Verif.Blend

theorem rne24Nat_err (n : Nat) :
    n ≤ rne24Nat n + n / 16777216 ∧ rne24Nat n ≤ n + n / 16777216 := by
  unfold rne24Nat
  split
  · omega
  · rename_i h
    have hn : n ≠ 0 := by omega
    have hl : 24 ≤ n.log2 := by rw [Nat.le_log2 hn]; omega
    obtain ⟨k, hk⟩ : ∃ k, n.log2 = k + 24 := ⟨n.log2 - 24, by omega⟩
    have he : n.log2 - 23 = k + 1 := by omega
    have hpow : 2 ^ n.log2 ≤ n := Nat.log2_self_le hn
    rw [hk, pow_add] at hpow
    simp only [he]
    have h2 : 2 ^ (k + 1) / 2 = 2 ^ k := by rw [pow_succ]; omega
    rw [h2]
    have hb : 2 ^ k ≤ n / 16777216 := by
      rw [Nat.le_div_iff_mul_le (by norm_num)]; norm_num at hpow; omega
    have hdm := Nat.div_add_mod n (2 ^ (k + 1))
    have hml : n % 2 ^ (k + 1) < 2 ^ (k + 1) := Nat.mod_lt _ (by positivity)
    have hp : 2 ^ (k + 1) = 2 * 2 ^ k := by rw [pow_succ]; omega
    rw [mul_comm (2 ^ (k + 1))] at hdm
    split
    · rename_i hc
      have e : (n / 2 ^ (k + 1) + 1) * 2 ^ (k + 1) = n / 2 ^ (k + 1) * 2 ^ (k + 1) + 2 ^ (k + 1) := by
        ring
      rw [e]
      omega
    · rename_i hc
      omega

theorem rne24_err {z M : Int} (h : |z| ≤ 16777216 * M) : |rne24 z - z| ≤ M := by
  have hz := rne24Nat_err z.natAbs
  rw [abs_le] at h ⊢
  have hn : (z.natAbs : Int) ≤ 16777216 * M := by omega
  have hd : ((z.natAbs / 16777216 : Nat) : Int) ≤ M := by omega
  unfold rne24
  split <;> omega

theorem rne24_nonneg {z : Int} (h : 0 ≤ z) : 0 ≤ rne24 z := by
  unfold rne24; split <;> omega

/-- The exact value of the luma sum. -/
def lumaExact (r g b : Int) : Int := r * lumaRed + g * lumaGreen + b * lumaBlue

theorem luma_err {r g b : Int} (hr : |r| ≤ 65536) (hg : |g| ≤ 65536) (hb : |b| ≤ 65536) :
    |luma r g b - lumaExact r g b| ≤ 2621450 := by
  unfold luma lumaExact lumaRed lumaGreen lumaBlue
  rw [abs_le] at hr hg hb
  have h1 : |rne24 (r * 28534688) - r * 28534688| ≤ 111464 := by
    apply rne24_err; rw [abs_le]; omega
  have h2 : |rne24 (g * 95992520) - g * 95992520| ≤ 374972 := by
    apply rne24_err; rw [abs_le]; omega
  have h3 : |rne24 (b * 9690520) - b * 9690520| ≤ 37854 := by
    apply rne24_err; rw [abs_le]; omega
  rw [abs_le] at h1 h2 h3
  have h4 : |rne24 (rne24 (r * 28534688) + rne24 (g * 95992520)) -
      (rne24 (r * 28534688) + rne24 (g * 95992520))| ≤ 524288 := by
    apply rne24_err; rw [abs_le]; omega
  rw [abs_le] at h4
  have h5 : |rne24 (rne24 (rne24 (r * 28534688) + rne24 (g * 95992520)) + rne24 (b * 9690520)) -
      (rne24 (rne24 (r * 28534688) + rne24 (g * 95992520)) + rne24 (b * 9690520))| ≤ 524289 := by
    apply rne24_err; rw [abs_le]; omega
  rw [abs_le] at h5 ⊢
  omega

theorem luma_nonneg {r g b : Int} (hr : 0 ≤ r) (hg : 0 ≤ g) (hb : 0 ≤ b) : 0 ≤ luma r g b := by
  unfold luma lumaRed lumaGreen lumaBlue
  apply rne24_nonneg
  apply add_nonneg
  · apply rne24_nonneg
    apply add_nonneg <;> apply rne24_nonneg <;> omega
  · apply rne24_nonneg; omega

theorem tdiv_bounds {a d lo hi : Int} (hd : 0 < d) (hlo : lo ≤ 0) (hhi : 0 ≤ hi)
    (h1 : lo * d ≤ a) (h2 : a ≤ hi * d) : lo ≤ a.tdiv d ∧ a.tdiv d ≤ hi := by
  rcases le_or_gt 0 a with ha | ha
  · rw [Int.tdiv_eq_ediv_of_nonneg ha]
    refine ⟨hlo.trans (Int.ediv_nonneg ha hd.le), ?_⟩
    exact Int.ediv_le_of_le_mul hd h2
  · have e : a.tdiv d = -((-a) / d) := by
      rw [← Int.tdiv_eq_ediv_of_nonneg (by omega : 0 ≤ -a), Int.neg_tdiv, neg_neg]
    rw [e]
    have h3 : 0 ≤ (-a) / d := Int.ediv_nonneg (by omega) hd.le
    refine ⟨?_, by omega⟩
    have : (-a) / d ≤ -lo := Int.ediv_le_of_le_mul hd (by rw [neg_mul]; omega)
    omega

theorem clipChan_ok {c lum k d lo hi : Int} (hd : 0 < d) (hlo : lo ≤ 0) (hhi : 0 ≤ hi)
    (h1 : lo * d ≤ (c - lum) * k) (h2 : (c - lum) * k ≤ hi * d)
    (h3 : intMin ≤ (c - lum) * k ∧ (c - lum) * k ≤ intMax)
    (h4 : intMin ≤ lum + lo) (h5 : lum + hi ≤ intMax) :
    ∃ v, clipChan c lum k d = .ok v ∧ lum + lo ≤ v ∧ v ≤ lum + hi := by
  obtain ⟨a, b⟩ := tdiv_bounds hd hlo hhi h1 h2
  refine ⟨lum + ((c - lum) * k).tdiv d, ?_, by omega, by omega⟩
  unfold clipChan chk
  rw [if_pos h3]
  simp only [bind, Except.bind]
  rw [if_neg (by omega), if_pos ⟨by omega, by omega⟩]

theorem tdiv_range {a d hi : Int} (hd : 0 < d) (hhi : 0 ≤ hi) (h1 : -d < a) (h2 : a < (hi + 1) * d) :
    0 ≤ a.tdiv d ∧ a.tdiv d ≤ hi := by
  rcases le_or_gt 0 a with ha | ha
  · rw [Int.tdiv_eq_ediv_of_nonneg ha]
    refine ⟨Int.ediv_nonneg ha hd.le, ?_⟩
    have := Int.ediv_lt_of_lt_mul hd h2
    omega
  · have e : a.tdiv d = -((-a) / d) := by
      rw [← Int.tdiv_eq_ediv_of_nonneg (by omega : 0 ≤ -a), Int.neg_tdiv, neg_neg]
    have : (-a) / d = 0 := Int.ediv_eq_zero_of_lt (by omega) (by omega)
    rw [e, this]
    omega

theorem lumaInt_le {r g b : Int} (hr : 0 ≤ r ∧ r ≤ 32768) (hg : 0 ≤ g ∧ g ≤ 32768)
    (hb : 0 ≤ b ∧ b ≤ 32768) :
    0 ≤ lumaInt r g b ∧ lumaInt r g b ≤ 32768 ∧
    (¬ (r = 32768 ∧ g = 32768 ∧ b = 32768) → lumaInt r g b ≤ 32767) ∧
    lumaInt r g b * 134217728 ≤ luma r g b ∧ luma r g b < (lumaInt r g b + 1) * 134217728 := by
  have e := luma_err (r := r) (g := g) (b := b) (by rw [abs_le]; omega) (by rw [abs_le]; omega)
    (by rw [abs_le]; omega)
  have n := luma_nonneg hr.1 hg.1 hb.1
  rw [abs_le] at e
  unfold lumaInt
  rw [Int.tdiv_eq_ediv_of_nonneg n]
  generalize luma r g b = L at *
  unfold lumaExact lumaRed lumaGreen lumaBlue at e
  refine ⟨by omega, by omega, fun h => by omega, by omega, by omega⟩

theorem lumaInt_shift {tr tg tb botlum toplum diff : Int} (hr : 0 ≤ tr ∧ tr ≤ 32768)
    (hg : 0 ≤ tg ∧ tg ≤ 32768) (hb : 0 ≤ tb ∧ tb ≤ 32768) (bl : 0 ≤ botlum ∧ botlum ≤ 32767)
    (tl : 0 ≤ toplum ∧ toplum ≤ 32768) (hd : botlum - toplum = diff)
    (h1 : toplum * 134217728 ≤ luma tr tg tb) (h2 : luma tr tg tb < (toplum + 1) * 134217728) :
    0 ≤ lumaInt (tr + diff) (tg + diff) (tb + diff) ∧
      lumaInt (tr + diff) (tg + diff) (tb + diff) ≤ 32768 := by
  have et := luma_err (r := tr) (g := tg) (b := tb) (by rw [abs_le]; omega) (by rw [abs_le]; omega)
    (by rw [abs_le]; omega)
  have el := luma_err (r := tr + diff) (g := tg + diff) (b := tb + diff) (by rw [abs_le]; omega)
    (by rw [abs_le]; omega) (by rw [abs_le]; omega)
  rw [abs_le] at et el
  unfold lumaInt
  have ex : lumaExact (tr + diff) (tg + diff) (tb + diff) = lumaExact tr tg tb + diff * 134217728 := by
    unfold lumaExact lumaRed lumaGreen lumaBlue; ring
  rw [ex] at el
  generalize luma (tr + diff) (tg + diff) (tb + diff) = L at *
  generalize luma tr tg tb = T at *
  generalize lumaExact tr tg tb = E at *
  apply tdiv_range (by norm_num) (by norm_num)
  · omega
  · omega

theorem clip_low {x lum cmin : Int} (hl : 0 ≤ lum ∧ lum ≤ 32768) (hneg : cmin < 0)
    (a1 : cmin ≤ x) (a2 : x - cmin ≤ 32768) (a3 : -32768 ≤ cmin) :
    ∃ v, clipChan x lum lum (lum - cmin) = .ok v ∧ 0 ≤ v ∧ v ≤ 32768 := by
  obtain ⟨D, hD⟩ : ∃ D, lum - cmin = D := ⟨_, rfl⟩
  rw [hD]
  have p1 : -lum * D ≤ (x - lum) * lum := by
    have e : (x - lum) * lum - -lum * D = (x - cmin) * lum := by rw [← hD]; ring
    have := mul_nonneg (by omega : 0 ≤ x - cmin) hl.1
    omega
  have p2 : (x - lum) * lum ≤ (32768 - lum) * D := by
    have h1 : (x - lum) * lum ≤ (32768 - D) * lum :=
      mul_le_mul_of_nonneg_right (by omega) hl.1
    have h2 : (32768 - lum) * D - (32768 - D) * lum = 32768 * (D - lum) := by ring
    have h3 : 0 ≤ D - lum := by omega
    omega
  have q1 : intMin ≤ (x - lum) * lum := by
    have h1 := mul_le_mul_of_nonneg_right (by omega : (-65536 : Int) ≤ x - lum) hl.1
    unfold intMin; omega
  have q2 : (x - lum) * lum ≤ intMax := by
    have h1 := mul_le_mul_of_nonneg_right (by omega : x - lum ≤ 32768) hl.1
    unfold intMax; omega
  obtain ⟨v, hv, b1, b2⟩ := clipChan_ok (c := x) (lum := lum) (k := lum) (d := D) (lo := -lum)
    (hi := 32768 - lum) (by omega) (by omega) (by omega) p1 p2
    ⟨q1, q2⟩ (by unfold intMin; omega) (by unfold intMax; omega)
  exact ⟨v, hv, by omega, by omega⟩

theorem clip_high {x lum cmax : Int} (hl : 0 ≤ lum ∧ lum ≤ 32768) (hbig : 32768 < cmax)
    (a1 : x ≤ cmax) (a2 : cmax - x ≤ 32768) (a3 : cmax ≤ 65535) :
    ∃ v, clipChan x lum (32768 - lum) (cmax - lum) = .ok v ∧ 0 ≤ v ∧ v ≤ 32768 := by
  obtain ⟨D, hD⟩ : ∃ D, cmax - lum = D := ⟨_, rfl⟩
  obtain ⟨H, hH⟩ : ∃ H, 32768 - lum = H := ⟨_, rfl⟩
  rw [hD, hH]
  have hH0 : 0 ≤ H := by omega
  have p1 : -lum * D ≤ (x - lum) * H := by
    have h1 : (D - 32768) * H ≤ (x - lum) * H := mul_le_mul_of_nonneg_right (by omega) hH0
    have h2 : (D - 32768) * H - -lum * D = 32768 * (D - H) := by
      have : lum = 32768 - H := by omega
      rw [this]; ring
    have h3 : 0 ≤ D - H := by omega
    omega
  have p2 : (x - lum) * H ≤ H * D := by
    rw [mul_comm H D]
    exact mul_le_mul_of_nonneg_right (by omega) hH0
  have q1 : intMin ≤ (x - lum) * H := by
    have h1 := mul_le_mul_of_nonneg_right (by omega : (-65536 : Int) ≤ x - lum) hH0
    unfold intMin; omega
  have q2 : (x - lum) * H ≤ intMax := by
    have h1 := mul_le_mul_of_nonneg_right (by omega : x - lum ≤ 65535) hH0
    unfold intMax; omega
  obtain ⟨v, hv, b1, b2⟩ := clipChan_ok (c := x) (lum := lum) (k := H) (d := D) (lo := -lum)
    (hi := H) (by omega) (by omega) (by omega) p1 p2
    ⟨q1, q2⟩ (by unfold intMin; omega) (by unfold intMax; omega)
  exact ⟨v, hv, by omega, by omega⟩

/-- The core of colorizing: with the bottom luma below full scale everything is defined and the
result is in range. -/
theorem setLum_ok (c : Color) (hr : c.r ≤ 32768) (hg : c.g ≤ 32768) (hb : c.b ≤ 32768)
    (br bg bb : Nat) (h1 : br ≤ 32768) (h2 : bg ≤ 32768) (h3 : bb ≤ 32768)
    (hw : ¬ (br = 32768 ∧ bg = 32768 ∧ bb = 32768)) :
    ∃ r g b : Int, setLum c br bg bb = .ok (r, g, b) ∧
      0 ≤ r ∧ r ≤ 32768 ∧ 0 ≤ g ∧ g ≤ 32768 ∧ 0 ≤ b ∧ b ≤ 32768 := by
  unfold setLum
  simp only
  obtain ⟨bl0, _, bl1, _, _⟩ := lumaInt_le (r := br) (g := bg) (b := bb) (by omega) (by omega) (by omega)
  have bl1 := bl1 (by omega)
  obtain ⟨tl0, tl1, _, tl2, tl3⟩ := lumaInt_le (r := c.r) (g := c.g) (b := c.b) (by omega) (by omega)
    (by omega)
  generalize lumaInt br bg bb = botlum at *
  generalize lumaInt c.r c.g c.b = toplum at *
  have hdiff : i16 (botlum - toplum) = botlum - toplum := by unfold i16; omega
  rw [hdiff]
  obtain ⟨diff, hd⟩ : ∃ d, botlum - toplum = d := ⟨_, rfl⟩
  rw [hd]
  have hl := lumaInt_shift (tr := c.r) (tg := c.g) (tb := c.b) (by omega) (by omega) (by omega)
    ⟨bl0, bl1⟩ ⟨tl0, tl1⟩ hd tl2 tl3
  clear tl2 tl3 hdiff
  obtain ⟨r, er⟩ : ∃ r : Int, (c.r : Int) + diff = r := ⟨_, rfl⟩
  obtain ⟨g, eg⟩ : ∃ r : Int, (c.g : Int) + diff = r := ⟨_, rfl⟩
  obtain ⟨b, ebl⟩ : ∃ r : Int, (c.b : Int) + diff = r := ⟨_, rfl⟩
  rw [er, eg, ebl] at hl ⊢
  generalize lumaInt r g b = lum at *
  obtain ⟨cmin, hcmin⟩ : ∃ x, min (min r g) b = x := ⟨_, rfl⟩
  obtain ⟨cmax, hcmax⟩ : ∃ x, max (max r g) b = x := ⟨_, rfl⟩
  rw [hcmin, hcmax]
  have sr : cmin ≤ r ∧ r ≤ cmax := by omega
  have sg : cmin ≤ g ∧ g ≤ cmax := by omega
  have sb : cmin ≤ b ∧ b ≤ cmax := by omega
  have s1 : cmax - cmin ≤ 32768 := by omega
  have s2 : -32768 ≤ cmin := by omega
  have s3 : cmax ≤ 65535 := by omega
  clear hcmin hcmax er eg ebl hd
  by_cases hneg : cmin < 0
  · have hnb : ¬ (32768 < cmax) := by omega
    obtain ⟨v1, e1, x1, y1⟩ := clip_low (x := r) hl hneg sr.1 (by omega) s2
    obtain ⟨v2, e2, x2, y2⟩ := clip_low (x := g) hl hneg sg.1 (by omega) s2
    obtain ⟨v3, e3, x3, y3⟩ := clip_low (x := b) hl hneg sb.1 (by omega) s2
    refine ⟨v1, v2, v3, ?_, x1, y1, x2, y2, x3, y3⟩
    simp only [hneg, if_true, e1, e2, e3, bind, Except.bind, pure, Except.pure, gt_iff_lt, hnb,
      if_false]
  · by_cases hbig : 32768 < cmax
    · obtain ⟨v1, e1, x1, y1⟩ := clip_high (x := r) hl hbig sr.2 (by omega) s3
      obtain ⟨v2, e2, x2, y2⟩ := clip_high (x := g) hl hbig sg.2 (by omega) s3
      obtain ⟨v3, e3, x3, y3⟩ := clip_high (x := b) hl hbig sb.2 (by omega) s3
      refine ⟨v1, v2, v3, ?_, x1, y1, x2, y2, x3, y3⟩
      simp only [hneg, if_true, e1, e2, e3, bind, Except.bind, pure, Except.pure, gt_iff_lt, hbig,
        if_false]
    · refine ⟨r, g, b, ?_, by omega, by omega, by omega, by omega, by omega, by omega⟩
      simp only [hneg, bind, Except.bind, pure, Except.pure, gt_iff_lt, hbig, if_false]

end Verif.Blend
