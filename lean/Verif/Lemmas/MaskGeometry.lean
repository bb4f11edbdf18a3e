import Verif.Lemmas.MaskLength
import Mathlib.Tactic.Ring
import Mathlib.Tactic.Linarith
import Mathlib.Tactic.FieldSimp
import Mathlib.Tactic.Positivity

namespace Verif.Mask

variable {K : Type} [Field K] [LinearOrder K] [IsStrictOrderedRing K]

/-- The parameters `render_dab_mask` is called with (after clamping; `draw_dab_internal` rejects
`radius < 0.1`, `hardness = 0`, `softness = 1`). -/
structure Shape.Valid (s : Shape K) : Prop where
  radius : 0 < s.radius
  hard0 : 0 < s.hardness
  hard1 : s.hardness ≤ 1
  soft0 : 0 ≤ s.softness
  soft1 : s.softness ≤ 1
  aspect : 1 ≤ s.aspect
  circle : s.sn * s.sn + s.cs * s.cs = 1
  /-- `sqrt(1/π) = 0.564…` -/
  rad1 : 1 / 2 < s.rad1

/-! ### Falloff -/

theorem opaOf_le_hard {h s rr : K} (h0 : 0 < h) (h1 : h ≤ 1) (hr : rr ≤ h) :
    opaOf h s rr = (1 - s) * (1 - rr * (1 - h) / h) := by
  unfold opaOf
  simp only [hr, if_true, not_lt.mpr (hr.trans h1), gt_iff_lt, if_false]
  field_simp
  ring

theorem opaOf_gt_hard {h s rr : K} (hr : h < rr) (hr1 : rr ≤ 1) :
    opaOf h s rr = (1 - s) * (h * (1 - rr) / (1 - h)) := by
  unfold opaOf
  have : h < 1 := lt_of_lt_of_le hr hr1
  have h2 : (1 : K) - h ≠ 0 := by intro hh; rw [sub_eq_zero] at hh; exact absurd hh this.ne'
  simp only [not_le.mpr hr, if_false, not_lt.mpr hr1, gt_iff_lt]
  field_simp
  ring

theorem opaOf_gt_one {h s rr : K} (hr : 1 < rr) : opaOf h s rr = 0 := by
  unfold opaOf; simp [hr]

theorem opaOf_bounds {h s rr : K} (h0 : 0 < h) (h1 : h ≤ 1) (s0 : 0 ≤ s) (s1 : s ≤ 1)
    (r0 : 0 ≤ rr) : 0 ≤ opaOf h s rr ∧ opaOf h s rr ≤ 1 - s := by
  have hs : 0 ≤ 1 - s := by linarith
  rcases lt_or_ge 1 rr with hr | hr
  · rw [opaOf_gt_one hr]; exact ⟨le_refl _, hs⟩
  · rcases le_or_gt rr h with hh | hh
    · rw [opaOf_le_hard h0 h1 hh]
      have a : 0 ≤ rr * (1 - h) / h := by
        apply div_nonneg _ h0.le; exact mul_nonneg r0 (by linarith)
      have b : rr * (1 - h) / h ≤ 1 := by
        rw [div_le_one h0]; nlinarith
      exact ⟨mul_nonneg hs (by linarith), by nlinarith⟩
    · rw [opaOf_gt_hard hh hr]
      have hl : 0 < 1 - h := by linarith
      have a : 0 ≤ h * (1 - rr) / (1 - h) := by
        apply div_nonneg _ hl.le; exact mul_nonneg h0.le (by linarith)
      have b : h * (1 - rr) / (1 - h) ≤ 1 := by
        rw [div_le_one hl]; nlinarith
      exact ⟨mul_nonneg hs a, by nlinarith⟩

theorem opaOf_antitone {h s r r' : K} (h0 : 0 < h) (h1 : h ≤ 1) (s0 : 0 ≤ s) (s1 : s ≤ 1)
    (r0 : 0 ≤ r) (hr : r ≤ r') : opaOf h s r' ≤ opaOf h s r := by
  have hs : 0 ≤ 1 - s := by linarith
  rcases lt_or_ge 1 r' with h' | h'
  · rw [opaOf_gt_one h']; exact (opaOf_bounds h0 h1 s0 s1 r0).1
  · rcases le_or_gt r' h with hh | hh
    · rw [opaOf_le_hard h0 h1 hh, opaOf_le_hard h0 h1 (hr.trans hh)]
      apply mul_le_mul_of_nonneg_left _ hs
      have : r * (1 - h) / h ≤ r' * (1 - h) / h := by
        apply div_le_div_of_nonneg_right _ h0.le
        apply mul_le_mul_of_nonneg_right hr; linarith
      linarith
    · have hl : 0 < 1 - h := by linarith
      rw [opaOf_gt_hard hh h']
      rcases le_or_gt r h with h2 | h2
      · rw [opaOf_le_hard h0 h1 h2]
        apply mul_le_mul_of_nonneg_left _ hs
        have a : h * (1 - r') / (1 - h) ≤ h := by
          rw [div_le_iff₀ hl]; nlinarith
        have b : r * (1 - h) / h ≤ 1 - h := by
          rw [div_le_iff₀ h0]; nlinarith
        linarith
      · rw [opaOf_gt_hard h2 (hr.trans h')]
        apply mul_le_mul_of_nonneg_left _ hs
        apply div_le_div_of_nonneg_right _ hl.le
        nlinarith

/-! ### Distance -/

theorem rSample_ge {px py aspect sn cs : K} (ha : 1 ≤ aspect) (hc : sn * sn + cs * cs = 1) :
    px * px + py * py ≤ rSample px py aspect sn cs := by
  have e : px * px + py * py = (py * cs - px * sn) ^ 2 + (py * sn + px * cs) ^ 2 := by
    have : px * px + py * py = (px * px + py * py) * (sn * sn + cs * cs) := by rw [hc, mul_one]
    rw [this]; ring
  rw [e]
  simp only [rSample]
  have : (py * cs - px * sn) ^ 2 ≤ (py * cs - px * sn) * aspect * ((py * cs - px * sn) * aspect) := by
    have h1 : 1 ≤ aspect * aspect := by nlinarith
    have h2 := sq_nonneg (py * cs - px * sn)
    nlinarith
  nlinarith

theorem rSample_nonneg (px py aspect sn cs : K) : 0 ≤ rSample px py aspect sn cs := by
  unfold rSample; exact add_nonneg (mul_self_nonneg _) (mul_self_nonneg _)

theorem rrPlain_eq (s : Shape K) (xp yp : Int) :
    rrPlain s xp yp = rSample ((xp : K) + 1 / 2 - s.x) ((yp : K) + 1 / 2 - s.y) s.aspect s.sn s.cs
      / (s.radius * s.radius) := by
  unfold rrPlain rSample; simp only; rw [mul_one_div]

theorem rrPlain_nonneg (s : Shape K) (xp yp : Int) : 0 ≤ rrPlain s xp yp := by
  rw [rrPlain_eq]; exact div_nonneg (rSample_nonneg ..) (mul_self_nonneg _)

theorem sq_convex {a b c l m : K} (hab : a ≤ b) (hbc : b ≤ c) (hac : a < c) :
    (l * b + m) ^ 2 * (c - a) ≤ (l * a + m) ^ 2 * (c - b) + (l * c + m) ^ 2 * (b - a) := by
  have h := mul_nonneg (mul_nonneg (sub_nonneg.mpr hab) (sub_nonneg.mpr hbc)) (sub_nonneg.mpr hac.le)
  have h2 := mul_nonneg (sq_nonneg l) h
  nlinarith

theorem rSample_convex {aspect sn cs y dx : K} {a b c : K} (hab : a ≤ b) (hbc : b ≤ c) :
    rSample (b + dx) y aspect sn cs ≤
      max (rSample (a + dx) y aspect sn cs) (rSample (c + dx) y aspect sn cs) := by
  rcases eq_or_lt_of_le (hab.trans hbc) with h | hac
  · have : b = a := le_antisymm (by rw [h]; exact hbc) hab
    rw [this]; exact le_max_left _ _
  · have e : ∀ t, rSample (t + dx) y aspect sn cs =
        ((-sn * aspect) * t + (y * cs - dx * sn) * aspect) ^ 2 + (cs * t + (y * sn + dx * cs)) ^ 2 := by
      intro t; unfold rSample; ring
    set M := max (rSample (a + dx) y aspect sn cs) (rSample (c + dx) y aspect sn cs) with hM
    have h1 : rSample (a + dx) y aspect sn cs ≤ M := le_max_left _ _
    have h2 : rSample (c + dx) y aspect sn cs ≤ M := le_max_right _ _
    have p1 := sq_convex (l := -sn * aspect) (m := (y * cs - dx * sn) * aspect) hab hbc hac
    have p2 := sq_convex (l := cs) (m := y * sn + dx * cs) hab hbc hac
    have key : rSample (b + dx) y aspect sn cs * (c - a) ≤ M * (c - a) := by
      have q1 := mul_le_mul_of_nonneg_right h1 (sub_nonneg.mpr hbc)
      have q2 := mul_le_mul_of_nonneg_right h2 (sub_nonneg.mpr hab)
      rw [e] at q1 q2 ⊢
      nlinarith
    exact le_of_mul_le_mul_right key (sub_pos.mpr hac)

theorem rrPlain_convex (s : Shape K) (yp : Int) {a b c : Int} (hab : a ≤ b) (hbc : b ≤ c) :
    rrPlain s b yp ≤ max (rrPlain s a yp) (rrPlain s c yp) := by
  have h := rSample_convex (aspect := s.aspect) (sn := s.sn) (cs := s.cs)
    (y := (yp : K) + 1 / 2 - s.y) (dx := 1 / 2 - s.x) (a := (a : K)) (b := (b : K)) (c := (c : K))
    (by exact_mod_cast hab) (by exact_mod_cast hbc)
  have e : ∀ t : Int, rrPlain s t yp = rSample ((t : K) + (1 / 2 - s.x)) ((yp : K) + 1 / 2 - s.y)
      s.aspect s.sn s.cs / (s.radius * s.radius) := by
    intro t; rw [rrPlain_eq, add_sub_assoc]
  rw [e, e, e]
  have hr : 0 ≤ s.radius * s.radius := mul_self_nonneg _
  rcases le_max_iff.mp h with h | h
  · exact le_max_of_le_left (div_le_div_of_nonneg_right h hr)
  · exact le_max_of_le_right (div_le_div_of_nonneg_right h hr)

variable [FloorRing K]

theorem opaU16_antitone {s : Shape K} (hv : s.Valid) {r r' : K} (r0 : 0 ≤ r) (hr : r ≤ r') :
    opaU16 s r' ≤ opaU16 s r := by
  unfold opaU16
  apply Int.toNat_le_toNat
  apply Int.floor_le_floor
  exact mul_le_mul_of_nonneg_right
    (opaOf_antitone hv.hard0 hv.hard1 hv.soft0 hv.soft1 r0 hr) (by norm_num)

theorem opaU16_le {s : Shape K} (hv : s.Valid) {r : K} (r0 : 0 ≤ r) : opaU16 s r ≤ 32768 := by
  unfold opaU16
  have h := opaOf_bounds hv.hard0 hv.hard1 hv.soft0 hv.soft1 r0
  have : ⌊opaOf s.hardness s.softness r * 32768⌋ ≤ 32768 := by
    rw [← Int.cast_le (R := K)]
    refine (Int.floor_le _).trans ?_
    push_cast
    have := hv.soft0
    nlinarith [h.2]
  omega

theorem opaU16_gt_one {s : Shape K} {r : K} (hr : 1 < r) : opaU16 s r = 0 := by
  unfold opaU16; rw [opaOf_gt_one hr]; simp

theorem le_one_of_opaU16_ne_zero {s : Shape K} {r : K} (h : opaU16 s r ≠ 0) : r ≤ 1 := by
  by_contra hr
  exact h (opaU16_gt_one (not_le.mp hr))

theorem plain_rowsConvex {s : Shape K} (hv : s.Valid) :
    Spec.RowsConvex (fun xp yp => opaU16 s (rrPlain s xp yp)) := by
  intro y a b c hab hbc ha hc
  have h := rrPlain_convex s y hab hbc
  rcases le_max_iff.mp h with h | h
  · have := opaU16_antitone hv (rrPlain_nonneg s b y) h
    simp only at ha ⊢; omega
  · have := opaU16_antitone hv (rrPlain_nonneg s b y) h
    simp only at hc ⊢; omega

/-! ### Outside the window nothing is visible -/

/-- Distance between the dab centre and the strip occupied by pixel column `p`. -/
theorem outside_strip {c f : K} {p : Int} (h : p < ⌊c - f⌋ ∨ ⌊c + f⌋ < p) :
    c - p - 1 ≥ f ∨ c - p ≤ -f := by
  rcases h with h | h
  · left
    have : (p : K) + 1 ≤ c - f := by
      have h1 : ((p + 1 : Int) : K) ≤ c - f := by
        refine le_trans ?_ (Int.floor_le (c - f)); exact_mod_cast h
      push_cast at h1; exact h1
    linarith
  · right
    have : c + f < (p : K) := by
      rw [← Int.floor_lt]; exact h
    linarith

theorem clampK_mem {v lo hi : K} (h : lo ≤ hi) : lo ≤ clampK v lo hi ∧ clampK v lo hi ≤ hi := by
  unfold clampK
  split
  · exact ⟨h, le_refl _⟩
  · split
    · exact ⟨le_refl _, h⟩
    · exact ⟨not_lt.mp ‹_›, not_lt.mp ‹_›⟩

theorem aaNearest_mem (s : Shape K) (xp yp : Int) :
    s.x - xp - 1 ≤ (aaNearest s xp yp).1 ∧ (aaNearest s xp yp).1 ≤ s.x - xp ∧
    s.y - yp - 1 ≤ (aaNearest s xp yp).2 ∧ (aaNearest s xp yp).2 ≤ s.y - yp := by
  unfold aaNearest
  simp only
  split
  · rename_i h
    exact ⟨h.1.le, h.2.1.le, h.2.2.1.le, h.2.2.2.le⟩
  · have h1 := clampK_mem (v := (closestPoint s.cs s.sn (s.x - xp - 1 / 2) (s.y - yp - 1 / 2)).1)
      (lo := s.x - xp - 1) (hi := s.x - xp) (by linarith)
    have h2 := clampK_mem (v := (closestPoint s.cs s.sn (s.x - xp - 1 / 2) (s.y - yp - 1 / 2)).2)
      (lo := s.y - yp - 1) (hi := s.y - yp) (by linarith)
    exact ⟨h1.1, h1.2, h2.1, h2.2⟩

/-- Any point at least `radius` away along an axis has `rr ≥ ((radius+1)/radius)² > 1`. -/
theorem rr_gt_one_of_far {s : Shape K} (hv : s.Valid) {px py : K}
    (h : s.radius + 1 / 2 ≤ |px| ∨ s.radius + 1 / 2 ≤ |py|) :
    1 < rSample px py s.aspect s.sn s.cs * (1 / (s.radius * s.radius)) := by
  have hr := hv.radius
  have h1 := rSample_ge (px := px) (py := py) hv.aspect hv.circle
  have h2 : s.radius * s.radius < px * px + py * py := by
    rcases h with h | h
    · have a := mul_self_le_mul_self (by linarith : (0:K) ≤ s.radius + 1 / 2) h
      rw [abs_mul_abs_self] at a
      nlinarith [mul_self_nonneg py]
    · have a := mul_self_le_mul_self (by linarith : (0:K) ≤ s.radius + 1 / 2) h
      rw [abs_mul_abs_self] at a
      nlinarith [mul_self_nonneg px]
  rw [mul_one_div, one_lt_div (by positivity)]
  linarith

/-- Outside the columns/rows of the window (before clamping to the tile) `rr > 1`. -/
theorem rrAt_outside {s : Shape K} (hv : s.Valid) {xp yp : Int}
    (h : xp < ⌊s.x - (s.radius + 1)⌋ ∨ ⌊s.x + (s.radius + 1)⌋ < xp ∨
         yp < ⌊s.y - (s.radius + 1)⌋ ∨ ⌊s.y + (s.radius + 1)⌋ < yp) :
    ∃ rr, rrAt s xp yp = some rr ∧ 1 < rr := by
  have hr := hv.radius
  have hfar : ∀ c d e : K, (c - 1 ≥ s.radius + 1 ∨ c ≤ -(s.radius + 1)) → c - 1 ≤ d → d ≤ c →
      s.radius + 1 / 2 ≤ |d| := by
    intro c d e h h1 h2
    rcases h with h | h
    · exact le_trans (by linarith) (le_abs_self d)
    · exact le_trans (by linarith) (neg_le_abs d)
  have hs : (s.x - xp - 1 ≥ s.radius + 1 ∨ s.x - xp ≤ -(s.radius + 1)) ∨
      (s.y - yp - 1 ≥ s.radius + 1 ∨ s.y - yp ≤ -(s.radius + 1)) := by
    rcases h with h | h | h | h
    · exact .inl (outside_strip (.inl h))
    · exact .inl (outside_strip (.inr h))
    · exact .inr (outside_strip (.inl h))
    · exact .inr (outside_strip (.inr h))
  unfold rrAt
  split
  · obtain ⟨a, b, c, d⟩ := aaNearest_mem s xp yp
    have : 1 < rSample (aaNearest s xp yp).1 (aaNearest s xp yp).2 s.aspect s.sn s.cs *
        (1 / (s.radius * s.radius)) := by
      apply rr_gt_one_of_far hv
      rcases hs with hs | hs
      · exact .inl (hfar _ _ 0 hs a b)
      · exact .inr (hfar _ _ 0 hs c d)
    refine ⟨_, ?_, this⟩
    unfold rrAntialiased
    simp only [this, gt_iff_lt, if_true]
  · refine ⟨_, rfl, ?_⟩
    rw [rrPlain_eq, ← mul_one_div]
    apply rr_gt_one_of_far hv
    rcases hs with hs | hs
    · left
      have := hfar (s.x - xp) (s.x - xp - 1 / 2) 0 hs (by linarith) (by linarith)
      rwa [← abs_neg, show -((xp : K) + 1 / 2 - s.x) = s.x - xp - 1 / 2 by ring]
    · right
      have := hfar (s.y - yp) (s.y - yp - 1 / 2) 0 hs (by linarith) (by linarith)
      rwa [← abs_neg, show -((yp : K) + 1 / 2 - s.y) = s.y - yp - 1 / 2 by ring]

/-! ### Antialiased values -/

theorem rrAntialiased_nonneg {s : Shape K} {xp yp : Int} {rr : K}
    (h : rrAntialiased s xp yp = some rr) : 0 ≤ rr := by
  unfold rrAntialiased at h
  simp only at h
  have hk : (0 : K) ≤ 1 / (s.radius * s.radius) := by
    have := mul_self_nonneg s.radius; positivity
  have hn := mul_nonneg (rSample_nonneg (aaNearest s xp yp).1 (aaNearest s xp yp).2 s.aspect s.sn s.cs) hk
  have hf := mul_nonneg (rSample_nonneg (aaFarthest s xp yp).1 (aaFarthest s xp yp).2 s.aspect s.sn s.cs) hk
  split at h
  · injection h with h; rw [← h]; exact hn
  · rename_i h1
    split at h
    · injection h with h; rw [← h]
      exact mul_nonneg (add_nonneg hf hn) (by norm_num)
    · split at h
      · exact absurd h (by simp)
      · rename_i h3
        injection h with h; rw [← h]
        rw [sub_nonneg]
        apply div_le_one_of_le₀
        · linarith
        · have := not_lt.mp h1; linarith

omit [FloorRing K] in
theorem shrink_le {p c e w : K} (hz : c - p = e * w) (he : e ≤ 1) :
    (clampK p (c - 1 / 2) (c + 1 / 2) - p) * w ≤ max (w * w - |w| / 2) 0 := by
  unfold clampK
  split
  · rename_i h
    have h1 : e * w < -(1 / 2) := by rw [← hz]; linarith
    have e1 : (c + 1 / 2 - p) * w = (e * w + 1 / 2) * w := by rw [← hz]; ring
    rw [e1]
    rcases le_total 0 w with hw | hw
    · exact le_max_of_le_right (by nlinarith)
    · apply le_max_of_le_left
      rw [abs_of_nonpos hw]
      nlinarith [mul_self_nonneg w]
  · split
    · rename_i h
      have h1 : 1 / 2 < e * w := by rw [← hz]; linarith
      have e1 : (c - 1 / 2 - p) * w = (e * w - 1 / 2) * w := by rw [← hz]; ring
      rw [e1]
      rcases le_total 0 w with hw | hw
      · apply le_max_of_le_left
        rw [abs_of_nonneg hw]
        nlinarith [mul_self_nonneg w]
      · exact le_max_of_le_right (by nlinarith)
    · rw [sub_self, zero_mul]; exact le_max_right _ _

omit [FloorRing K] in
theorem max_sum_le {a b : K} (h : a * a + b * b = 1) :
    max (a * a - |a| / 2) 0 + max (b * b - |b| / 2) 0 ≤ 1 / 2 := by
  have ha := abs_nonneg a
  have hb := abs_nonneg b
  have h' : |a| * |a| + |b| * |b| = 1 := by rwa [abs_mul_abs_self, abs_mul_abs_self]
  rw [← abs_mul_abs_self a, ← abs_mul_abs_self b]
  generalize |a| = p at *
  generalize |b| = q at *
  have hp : p ≤ 1 := by nlinarith
  have hq : q ≤ 1 := by nlinarith
  rcases max_cases (p * p - p / 2) 0 with ⟨e1, _⟩ | ⟨e1, _⟩ <;>
    rcases max_cases (q * q - q / 2) 0 with ⟨e2, _⟩ | ⟨e2, _⟩ <;> rw [e1, e2]
  · nlinarith
  · nlinarith
  · nlinarith
  · norm_num

omit [FloorRing K] in
/-- If the clamped projection of the pixel centre lies at `ρ•u` on the normal `u`, `ρ > 1/2`, the
centre is more than 1 away from the dab's line on the same side. -/
theorem normal_far {vx vy ux uy cx cy t e ρ : K} (hu : ux * ux + uy * uy = 1)
    (hvu : vx * ux + vy * uy = 0) (hx : cx - t * vx = e * ux) (hy : cy - t * vy = e * uy)
    (hρ : 1 / 2 < ρ)
    (h1 : clampK (t * vx) (cx - 1 / 2) (cx + 1 / 2) = ρ * ux)
    (h2 : clampK (t * vy) (cy - 1 / 2) (cy + 1 / 2) = ρ * uy) : 1 < e := by
  by_contra he
  have he := not_lt.mp he
  have a := shrink_le hx he
  have b := shrink_le hy he
  have c := max_sum_le hu
  rw [h1] at a
  rw [h2] at b
  have : (ρ * ux - t * vx) * ux + (ρ * uy - t * vy) * uy = ρ := by
    have : (ρ * ux - t * vx) * ux + (ρ * uy - t * vy) * uy =
      ρ * (ux * ux + uy * uy) - t * (vx * ux + vy * uy) := by ring
    rw [this, hu, hvu]; ring
  linarith

theorem rrAntialiased_isSome {s : Shape K} (hv : s.Valid) (xp yp : Int) :
    (rrAntialiased s xp yp).isSome := by
  unfold rrAntialiased
  simp only
  have hr := hv.radius
  have hk : (0 : K) < 1 / (s.radius * s.radius) := by positivity
  have hn := mul_nonneg (rSample_nonneg (aaNearest s xp yp).1 (aaNearest s xp yp).2 s.aspect s.sn s.cs) hk.le
  have hf := mul_nonneg (rSample_nonneg (aaFarthest s xp yp).1 (aaFarthest s xp yp).2 s.aspect s.sn s.cs) hk.le
  split
  · rfl
  · rename_i h1
    split
    · rfl
    · split
      · rename_i h3
        exfalso
        have h1 := not_lt.mp h1
        have hf0 : rSample (aaFarthest s xp yp).1 (aaFarthest s xp yp).2 s.aspect s.sn s.cs *
          (1 / (s.radius * s.radius)) = 0 := by linarith
        have hf1 : rSample (aaFarthest s xp yp).1 (aaFarthest s xp yp).2 s.aspect s.sn s.cs = 0 := by
          rcases mul_eq_zero.mp hf0 with h | h
          · exact h
          · exact absurd h hk.ne'
        have hge := rSample_ge (px := (aaFarthest s xp yp).1) (py := (aaFarthest s xp yp).2)
          hv.aspect hv.circle
        rw [hf1] at hge
        have hx0 : (aaFarthest s xp yp).1 = 0 := by
          have := mul_self_nonneg (aaFarthest s xp yp).1
          have := mul_self_nonneg (aaFarthest s xp yp).2
          exact mul_self_eq_zero.mp (by linarith)
        have hy0 : (aaFarthest s xp yp).2 = 0 := by
          have := mul_self_nonneg (aaFarthest s xp yp).1
          have := mul_self_nonneg (aaFarthest s xp yp).2
          exact mul_self_eq_zero.mp (by linarith)
        clear hge hf1 hf0 hf hn h1 h3
        have hρ := hv.rad1
        have hc := hv.circle
        set cx := s.x - (xp : K) - 1 / 2 with hcx
        set cy := s.y - (yp : K) - 1 / 2 with hcy
        set t := (cx * s.cs + cy * s.sn) with ht
        set e := cx * s.sn - cy * s.cs with he
        have ex : cx = t * s.cs + e * s.sn := by
          have : t * s.cs + e * s.sn = cx * (s.sn * s.sn + s.cs * s.cs) := by rw [ht, he]; ring
          rw [this, hc, mul_one]
        have ey : cy = t * s.sn - e * s.cs := by
          have : t * s.sn - e * s.cs = cy * (s.sn * s.sn + s.cs * s.cs) := by rw [ht, he]; ring
          rw [this, hc, mul_one]
        have hl2 : s.cs * s.cs + s.sn * s.sn = 1 := by linarith
        have hsc : 2 * s.sn * s.cs ≤ 1 := by nlinarith [sq_nonneg (s.sn - s.cs)]
        have hsc' : -1 ≤ 2 * s.sn * s.cs := by nlinarith [sq_nonneg (s.sn + s.cs)]
        have hsign : signPointInLine cx cy s.cs (-s.sn) = e - 2 * s.sn * s.cs := by
          unfold signPointInLine; rw [he]; ring
        -- the nearest point is either the origin or the clamped projection
        have hnear : aaNearest s xp yp = (0, 0) ∨ aaNearest s xp yp =
            (clampK (t * s.cs) (cx - 1 / 2) (cx + 1 / 2), clampK (t * s.sn) (cy - 1 / 2) (cy + 1 / 2)) := by
          unfold aaNearest
          simp only
          split
          · exact .inl rfl
          · right
            unfold closestPoint
            simp only [← hcx, ← hcy, hl2, div_one]
            rw [show s.x - (xp : K) - 1 = cx - 1 / 2 by rw [hcx]; ring,
              show s.x - (xp : K) = cx + 1 / 2 by rw [hcx]; ring,
              show s.y - (yp : K) - 1 = cy - 1 / 2 by rw [hcy]; ring,
              show s.y - (yp : K) = cy + 1 / 2 by rw [hcy]; ring,
              mul_comm s.cs, mul_comm s.sn]
        unfold aaFarthest at hx0 hy0
        simp only [← hcx, ← hcy, hsign] at hx0 hy0
        split at hx0
        · rename_i hlt
          rw [if_pos hlt] at hy0
          have hx1 : (aaNearest s xp yp).1 = s.rad1 * s.sn := by simp only at hx0; linarith
          have hy1 : (aaNearest s xp yp).2 = s.rad1 * (-s.cs) := by simp only at hy0; linarith
          rcases hnear with h | h
          · rw [h] at hx1 hy1
            simp only at hx1 hy1
            have a := mul_eq_zero.mp hx1.symm
            have b := mul_eq_zero.mp hy1.symm
            rcases a with a | a
            · linarith
            · rcases b with b | b
              · linarith
              · have : s.cs = 0 := by linarith
                rw [a, this] at hc; simp at hc
          · rw [h] at hx1 hy1
            simp only at hx1 hy1
            have := normal_far (vx := s.cs) (vy := s.sn) (ux := s.sn) (uy := -s.cs) (e := e) (t := t)
              (by linarith) (by ring) (by linarith) (by linarith) hρ hx1 hy1
            linarith
        · rename_i hlt
          rw [if_neg hlt] at hy0
          have hx1 : (aaNearest s xp yp).1 = s.rad1 * (-s.sn) := by simp only at hx0; linarith
          have hy1 : (aaNearest s xp yp).2 = s.rad1 * s.cs := by simp only at hy0; linarith
          rcases hnear with h | h
          · rw [h] at hx1 hy1
            simp only at hx1 hy1
            have a := mul_eq_zero.mp hx1.symm
            have b := mul_eq_zero.mp hy1.symm
            rcases b with a' | a'
            · linarith
            · rcases a with b | b
              · linarith
              · have : s.sn = 0 := by linarith
                rw [a', this] at hc; simp at hc
          · rw [h] at hx1 hy1
            simp only at hx1 hy1
            have := normal_far (vx := s.cs) (vy := s.sn) (ux := -s.sn) (uy := s.cs) (e := -e) (t := t)
              (by linarith) (by ring) (by linarith) (by linarith) hρ hx1 hy1
            linarith
      · rfl

theorem rrAt_isSome {s : Shape K} (hv : s.Valid) (xp yp : Int) : (rrAt s xp yp).isSome := by
  unfold rrAt; split
  · exact rrAntialiased_isSome hv xp yp
  · rfl

theorem rrAt_nonneg {s : Shape K} {xp yp : Int} {rr : K} (h : rrAt s xp yp = some rr) : 0 ≤ rr := by
  unfold rrAt at h
  split at h
  · exact rrAntialiased_nonneg h
  · injection h with h; rw [← h]; exact rrPlain_nonneg ..

end Verif.Mask
