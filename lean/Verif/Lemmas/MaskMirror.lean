import Verif.Lemmas.MaskRender

/-!
# The mask of a mirrored dab
-/

namespace Verif.Mask
variable {K : Type} [Field K] [LinearOrder K] [IsStrictOrderedRing K]

/-- The shape mirrored at the vertical line halfway between the columns 0 and `n`. -/
def Shape.mirrorX (s : Shape K) (n : Int) : Shape K := { s with x := n - s.x, cs := -s.cs }

/-- The shape mirrored at the horizontal line halfway between the rows 0 and `n`. -/
def Shape.mirrorY (s : Shape K) (n : Int) : Shape K := { s with y := n - s.y, sn := -s.sn }

/-- For these dabs the two sides of the mask are computed alike: no antialiasing, or an angle that is a multiple of 90°. -/
def Shape.Even (s : Shape K) : Prop := 3 ≤ s.radius ∨ s.sn = 0 ∨ s.cs = 0

theorem clampK_neg {v lo hi : K} (h : lo ≤ hi) : clampK (-v) (-hi) (-lo) = -clampK v lo hi := by
  unfold clampK
  by_cases h1 : v > hi
  · have h2 : ¬ -v > -lo := by rw [gt_iff_lt, neg_lt_neg_iff, not_lt]; linarith
    rw [if_neg h2, if_pos (by linarith), if_pos h1]
  · by_cases h2 : v < lo
    · rw [if_pos (by rw [gt_iff_lt, neg_lt_neg_iff]; exact h2), if_neg h1, if_pos h2]
    · rw [if_neg (by rw [gt_iff_lt, neg_lt_neg_iff]; exact h2), if_neg (by linarith), if_neg h1, if_neg h2]

omit [LinearOrder K] [IsStrictOrderedRing K] in
theorem closestPoint_negX (lx ly px py : K) :
    closestPoint (-lx) ly (-px) py = (-(closestPoint lx ly px py).1, (closestPoint lx ly px py).2) := by
  unfold closestPoint
  simp only [neg_mul_neg, neg_mul, mul_neg, neg_neg]

omit [LinearOrder K] [IsStrictOrderedRing K] in
theorem closestPoint_negY (lx ly px py : K) :
    closestPoint lx (-ly) px (-py) = ((closestPoint lx ly px py).1, -(closestPoint lx ly px py).2) := by
  unfold closestPoint
  simp only [neg_mul_neg, neg_mul, mul_neg, neg_neg]

omit [LinearOrder K] [IsStrictOrderedRing K] in
theorem mirrorX_x (s : Shape K) (n X : Int) : (s.mirrorX n).x - ((n - 1 - X : Int) : K) = -(s.x - X - 1) := by
  unfold Shape.mirrorX; push_cast; ring

omit [LinearOrder K] [IsStrictOrderedRing K] in
theorem mirrorY_y (s : Shape K) (n Y : Int) : (s.mirrorY n).y - ((n - 1 - Y : Int) : K) = -(s.y - Y - 1) := by
  unfold Shape.mirrorY; push_cast; ring

theorem aaNearest_mirrorX (s : Shape K) (n X Y : Int) :
    aaNearest (s.mirrorX n) (n - 1 - X) Y = (-(aaNearest s X Y).1, (aaNearest s X Y).2) := by
  unfold aaNearest
  simp only [mirrorX_x]
  show (if -(s.x - X - 1) - 1 < 0 ∧ -(s.x - X - 1) > 0 ∧ s.y - Y - 1 < 0 ∧ s.y - Y > 0 then ((0 : K), (0 : K)) else
    (clampK (closestPoint (-s.cs) s.sn (-(s.x - X - 1) - 1 / 2) (s.y - Y - 1 / 2)).1 (-(s.x - X - 1) - 1) (-(s.x - X - 1)),
      clampK (closestPoint (-s.cs) s.sn (-(s.x - X - 1) - 1 / 2) (s.y - Y - 1 / 2)).2 (s.y - Y - 1) (s.y - Y))) = _
  rw [show -(s.x - X - 1) - 1 = -(s.x - (X : K)) by ring, show -(s.x - X - 1) - 1 / 2 = -(s.x - (X : K) - 1 / 2) by ring,
    closestPoint_negX]
  by_cases h : s.x - (X : K) - 1 < 0 ∧ s.x - (X : K) > 0 ∧ s.y - (Y : K) - 1 < 0 ∧ s.y - (Y : K) > 0
  · rw [if_pos h, if_pos ⟨by linarith [h.2.1], by linarith [h.1], h.2.2⟩]
    simp
  · rw [if_neg h, if_neg (fun q => h ⟨by linarith [q.2.1], by linarith [q.1], q.2.2⟩)]
    rw [clampK_neg (by linarith)]

theorem aaNearest_mirrorY (s : Shape K) (n X Y : Int) :
    aaNearest (s.mirrorY n) X (n - 1 - Y) = ((aaNearest s X Y).1, -(aaNearest s X Y).2) := by
  unfold aaNearest
  simp only [mirrorY_y]
  show (if s.x - X - 1 < 0 ∧ s.x - X > 0 ∧ -(s.y - Y - 1) - 1 < 0 ∧ -(s.y - Y - 1) > 0 then ((0 : K), (0 : K)) else
    (clampK (closestPoint s.cs (-s.sn) (s.x - X - 1 / 2) (-(s.y - Y - 1) - 1 / 2)).1 (s.x - X - 1) (s.x - X),
      clampK (closestPoint s.cs (-s.sn) (s.x - X - 1 / 2) (-(s.y - Y - 1) - 1 / 2)).2 (-(s.y - Y - 1) - 1)
        (-(s.y - Y - 1)))) = _
  rw [show -(s.y - Y - 1) - 1 = -(s.y - (Y : K)) by ring, show -(s.y - Y - 1) - 1 / 2 = -(s.y - (Y : K) - 1 / 2) by ring,
    closestPoint_negY]
  by_cases h : s.x - (X : K) - 1 < 0 ∧ s.x - (X : K) > 0 ∧ s.y - (Y : K) - 1 < 0 ∧ s.y - (Y : K) > 0
  · rw [if_pos h, if_pos ⟨h.1, h.2.1, by linarith [h.2.2.2], by linarith [h.2.2.1]⟩]
    simp
  · rw [if_neg h, if_neg (fun q => h ⟨q.1, q.2.1, by linarith [q.2.2.2], by linarith [q.2.2.1]⟩)]
    rw [clampK_neg (by linarith)]

omit [LinearOrder K] [IsStrictOrderedRing K] in
theorem rSample_negX (px py aspect sn cs : K) : rSample (-px) py aspect sn (-cs) = rSample px py aspect sn cs := by
  unfold rSample; ring

omit [LinearOrder K] [IsStrictOrderedRing K] in
theorem rSample_negY (px py aspect sn cs : K) : rSample px (-py) aspect (-sn) cs = rSample px py aspect sn cs := by
  unfold rSample; ring

omit [LinearOrder K] [IsStrictOrderedRing K] in
/-- The other side of the line through the centre. -/
theorem rSample_opposite {px py aspect sn cs r : K} (h : py * cs - px * sn = 0) :
    rSample (px - sn * r) (py + cs * r) aspect sn cs = rSample (px + sn * r) (py - cs * r) aspect sn cs := by
  have e1 : (py + cs * r) * cs - (px - sn * r) * sn = (cs * cs + sn * sn) * r := by linear_combination h
  have e2 : (py - cs * r) * cs - (px + sn * r) * sn = -((cs * cs + sn * sn) * r) := by linear_combination h
  unfold rSample
  simp only [e1, e2]
  ring

/-- On the line of the tie the nearest point is on the axis. -/
theorem tie_axis (s : Shape K) (hc : s.sn * s.sn + s.cs * s.cs = 1) (h : s.sn = 0 ∨ s.cs = 0) (X Y : Int)
    (ht : signPointInLine (s.x - (X : K) - 1 / 2) (s.y - (Y : K) - 1 / 2) s.cs (-s.sn) = 0) :
    (aaNearest s X Y).2 * s.cs - (aaNearest s X Y).1 * s.sn = 0 := by
  unfold signPointInLine at ht
  unfold aaNearest
  simp only
  split_ifs with hq
  · simp
  · rcases h with h | h
    · rw [h] at ht hc ⊢
      have hcs : s.cs ≠ 0 := fun q => by rw [q] at hc; simp at hc
      have hy : s.y - (Y : K) - 1 / 2 = 0 := by
        have : s.cs * (s.y - (Y : K) - 1 / 2) = 0 := by linear_combination -ht
        exact (mul_eq_zero.mp this).resolve_left hcs
      have e : (closestPoint s.cs 0 (s.x - (X : K) - 1 / 2) (s.y - (Y : K) - 1 / 2)).2 = 0 := by
        unfold closestPoint; simp
      rw [e]
      have ec : ∀ lo hi : K, lo ≤ 0 → 0 ≤ hi → clampK 0 lo hi = 0 := fun lo hi h1 h2 => by
        unfold clampK; rw [if_neg (not_lt.mpr h2), if_neg (not_lt.mpr h1)]
      rw [ec _ _ (by linarith) (by linarith)]
      ring
    · rw [h] at ht hc ⊢
      have hsn : s.sn ≠ 0 := fun q => by rw [q] at hc; simp at hc
      have hx : s.x - (X : K) - 1 / 2 = 0 := by
        have : s.sn * (s.x - (X : K) - 1 / 2) = 0 := by linear_combination ht
        exact (mul_eq_zero.mp this).resolve_left hsn
      have e : (closestPoint 0 s.sn (s.x - (X : K) - 1 / 2) (s.y - (Y : K) - 1 / 2)).1 = 0 := by
        unfold closestPoint; simp
      rw [e]
      have ec : ∀ lo hi : K, lo ≤ 0 → 0 ≤ hi → clampK 0 lo hi = 0 := fun lo hi h1 h2 => by
        unfold clampK; rw [if_neg (not_lt.mpr h2), if_neg (not_lt.mpr h1)]
      rw [ec _ _ (by linarith) (by linarith)]
      ring

theorem far_mirrorX (s : Shape K) (hc : s.sn * s.sn + s.cs * s.cs = 1) (h : s.sn = 0 ∨ s.cs = 0) (n X Y : Int) :
    rSample (aaFarthest (s.mirrorX n) (n - 1 - X) Y).1 (aaFarthest (s.mirrorX n) (n - 1 - X) Y).2 s.aspect s.sn (-s.cs) =
      rSample (aaFarthest s X Y).1 (aaFarthest s X Y).2 s.aspect s.sn s.cs := by
  have ht := tie_axis s hc h X Y
  unfold aaFarthest
  simp only [aaNearest_mirrorX, mirrorX_x]
  show rSample (if signPointInLine (-(s.x - X - 1) - 1 / 2) (s.y - Y - 1 / 2) (-s.cs) (-s.sn) < 0 then
      (-(aaNearest s X Y).1 - s.sn * s.rad1, (aaNearest s X Y).2 + -s.cs * s.rad1)
      else (-(aaNearest s X Y).1 + s.sn * s.rad1, (aaNearest s X Y).2 - -s.cs * s.rad1)).1 (if
        signPointInLine (-(s.x - X - 1) - 1 / 2) (s.y - Y - 1 / 2) (-s.cs) (-s.sn) < 0 then
      (-(aaNearest s X Y).1 - s.sn * s.rad1, (aaNearest s X Y).2 + -s.cs * s.rad1)
      else (-(aaNearest s X Y).1 + s.sn * s.rad1, (aaNearest s X Y).2 - -s.cs * s.rad1)).2 s.aspect s.sn (-s.cs) = _
  have hs : signPointInLine (-(s.x - X - 1) - 1 / 2) (s.y - Y - 1 / 2) (-s.cs) (-s.sn) =
      -signPointInLine (s.x - (X : K) - 1 / 2) (s.y - (Y : K) - 1 / 2) s.cs (-s.sn) := by
    unfold signPointInLine; ring
  rw [hs]
  generalize hv : signPointInLine (s.x - (X : K) - 1 / 2) (s.y - (Y : K) - 1 / 2) s.cs (-s.sn) = v at ht ⊢
  generalize aaNearest s X Y = w at ht ⊢
  rcases lt_trichotomy v 0 with h1 | h1 | h1
  · rw [if_neg (by linarith), if_pos h1, ← rSample_negX (w.1 - s.sn * s.rad1)]
    congr 1 <;> ring
  · have := ht h1
    rw [h1, neg_zero, if_neg (lt_irrefl _), if_neg (lt_irrefl _)]
    simp only
    rw [← rSample_opposite this, ← rSample_negX (w.1 - s.sn * s.rad1)]
    congr 1 <;> ring
  · rw [if_pos (by linarith), if_neg (by linarith), ← rSample_negX (w.1 + s.sn * s.rad1)]
    congr 1 <;> ring

theorem far_mirrorY (s : Shape K) (hc : s.sn * s.sn + s.cs * s.cs = 1) (h : s.sn = 0 ∨ s.cs = 0) (n X Y : Int) :
    rSample (aaFarthest (s.mirrorY n) X (n - 1 - Y)).1 (aaFarthest (s.mirrorY n) X (n - 1 - Y)).2 s.aspect (-s.sn) s.cs =
      rSample (aaFarthest s X Y).1 (aaFarthest s X Y).2 s.aspect s.sn s.cs := by
  have ht := tie_axis s hc h X Y
  unfold aaFarthest
  simp only [aaNearest_mirrorY, mirrorY_y]
  show rSample (if signPointInLine (s.x - X - 1 / 2) (-(s.y - Y - 1) - 1 / 2) s.cs (- -s.sn) < 0 then
      ((aaNearest s X Y).1 - -s.sn * s.rad1, -(aaNearest s X Y).2 + s.cs * s.rad1)
      else ((aaNearest s X Y).1 + -s.sn * s.rad1, -(aaNearest s X Y).2 - s.cs * s.rad1)).1 (if
        signPointInLine (s.x - X - 1 / 2) (-(s.y - Y - 1) - 1 / 2) s.cs (- -s.sn) < 0 then
      ((aaNearest s X Y).1 - -s.sn * s.rad1, -(aaNearest s X Y).2 + s.cs * s.rad1)
      else ((aaNearest s X Y).1 + -s.sn * s.rad1, -(aaNearest s X Y).2 - s.cs * s.rad1)).2 s.aspect (-s.sn) s.cs = _
  have hs : signPointInLine (s.x - X - 1 / 2) (-(s.y - Y - 1) - 1 / 2) s.cs (- -s.sn) =
      -signPointInLine (s.x - (X : K) - 1 / 2) (s.y - (Y : K) - 1 / 2) s.cs (-s.sn) := by
    unfold signPointInLine; ring
  rw [hs]
  generalize hv : signPointInLine (s.x - (X : K) - 1 / 2) (s.y - (Y : K) - 1 / 2) s.cs (-s.sn) = v at ht ⊢
  generalize aaNearest s X Y = w at ht ⊢
  rcases lt_trichotomy v 0 with h1 | h1 | h1
  · rw [if_neg (by linarith), if_pos h1, ← rSample_negY (w.1 - s.sn * s.rad1)]
    congr 1 <;> ring
  · have := ht h1
    rw [h1, neg_zero, if_neg (lt_irrefl _), if_neg (lt_irrefl _)]
    simp only
    rw [← rSample_opposite this, ← rSample_negY (w.1 - s.sn * s.rad1)]
    congr 1 <;> ring
  · rw [if_pos (by linarith), if_neg (by linarith), ← rSample_negY (w.1 + s.sn * s.rad1)]
    congr 1 <;> ring

theorem rrAt_mirrorX (s : Shape K) (hc : s.sn * s.sn + s.cs * s.cs = 1) (h : s.Even) (n X Y : Int) :
    rrAt (s.mirrorX n) (n - 1 - X) Y = rrAt s X Y := by
  unfold rrAt
  show (if s.radius < 3 then _ else _) = _
  by_cases hr : s.radius < 3
  · rw [if_pos hr, if_pos hr]
    have k := far_mirrorX s hc (h.resolve_left (not_le.mpr hr)) n X Y
    unfold rrAntialiased
    dsimp only
    rw [aaNearest_mirrorX]
    show (if rSample (-(aaNearest s X Y).1) (aaNearest s X Y).2 s.aspect s.sn (-s.cs) * (1 / (s.radius * s.radius)) > 1 then
      some (rSample (-(aaNearest s X Y).1) (aaNearest s X Y).2 s.aspect s.sn (-s.cs) * (1 / (s.radius * s.radius))) else
      if rSample (aaFarthest (s.mirrorX n) (n - 1 - X) Y).1 (aaFarthest (s.mirrorX n) (n - 1 - X) Y).2 s.aspect s.sn (-s.cs) <
        rAAStart s then _ else _) = _
    simp only [rSample_negX]
    have k' : rSample (aaFarthest (s.mirrorX n) (n - 1 - X) Y).1 (aaFarthest (s.mirrorX n) (n - 1 - X) Y).2
      (s.mirrorX n).aspect (s.mirrorX n).sn (s.mirrorX n).cs =
      rSample (aaFarthest s X Y).1 (aaFarthest s X Y).2 s.aspect s.sn s.cs := k
    rw [k, k']
    have k'' : rSample (-(aaNearest s X Y).1) (aaNearest s X Y).2 (s.mirrorX n).aspect (s.mirrorX n).sn (s.mirrorX n).cs =
      rSample (aaNearest s X Y).1 (aaNearest s X Y).2 s.aspect s.sn s.cs := rSample_negX _ _ _ _ _
    rw [k'']
    rfl
  · rw [if_neg hr, if_neg hr]
    congr 1
    unfold rrPlain Shape.mirrorX
    push_cast
    ring

theorem rrAt_mirrorY (s : Shape K) (hc : s.sn * s.sn + s.cs * s.cs = 1) (h : s.Even) (n X Y : Int) :
    rrAt (s.mirrorY n) X (n - 1 - Y) = rrAt s X Y := by
  unfold rrAt
  show (if s.radius < 3 then _ else _) = _
  by_cases hr : s.radius < 3
  · rw [if_pos hr, if_pos hr]
    have k := far_mirrorY s hc (h.resolve_left (not_le.mpr hr)) n X Y
    unfold rrAntialiased
    dsimp only
    rw [aaNearest_mirrorY]
    show (if rSample (aaNearest s X Y).1 (-(aaNearest s X Y).2) s.aspect (-s.sn) s.cs * (1 / (s.radius * s.radius)) > 1 then
      some (rSample (aaNearest s X Y).1 (-(aaNearest s X Y).2) s.aspect (-s.sn) s.cs * (1 / (s.radius * s.radius))) else
      if rSample (aaFarthest (s.mirrorY n) X (n - 1 - Y)).1 (aaFarthest (s.mirrorY n) X (n - 1 - Y)).2 s.aspect (-s.sn) s.cs <
        rAAStart s then _ else _) = _
    simp only [rSample_negY]
    have k' : rSample (aaFarthest (s.mirrorY n) X (n - 1 - Y)).1 (aaFarthest (s.mirrorY n) X (n - 1 - Y)).2
      (s.mirrorY n).aspect (s.mirrorY n).sn (s.mirrorY n).cs =
      rSample (aaFarthest s X Y).1 (aaFarthest s X Y).2 s.aspect s.sn s.cs := k
    rw [k, k']
    have k'' : rSample (aaNearest s X Y).1 (-(aaNearest s X Y).2) (s.mirrorY n).aspect (s.mirrorY n).sn (s.mirrorY n).cs =
      rSample (aaNearest s X Y).1 (aaNearest s X Y).2 s.aspect s.sn s.cs := rSample_negY _ _ _ _ _
    rw [k'']
    rfl
  · rw [if_neg hr, if_neg hr]
    congr 1
    unfold rrPlain Shape.mirrorY
    push_cast
    ring

variable [FloorRing K]

theorem rr_gt_one_of_outside {s : Shape K} (hv : s.Valid) {px py : K} (h : s.radius < |px| ∨ s.radius < |py|) :
    1 < rSample px py s.aspect s.sn s.cs * (1 / (s.radius * s.radius)) := by
  have hr := hv.radius
  have h1 := rSample_ge (px := px) (py := py) hv.aspect hv.circle
  have h2 : s.radius * s.radius < px * px + py * py := by
    rcases h with h | h
    · have a := mul_self_lt_mul_self hr.le h
      rw [abs_mul_abs_self] at a
      nlinarith [mul_self_nonneg py]
    · have a := mul_self_lt_mul_self hr.le h
      rw [abs_mul_abs_self] at a
      nlinarith [mul_self_nonneg px]
  rw [mul_one_div, one_lt_div (by positivity)]
  linarith

/-- A pixel that does not touch the square around the dab has `rr > 1`. -/
theorem rrAt_beyond {s : Shape K} (hv : s.Valid) {X Y : Int}
    (h : s.x + s.radius < X ∨ X + 1 < s.x - s.radius ∨ s.y + s.radius < Y ∨ Y + 1 < s.y - s.radius) :
    ∃ rr, rrAt s X Y = some rr ∧ 1 < rr := by
  have hr := hv.radius
  have hfar : ∀ c d : K, (s.radius < c - 1 ∨ c < -s.radius) → c - 1 ≤ d → d ≤ c → s.radius < |d| := by
    intro c d h h1 h2
    rcases h with h | h
    · exact lt_of_lt_of_le (by linarith) (le_abs_self d)
    · exact lt_of_lt_of_le (by linarith) (neg_le_abs d)
  have hs : (s.radius < s.x - X - 1 ∨ s.x - X < -s.radius) ∨ (s.radius < s.y - Y - 1 ∨ s.y - Y < -s.radius) := by
    rcases h with h | h | h | h
    · exact .inl (.inr (by linarith))
    · exact .inl (.inl (by linarith))
    · exact .inr (.inr (by linarith))
    · exact .inr (.inl (by linarith))
  unfold rrAt
  split
  · obtain ⟨a, b, c, d⟩ := aaNearest_mem s X Y
    have : 1 < rSample (aaNearest s X Y).1 (aaNearest s X Y).2 s.aspect s.sn s.cs * (1 / (s.radius * s.radius)) := by
      apply rr_gt_one_of_outside hv
      rcases hs with hs | hs
      · exact .inl (hfar _ _ hs a b)
      · exact .inr (hfar _ _ hs c d)
    refine ⟨_, ?_, this⟩
    unfold rrAntialiased
    simp only [this, gt_iff_lt, if_true]
  · refine ⟨_, rfl, ?_⟩
    rw [rrPlain_eq, ← mul_one_div]
    apply rr_gt_one_of_outside hv
    rcases hs with hs | hs
    · left
      have := hfar (s.x - X) (s.x - X - 1 / 2) hs (by linarith) (by linarith)
      rwa [← abs_neg, show -((X : K) + 1 / 2 - s.x) = s.x - X - 1 / 2 by ring]
    · right
      have := hfar (s.y - Y) (s.y - Y - 1 / 2) hs (by linarith) (by linarith)
      rwa [← abs_neg, show -((Y : K) + 1 / 2 - s.y) = s.y - Y - 1 / 2 by ring]

theorem opacityAt_mirrorX (s : Shape K) (hc : s.sn * s.sn + s.cs * s.cs = 1) (h : s.Even) (n X Y : Int) :
    opacityAt (s.mirrorX n) (n - 1 - X) Y = opacityAt s X Y := by
  unfold opacityAt
  rw [rrAt_mirrorX s hc h]
  rfl

theorem opacityAt_mirrorY (s : Shape K) (hc : s.sn * s.sn + s.cs * s.cs = 1) (h : s.Even) (n X Y : Int) :
    opacityAt (s.mirrorY n) X (n - 1 - Y) = opacityAt s X Y := by
  unfold opacityAt
  rw [rrAt_mirrorY s hc h]
  rfl

/-- A dab does not reach pixels that do not touch the square around it. -/
theorem opacityAt_beyond {s : Shape K} (hv : s.Valid) {X Y : Int}
    (h : s.x + s.radius < X ∨ X + 1 < s.x - s.radius ∨ s.y + s.radius < Y ∨ Y + 1 < s.y - s.radius) :
    opacityAt s X Y = 0 := by
  obtain ⟨rr, h1, h2⟩ := rrAt_beyond hv h
  unfold opacityAt
  rw [h1]
  exact opaU16_gt_one h2

end Verif.Mask
