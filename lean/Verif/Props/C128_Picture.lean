import Verif.Props.C128_Edge

/-!
# C128: the picture of a brush with a harder edge

Every pixel gets no less of a harder, less soft dab. So no pixel is more transparent with a brush that paints plainly, and none keeps more with
an eraser.
-/

namespace Verif.Mask

section
variable {K : Type} [Field K] [LinearOrder K] [IsStrictOrderedRing K]

theorem opaOf_scaled {h s rr : K} (h0 : 0 < h) (h1 : h ≤ 1) : opaOf h s rr = (1 - s) * opaOf h 0 rr := by
  rcases lt_or_ge 1 rr with hr | hr
  · rw [opaOf_gt_one hr, opaOf_gt_one hr, mul_zero]
  rcases le_or_gt rr h with q | q
  · rw [opaOf_le_hard h0 h1 q, opaOf_le_hard h0 h1 q, sub_zero, one_mul]
  · rw [opaOf_gt_hard q hr, opaOf_gt_hard q hr, sub_zero, one_mul]

/-- **The falloff rises with the hardness** and falls with the softness. -/
theorem opaOf_harder {h h' s s' rr : K} (h0 : 0 < h) (hh : h ≤ h') (h1 : h' ≤ 1) (hs : s' ≤ s) (s1 : s ≤ 1) (r0 : 0 ≤ rr) :
    opaOf h s rr ≤ opaOf h' s' rr := by
  have h0' : 0 < h' := h0.trans_le hh
  rw [opaOf_scaled h0 (hh.trans h1), opaOf_scaled h0' h1]
  have key : opaOf h 0 rr ≤ opaOf h' 0 rr := by
    rcases lt_or_ge 1 rr with hr | hr
    · rw [opaOf_gt_one hr, opaOf_gt_one hr]
    rcases le_or_gt rr h with q | q
    · rw [opaOf_le_hard h0 (hh.trans h1) q, opaOf_le_hard h0' h1 (q.trans hh), sub_zero, one_mul, one_mul]
      have : rr * (1 - h') / h' ≤ rr * (1 - h) / h := by
        rw [div_le_div_iff₀ h0' h0]
        nlinarith [mul_nonneg r0 (sub_nonneg.mpr hh)]
      linarith
    · have hl : 0 < 1 - h := by linarith
      rw [opaOf_gt_hard q hr, sub_zero, one_mul]
      rcases le_or_gt rr h' with q' | q'
      · rw [opaOf_le_hard h0' h1 q', sub_zero, one_mul]
        have k1 : h * (1 - rr) / (1 - h) ≤ rr := by
          rw [div_le_iff₀ hl]
          nlinarith
        have k2 : rr * (1 - h') / h' ≤ 1 - rr := by
          rw [div_le_iff₀ h0']
          nlinarith
        linarith
      · have hl' : 0 < 1 - h' := by linarith
        rw [opaOf_gt_hard q' hr, sub_zero, one_mul, div_le_div_iff₀ hl hl']
        nlinarith [mul_nonneg (sub_nonneg.mpr hr) (sub_nonneg.mpr hh)]
  have hz : 0 ≤ opaOf h 0 rr := (opaOf_bounds h0 (hh.trans h1) (le_refl 0) zero_le_one r0).1
  exact mul_le_mul (by linarith) key hz (by linarith)

end
end Verif.Mask

namespace Verif.Painting
open Verif.Full Verif.Dab Verif.Engine Verif.Blend Verif.Symm Verif.Map Verif.Mask

section
variable {K R σ : Type} [Field K] [LinearOrder K] [IsStrictOrderedRing K] [FloorRing K]

/-! ### One pixel -/

theorem normal_stronger {c : Blend.Color} (hc : c.Valid) {o o' m m' : Nat} (hm : m ≤ m') (hm' : m' ≤ 32768) (ho : o ≤ o') (ho' : o' ≤ 32768)
    {p p' : Px} (h : CoveredMore p p') : CoveredMore (normal c o m p) (normal c o' m' p') := by
  obtain ⟨h1, h2, h3⟩ := h
  refine ⟨normal_valid (hm.trans hm') (ho.trans ho') hc h1, normal_valid hm' ho' hc h2, ?_⟩
  obtain ⟨b1, b2, b3, b4⟩ := h1.bounds
  obtain ⟨b1', b2', b3', b4'⟩ := h2.bounds
  rw [normal_eq (hm.trans hm') (ho.trans ho') hc.1 hc.2.1 hc.2.2 b1 b2 b3 b4, normal_eq hm' ho' hc.1 hc.2.1 hc.2.2 b1' b2' b3' b4']
  exact over_mono (Nat.div_le_div_right (Nat.mul_le_mul hm ho)) (topAlpha_eq hm' ho' ▸ topAlpha_le hm' ho') h3 b4'

theorem erase_stronger {c : Blend.Color} (hc : c.Valid) {o o' m m' : Nat} (hm : m ≤ m') (hm' : m' ≤ 32768) (ho : o ≤ o') (ho' : o' ≤ 32768)
    {p p' : Px} (h : ErasedMore p p') : ErasedMore (normalAndEraser c 0 o m p) (normalAndEraser c 0 o' m' p') := by
  obtain ⟨h1, h2, h3, h4, h5, h6⟩ := h
  refine ⟨normalAndEraser_valid (hm.trans hm') (ho.trans ho') (by simp) hc h1, normalAndEraser_valid hm' ho' (by simp) hc h2, ?_⟩
  obtain ⟨b1, b2, b3, b4⟩ := h1.bounds
  obtain ⟨b1', b2', b3', b4'⟩ := h2.bounds
  obtain ⟨-, -, e⟩ := normalAndEraser_eq (ca := 0) (hm.trans hm') (ho.trans ho') (by simp) hc.1 hc.2.1 hc.2.2 b1 b2 b3 b4
  obtain ⟨-, -, e'⟩ := normalAndEraser_eq (ca := 0) hm' ho' (by simp) hc.1 hc.2.1 hc.2.2 b1' b2' b3' b4'
  rw [e, e']
  have hA : m * o / 32768 ≤ m' * o' / 32768 := Nat.div_le_div_right (Nat.mul_le_mul hm ho)
  exact ⟨rest_mono hA h3, rest_mono hA h4, rest_mono hA h5, rest_mono hA h6⟩

/-! ### One dab -/

/-- A dab no weaker and no smaller than another. If it is bigger the other one has a radius of at least three pixels. -/
def Covers (a a' : Args K) : Prop := NoSmaller a a' ∧ (a'.radius = a.radius ∨ 3 ≤ a.radius)

omit [IsStrictOrderedRing K] [FloorRing K] in
theorem Covers.of_noWeaker {a a' : Args K} (h : NoWeaker a a') : Covers a a' := by
  obtain ⟨h1, h2, h3, h4⟩ := h
  have hr : a'.radius = a.radius := by rw [h4]
  refine ⟨⟨h1, h2, h3, hr.ge, ?_⟩, .inl hr⟩
  rw [hr]
  exact h4

omit [FloorRing K] in
theorem clamp_range (v : K) : 0 ≤ clampK v 0 1 ∧ clampK v 0 1 ≤ 1 := by
  unfold clampK
  constructor <;> split_ifs <;> linarith

/-- Either the first dab is not drawn, or both are; the second is no weaker. -/
theorem prepare_stronger {a a' : Args K} (h : Covers a a') :
    (∃ f f', prepare a = .error f ∧ prepare a' = .error f') ∨ prepare a = .ok none ∨
      ∃ op op', prepare a = .ok (some op) ∧ prepare a' = .ok (some op') ∧ op.opaque' ≤ op'.opaque' ∧ op.hardness ≤ op'.hardness ∧
        op'.softness ≤ op.softness ∧ op.radius ≤ op'.radius ∧ (op'.radius = op.radius ∨ 3 ≤ op.radius) ∧
        op' = { op with opaque' := op'.opaque', hardness := op'.hardness, softness := op'.softness, radius := op'.radius } := by
  obtain ⟨⟨h1, h2, h3, hr, h4⟩, hw⟩ := h
  generalize a'.opaque' = o' at h1 h4
  generalize a'.hardness = k' at h2 h4
  generalize a'.softness = s' at h3 h4
  generalize a'.radius = r' at hr hw h4
  subst h4
  unfold prepare
  dsimp only
  cases toInt (a.posterizeNum * 100 + 1 / 2) with
  | error f => exact .inl ⟨f, f, rfl, rfl⟩
  | ok n =>
    right
    simp only [bind, Except.bind, pure, Except.pure]
    by_cases q1 : a.radius < 1 / 10
    · rw [if_pos q1]; exact .inl rfl
    by_cases q2 : clampK a.hardness 0 1 = 0
    · rw [if_neg q1, if_pos q2]; exact .inl rfl
    by_cases q3 : clampK a.softness 0 1 = 1
    · rw [if_neg q1, if_neg q2, if_pos q3]; exact .inl rfl
    by_cases q4 : clampK a.opaque' 0 1 = 0
    · rw [if_neg q1, if_neg q2, if_neg q3, if_pos q4]; exact .inl rfl
    have q1' : ¬ r' < 1 / 10 := by linarith
    have q2' : clampK k' 0 1 ≠ 0 := by
      intro q
      rw [clampK_eq_zero] at q2 q
      exact q2 (h2.trans q)
    have q3' : clampK s' 0 1 ≠ 1 := by
      intro q
      have k1 := clamp_mono h3
      have k2 := (clamp_range a.softness).2
      rw [q] at k1
      exact q3 (le_antisymm k2 k1)
    have q4' : clampK o' 0 1 ≠ 0 := by
      intro q
      rw [clampK_eq_zero] at q4 q
      exact q4 (h1.trans q)
    right
    rw [if_neg q1, if_neg q2, if_neg q3, if_neg q4, if_neg q1', if_neg q2', if_neg q3', if_neg q4']
    exact ⟨_, _, rfl, rfl, clamp_mono h1, clamp_mono h2, clamp_mono h3, hr, hw, rfl⟩

/-- Every pixel gets no less of the stronger dab. -/
theorem opacity_stronger {env : Dab.Env K} {op op' : Op K} (hv : op.Valid) (hv' : op'.Valid) (h1 : op.hardness ≤ op'.hardness)
    (h2 : op'.softness ≤ op.softness) (hr : op.radius ≤ op'.radius) (hw : op'.radius = op.radius ∨ 3 ≤ op.radius)
    (h3 : op' = { op with opaque' := op'.opaque', hardness := op'.hardness, softness := op'.softness, radius := op'.radius }) (X Y : Int) :
    opacity env op X Y ≤ opacity env op' X Y := by
  have hard1 := hv'.hard1
  have soft0 := hv'.soft0
  generalize op'.opaque' = o' at *
  generalize op'.hardness = k' at *
  generalize op'.softness = s' at *
  generalize op'.radius = r' at *
  subst h3
  have key : ∀ rr, rrAt (shapeOf env op) X Y = some rr →
      ∃ rr', rrAt (shapeOf env { op with opaque' := o', hardness := k', softness := s', radius := r' }) X Y = some rr' ∧ rr' ≤ rr := by
    intro rr hrr
    rcases hw with hw | hw
    · exact ⟨rr, by rw [← hrr, hw]; rfl, le_refl _⟩
    · have n1 : ¬ (shapeOf env op).radius < 3 := not_lt.mpr hw
      have n2 : ¬ (shapeOf env { op with opaque' := o', hardness := k', softness := s', radius := r' }).radius < 3 := not_lt.mpr (hw.trans hr)
      unfold rrAt at hrr ⊢
      rw [if_neg n1] at hrr
      rw [if_neg n2]
      refine ⟨_, rfl, ?_⟩
      rw [← Option.some.inj hrr]
      unfold rrPlain
      dsimp only [shapeOf]
      refine mul_le_mul_of_nonneg_left ?_ (add_nonneg (mul_self_nonneg _) (mul_self_nonneg _))
      have hp : (0 : K) < op.radius := by linarith
      exact one_div_le_one_div_of_le (mul_pos hp hp) (mul_self_le_mul_self hp.le hr)
  unfold opacity opacityAt
  cases hrr : rrAt (shapeOf env op) X Y with
  | none => exact Nat.zero_le _
  | some rr =>
    obtain ⟨rr', hrr', hle⟩ := key rr hrr
    rw [hrr']
    unfold opaU16
    dsimp only [shapeOf]
    rw [clampK_of_mem hv.hard0.le hv.hard1, clampK_of_mem (hv.hard0.le.trans h1) hard1]
    refine Int.toNat_le_toNat (Int.floor_le_floor (mul_le_mul_of_nonneg_right ?_ (by norm_num)))
    have r0' := rrAt_nonneg hrr'
    exact (opaOf_harder hv.hard0 h1 hard1 h2 hv.soft1.le (rrAt_nonneg hrr)).trans
      (opaOf_antitone (hv.hard0.trans_le h1) hard1 soft0 (h2.trans hv.soft1.le) r0' hle)

omit [LinearOrder K] [IsStrictOrderedRing K] [FloorRing K] in
theorem normal_covers {c : Blend.Color} (hc : c.Valid) {o m : Nat} (hm : m ≤ 32768) (ho : o ≤ 32768) {p p' : Px}
    (h : CoveredMore p p') : CoveredMore p (normal c o m p') :=
  ⟨h.1, normal_valid hm ho hc h.2.1, h.2.2.trans (normal_between hm ho hc h.2.1).2.2.2.1⟩

theorem strength_mono {v v' : K} (h : v ≤ v') : strength v ≤ strength v' := by
  unfold strength Spectral.toUInt
  have := Int.floor_le_floor (mul_le_mul_of_nonneg_right h (show (0 : K) ≤ 32768 by norm_num))
  omega

theorem pixelDab_covers {env : Dab.Env K} (he : env.Valid) {a a' : Args K} (h : Covers a a') (ha : PlainDab a) {X Y : Int} {p p' q q' : Px}
    (hc : CoveredMore p p') (hq : pixelDab env X Y p a = .ok q) (hq' : pixelDab env X Y p' a' = .ok q') : CoveredMore q q' := by
  have ha' : PlainDab a' := by
    rw [h.1.2.2.2.2]
    exact ⟨ha.1, ha.2, ha.3, ha.4, ha.5⟩
  rcases prepare_stronger h with ⟨f, f', k1, k2⟩ | k | ⟨op, op', k1, k2, k3, k4, k5, k7, k8, k6⟩
  · unfold pixelDab at hq hq'
    rw [k1] at hq
    rw [k2] at hq'
    cases hq
    cases hq'
    exact hc
  · have e1 : p = q := by
      unfold pixelDab at hq
      rw [k] at hq
      exact Except.ok.inj hq
    subst e1
    cases hp : prepare a' with
    | error f =>
      unfold pixelDab at hq'
      rw [hp] at hq'
      cases hq'
      exact hc
    | ok o =>
      cases o with
      | none =>
        unfold pixelDab at hq'
        rw [hp] at hq'
        cases hq'
        exact hc
      | some op =>
        obtain ⟨j1, j2, j3, j4⟩ := pixelDab_plain he ha' hp X Y p'
        rw [j1] at hq'
        rw [← Except.ok.inj hq']
        split_ifs
        · exact hc
        · exact normal_covers j4 j2 j3 hc
  · obtain ⟨j1, -, -, -⟩ := pixelDab_plain he ha k1 X Y p
    obtain ⟨j1', j2, j3, j4⟩ := pixelDab_plain he ha' k2 X Y p'
    have eo := opacity_stronger (env := env) (prepare_valid k1) (prepare_valid k2) k4 k5 k7 k8 k6 X Y
    have ec : op'.color = op.color := by rw [k6]
    rw [j1] at hq
    rw [j1', ec] at hq'
    rw [← Except.ok.inj hq, ← Except.ok.inj hq']
    rw [ec] at j4
    by_cases w : opacity env op X Y = 0
    · rw [if_pos w]
      split_ifs
      · exact hc
      · exact normal_covers j4 j2 j3 hc
    · rw [if_neg w, if_neg (by omega)]
      exact normal_stronger j4 eo j2 (strength_mono k3) j3 hc

theorem pixelDab_takes {env : Dab.Env K} (he : env.Valid) {a a' : Args K} (h : Covers a a') (ha : ErasingDab a) {X Y : Int} {p p' q q' : Px}
    (hc : ErasedMore p p') (hq : pixelDab env X Y p a = .ok q) (hq' : pixelDab env X Y p' a' = .ok q') : ErasedMore q q' := by
  have ha' : ErasingDab a' := by
    rw [h.1.2.2.2.2]
    exact ⟨ha.1, ha.2, ha.3, ha.4, ha.5⟩
  rcases prepare_stronger h with ⟨f, f', k1, k2⟩ | k | ⟨op, op', k1, k2, k3, k4, k5, k7, k8, k6⟩
  · unfold pixelDab at hq hq'
    rw [k1] at hq
    rw [k2] at hq'
    cases hq
    cases hq'
    exact hc
  · have e1 : p = q := by
      unfold pixelDab at hq
      rw [k] at hq
      exact Except.ok.inj hq
    subst e1
    cases hp : prepare a' with
    | error f =>
      unfold pixelDab at hq'
      rw [hp] at hq'
      cases hq'
      exact hc
    | ok o =>
      cases o with
      | none =>
        unfold pixelDab at hq'
        rw [hp] at hq'
        cases hq'
        exact hc
      | some op =>
        obtain ⟨j1, j2, j3, j4⟩ := pixelDab_erasing he ha' hp X Y p'
        rw [j1] at hq'
        rw [← Except.ok.inj hq']
        split_ifs
        · exact hc
        · exact erase_takes j4 j2 j3 hc
  · obtain ⟨j1, -, -, -⟩ := pixelDab_erasing he ha k1 X Y p
    obtain ⟨j1', j2, j3, j4⟩ := pixelDab_erasing he ha' k2 X Y p'
    have eo := opacity_stronger (env := env) (prepare_valid k1) (prepare_valid k2) k4 k5 k7 k8 k6 X Y
    have ec : op'.color = op.color := by rw [k6]
    rw [j1] at hq
    rw [j1', ec] at hq'
    rw [← Except.ok.inj hq, ← Except.ok.inj hq']
    rw [ec] at j4
    by_cases w : opacity env op X Y = 0
    · rw [if_pos w]
      split_ifs
      · exact hc
      · exact erase_takes j4 j2 j3 hc
    · rw [if_neg w, if_neg (by omega)]
      exact erase_stronger j4 eo j2 (strength_mono k3) j3 hc

/-! ### The picture -/

theorem copies_stronger (d : Data K) {a a' : Args K} (h : Covers a a') :
    List.Forall₂ Covers (a :: Spec.Now.copies d a) (a' :: Spec.Now.copies d a') := by
  refine .cons h ?_
  obtain ⟨⟨h1, h2, h3, hr, h4⟩, hw⟩ := h
  generalize a'.opaque' = o' at h1 h4
  generalize a'.hardness = k' at h2 h4
  generalize a'.softness = s' at h3 h4
  generalize a'.radius = r' at hr hw h4
  subst h4
  unfold Spec.Now.copies
  dsimp only
  split
  · rw [List.forall₂_map_left_iff, List.forall₂_map_right_iff]
    exact List.forall₂_same.mpr fun p _ => ⟨⟨h1, h2, h3, hr, rfl⟩, hw⟩
  · exact .nil

/-- What holds of a dab and not of its place holds of the copies. -/
theorem copies_like {Q : Args K → Prop} (hQ : ∀ a x y θ, Q a → Q { a with x := x, y := y, angle := θ }) (d : Data K) {a : Args K} (h : Q a) :
    ∀ x ∈ a :: Spec.Now.copies d a, Q x := by
  intro x hx
  rcases List.mem_cons.mp hx with q | q
  · rw [q]; exact h
  · unfold Spec.Now.copies at q
    split at q
    · obtain ⟨y, -, e⟩ := List.mem_map.mp q
      rw [← e]
      exact hQ a _ _ _ h
    · cases q

theorem draw_stronger {e : Engine.Env K R σ} {env : Dab.Env K} (he : env.Valid) {d : Data K} {sch : Schedule} {s s' : Load.Brush K}
    (hw : Sharp s s' ∨ LargeDabs e s) {T : Px → Px → Prop}
    {Q : Args K → Prop} (hQ : ∀ a x y θ, Q a → Q { a with x := x, y := y, angle := θ }) (hs : ∀ a, LooksOf s a → (PlainColour s → OwnColour s a) → Q a)
    (hT : ∀ a a' X Y p p' q q', Covers a a' → Q a → T p p' → pixelDab env X Y p a = .ok q → pixelDab env X Y p' a' = .ok q' → T q q') :
    DrawnStronger (e.on (Spec.Now.draw env d) (Spec.Now.getColor env sch)) s s'
      (fun v v' => ∀ X Y p p', pixel v.canvas X Y = .ok p → pixel v'.canvas X Y = .ok p' → T p p') := by
  intro v v' a a' hc g1 g2 g3 g4 ha
  have h : Covers a a' := by
    rcases hw with hw | hw
    · exact .of_noWeaker (g1 hw)
    · exact ⟨g2 hw.snap, .inr (g3 ⟨hw.radius, hw.random, hw.snap⟩)⟩
  show ∀ X Y p p', pixel (Spec.Now.draw env d v a).2.canvas X Y = .ok p → pixel (Spec.Now.draw env d v' a').2.canvas X Y = .ok p' → T p p'
  rw [draw_all, draw_all]
  have key : ∀ {l l' : List (Args K)}, List.Forall₂ Covers l l' → (∀ a ∈ l, Q a) → ∀ c c' : Canvas,
      (∀ X Y p p', pixel c X Y = .ok p → pixel c' X Y = .ok p' → T p p') →
      ∀ X Y p p', pixel (l.foldl (Spec.Now.dabAt env) c) X Y = .ok p → pixel (l'.foldl (Spec.Now.dabAt env) c') X Y = .ok p' → T p p' := by
    intro l l' hl
    induction hl with
    | nil => intro _ c c' hcc; exact hcc
    | cons h1 _ ih =>
      intro hq c c' hcc
      refine ih (fun a q => hq a (List.mem_cons_of_mem _ q)) _ _ ?_
      intro X Y q q' w w'
      obtain ⟨p, hp, k1⟩ := dabAt_pixel he w
      obtain ⟨p', hp', k1'⟩ := dabAt_pixel he w'
      exact hT _ _ X Y p p' q q' h1 (hq _ List.mem_cons_self) (hcc X Y p p' hp hp') k1 k1'
  exact key (copies_stronger d h) (copies_like hQ d (hs a ha g4)) _ _ hc

/-! ### The theorems -/

/-- **C128** Two sessions from the same point of the history of a surface, with the same events in blocks of any kind, the second with a brush that
is more opaque, harder and less soft. With another hardness and anti-aliasing the dabs have a radius of at least three pixels. If the brush paints plainly, no pixel is more transparent after the second. -/
theorem stronger_leaves_no_less_paint {e : Engine.Env K R σ} (hg : GrowingLaws e) {b : Build} {env : Dab.Env K} (he : env.Valid) {trig : Trig K}
    {sch : Schedule} {fuel : Nat} {s t t' : Studio K R} (hf : s.Fine b env trig) (hd : InForce s.surf.symm)
    (hc : CanvasValid s.surf.surf.canvas) {s' : Load.Brush K} (hs : Stronger s.brush.settings s')
    (hw : Sharp s.brush.settings s' ∨ LargeDabs e s.brush.settings) (hp : PaintsPlainly s.brush.settings)
    {bls bls' : List (Block K)} (hq : Unswerving bls) (hq' : Unswerving bls') (hms : bls.flatMap Block.motions = bls'.flatMap Block.motions)
    (h : paint e b env trig sch fuel s bls = .ok t) (h' : paint e b env trig sch fuel (s.withSettings s') bls' = .ok t') :
    NoLessPaint t.surf.surf.canvas t'.surf.surf.canvas := by
  have k := paint_now bls hf.surf hd.agree hq h
  have k' := paint_now bls' (s := s.withSettings s') hf.surf hd.agree hq' h'
  unfold Spec.Now.paint at k k'
  rw [← hms] at k'
  have z := strokes_strong (e := e.on (Spec.Now.draw env s.surf.symm) (Spec.Now.getColor env sch)) ⟨hg.exp, hg.pow⟩ hs
    (draw_stronger he hw (T := CoveredMore) (Q := PlainDab) (fun _ _ _ _ w => ⟨w.1, w.2, w.3, w.4, w.5⟩)
      (fun a ⟨i, a1, a2, a3, a4, a5⟩ _ => ⟨a1 ▸ hp.lock i, a2 ▸ hp.colorize i, a3 ▸ hp.posterize i, a4 ▸ hp.pigment i, by rw [a5, hp.eraser, sub_zero]⟩)
      (fun _ _ _ _ _ _ _ _ w1 w2 w3 w4 w5 => pixelDab_covers he w1 w2 w3 w4 w5)) _
    (b' := { s.brush with settings := s' }) ⟨rfl, rfl, rfl, fun _ _ => rfl, rfl, rfl, rfl, rfl, rfl, rfl, rfl⟩ (by exact (start_alike hc).1) k k'
  intro X Y p p' h1 h2
  exact (z X Y p p' h1 h2).2.2

/-- **C128** The same for an eraser: no pixel keeps more. -/
theorem stronger_erases_no_less {e : Engine.Env K R σ} (hg : GrowingLaws e) {b : Build} {env : Dab.Env K} (he : env.Valid) {trig : Trig K}
    {sch : Schedule} {fuel : Nat} {s t t' : Studio K R} (hf : s.Fine b env trig) (hd : InForce s.surf.symm)
    (hc : CanvasValid s.surf.surf.canvas) {s' : Load.Brush K} (hs : Stronger s.brush.settings s')
    (hw : Sharp s.brush.settings s' ∨ LargeDabs e s.brush.settings) (hp : ErasesFully s.brush.settings)
    {bls bls' : List (Block K)} (hq : Unswerving bls) (hq' : Unswerving bls') (hms : bls.flatMap Block.motions = bls'.flatMap Block.motions)
    (h : paint e b env trig sch fuel s bls = .ok t) (h' : paint e b env trig sch fuel (s.withSettings s') bls' = .ok t') :
    NoMorePaint t.surf.surf.canvas t'.surf.surf.canvas := by
  have k := paint_now bls hf.surf hd.agree hq h
  have k' := paint_now bls' (s := s.withSettings s') hf.surf hd.agree hq' h'
  unfold Spec.Now.paint at k k'
  rw [← hms] at k'
  have z := strokes_strong (e := e.on (Spec.Now.draw env s.surf.symm) (Spec.Now.getColor env sch)) ⟨hg.exp, hg.pow⟩ hs
    (draw_stronger he hw (T := ErasedMore) (Q := ErasingDab) (fun _ _ _ _ w => ⟨w.1, w.2, w.3, w.4, w.5⟩)
      (fun a ⟨i, a1, a2, a3, a4, a5⟩ _ => ⟨a1 ▸ hp.lock i, a2 ▸ hp.colorize i, a3 ▸ hp.posterize i, a4 ▸ hp.pigment i, by rw [a5]; linarith [hp.eraser i]⟩)
      (fun _ _ _ _ _ _ _ _ w1 w2 w3 w4 w5 => pixelDab_takes he w1 w2 w3 w4 w5)) _
    (b' := { s.brush with settings := s' }) ⟨rfl, rfl, rfl, fun _ _ => rfl, rfl, rfl, rfl, rfl, rfl, rfl, rfl⟩ (by exact (start_alike hc).2) k k'
  intro X Y p p' h1 h2
  exact (z X Y p p' h1 h2).2.2

end

namespace Demo

/-- The red brush with a hardness and a softness, without anti-aliasing. -/
def redEdge (h s : ℚ) : Brush ℚ Nat :=
  { red with settings := fun k => if k = sHardness then setBase (red.settings k) h else if k = sSoftness then setBase (red.settings k) s else
      if k = sAntiAliasing then Engine.Demo.constant 0 else red.settings k }

theorem redEdge_stronger {h h' s s' : ℚ} (hh : h ≤ h') (hs : s' ≤ s) : Stronger (redEdge h s).settings (redEdge h' s').settings := by
  refine ⟨fun k hk => ?_, fun k hk i => ?_, fun i => ?_, fun i => ?_, ⟨fun i => ?_, rfl⟩, ?_⟩
  · have k1 : k ≠ sHardness := by rintro rfl; exact hk (by decide)
    have k2 : k ≠ sSoftness := by rintro rfl; exact hk (by decide)
    simp only [redEdge, if_neg k1, if_neg k2]
  · rcases hk with rfl | rfl
    · exact le_refl (calculate (red.settings sOpaque) i)
    · exact le_refl (calculate (red.settings sOpaqueMultiply) i)
  · show calculate (setBase (red.settings sHardness) h) i ≤ calculate (setBase (red.settings sHardness) h') i
    rw [calculate_base, calculate_base]
    linarith
  · show calculate (setBase (red.settings sSoftness) s') i ≤ calculate (setBase (red.settings sSoftness) s) i
    rw [calculate_base, calculate_base]
    linarith
  · show calculate (red.settings sSmudge) i = 0
    rw [red_value]
    decide +kernel
  · show (0 : ℚ) ≤ (red.settings sOpaqueLinearize).base
    decide +kernel

theorem redEdge_sharp (h h' s s' : ℚ) : Sharp (redEdge h s).settings (redEdge h' s').settings := .inr fun _ => le_refl (0 : ℚ)

/-- The softness alone may change with anti-aliasing too, as in the red brush. -/
example {s : ℚ} (h : s ≤ (red.settings sSoftness).base) :
    Stronger red.settings (fun k => if k = sSoftness then setBase (red.settings k) s else red.settings k) ∧
      Sharp red.settings (fun k => if k = sSoftness then setBase (red.settings k) s else red.settings k) := by
  refine ⟨?_, .inl rfl⟩
  refine ⟨fun k hk => ?_, fun k hk i => ?_, fun i => le_refl _, fun i => ?_, ⟨fun i => ?_, rfl⟩, by decide +kernel⟩
  · have k2 : k ≠ sSoftness := by rintro rfl; exact hk (by decide)
    rw [if_neg k2]
  · rcases hk with rfl | rfl
    · exact le_refl (calculate (red.settings sOpaque) i)
    · exact le_refl (calculate (red.settings sOpaqueMultiply) i)
  · show calculate (setBase (red.settings sSoftness) s) i ≤ calculate (red.settings sSoftness) i
    rw [calculate_base]
    linarith
  · rw [red_value]
    decide +kernel

theorem redEdge_plain (h s : ℚ) : PaintsPlainly (redEdge h s).settings := by
  have v : ∀ id, id ≠ sHardness → id ≠ sSoftness → id ≠ sAntiAliasing → ∀ i, calculate ((redEdge h s).settings id) i = (red.settings id).base := by
    intro id h1 h2 h3 i
    simp only [redEdge, if_neg h1, if_neg h2, if_neg h3]
    exact red_value id i
  refine ⟨?_, ?_, ?_, ?_, ?_⟩
  all_goals
    intro i
    rw [v _ (by decide) (by decide) (by decide)]
    decide +kernel

/-- The stroke with an edge of medium hardness. -/
example : (observe (redEdge (1 / 2) 0) ⟨0, 0, 0, 0⟩ events [(61, 10), (64, 10), (66, 10), (66, 12), (66, 30)]).map Prod.snd =
    some [some ⟨29480, 0, 0, 29480⟩, some ⟨32648, 0, 0, 32648⟩, some ⟨29480, 0, 0, 29480⟩, some ⟨6371, 0, 0, 6371⟩, some ⟨0, 0, 0, 0⟩] := by decide +kernel

/-- With a harder edge. -/
example : (observe (redEdge (3 / 4) 0) ⟨0, 0, 0, 0⟩ events [(61, 10), (64, 10), (66, 10), (66, 12), (66, 30)]).map Prod.snd =
    some [some ⟨32402, 0, 0, 32402⟩, some ⟨32763, 0, 0, 32763⟩, some ⟨32402, 0, 0, 32402⟩, some ⟨19114, 0, 0, 19114⟩, some ⟨0, 0, 0, 0⟩] := by decide +kernel

/-- With a softer one. -/
example : (observe (redEdge (1 / 2) (1 / 4)) ⟨0, 0, 0, 0⟩ events [(61, 10), (64, 10), (66, 10), (66, 12), (66, 30)]).map Prod.snd =
    some [some ⟨23579, 0, 0, 23579⟩, some ⟨30722, 0, 0, 30722⟩, some ⟨23579, 0, 0, 23579⟩, some ⟨4778, 0, 0, 4778⟩, some ⟨0, 0, 0, 0⟩] := by decide +kernel

/-- A red brush with bigger dabs, a hardness and the anti-aliasing of the red brush. -/
def redLarge (h : ℚ) : Brush ℚ Nat :=
  { red with settings := fun k => if k = sHardness then setBase (red.settings k) h else
      if k = sRadiusLogarithmic then Engine.Demo.constant 3 else red.settings k }

theorem redLarge_stronger {h h' : ℚ} (hh : h ≤ h') : Stronger (redLarge h).settings (redLarge h').settings := by
  refine ⟨fun k hk => ?_, fun k hk i => ?_, fun i => ?_, fun i => le_refl _, ⟨fun i => ?_, rfl⟩, ?_⟩
  · have k1 : k ≠ sHardness := by rintro rfl; exact hk (by decide)
    simp only [redLarge, if_neg k1]
  · rcases hk with rfl | rfl
    · exact le_refl (calculate (red.settings sOpaque) i)
    · exact le_refl (calculate (red.settings sOpaqueMultiply) i)
  · show calculate (setBase (red.settings sHardness) h) i ≤ calculate (setBase (red.settings sHardness) h') i
    rw [calculate_base, calculate_base]
    linarith
  · show calculate (red.settings sSmudge) i = 0
    rw [red_value]
    decide +kernel
  · show (0 : ℚ) ≤ (red.settings sOpaqueLinearize).base
    decide +kernel

theorem redLarge_large (h : ℚ) : LargeDabs Engine.Demo.env (redLarge h).settings := by
  refine ⟨fun i => ?_, fun i => ?_, fun i => ?_⟩
  · show (3 : ℚ) ≤ Engine.Demo.env.exp 3
    decide +kernel
  · show calculate (red.settings sRadiusByRandom) i = 0
    rw [red_value]
    decide +kernel
  · show calculate (red.settings sSnapToPixel) i ≤ 0
    rw [red_value]
    decide +kernel

/-- Its stroke with a hard edge and with a perfectly hard one. -/
example : (observe (redLarge (4 / 5)) ⟨0, 0, 0, 0⟩ events [(61, 10), (64, 10), (66, 12), (64, 13), (66, 13), (69, 10)]).map Prod.snd =
    some [some ⟨32390, 0, 0, 32390⟩, some ⟨32752, 0, 0, 32752⟩, some ⟨27423, 0, 0, 27423⟩, some ⟨28255, 0, 0, 28255⟩, some ⟨13959, 0, 0, 13959⟩, some ⟨0, 0, 0, 0⟩] := by decide +kernel

example : (observe (redLarge 1) ⟨0, 0, 0, 0⟩ events [(61, 10), (64, 10), (66, 12), (64, 13), (66, 13), (69, 10)]).map Prod.snd =
    some [some ⟨32564, 0, 0, 32564⟩, some ⟨32759, 0, 0, 32759⟩, some ⟨30026, 0, 0, 30026⟩, some ⟨31585, 0, 0, 31585⟩, some ⟨26064, 0, 0, 26064⟩, some ⟨0, 0, 0, 0⟩] := by decide +kernel

/-- The red brush with dabs of a radius a little less than three pixels. -/
def redSmall (h : ℚ) : Brush ℚ Nat :=
  { red with settings := fun k => if k = sHardness then setBase (red.settings k) h else
      if k = sRadiusLogarithmic then Engine.Demo.constant (9 / 5) else red.settings k }

theorem redSmall_stronger {h h' : ℚ} (hh : h ≤ h') : Stronger (redSmall h).settings (redSmall h').settings := by
  refine ⟨fun k hk => ?_, fun k hk i => ?_, fun i => ?_, fun i => le_refl _, ⟨fun i => ?_, rfl⟩, ?_⟩
  · have k1 : k ≠ sHardness := by rintro rfl; exact hk (by decide)
    simp only [redSmall, if_neg k1]
  · rcases hk with rfl | rfl
    · exact le_refl (calculate (red.settings sOpaque) i)
    · exact le_refl (calculate (red.settings sOpaqueMultiply) i)
  · show calculate (setBase (red.settings sHardness) h) i ≤ calculate (setBase (red.settings sHardness) h') i
    rw [calculate_base, calculate_base]
    linarith
  · show calculate (red.settings sSmudge) i = 0
    rw [red_value]
    decide +kernel
  · show (0 : ℚ) ≤ (red.settings sOpaqueLinearize).base
    decide +kernel

/-- **The size matters**: from a radius of three pixels on the mask is no longer sampled finely. A slightly harder brush whose dabs
anti-aliasing makes bigger than that paints less, and one pixel not at all. -/
theorem small_harder_paints_less :
    Stronger (redSmall (39 / 50)).settings (redSmall (4 / 5)).settings ∧
    (observe (redSmall (39 / 50)) ⟨0, 0, 0, 0⟩ events [(60, 7), (63, 7), (64, 10)]).map Prod.snd =
      some [some ⟨7599, 0, 0, 7599⟩, some ⟨30603, 0, 0, 30603⟩, some ⟨32756, 0, 0, 32756⟩] ∧
    (observe (redSmall (4 / 5)) ⟨0, 0, 0, 0⟩ events [(60, 7), (63, 7), (64, 10)]).map Prod.snd =
      some [some ⟨0, 0, 0, 0⟩, some ⟨24807, 0, 0, 24807⟩, some ⟨32754, 0, 0, 32754⟩] :=
  ⟨redSmall_stronger (by norm_num), by decide +kernel, by decide +kernel⟩

end Demo
end Verif.Painting
