import Verif.Lemmas.HardDab
import Verif.Props.C82_Grouping
import Verif.Props.C22_GetColor

/-!
# Lemmas for C98: opaque pictures whose channels lie between bounds
-/

namespace Verif.Painting
open Verif.Full Verif.Dab Verif.Engine Verif.Blend Verif.Map Verif.Mask

/-- An opaque pixel with all channels between the bounds. -/
def SolidPixel (lo hi : Blend.Color) (p : Px) : Prop :=
  p.a = 32768 ∧ (lo.r ≤ p.r ∧ p.r ≤ hi.r) ∧ (lo.g ≤ p.g ∧ p.g ≤ hi.g) ∧ (lo.b ≤ p.b ∧ p.b ≤ hi.b)

/-- A picture of such pixels. -/
def Solid (lo hi : Blend.Color) (c : Canvas) : Prop := ∀ X Y, ∃ p, pixel c X Y = .ok p ∧ SolidPixel lo hi p

theorem SolidPixel.valid {lo hi : Blend.Color} (hh : hi.Valid) {p : Px} (h : SolidPixel lo hi p) : p.Valid := by
  obtain ⟨a, r, g, b⟩ := h
  refine ⟨?_, ?_, ?_, ?_⟩
  · rw [a]; exact r.2.trans hh.1
  · rw [a]; exact g.2.trans hh.2.1
  · rw [a]; exact b.2.trans hh.2.2
  · rw [a]; exact le_refl 32768

theorem Solid.valid {lo hi : Blend.Color} (hh : hi.Valid) {c : Canvas} (h : Solid lo hi c) : CanvasValid c := by
  intro X Y
  obtain ⟨p, h1, h2⟩ := h X Y
  exact ⟨p, h1, h2.valid hh⟩

theorem lerp_between {A l u c v : Nat} (hA : A ≤ 32768) (hu : u ≤ 32768) (hc : l ≤ c ∧ c ≤ u) (hv : l ≤ v ∧ v ≤ u) :
    l ≤ lerpChan A (32768 - A) c v ∧ lerpChan A (32768 - A) c v ≤ u := by
  rw [lerpChan_eq (by omega) (hc.2.trans hu) (hv.2.trans hu)]
  have h1 : A * l + (32768 - A) * l ≤ A * c + (32768 - A) * v :=
    Nat.add_le_add (Nat.mul_le_mul_left _ hc.1) (Nat.mul_le_mul_left _ hv.1)
  have h2 : A * c + (32768 - A) * v ≤ A * u + (32768 - A) * u :=
    Nat.add_le_add (Nat.mul_le_mul_left _ hc.2) (Nat.mul_le_mul_left _ hv.2)
  rw [← Nat.add_mul, show A + (32768 - A) = 32768 by omega] at h1 h2
  generalize A * c + (32768 - A) * v = w at *
  omega

theorem normal_solid {lo hi : Blend.Color} (hh : hi.Valid) {c : Blend.Color} (hc : (lo.r ≤ c.r ∧ c.r ≤ hi.r) ∧
    (lo.g ≤ c.g ∧ c.g ≤ hi.g) ∧ (lo.b ≤ c.b ∧ c.b ≤ hi.b)) {o m : Nat} (hm : m ≤ 32768) (ho : o ≤ 32768) {p : Px}
    (hp : SolidPixel lo hi p) : SolidPixel lo hi (Blend.normal c o m p) := by
  obtain ⟨a, r, g, b⟩ := hp
  have hA := topAlpha_le hm ho
  unfold Blend.normal
  dsimp only
  generalize topAlpha m o = A at hA
  rw [bottomAlpha_eq hA]
  refine ⟨?_, lerp_between hA hh.1 hc.1 r, lerp_between hA hh.2.1 hc.2.1 g, lerp_between hA hh.2.2 hc.2.2 b⟩
  show u16 (overAlpha A (32768 - A) p.a) = 32768
  unfold overAlpha u16 u32
  rw [a]
  omega

theorem lockAlpha_solid {lo hi : Blend.Color} (hh : hi.Valid) {c : Blend.Color} (hc : (lo.r ≤ c.r ∧ c.r ≤ hi.r) ∧
    (lo.g ≤ c.g ∧ c.g ≤ hi.g) ∧ (lo.b ≤ c.b ∧ c.b ≤ hi.b)) {o m : Nat} (hm : m ≤ 32768) (ho : o ≤ 32768) {p : Px}
    (hp : SolidPixel lo hi p) : SolidPixel lo hi (Blend.lockAlpha c o m p) := by
  obtain ⟨a, r, g, b⟩ := hp
  have hA := topAlpha_le hm ho
  unfold Blend.lockAlpha
  dsimp only
  generalize topAlpha m o = A at hA
  rw [bottomAlpha_eq hA, a, show u32 (A * 32768) / 32768 = A by unfold u32; omega]
  exact ⟨rfl, lerp_between hA hh.1 hc.1 r, lerp_between hA hh.2.1 hc.2.1 g, lerp_between hA hh.2.2 hc.2.2 b⟩

section
variable {K R σ : Type} [Field K] [LinearOrder K] [IsStrictOrderedRing K] [FloorRing K]

/-- An opaque colour between the bounds, as the engine has it: from 0 to 1. -/
def Between (lo hi : Blend.Color) (r g b : K) : Prop :=
  ((lo.r : K) / 32768 ≤ r ∧ r ≤ (hi.r : K) / 32768) ∧ ((lo.g : K) / 32768 ≤ g ∧ g ≤ (hi.g : K) / 32768) ∧
    ((lo.b : K) / 32768 ≤ b ∧ b ≤ (hi.b : K) / 32768)

theorem channel_between {l u : Nat} (hu : u ≤ 32768) {v : K} (h : (l : K) / 32768 ≤ v ∧ v ≤ (u : K) / 32768) :
    l ≤ channel v ∧ channel v ≤ u := by
  have hl : (0 : K) ≤ (l : K) / 32768 := by positivity
  have hu' : (u : K) / 32768 ≤ 1 := by
    rw [div_le_one (by norm_num)]
    exact_mod_cast hu
  unfold channel Spectral.toUInt
  rw [clampK_of_mem (hl.trans h.1) (h.2.trans hu')]
  have h1 : (l : K) ≤ v * 32768 := by
    have := mul_le_mul_of_nonneg_right h.1 (show (0 : K) ≤ 32768 by norm_num)
    rwa [div_mul_cancel₀ _ (by norm_num)] at this
  have h2 : v * 32768 ≤ (u : K) := by
    have := mul_le_mul_of_nonneg_right h.2 (show (0 : K) ≤ 32768 by norm_num)
    rwa [div_mul_cancel₀ _ (by norm_num)] at this
  have f1 : (l : Int) ≤ ⌊v * 32768⌋ := Int.le_floor.mpr (by push_cast; exact h1)
  have f2 : ⌊v * 32768⌋ ≤ (u : Int) := by
    have : ⌊v * 32768⌋ < (u : Int) + 1 := Int.floor_lt.mpr (by push_cast; linarith)
    omega
  omega

theorem prepare_color {a : Args K} {op : Op K} (h : prepare a = .ok (some op)) :
    op.color = ⟨channel a.colorR, channel a.colorG, channel a.colorB⟩ := by
  unfold prepare at h
  obtain ⟨n, -, h⟩ := except_bind_ok h
  dsimp only at h
  by_cases h1 : a.radius < 1 / 10
  · rw [if_pos h1] at h; cases h
  by_cases h2 : clampK a.hardness 0 1 = 0
  · rw [if_neg h1, if_pos h2] at h; cases h
  by_cases h3 : clampK a.softness 0 1 = 1
  · rw [if_neg h1, if_neg h2, if_pos h3] at h; cases h
  by_cases h4 : clampK a.opaque' 0 1 = 0
  · rw [if_neg h1, if_neg h2, if_neg h3, if_pos h4] at h; cases h
  rw [if_neg h1, if_neg h2, if_neg h3, if_neg h4] at h
  rw [← Option.some.inj (Except.ok.inj h)]

/-- A dab of an opaque colour in a plain mode without pigment. -/
structure SolidDab (lo hi : Blend.Color) (a : Args K) : Prop where
  alpha : a.colorA = 1
  colorize : a.colorize ≤ 0
  posterize : a.posterize ≤ 0
  paint : a.paint ≤ 0
  colour : Between lo hi a.colorR a.colorG a.colorB

theorem dabAt_solid {env : Dab.Env K} (he : env.Valid) {lo hi : Blend.Color} (hh : hi.Valid) {c : Canvas} (hc : Solid lo hi c)
    {a : Args K} (ha : SolidDab lo hi a) : Solid lo hi (Spec.Now.dabAt env c a) := by
  unfold Spec.Now.dabAt
  cases hp : prepare a with
  | error f => exact hc
  | ok o =>
    cases o with
    | none => exact hc
    | some op =>
      dsimp only
      have hv := prepare_valid hp
      obtain ⟨-, -, -, e1, e2, e3, e4, e5⟩ := prepare_some hp
      rw [ha.alpha, clampK_of_mem zero_le_one le_rfl] at e1
      rw [(clampK_eq_zero a.colorize).mpr ha.colorize] at e3
      rw [(clampK_eq_zero a.posterize).mpr ha.posterize] at e4
      rw [(clampK_eq_zero a.paint).mpr ha.paint] at e5
      have ec : op.color = ⟨channel a.colorR, channel a.colorG, channel a.colorB⟩ := prepare_color hp
      have hcol : (lo.r ≤ op.color.r ∧ op.color.r ≤ hi.r) ∧ (lo.g ≤ op.color.g ∧ op.color.g ≤ hi.g) ∧
          (lo.b ≤ op.color.b ∧ op.color.b ≤ hi.b) := by
        rw [ec]
        exact ⟨channel_between hh.1 ha.colour.1, channel_between hh.2.1 ha.colour.2.1, channel_between hh.2.2 ha.colour.2.2⟩
      have hO : 0 ≤ op.opaque' ∧ op.opaque' ≤ 1 := ⟨hv.opa0.le, hv.opa1⟩
      have hN : 0 ≤ op.normal ∧ op.normal ≤ 1 := by
        rw [hv.normal]
        exact mul_unit (mul_unit (one_sub_unit hv.lock) (one_sub_unit hv.col)) (one_sub_unit hv.post)
      have s1 : strength (op.normal * op.opaque' * (1 - op.paint)) ≤ 32768 :=
        strength_le (mul_unit (mul_unit hN hO) (one_sub_unit hv.paint)).2
      have s2 : strength (op.lockAlpha * op.opaque' * (1 - op.colorize) * (1 - op.posterize) * (1 - op.paint)) ≤ 32768 :=
        strength_le (mul_unit (mul_unit (mul_unit (mul_unit hv.lock hO) (one_sub_unit hv.col)) (one_sub_unit hv.post))
          (one_sub_unit hv.paint)).2
      have hstep : ∀ X Y p, SolidPixel lo hi p →
          ∃ q, pixelStep (modes env op) (opacity env op X Y) p = .ok q ∧ SolidPixel lo hi q := by
        intro X Y p hp
        have hm : opacity env op X Y ≤ 32768 := opacityAt_le (shapeOf_valid he hv) X Y
        generalize opacity env op X Y = m at hm
        unfold pixelStep modes
        generalize strength (op.normal * op.opaque' * (1 - op.paint)) = o1 at s1
        generalize strength (op.lockAlpha * op.opaque' * (1 - op.colorize) * (1 - op.posterize) * (1 - op.paint)) = o2 at s2
        rw [e5, e4, e3, e1]
        simp only [zero_lt_one, if_true, lt_irrefl, if_false, ne_eq, not_true_eq_false, one_ne_zero, not_false_eq_true, and_true,
          List.append_nil, gt_iff_lt]
        have n1 := normal_solid hh hcol hm s1 hp
        have n2 := lockAlpha_solid hh hcol hm s2 hp
        have n3 := lockAlpha_solid hh hcol hm s2 n1
        by_cases q1 : op.normal = 0 <;> by_cases q2 : op.lockAlpha = 0 <;>
          simp only [q1, q2, not_true_eq_false, not_false_eq_true, if_true, if_false, List.append_nil, List.nil_append,
            List.cons_append, List.foldlM_cons, List.foldlM_nil, bind, Except.bind, pure, Except.pure]
        · exact ⟨_, rfl, hp⟩
        · exact ⟨_, rfl, n2⟩
        · exact ⟨_, rfl, n1⟩
        · exact ⟨_, rfl, n3⟩
      have hpix : ∀ X Y, ∃ t, c (tileOfPixel X Y) = .ok t ∧ SolidPixel lo hi (readPx t (offset X Y)) := by
        intro X Y
        obtain ⟨p, hp, hv⟩ := hc X Y
        unfold pixel at hp
        cases ht : c (tileOfPixel X Y) with
        | error e => rw [ht] at hp; cases hp
        | ok t => rw [ht] at hp; cases hp; exact ⟨t, rfl, hv⟩
      intro X Y
      obtain ⟨t, ht, hs⟩ := hpix X Y
      obtain ⟨t', ht'⟩ := dab_defined he hv c (tileOfPixel X Y) t ht (by
        intro X' Y' hT _
        obtain ⟨t2, ht2, hv2⟩ := hpix X' Y'
        rw [hT, ht] at ht2
        cases ht2
        obtain ⟨q, hq, _⟩ := hstep X' Y' _ hv2
        exact ⟨q, hq⟩)
      rw [dab_pixelwise he hv c X Y t t' ht ht']
      have e1 : pixel c X Y = .ok (readPx t (offset X Y)) := by
        unfold pixel; rw [ht]; rfl
      rw [e1]
      split_ifs
      · exact ⟨_, rfl, hs⟩
      · exact hstep X Y _ hs

/-- A dab with its copies. -/
theorem draw_solid {env : Dab.Env K} (he : env.Valid) {lo hi : Blend.Color} (hh : hi.Valid) {v : Spec.Now.Picture}
    (hc : Solid lo hi v.canvas) {a : Args K} (ha : SolidDab lo hi a) (d : Symm.Data K) :
    Solid lo hi (Spec.Now.draw env d v a).2.canvas := by
  unfold Spec.Now.draw
  split_ifs
  · have key : ∀ (l : List (Args K)) (c : Canvas), (∀ a' ∈ l, SolidDab lo hi a') → Solid lo hi c →
        Solid lo hi (l.foldl (Spec.Now.dabAt env) c) := by
      intro l
      induction l with
      | nil => intro c _ h; exact h
      | cons a' l ih =>
        intro c hl h
        exact ih _ (fun x hx => hl x (List.mem_cons_of_mem _ hx)) (dabAt_solid he hh h (hl a' List.mem_cons_self))
    refine key _ _ (fun a' ha' => ?_) hc
    rcases List.mem_cons.mp ha' with q | q
    · rw [q]; exact ha
    · unfold Spec.Now.copies at q
      split at q
      · obtain ⟨x, -, e⟩ := List.mem_map.mp q
        rw [← e]
        exact ⟨ha.alpha, ha.colorize, ha.posterize, ha.paint, ha.colour⟩
      · cases q
  · exact hc

/-! ### Sampling -/

theorem average_between (W : Int × Int → Nat) (f : Int × Int → Nat) {l u : Nat} (hl : l = 0 ∨ l = 32768) (hu : u ≤ 32768)
    (S : List (Int × Int)) (hf : ∀ P ∈ S, l ≤ f P ∧ f P ≤ u) :
    (l : K) / 32768 * (S.map fun P => (W P : K)).sum ≤ (S.map fun P => ((W P * f P / 32768 : Nat) : K)).sum ∧
      (S.map fun P => ((W P * f P / 32768 : Nat) : K)).sum ≤ (u : K) / 32768 * (S.map fun P => (W P : K)).sum := by
  induction S with
  | nil => simp
  | cons P S ih =>
    obtain ⟨i1, i2⟩ := ih fun Q hQ => hf Q (List.mem_cons_of_mem _ hQ)
    obtain ⟨f1, f2⟩ := hf P List.mem_cons_self
    simp only [List.map_cons, List.sum_cons]
    have k1 : (l : K) / 32768 * W P ≤ ((W P * f P / 32768 : Nat) : K) := by
      rcases hl with rfl | rfl
      · simp
      · have : f P = 32768 := by omega
        rw [this, Nat.mul_div_cancel _ (by norm_num)]
        norm_num
    have k2 : ((W P * f P / 32768 : Nat) : K) ≤ (u : K) / 32768 * W P := by
      have h1 : 32768 * (W P * f P / 32768) ≤ W P * u := (Nat.mul_div_le _ _).trans (Nat.mul_le_mul_left _ f2)
      have h2 : (32768 : K) * ((W P * f P / 32768 : Nat) : K) ≤ W P * u := by exact_mod_cast h1
      linarith
    constructor <;> linarith

/-- A colour picked from such a picture. -/
theorem look_solid {env : Dab.Env K} (he : Sample.EnvOk env) {lo hi : Blend.Color} (hh : hi.Valid)
    (hl : (lo.r = 0 ∨ lo.r = 32768) ∧ (lo.g = 0 ∨ lo.g = 32768) ∧ (lo.b = 0 ∨ lo.b = 32768)) {c : Canvas} (hc : Solid lo hi c)
    {x y radius : K} (hr : Sample.Reasonable x y radius) {order : List TileIndex → List TileIndex} (ho : ∀ l, (order l).Perm l)
    (coin : TileIndex → Nat → Bool) :
    ∃ r, Spec.Now.look env c x y radius (-1) order coin = .ok r ∧ r.a = 1 ∧ Between lo hi r.r r.g r.b := by
  have hval := hc.valid hh
  obtain ⟨q, hq, hrel, -⟩ := OpQueue.new_rel (β := Op K) .normal
  have hst : Surf.Stands .normal (kind env) (⟨q, c⟩ : Surf (Op K) (Except Fault Tile)) Spec.OpQueue.init c :=
    ⟨hrel, fun _ => rfl, fun t ht => absurd rfl ht⟩
  obtain ⟨S, s', st', hS, hne, -, hg⟩ := Sample.getColor_legacy he hr hst hval (show (-1 : K) < 0 by norm_num) order ho coin
  have hlook : Spec.Now.look env c x y radius (-1) order coin =
      .ok (Sample.legacyAverage (Sample.weight env x y radius) c S) := by
    unfold Sample.getColor at hg
    unfold Spec.Now.look
    dsimp only at hg ⊢
    by_cases hc : Sample.convertible x y (Sample.shape x y radius env.rad1).radius = false
    · rw [if_pos hc] at hg
      cases hg
    · rw [if_neg hc] at hg ⊢
      obtain ⟨n, h1, hg⟩ := except_bind_ok hg
      obtain ⟨⟨vs, s'⟩, h2, hg⟩ := except_bind_ok hg
      obtain ⟨acc, h3, hg⟩ := except_bind_ok hg
      obtain ⟨res, h4, hg⟩ := except_bind_ok hg
      obtain ⟨s1, st1, g1, g2, -⟩ := Surf.stands_sample (order (Sample.tilesFor x y (Sample.shape x y radius env.rad1).radius))
        _ _ c hst
      rw [g1] at h2
      cases h2
      simp only [h1, bind, Except.bind, h3]
      rw [h4]
      have := congrArg Prod.fst (Except.ok.inj hg)
      exact congrArg Except.ok this
  refine ⟨_, hlook, ?_⟩
  generalize Sample.weight env x y radius = W at hS ⊢
  have hpx : ∀ P, SolidPixel lo hi (Sample.px c P) := by
    intro P
    obtain ⟨p, h1, h2⟩ := hc P.1 P.2
    rw [Sample.px_of_pixel h1]; exact h2
  have hA : (S.map fun P => ((W P * (Sample.px c P).a / 32768 : Nat) : K)).sum = (S.map fun P => (W P : K)).sum := by
    refine congrArg List.sum (List.map_congr_left fun P _ => ?_)
    rw [(hpx P).1, Nat.mul_div_cancel _ (by norm_num)]
  have hpos : 0 < (S.map fun P => (W P : K)).sum := by
    obtain ⟨P0, hP0⟩ := List.exists_mem_of_ne_nil S hne
    exact Sample.total_pos S (fun P => (W P : K)) (fun _ _ => Nat.cast_nonneg _) hP0
      (Nat.cast_pos.mpr (Nat.pos_of_ne_zero ((hS.2 P0).mp hP0)))
  unfold Sample.legacyAverage
  rw [hA, if_pos hpos]
  refine ⟨div_self hpos.ne', ?_⟩
  have fin : ∀ (f : Px → Nat) {l u : Nat}, (l = 0 ∨ l = 32768) → u ≤ 32768 → (∀ P, l ≤ f (Sample.px c P) ∧ f (Sample.px c P) ≤ u) →
      (l : K) / 32768 ≤ (S.map fun P => ((W P * f (Sample.px c P) / 32768 : Nat) : K)).sum / (S.map fun P => (W P : K)).sum ∧
      (S.map fun P => ((W P * f (Sample.px c P) / 32768 : Nat) : K)).sum / (S.map fun P => (W P : K)).sum ≤ (u : K) / 32768 := by
    intro f l u h1 h2 h3
    obtain ⟨k1, k2⟩ := average_between (K := K) W (fun P => f (Sample.px c P)) h1 h2 S fun P _ => h3 P
    exact ⟨(le_div_iff₀ hpos).mpr k1, (div_le_iff₀ hpos).mpr k2⟩
  exact ⟨fin (·.r) hl.1 hh.1 fun P => (hpx P).2.1, fin (·.g) hl.2.1 hh.2.1 fun P => (hpx P).2.2.1,
    fin (·.b) hl.2.2 hh.2.2 fun P => (hpx P).2.2.2⟩

end
end Verif.Painting
