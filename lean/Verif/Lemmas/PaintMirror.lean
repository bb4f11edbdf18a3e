import Verif.Spec.Mirror
import Verif.Lemmas.MaskMirror
import Verif.Lemmas.PaintNow
import Verif.Lemmas.PaintingSlide
import Verif.Props.C24_Symmetry

/-!
# Drawing a dab and its mirror image
-/

namespace Verif.Painting
open Verif.Full Verif.Dab Verif.Engine Verif.Blend Verif.Mask Verif.Symm

section
variable {K R σ : Type} [Field K] [LinearOrder K] [IsStrictOrderedRing K] [FloorRing K]

/-- The mirror image of a dab. -/
def mirrorDab (l : Line) (a : Args K) : Args K :=
  match l with
  | .upright n => { a with x := n - a.x, angle := -180 - a.angle }
  | .level n => { a with y := n - a.y, angle := -a.angle }

/-- The mirror image of an operation. -/
def mirrorOp (l : Line) (op : Op K) : Op K :=
  match l with
  | .upright n => { op with x := n - op.x, angle := -180 - op.angle }
  | .level n => { op with y := n - op.y, angle := -op.angle }

theorem image_image (l : Line) (X Y : Int) : l.image (l.image X Y).1 (l.image X Y).2 = (X, Y) := by
  cases l <;> simp only [Line.image] <;> ext <;> simp

/-- The copy of a dab is its mirror image. -/
theorem copies_mirror {trig : Trig K} (ht : trig.Laws) {l : Line} {d : Data K} (hi : Inv trig d) (hm : MirrorsAt l d)
    (a : Args K) : Spec.Now.copies d a = [mirrorDab l a] := by
  obtain ⟨h1, h2, h3, h4⟩ := hm
  cases l with
  | upright n =>
    obtain ⟨h4, h5⟩ := h4
    have hp := pass_ok hi.holds (i := 0) (le_refl _) (by unfold count; rw [h4]; exact Int.one_pos) a.x a.y (-2 * (90 + d.current.angle) - a.angle) 1
    have e : point (mat trig d.current 0) a.x a.y = ((n : K) - a.x, a.y) := by
      unfold mat raw
      simp only [h4]
      have := matrix_reflect ht d.current.cx d.current.cy (-(d.current.angle * (trig.pi / 180) + trig.pi / 2)) (a.x, a.y)
      simp only at this
      rw [this, reflectIn_eq ht, h3]
      obtain ⟨k1, k2⟩ := double_add_half_pi ht (0 * (trig.pi / 180))
      obtain ⟨z1, z2⟩ := cos_zero ht
      rw [k1, k2]
      simp only [zero_mul, neg_zero, add_zero, z1, z2]
      ext
      · simp only; linear_combination h5
      · simp only; ring
    rw [e] at hp
    unfold Spec.Now.copies passes
    rw [if_pos ⟨h1, h2⟩]
    simp only [h4, hp, bind, Except.bind, pure, Except.pure, List.map_cons, List.map_nil, mirrorDab]
    rw [h3]
    congr 2
    ring
  | level n =>
    obtain ⟨h4, h5⟩ := h4
    have hp := pass_ok hi.holds (i := 0) (le_refl _) (by unfold count; rw [h4]; exact Int.one_pos) a.x a.y (-2 * d.current.angle - a.angle) 1
    have e : point (mat trig d.current 0) a.x a.y = (a.x, (n : K) - a.y) := by
      unfold mat raw
      simp only [h4]
      have := matrix_reflect ht d.current.cx d.current.cy (-(d.current.angle * (trig.pi / 180))) (a.x, a.y)
      simp only at this
      rw [this, reflectIn_eq ht, h3]
      obtain ⟨z1, z2⟩ := cos_zero ht
      simp only [zero_mul, neg_zero, add_zero, z1, z2]
      ext
      · simp only; ring
      · simp only; linear_combination h5
    rw [e] at hp
    unfold Spec.Now.copies passes
    rw [if_pos ⟨h1, h2⟩]
    simp only [h4, hp, bind, Except.bind, pure, Except.pure, List.map_cons, List.map_nil, mirrorDab]
    rw [h3]
    congr 2
    ring

omit [IsStrictOrderedRing K] in
theorem prepare_mirror (l : Line) (a : Args K) :
    prepare (mirrorDab l a) = (prepare a).map (Option.map (mirrorOp l)) := by
  cases l <;>
  · unfold prepare mirrorDab
    dsimp only
    cases toInt (a.posterizeNum * 100 + 1 / 2) with
    | error f => rfl
    | ok n =>
      simp only [bind, Except.bind]
      by_cases h1 : a.radius < 1 / 10
      · simp only [if_pos h1]; rfl
      by_cases h2 : clampK a.hardness 0 1 = 0
      · simp only [if_neg h1, if_pos h2]; rfl
      by_cases h3 : clampK a.softness 0 1 = 1
      · simp only [if_neg h1, if_neg h2, if_pos h3]; rfl
      by_cases h4 : clampK a.opaque' 0 1 = 0
      · simp only [if_neg h1, if_neg h2, if_neg h3, if_pos h4]; rfl
      simp only [if_neg h1, if_neg h2, if_neg h3, if_neg h4]; rfl

theorem mirrorOp_valid {l : Line} {op : Op K} (h : op.Valid) : (mirrorOp l op).Valid := by
  cases h
  cases l <;> constructor <;> assumption

theorem prepare_args {a : Args K} {op : Op K} (h : prepare a = .ok (some op)) :
    op.x = a.x ∧ op.y = a.y ∧ op.radius = a.radius ∧ op.angle = a.angle := by
  unfold prepare at h
  cases hn : toInt (a.posterizeNum * 100 + 1 / 2) with
  | error e => simp only [hn, bind, Except.bind, reduceCtorEq] at h
  | ok n =>
    simp only [hn, bind, Except.bind, pure, Except.pure] at h
    by_cases h1 : a.radius < 1 / 10
    · simp only [if_pos h1, Except.ok.injEq, reduceCtorEq] at h
    by_cases h2 : clampK a.hardness 0 1 = 0
    · simp only [if_neg h1, if_pos h2, Except.ok.injEq, reduceCtorEq] at h
    by_cases h3 : clampK a.softness 0 1 = 1
    · simp only [if_neg h1, if_neg h2, if_pos h3, Except.ok.injEq, reduceCtorEq] at h
    by_cases h4 : clampK a.opaque' 0 1 = 0
    · simp only [if_neg h1, if_neg h2, if_neg h3, if_pos h4, Except.ok.injEq, reduceCtorEq] at h
    simp only [if_neg h1, if_neg h2, if_neg h3, if_neg h4, Except.ok.injEq, Option.some.injEq] at h
    subst h
    exact ⟨rfl, rfl, rfl, rfl⟩

/-- The opacity of the mirror image at the mirror image of a pixel. -/
theorem opacity_mirror {env : Dab.Env K} (he : env.Valid) {l : Line} (hl : MirrorLaws l env) {op : Op K}
    (hs : 3 ≤ op.radius ∨ env.sin op.angle = 0 ∨ env.cos op.angle = 0) (X Y : Int) :
    opacity env (mirrorOp l op) (l.image X Y).1 (l.image X Y).2 = opacity env op X Y := by
  have hc := he.circle op.angle
  cases l with
  | upright n =>
    obtain ⟨h1, h2⟩ := hl op.angle
    have e : shapeOf env (mirrorOp (.upright n) op) = (shapeOf env op).mirrorX n := by
      unfold shapeOf mirrorOp Shape.mirrorX
      simp only [h1, h2]
    unfold opacity
    rw [e]
    exact opacityAt_mirrorX (shapeOf env op) hc hs n X Y
  | level n =>
    obtain ⟨h1, h2⟩ := hl op.angle
    have e : shapeOf env (mirrorOp (.level n) op) = (shapeOf env op).mirrorY n := by
      unfold shapeOf mirrorOp Shape.mirrorY
      simp only [h1, h2]
    unfold opacity
    rw [e]
    exact opacityAt_mirrorY (shapeOf env op) hc hs n X Y

/-- A dab beside the line does not reach both of a pixel and its mirror image. -/
theorem aside_opacity {env : Dab.Env K} (he : env.Valid) {l : Line} {a : Args K} (ha : Aside l a) {op : Op K}
    (hp : prepare a = .ok (some op)) (X Y : Int) :
    l.image X Y = (X, Y) ∨ opacity env op X Y = 0 ∨ opacity env op (l.image X Y).1 (l.image X Y).2 = 0 := by
  have hv := shapeOf_valid he (prepare_valid hp)
  obtain ⟨e1, e2, e3, -⟩ := prepare_args hp
  have s1 : (shapeOf env op).x = a.x := e1
  have s2 : (shapeOf env op).y = a.y := e2
  have s3 : (shapeOf env op).radius = a.radius := e3
  have key : ∀ (n : Int) (c r : K) (Z : Int), 2 * (c + r) < n ∨ n < 2 * (c - r) → n - 1 - Z ≠ Z →
      (c + r < Z ∨ (Z : K) + 1 < c - r) ∨ (c + r < ((n - 1 - Z : Int) : K) ∨ ((n - 1 - Z : Int) : K) + 1 < c - r) := by
    intro n c r Z h hne
    have hz : 2 * Z + 1 ≤ n - 1 ∨ n + 1 ≤ 2 * Z + 1 := by omega
    rcases hz with hz | hz
    · have hz' : (2 * Z + 2 : K) ≤ n := by exact_mod_cast (by omega : 2 * Z + 2 ≤ n)
      rcases h with h | h
      · right; left; push_cast; linarith
      · left; right; linarith
    · have hz' : (n : K) ≤ 2 * Z := by exact_mod_cast (by omega : n ≤ 2 * Z)
      rcases h with h | h
      · left; left; linarith
      · right; right; push_cast; linarith
  cases l with
  | upright n =>
    by_cases hne : n - 1 - X = X
    · left; simp only [Line.image, hne]
    · right
      rcases key n a.x a.radius X ha hne with h | h
      · left
        apply opacityAt_beyond hv
        rw [s1, s3]
        exact h.elim .inl fun h => .inr (.inl h)
      · right
        apply opacityAt_beyond hv
        rw [s1, s3]
        exact h.elim .inl fun h => .inr (.inl h)
  | level n =>
    by_cases hne : n - 1 - Y = Y
    · left; simp only [Line.image, hne]
    · right
      rcases key n a.y a.radius Y ha hne with h | h
      · left
        apply opacityAt_beyond hv
        rw [s2, s3]
        exact .inr (.inr h)
      · right
        apply opacityAt_beyond hv
        rw [s2, s3]
        exact .inr (.inr h)

/-- A dab beside the line and its mirror image keep the picture symmetric. -/
theorem pair_symmetric {env : Dab.Env K} (he : env.Valid) {l : Line} (hl : MirrorLaws l env) {a : Args K} (ha : Aside l a)
    (hs : Straight env a) {c : Canvas} (h : Symmetric l c) :
    Symmetric l (Spec.Now.dabAt env (Spec.Now.dabAt env c a) (mirrorDab l a)) := by
  unfold Spec.Now.dabAt
  rw [prepare_mirror]
  cases hp : prepare a with
  | error f => exact h
  | ok o =>
    cases o with
    | none => exact h
    | some op =>
      simp only [Except.map, Option.map]
      have ho := prepare_valid hp
      obtain ⟨-, -, e3, e4⟩ := prepare_args hp
      have hs' : 3 ≤ op.radius ∨ env.sin op.angle = 0 ∨ env.cos op.angle = 0 := by rw [e3, e4]; exact hs
      have em : modes env (mirrorOp l op) = modes env op := by cases l <;> rfl
      intro X Y p p' h1 h2
      rcases aside_opacity he ha hp X Y with hX | hX
      · rw [hX] at h2
        rw [h1] at h2
        exact (Except.ok.inj h2).symm
      obtain ⟨q, hq, f1⟩ := drawNow_pixel he (mirrorOp_valid ho) h1
      obtain ⟨q', hq', f1'⟩ := drawNow_pixel he (mirrorOp_valid ho) h2
      obtain ⟨w, hw, f2⟩ := drawNow_pixel he ho hq
      obtain ⟨w', hw', f2'⟩ := drawNow_pixel he ho hq'
      have e0 := h X Y w w' hw hw'
      subst e0
      have k1 := opacity_mirror he hl hs' X Y
      have k2 := opacity_mirror he hl hs' (l.image X Y).1 (l.image X Y).2
      rw [image_image] at k2
      simp only at k2
      rw [k2, em] at f1
      rw [k1, em] at f1'
      generalize opacity env op X Y = o1 at *
      generalize opacity env op (l.image X Y).1 (l.image X Y).2 = o2 at *
      rcases hX with hX | hX
      · subst hX
        simp only [if_true] at f2 f1'
        cases f2
        cases f1'
        rw [f1] at f2'
        exact (Except.ok.inj f2').symm
      · subst hX
        simp only [if_true] at f1 f2'
        cases f1
        cases f2'
        rw [f2] at f1'
        exact (Except.ok.inj f1').symm

theorem draw_symmetric {env : Dab.Env K} (he : env.Valid) {l : Line} (hl : MirrorLaws l env) {trig : Trig K} (ht : trig.Laws)
    {d : Data K} (hi : Inv trig d) (hm : MirrorsAt l d) {a : Args K} (ha : Aside l a) (hs : Straight env a)
    {v : Spec.Now.Picture} (h : Symmetric l v.canvas) : Symmetric l (Spec.Now.draw env d v a).2.canvas := by
  unfold Spec.Now.draw
  split_ifs
  · rw [copies_mirror ht hi hm]
    exact pair_symmetric he hl ha hs h
  · exact h

/-- A session keeps the picture symmetric if every dab does. -/
theorem strokes_symmetric {env : Dab.Env K} {l : Line} {d : Data K} {sch : Schedule} {Q : Args K → Prop}
    (hd : ∀ a, Q a → ∀ v, Symmetric l v.canvas → Symmetric l (Spec.Now.draw env d v a).2.canvas)
    (e : Engine.Env K R σ) {fuel : Nat} {b : Brush K R} {v : Spec.Now.Picture} {ms : List (Motion K)}
    {r : Brush K R × (Spec.Now.Picture × List (Args K))}
    (h : strokes (recordDabs (e.on (Spec.Now.draw env d) (Spec.Now.getColor env sch))) fuel b (v, []) ms = .ok r)
    (hQ : ∀ a ∈ r.2.2, Q a) (hv : Symmetric l v.canvas) : Symmetric l r.2.1.canvas := by
  set E := recordDabs (e.on (Spec.Now.draw env d) (Spec.Now.getColor env sch)) with hE
  have H : Follows E E.draw E.getColor (fun s t => s = t ∧ Symmetric l s.1.canvas) (fun s => ∀ a ∈ s.2, Q a) := by
    constructor
    · rintro s t a ⟨rfl, h⟩ hq
      refine ⟨rfl, rfl, ?_⟩
      have : Q a := hq a (List.mem_append_right _ List.mem_cons_self)
      exact hd a this s.1 h
    · rintro s t x y r p ⟨rfl, h⟩ hq
      refine ⟨rfl, rfl, ?_⟩
      have e1 : (E.getColor s x y r p).2.1.canvas = s.1.canvas := by
        show (Spec.Now.getColor env sch s.1 x y r p).2.canvas = s.1.canvas
        unfold Spec.Now.getColor
        split <;> rfl
      rw [e1]
      exact h
    · intro s a hq b hb
      exact hq b (List.mem_append_left _ hb)
    · intro s x y r p hq
      exact hq
  obtain ⟨t, -, k⟩ := strokes_follow H ms (t := (v, [])) ⟨rfl, hv⟩ h hQ
  exact k.2

end
end Verif.Painting
