import Verif.Props.C127_Opaquer

/-!
# C127: the pictures of a more opaque brush, and of erasers

A more opaque brush that paints plainly leaves no pixel more transparent. An eraser that is more opaque, or pressed harder, leaves no more of
anything in any pixel.
-/

namespace Verif.Painting
open Verif.Full Verif.Dab Verif.Engine Verif.Blend Verif.Symm Verif.Map Verif.Mask

section
variable {K R σ : Type} [Field K] [LinearOrder K] [IsStrictOrderedRing K] [FloorRing K]

/-! ### Specification -/

/-- An eraser: the eraser setting is at least 1; no locked alpha, no colorize, no posterize, no pigment mixing. -/
structure ErasesFully (s : Load.Brush K) : Prop where
  lock : ∀ i, calculate (s sLockAlpha) i ≤ 0
  colorize : ∀ i, calculate (s sColorize) i ≤ 0
  posterize : ∀ i, calculate (s sPosterize) i ≤ 0
  pigment : ∀ i, calculate (s sPaintMode) i ≤ 0
  eraser : ∀ i, 1 ≤ calculate (s sEraser) i

/-- No pixel of the second picture has more of the colours or of the alpha. The colours are premultiplied. -/
def NoMorePaint (c c' : Canvas) : Prop :=
  ∀ X Y p p', pixel c X Y = .ok p → pixel c' X Y = .ok p' → p'.a ≤ p.a ∧ p'.r ≤ p.r ∧ p'.g ≤ p.g ∧ p'.b ≤ p.b

/-! ### One pixel -/

/-- Two pixels, the second with less. -/
def ErasedMore (p p' : Px) : Prop := p.Valid ∧ p'.Valid ∧ p'.a ≤ p.a ∧ p'.r ≤ p.r ∧ p'.g ≤ p.g ∧ p'.b ≤ p.b

theorem rest_mono {A A' c x x' : Nat} (hA : A ≤ A') (h : x' ≤ x) :
    (A' * 0 / 32768 * c + (32768 - A') * x') / 32768 ≤ (A * 0 / 32768 * c + (32768 - A) * x) / 32768 := by
  apply Nat.div_le_div_right
  rw [Nat.mul_zero, Nat.mul_zero, Nat.zero_div, Nat.zero_mul, Nat.zero_add, Nat.zero_add]
  exact Nat.mul_le_mul (by omega) h

theorem erase_harder {c : Blend.Color} (hc : c.Valid) {o o' m : Nat} (hm : m ≤ 32768) (ho : o ≤ o') (ho' : o' ≤ 32768) {p p' : Px}
    (h : ErasedMore p p') : ErasedMore (normalAndEraser c 0 o m p) (normalAndEraser c 0 o' m p') := by
  obtain ⟨h1, h2, h3, h4, h5, h6⟩ := h
  refine ⟨normalAndEraser_valid hm (ho.trans ho') (by simp) hc h1, normalAndEraser_valid hm ho' (by simp) hc h2, ?_⟩
  obtain ⟨b1, b2, b3, b4⟩ := h1.bounds
  obtain ⟨b1', b2', b3', b4'⟩ := h2.bounds
  obtain ⟨-, -, e⟩ := normalAndEraser_eq (ca := 0) hm (ho.trans ho') (by simp) hc.1 hc.2.1 hc.2.2 b1 b2 b3 b4
  obtain ⟨-, -, e'⟩ := normalAndEraser_eq (ca := 0) hm ho' (by simp) hc.1 hc.2.1 hc.2.2 b1' b2' b3' b4'
  rw [e, e']
  have hA : m * o / 32768 ≤ m * o' / 32768 := Nat.div_le_div_right (Nat.mul_le_mul_left m ho)
  exact ⟨rest_mono hA h3, rest_mono hA h4, rest_mono hA h5, rest_mono hA h6⟩

/-- Erasing takes away. -/
theorem erase_takes {c : Blend.Color} (hc : c.Valid) {o m : Nat} (hm : m ≤ 32768) (ho : o ≤ 32768) {p p' : Px}
    (h : ErasedMore p p') : ErasedMore p (normalAndEraser c 0 o m p') := by
  have h0 : normalAndEraser c 0 0 m p = p := by
    obtain ⟨b1, b2, b3, b4⟩ := h.1.bounds
    obtain ⟨-, -, e⟩ := normalAndEraser_eq (ca := 0) (o := 0) hm (by simp) (by simp) hc.1 hc.2.1 hc.2.2 b1 b2 b3 b4
    rw [e]
    simp
  have := erase_harder hc hm (Nat.zero_le o) ho h
  rwa [h0] at this

/-! ### One dab -/

/-- A dab of an eraser. -/
structure ErasingDab (a : Args K) : Prop where
  lock : a.lockAlpha ≤ 0
  colorize : a.colorize ≤ 0
  posterize : a.posterize ≤ 0
  pigment : a.paint ≤ 0
  alpha : a.colorA ≤ 0

/-- What a dab of an eraser does to a pixel. -/
theorem pixelDab_erasing {env : Dab.Env K} (he : env.Valid) {a : Args K} (ha : ErasingDab a) {op : Op K} (hp : prepare a = .ok (some op)) (X Y : Int) (p : Px) :
    pixelDab env X Y p a = .ok (if opacity env op X Y = 0 then p else normalAndEraser op.color 0 (strength op.opaque') (opacity env op X Y) p) ∧
      opacity env op X Y ≤ 32768 ∧ strength op.opaque' ≤ 32768 ∧ op.color.Valid := by
  have hv := prepare_valid hp
  refine ⟨?_, opacityAt_le (shapeOf_valid he hv) X Y, strength_le hv.opa1, hv.color⟩
  obtain ⟨-, -, -, e1, e2, e3, e4, e5⟩ := prepare_some hp
  rw [(clampK_eq_zero a.colorA).mpr ha.alpha] at e1
  rw [(clampK_eq_zero a.lockAlpha).mpr ha.lock] at e2
  rw [(clampK_eq_zero a.colorize).mpr ha.colorize] at e3
  rw [(clampK_eq_zero a.posterize).mpr ha.posterize] at e4
  rw [(clampK_eq_zero a.paint).mpr ha.pigment] at e5
  have en : op.normal = 1 := by
    rw [hv.normal, e2, e3, e4]
    ring
  have es : strength (0 : K) = 0 := by
    unfold strength Spectral.toUInt
    simp
  unfold pixelDab
  rw [hp]
  show (if opacity env op X Y = 0 then Except.ok p else _) = _
  by_cases q : opacity env op X Y = 0
  · rw [if_pos q, if_pos q]
  · rw [if_neg q, if_neg q]
    unfold pixelStep modes
    rw [e5, e4, e3, e2, e1, en, es]
    simp only [zero_lt_one, if_true, lt_irrefl, if_false, ne_eq, not_true_eq_false, one_ne_zero, zero_ne_one, not_false_eq_true, and_true, and_false,
      List.append_nil, gt_iff_lt, false_and, sub_zero, mul_one, one_mul, List.foldlM_cons, List.foldlM_nil, bind, Except.bind, pure, Except.pure]

theorem pixelDab_erases {env : Dab.Env K} (he : env.Valid) {a a' : Args K} (h : AtLeastAsOpaque a a') (ha : ErasingDab a) {X Y : Int} {p p' q q' : Px}
    (hc : ErasedMore p p') (hq : pixelDab env X Y p a = .ok q) (hq' : pixelDab env X Y p' a' = .ok q') : ErasedMore q q' := by
  have ha' : ErasingDab a' := by
    rw [h.2]
    exact ⟨ha.1, ha.2, ha.3, ha.4, ha.5⟩
  rcases prepare_harder h with ⟨f, f', k1, k2⟩ | k | ⟨op, op', k1, k2, k3, k4⟩
  · unfold pixelDab at hq hq'
    rw [k1] at hq
    rw [k2] at hq'
    cases hq
    cases hq'
    exact hc
  · have e1 : p = q := by
      unfold pixelDab at hq
      rw [k] at hq
      exact Except.ok.inj hq
    subst e1
    cases hp : prepare a' with
    | error f =>
      unfold pixelDab at hq'
      rw [hp] at hq'
      cases hq'
      exact hc
    | ok o =>
      cases o with
      | none =>
        unfold pixelDab at hq'
        rw [hp] at hq'
        cases hq'
        exact hc
      | some op =>
        obtain ⟨j1, j2, j3, j4⟩ := pixelDab_erasing he ha' hp X Y p'
        rw [j1] at hq'
        rw [← Except.ok.inj hq']
        split_ifs
        · exact hc
        · exact erase_takes j4 j2 j3 hc
  · obtain ⟨j1, -, -, -⟩ := pixelDab_erasing he ha k1 X Y p
    obtain ⟨j1', j2, j3, j4⟩ := pixelDab_erasing he ha' k2 X Y p'
    have eo : opacity env op' X Y = opacity env op X Y := by rw [k4]; rfl
    have ec : op'.color = op.color := by rw [k4]
    rw [j1] at hq
    rw [j1', eo, ec] at hq'
    rw [← Except.ok.inj hq, ← Except.ok.inj hq']
    rw [eo] at j2
    rw [ec] at j4
    have hs : strength op.opaque' ≤ strength op'.opaque' := by
      unfold strength Spectral.toUInt
      have := Int.floor_le_floor (mul_le_mul_of_nonneg_right k3 (show (0 : K) ≤ 32768 by norm_num))
      omega
    split_ifs
    · exact hc
    · exact erase_harder j4 j2 hs j3 hc

/-! ### The picture -/

/-- Two pictures, the second with less, both of valid pixels. -/
def PictureErased (c c' : Canvas) : Prop := ∀ X Y p p', pixel c X Y = .ok p → pixel c' X Y = .ok p' → ErasedMore p p'

theorem dabAt_erases {env : Dab.Env K} (he : env.Valid) {a a' : Args K} (h : AtLeastAsOpaque a a') (ha : ErasingDab a) {c c' : Canvas}
    (hc : PictureErased c c') : PictureErased (Spec.Now.dabAt env c a) (Spec.Now.dabAt env c' a') := by
  intro X Y q q' hq hq'
  obtain ⟨p, hp, h1⟩ := dabAt_pixel he hq
  obtain ⟨p', hp', h1'⟩ := dabAt_pixel he hq'
  exact pixelDab_erases he h ha (hc X Y p p' hp hp') h1 h1'

theorem dabs_erase {env : Dab.Env K} (he : env.Valid) {l l' : List (Args K)} (h : List.Forall₂ AtLeastAsOpaque l l') (ha : ∀ a ∈ l, ErasingDab a)
    {c c' : Canvas} (hc : PictureErased c c') : PictureErased (l.foldl (Spec.Now.dabAt env) c) (l'.foldl (Spec.Now.dabAt env) c') := by
  induction h generalizing c c' with
  | nil => exact hc
  | cons h1 _ ih =>
    exact ih (fun a q => ha a (List.mem_cons_of_mem _ q)) (dabAt_erases he h1 (ha _ List.mem_cons_self) hc)

theorem draw_erases {e : Engine.Env K R σ} {env : Dab.Env K} (he : env.Valid) {d : Data K} {sch : Schedule} {s : Load.Brush K} (hs : ErasesFully s) :
    DrawnHarder (e.on (Spec.Now.draw env d) (Spec.Now.getColor env sch)) s (fun v v' => PictureErased v.canvas v'.canvas) := by
  intro v v' a a' hc h ha
  show PictureErased (Spec.Now.draw env d v a).2.canvas (Spec.Now.draw env d v' a').2.canvas
  rw [draw_all, draw_all]
  refine dabs_erase he (copies_harder d h) (fun x hx => ?_) hc
  obtain ⟨i, a1, a2, a3, a4, a5⟩ := ha
  have hp : ErasingDab a :=
    ⟨a1 ▸ hs.lock i, a2 ▸ hs.colorize i, a3 ▸ hs.posterize i, a4 ▸ hs.pigment i, by rw [a5]; linarith [hs.eraser i]⟩
  rcases List.mem_cons.mp hx with q | q
  · rw [q]; exact hp
  · unfold Spec.Now.copies at q
    split at q
    · obtain ⟨y, -, e⟩ := List.mem_map.mp q
      rw [← e]
      exact ⟨hp.1, hp.2, hp.3, hp.4, hp.5⟩
    · cases q

omit [LinearOrder K] [IsStrictOrderedRing K] [FloorRing K] in
theorem start_alike {c : Canvas} (hc : CanvasValid c) : PaintedMore c c ∧ PictureErased c c := by
  have key : ∀ X Y p p', pixel c X Y = .ok p → pixel c X Y = .ok p' → p.Valid ∧ p' = p := by
    intro X Y p p' h1 h2
    rw [h1] at h2
    cases h2
    obtain ⟨q, hq, hv⟩ := hc X Y
    rw [h1] at hq
    cases hq
    exact ⟨hv, rfl⟩
  constructor
  · intro X Y p p' h1 h2
    obtain ⟨k1, rfl⟩ := key X Y p p' h1 h2
    exact ⟨k1, k1, le_refl _⟩
  · intro X Y p p' h1 h2
    obtain ⟨k1, rfl⟩ := key X Y p p' h1 h2
    exact ⟨k1, k1, le_refl _, le_refl _, le_refl _, le_refl _⟩

/-! ### The theorems -/

/-- The same studio with other settings of the brush. -/
def Studio.withSettings (s : Studio K R) (s' : Load.Brush K) : Studio K R := { s with brush := { s.brush with settings := s' } }

/-- **A more opaque brush never leaves less paint**: two sessions from the same point of the history of a surface, with the same events in blocks of
any kind, the second with the more opaque brush. If the brush paints plainly, no pixel is more transparent after the second. -/
theorem more_opaque_leaves_no_less_paint {e : Engine.Env K R σ} (hg : GrowingLaws e) {b : Build} {env : Dab.Env K} (he : env.Valid) {trig : Trig K}
    {sch : Schedule} {fuel : Nat} {s t t' : Studio K R} (hf : s.Fine b env trig) (hd : InForce s.surf.symm)
    (hc : CanvasValid s.surf.surf.canvas) {s' : Load.Brush K} (hs : MoreOpaque s.brush.settings s') (hp : PaintsPlainly s.brush.settings)
    {bls bls' : List (Block K)} (hq : Unswerving bls) (hq' : Unswerving bls') (hms : bls.flatMap Block.motions = bls'.flatMap Block.motions)
    (h : paint e b env trig sch fuel s bls = .ok t) (h' : paint e b env trig sch fuel (s.withSettings s') bls' = .ok t') :
    NoLessPaint t.surf.surf.canvas t'.surf.surf.canvas := by
  have k := paint_now bls hf.surf hd.agree hq h
  have k' := paint_now bls' (s := s.withSettings s') hf.surf hd.agree hq' h'
  unfold Spec.Now.paint at k k'
  rw [← hms] at k'
  have z := strokes_more (e := e.on (Spec.Now.draw env s.surf.symm) (Spec.Now.getColor env sch)) ⟨hg.exp, hg.pow⟩ hs
    (draw_harder he hp) _ (b' := { s.brush with settings := s' }) ⟨rfl, rfl, rfl, fun _ _ _ => rfl, rfl, rfl, rfl, rfl, rfl, rfl, rfl⟩
    (start_alike hc).1 k k'
  intro X Y p p' h1 h2
  exact (z X Y p p' h1 h2).2.2

/-- **A more opaque eraser never leaves more**: the same for an eraser. -/
theorem more_opaque_erases_no_less {e : Engine.Env K R σ} (hg : GrowingLaws e) {b : Build} {env : Dab.Env K} (he : env.Valid) {trig : Trig K}
    {sch : Schedule} {fuel : Nat} {s t t' : Studio K R} (hf : s.Fine b env trig) (hd : InForce s.surf.symm)
    (hc : CanvasValid s.surf.surf.canvas) {s' : Load.Brush K} (hs : MoreOpaque s.brush.settings s') (hp : ErasesFully s.brush.settings)
    {bls bls' : List (Block K)} (hq : Unswerving bls) (hq' : Unswerving bls') (hms : bls.flatMap Block.motions = bls'.flatMap Block.motions)
    (h : paint e b env trig sch fuel s bls = .ok t) (h' : paint e b env trig sch fuel (s.withSettings s') bls' = .ok t') :
    NoMorePaint t.surf.surf.canvas t'.surf.surf.canvas := by
  have k := paint_now bls hf.surf hd.agree hq h
  have k' := paint_now bls' (s := s.withSettings s') hf.surf hd.agree hq' h'
  unfold Spec.Now.paint at k k'
  rw [← hms] at k'
  have z := strokes_more (e := e.on (Spec.Now.draw env s.surf.symm) (Spec.Now.getColor env sch)) ⟨hg.exp, hg.pow⟩ hs
    (draw_erases he hp) _ (b' := { s.brush with settings := s' }) ⟨rfl, rfl, rfl, fun _ _ _ => rfl, rfl, rfl, rfl, rfl, rfl, rfl, rfl⟩
    (start_alike hc).2 k k'
  intro X Y p p' h1 h2
  exact (z X Y p p' h1 h2).2.2

/-- **An eraser pressed harder never leaves more**: two sessions with the same eraser, the events of the second with at least the pressure. -/
theorem harder_erases_no_less {e : Engine.Env K R σ} (hg : GrowingLaws e) {b : Build} {env : Dab.Env K} (he : env.Valid) {trig : Trig K}
    {sch : Schedule} {fuel : Nat} {s t t' : Studio K R} (hf : s.Fine b env trig) (hd : InForce s.surf.symm)
    (hc : CanvasValid s.surf.surf.canvas) (hb : PendingOk s.brush) (hs : PressureCurves s.brush.settings) (hp : ErasesFully s.brush.settings)
    {bls bls' : List (Block K)} (hq : Unswerving bls) (hq' : Unswerving bls')
    (hms : List.Forall₂ PressedHarder (bls.flatMap Block.motions) (bls'.flatMap Block.motions))
    (h : paint e b env trig sch fuel s bls = .ok t) (h' : paint e b env trig sch fuel s bls' = .ok t') :
    NoMorePaint t.surf.surf.canvas t'.surf.surf.canvas := by
  have k := paint_now bls hf.surf hd.agree hq h
  have k' := paint_now bls' hf.surf hd.agree hq' h'
  unfold Spec.Now.paint at k k'
  have z := strokes_pressed (e := e.on (Spec.Now.draw env s.surf.symm) (Spec.Now.getColor env sch)) ⟨hg.exp, hg.pow⟩ hs.pressed
    (draw_erases he hp) hms ⟨rfl, rfl, rfl, le_refl _, fun _ _ _ => rfl, rfl, rfl, rfl, rfl, rfl, rfl, rfl⟩ hb (start_alike hc).2 k k'
  intro X Y p p' h1 h2
  exact (z X Y p p' h1 h2).2.2

end

namespace Demo

/-- The red brush with an opacity. -/
def redWith (o : ℚ) : Brush ℚ Nat := { red with settings := fun k => if k = sOpaque then setBase (red.settings k) o else red.settings k }

/-- The same with an eraser setting. -/
def eraserWith (v o : ℚ) : Brush ℚ Nat :=
  { red with settings := fun k => if k = sOpaque then setBase (red.settings k) o else if k = sEraser then Engine.Demo.constant v else red.settings k }

theorem redWith_more {o o' : ℚ} (h : o ≤ o') : MoreOpaque (redWith o).settings (redWith o').settings := by
  refine ⟨fun k k1 k2 => ?_, fun k _ i => ?_, ⟨fun i => ?_, rfl⟩, ?_⟩
  · simp only [redWith, if_neg k1]
  · by_cases q : k = sOpaque
    · simp only [redWith, if_pos q, calculate_base]
      linarith
    · simp only [redWith, if_neg q, le_refl]
  · show calculate (red.settings sSmudge) i = 0
    rw [red_value]
    decide +kernel
  · show (0 : ℚ) ≤ (red.settings sOpaqueLinearize).base
    decide +kernel

theorem eraserWith_more {v o o' : ℚ} (h : o ≤ o') : MoreOpaque (eraserWith v o).settings (eraserWith v o').settings := by
  refine ⟨fun k k1 k2 => ?_, fun k _ i => ?_, ⟨fun i => ?_, rfl⟩, ?_⟩
  · simp only [eraserWith, if_neg k1]
  · by_cases q : k = sOpaque
    · simp only [eraserWith, if_pos q, calculate_base]
      linarith
    · simp only [eraserWith, if_neg q, le_refl]
  · show calculate (red.settings sSmudge) i = 0
    rw [red_value]
    decide +kernel
  · show (0 : ℚ) ≤ (red.settings sOpaqueLinearize).base
    decide +kernel

theorem redWith_plain (o : ℚ) : PaintsPlainly (redWith o).settings := by
  have v : ∀ id, id ≠ sOpaque → ∀ i, calculate ((redWith o).settings id) i = (red.settings id).base := by
    intro id hid i
    simp only [redWith, if_neg hid]
    exact red_value id i
  refine ⟨?_, ?_, ?_, ?_, ?_⟩
  all_goals
    intro i
    rw [v _ (by decide)]
    decide +kernel

theorem eraserWith_erases (o : ℚ) : ErasesFully (eraserWith 1 o).settings := by
  have v : ∀ id, id ≠ sOpaque → id ≠ sEraser → ∀ i, calculate ((eraserWith 1 o).settings id) i = (red.settings id).base := by
    intro id hid hid' i
    simp only [eraserWith, if_neg hid, if_neg hid']
    exact red_value id i
  refine ⟨?_, ?_, ?_, ?_, fun i => le_refl (1 : ℚ)⟩
  all_goals
    intro i
    rw [v _ (by decide) (by decide)]
    decide +kernel

/-- The paint of the stroke with half the opacity, and with three quarters. -/
example : (observe (redWith (1 / 2)) ⟨0, 0, 0, 0⟩ events [(61, 10), (64, 10), (66, 10), (66, 30)]).map Prod.snd =
    some [some ⟨21625, 0, 0, 21625⟩, some ⟨27514, 0, 0, 27514⟩, some ⟨21625, 0, 0, 21625⟩, some ⟨0, 0, 0, 0⟩] := by decide +kernel

example : (observe (redWith (3 / 4)) ⟨0, 0, 0, 0⟩ events [(61, 10), (64, 10), (66, 10), (66, 30)]).map Prod.snd =
    some [some ⟨28310, 0, 0, 28310⟩, some ⟨31769, 0, 0, 31769⟩, some ⟨28310, 0, 0, 28310⟩, some ⟨0, 0, 0, 0⟩] := by decide +kernel

/-- The same with an eraser. -/
example : (observe (eraserWith 1 (1 / 2)) ⟨1000, 20000, 0, 30000⟩ events [(61, 10), (64, 10), (66, 10), (66, 30)]).map Prod.snd =
    some [some ⟨339, 6800, 0, 10200⟩, some ⟨159, 3206, 0, 4809⟩, some ⟨339, 6800, 0, 10200⟩, some ⟨1000, 20000, 0, 30000⟩] := by decide +kernel

example : (observe (eraserWith 1 (3 / 4)) ⟨1000, 20000, 0, 30000⟩ events [(61, 10), (64, 10), (66, 10), (66, 30)]).map Prod.snd =
    some [some ⟨135, 2720, 0, 4080⟩, some ⟨30, 608, 0, 913⟩, some ⟨135, 2720, 0, 4080⟩, some ⟨1000, 20000, 0, 30000⟩] := by decide +kernel

/-- The alpha of a pixel of the stroke. -/
def alphaOf (br : Brush ℚ Nat) (p : Px) : Option Nat :=
  match observe br p events [(64, 10)] with
  | some (_, [some q]) => some q.a
  | _ => none

/-- **The eraser must be a full one**: with half an eraser more opacity gives more on an empty canvas and less on a full one. -/
theorem half_eraser_goes_both_ways :
    alphaOf (eraserWith (1 / 2) (1 / 2)) ⟨0, 0, 0, 0⟩ = some 13756 ∧ alphaOf (eraserWith (1 / 2) (3 / 4)) ⟨0, 0, 0, 0⟩ = some 15884 ∧
    alphaOf (eraserWith (1 / 2) (1 / 2)) ⟨0, 0, 0, 32768⟩ = some 19010 ∧ alphaOf (eraserWith (1 / 2) (3 / 4)) ⟨0, 0, 0, 32768⟩ = some 16882 := by
  decide +kernel

/-- An eraser that follows the pressure. -/
def pressedEraser : Brush ℚ Nat :=
  { pressedRed with settings := fun i => if i = sEraser then Engine.Demo.constant 1 else pressedRed.settings i }

theorem pressedEraser_erases : ErasesFully pressedEraser.settings := by
  have h := pressedRed_plain
  refine ⟨h.lock, h.colorize, h.posterize, h.pigment, fun i => le_refl (1 : ℚ)⟩

theorem pressedEraser_curves : PressureCurves pressedEraser.settings := by
  have h := pressedRed_curves
  refine ⟨fun id => ?_, fun id h1 h2 => ?_, h.opaque', h.multiply, h.smudge, h.linearize⟩
  · by_cases q : id = sEraser
    · subst q; rfl
    · simp only [pressedEraser, if_neg q]; exact h.stroke id
  · by_cases q : id = sEraser
    · subst q; rfl
    · simp only [pressedEraser, if_neg q]; exact h.others id h1 h2

end Demo
end Verif.Painting
