import Verif.Props.C126_Harder
import Verif.Props.C114_ByHand
import Verif.Props.C17_BlendModes

/-!
# C126: pressing harder never leaves less paint on the canvas

The pictures that belong to the two strokes of `C126_Harder`: with a brush that paints plainly, no pixel is more transparent where the pen was
pressed harder, with symmetry or without.
-/

namespace Verif.Painting
open Verif.Full Verif.Dab Verif.Engine Verif.Blend Verif.Symm Verif.Map Verif.Mask

section
variable {K R σ : Type} [Field K] [LinearOrder K] [IsStrictOrderedRing K] [FloorRing K]

/-! ### Specification -/

/-- A brush that paints plainly: no locked alpha, no colorize, no posterize, no pigment mixing, no erasing. -/
structure PaintsPlainly (s : Load.Brush K) : Prop where
  lock : ∀ i, calculate (s sLockAlpha) i ≤ 0
  colorize : ∀ i, calculate (s sColorize) i ≤ 0
  posterize : ∀ i, calculate (s sPosterize) i ≤ 0
  pigment : ∀ i, calculate (s sPaintMode) i ≤ 0
  eraser : ∀ i, calculate (s sEraser) i = 0

/-- No pixel of the second picture is more transparent. -/
def NoLessPaint (c c' : Canvas) : Prop := ∀ X Y p p', pixel c X Y = .ok p → pixel c' X Y = .ok p' → p.a ≤ p'.a

/-! ### One pixel -/

/-- Two pixels, the second not more transparent. -/
def CoveredMore (p p' : Px) : Prop := p.Valid ∧ p'.Valid ∧ p.a ≤ p'.a

theorem over_mono {A A' a a' : Nat} (hA : A ≤ A') (hA' : A' ≤ 32768) (h : a ≤ a') (ha' : a' ≤ 32768) :
    (A * 32768 + (32768 - A) * a) / 32768 ≤ (A' * 32768 + (32768 - A') * a') / 32768 := by
  apply Nat.div_le_div_right
  obtain ⟨d, rfl⟩ := Nat.exists_eq_add_of_le hA
  obtain ⟨B, hB⟩ : ∃ B, 32768 - (A + d) = B := ⟨_, rfl⟩
  rw [hB, show 32768 - A = B + d by omega]
  have h1 := Nat.mul_le_mul_left B h
  have h2 := Nat.mul_le_mul_left d (h.trans ha')
  rw [Nat.add_mul, Nat.add_mul]
  omega

theorem normal_harder {c : Blend.Color} (hc : c.Valid) {o o' m : Nat} (hm : m ≤ 32768) (ho : o ≤ o') (ho' : o' ≤ 32768) {p p' : Px}
    (h : CoveredMore p p') : CoveredMore (normal c o m p) (normal c o' m p') := by
  obtain ⟨h1, h2, h3⟩ := h
  refine ⟨normal_valid hm (ho.trans ho') hc h1, normal_valid hm ho' hc h2, ?_⟩
  obtain ⟨b1, b2, b3, b4⟩ := h1.bounds
  obtain ⟨b1', b2', b3', b4'⟩ := h2.bounds
  rw [normal_eq hm (ho.trans ho') hc.1 hc.2.1 hc.2.2 b1 b2 b3 b4, normal_eq hm ho' hc.1 hc.2.1 hc.2.2 b1' b2' b3' b4']
  exact over_mono (Nat.div_le_div_right (Nat.mul_le_mul_left m ho)) (topAlpha_eq hm ho' ▸ topAlpha_le hm ho') h3 b4'

/-! ### One dab -/

/-- A plain dab. -/
structure PlainDab (a : Args K) : Prop where
  lock : a.lockAlpha ≤ 0
  colorize : a.colorize ≤ 0
  posterize : a.posterize ≤ 0
  pigment : a.paint ≤ 0
  alpha : a.colorA = 1

omit [FloorRing K] in
theorem clamp_mono {o o' : K} (h : o ≤ o') : clampK o 0 1 ≤ clampK o' 0 1 := by
  unfold clampK
  split_ifs <;> linarith

/-- Either the first dab is not drawn, or both are, and differ in the opacity only. -/
theorem prepare_harder {a a' : Args K} (h : AtLeastAsOpaque a a') :
    (∃ f f', prepare a = .error f ∧ prepare a' = .error f') ∨ prepare a = .ok none ∨
      ∃ op op', prepare a = .ok (some op) ∧ prepare a' = .ok (some op') ∧ op.opaque' ≤ op'.opaque' ∧ op' = { op with opaque' := op'.opaque' } := by
  obtain ⟨h1, h2⟩ := h
  generalize a'.opaque' = o' at h1 h2
  subst h2
  unfold prepare
  dsimp only
  cases toInt (a.posterizeNum * 100 + 1 / 2) with
  | error f => exact .inl ⟨f, f, rfl, rfl⟩
  | ok n =>
    right
    simp only [bind, Except.bind, pure, Except.pure]
    by_cases q1 : a.radius < 1 / 10
    · rw [if_pos q1]; exact .inl rfl
    by_cases q2 : clampK a.hardness 0 1 = 0
    · rw [if_neg q1, if_pos q2]; exact .inl rfl
    by_cases q3 : clampK a.softness 0 1 = 1
    · rw [if_neg q1, if_neg q2, if_pos q3]; exact .inl rfl
    by_cases q4 : clampK a.opaque' 0 1 = 0
    · rw [if_neg q1, if_neg q2, if_neg q3, if_pos q4]; exact .inl rfl
    have q5 : clampK o' 0 1 ≠ 0 := by
      intro q
      rw [clampK_eq_zero] at q4 q
      exact q4 (h1.trans q)
    right
    rw [if_neg q1, if_neg q2, if_neg q3, if_neg q4, if_neg q1, if_neg q2, if_neg q3, if_neg q5]
    exact ⟨_, _, rfl, rfl, clamp_mono h1, rfl⟩

/-- What a plain dab does to a pixel. -/
theorem pixelDab_plain {env : Dab.Env K} (he : env.Valid) {a : Args K} (ha : PlainDab a) {op : Op K} (hp : prepare a = .ok (some op)) (X Y : Int) (p : Px) :
    pixelDab env X Y p a = .ok (if opacity env op X Y = 0 then p else normal op.color (strength op.opaque') (opacity env op X Y) p) ∧
      opacity env op X Y ≤ 32768 ∧ strength op.opaque' ≤ 32768 ∧ op.color.Valid := by
  have hv := prepare_valid hp
  refine ⟨?_, opacityAt_le (shapeOf_valid he hv) X Y, strength_le hv.opa1, hv.color⟩
  obtain ⟨-, -, -, e1, e2, e3, e4, e5⟩ := prepare_some hp
  rw [ha.alpha, clampK_of_mem zero_le_one le_rfl] at e1
  rw [(clampK_eq_zero a.lockAlpha).mpr ha.lock] at e2
  rw [(clampK_eq_zero a.colorize).mpr ha.colorize] at e3
  rw [(clampK_eq_zero a.posterize).mpr ha.posterize] at e4
  rw [(clampK_eq_zero a.paint).mpr ha.pigment] at e5
  have en : op.normal = 1 := by
    rw [hv.normal, e2, e3, e4]
    ring
  unfold pixelDab
  rw [hp]
  show (if opacity env op X Y = 0 then Except.ok p else _) = _
  by_cases q : opacity env op X Y = 0
  · rw [if_pos q, if_pos q]
  · rw [if_neg q, if_neg q]
    unfold pixelStep modes
    rw [e5, e4, e3, e2, e1, en]
    simp only [zero_lt_one, if_true, lt_irrefl, if_false, ne_eq, not_true_eq_false, one_ne_zero, not_false_eq_true, and_true,
      List.append_nil, gt_iff_lt, false_and, sub_zero, mul_one, one_mul, List.foldlM_cons, List.foldlM_nil, bind, Except.bind, pure, Except.pure]

theorem pixelDab_harder {env : Dab.Env K} (he : env.Valid) {a a' : Args K} (h : AtLeastAsOpaque a a') (ha : PlainDab a) {X Y : Int} {p p' q q' : Px}
    (hc : CoveredMore p p') (hq : pixelDab env X Y p a = .ok q) (hq' : pixelDab env X Y p' a' = .ok q') : CoveredMore q q' := by
  have ha' : PlainDab a' := by
    rw [h.2]
    exact ⟨ha.1, ha.2, ha.3, ha.4, ha.5⟩
  rcases prepare_harder h with ⟨f, f', k1, k2⟩ | k | ⟨op, op', k1, k2, k3, k4⟩
  · unfold pixelDab at hq hq'
    rw [k1] at hq
    rw [k2] at hq'
    cases hq
    cases hq'
    exact hc
  · have e1 : p = q := by
      unfold pixelDab at hq
      rw [k] at hq
      exact Except.ok.inj hq
    subst e1
    cases hp : prepare a' with
    | error f =>
      unfold pixelDab at hq'
      rw [hp] at hq'
      cases hq'
      exact hc
    | ok o =>
      cases o with
      | none =>
        unfold pixelDab at hq'
        rw [hp] at hq'
        cases hq'
        exact hc
      | some op =>
        obtain ⟨j1, j2, j3, j4⟩ := pixelDab_plain he ha' hp X Y p'
        rw [j1] at hq'
        rw [← Except.ok.inj hq']
        split_ifs
        · exact hc
        · exact ⟨hc.1, normal_valid j2 j3 j4 hc.2.1, hc.2.2.trans (normal_between j2 j3 j4 hc.2.1).2.2.2.1⟩
  · obtain ⟨j1, -, -, -⟩ := pixelDab_plain he ha k1 X Y p
    obtain ⟨j1', j2, j3, j4⟩ := pixelDab_plain he ha' k2 X Y p'
    have eo : opacity env op' X Y = opacity env op X Y := by rw [k4]; rfl
    have ec : op'.color = op.color := by rw [k4]
    rw [j1] at hq
    rw [j1', eo, ec] at hq'
    rw [← Except.ok.inj hq, ← Except.ok.inj hq']
    rw [eo] at j2
    rw [ec] at j4
    have hs : strength op.opaque' ≤ strength op'.opaque' := by
      unfold strength Spectral.toUInt
      have := Int.floor_le_floor (mul_le_mul_of_nonneg_right k3 (show (0 : K) ≤ 32768 by norm_num))
      omega
    split_ifs
    · exact hc
    · exact normal_harder j4 j2 hs j3 hc

/-! ### The picture -/

/-- Two pictures, the second with no less paint, both of valid pixels. -/
def PaintedMore (c c' : Canvas) : Prop := ∀ X Y p p', pixel c X Y = .ok p → pixel c' X Y = .ok p' → CoveredMore p p'

theorem dabAt_harder {env : Dab.Env K} (he : env.Valid) {a a' : Args K} (h : AtLeastAsOpaque a a') (ha : PlainDab a) {c c' : Canvas}
    (hc : PaintedMore c c') : PaintedMore (Spec.Now.dabAt env c a) (Spec.Now.dabAt env c' a') := by
  intro X Y q q' hq hq'
  obtain ⟨p, hp, h1⟩ := dabAt_pixel he hq
  obtain ⟨p', hp', h1'⟩ := dabAt_pixel he hq'
  exact pixelDab_harder he h ha (hc X Y p p' hp hp') h1 h1'

theorem dabs_harder {env : Dab.Env K} (he : env.Valid) {l l' : List (Args K)} (h : List.Forall₂ AtLeastAsOpaque l l') (ha : ∀ a ∈ l, PlainDab a)
    {c c' : Canvas} (hc : PaintedMore c c') : PaintedMore (l.foldl (Spec.Now.dabAt env) c) (l'.foldl (Spec.Now.dabAt env) c') := by
  induction h generalizing c c' with
  | nil => exact hc
  | cons h1 _ ih =>
    exact ih (fun a q => ha a (List.mem_cons_of_mem _ q)) (dabAt_harder he h1 (ha _ List.mem_cons_self) hc)

/-- A dab that is not drawn is not drawn elsewhere either. -/
theorem dabAt_moved {env : Dab.Env K} {a : Args K} (h : visible a = false) (c : Canvas) (x y θ : K) :
    Spec.Now.dabAt env c { a with x := x, y := y, angle := θ } = c := by
  unfold visible at h
  unfold Spec.Now.dabAt
  have key : ∀ op, prepare { a with x := x, y := y, angle := θ } ≠ .ok (some op) := by
    intro op hop
    unfold prepare at h hop
    dsimp only at h hop
    cases hn : toInt (a.posterizeNum * 100 + 1 / 2) with
    | error f => rw [hn] at hop; cases hop
    | ok n =>
      rw [hn] at h hop
      simp only [bind, Except.bind, pure, Except.pure] at h hop
      by_cases q1 : a.radius < 1 / 10
      · rw [if_pos q1] at hop; cases hop
      by_cases q2 : clampK a.hardness 0 1 = 0
      · rw [if_neg q1, if_pos q2] at hop; cases hop
      by_cases q3 : clampK a.softness 0 1 = 1
      · rw [if_neg q1, if_neg q2, if_pos q3] at hop; cases hop
      by_cases q4 : clampK a.opaque' 0 1 = 0
      · rw [if_neg q1, if_neg q2, if_neg q3, if_pos q4] at hop; cases hop
      rw [if_neg q1, if_neg q2, if_neg q3, if_neg q4] at h
      cases h
  cases hp : prepare { a with x := x, y := y, angle := θ } with
  | error f => rfl
  | ok o =>
    cases o with
    | none => rfl
    | some op => exact absurd hp (key op)

/-- Drawing puts the dab and its copies on the canvas, as far as they are visible. -/
theorem draw_all {env : Dab.Env K} (d : Data K) (v : Spec.Now.Picture) (a : Args K) :
    (Spec.Now.draw env d v a).2.canvas = (a :: Spec.Now.copies d a).foldl (Spec.Now.dabAt env) v.canvas := by
  unfold Spec.Now.draw
  by_cases hv : visible a = true
  · rw [if_pos hv]
  · rw [if_neg hv]
    have hv' : visible a = false := by simpa using hv
    have key : ∀ l : List (Args K), (∀ a' ∈ l, ∃ x y θ, a' = { a with x := x, y := y, angle := θ }) → ∀ c : Canvas,
        l.foldl (Spec.Now.dabAt env) c = c := by
      intro l
      induction l with
      | nil => intro _ c; rfl
      | cons a' l ih =>
        intro hl c
        obtain ⟨x, y, θ, e⟩ := hl a' List.mem_cons_self
        rw [List.foldl_cons, e, dabAt_moved hv']
        exact ih (fun b q => hl b (List.mem_cons_of_mem _ q)) c
    refine (key _ (fun a' ha' => ?_) _).symm
    rcases List.mem_cons.mp ha' with q | q
    · exact ⟨a.x, a.y, a.angle, q⟩
    · unfold Spec.Now.copies at q
      split at q
      · obtain ⟨x, -, e⟩ := List.mem_map.mp q
        exact ⟨_, _, _, e.symm⟩
      · cases q

theorem copies_harder (d : Data K) {a a' : Args K} (h : AtLeastAsOpaque a a') :
    List.Forall₂ AtLeastAsOpaque (a :: Spec.Now.copies d a) (a' :: Spec.Now.copies d a') := by
  refine .cons h ?_
  obtain ⟨h1, h2⟩ := h
  generalize a'.opaque' = o' at h1 h2
  subst h2
  unfold Spec.Now.copies
  dsimp only
  split
  · rw [List.forall₂_map_left_iff, List.forall₂_map_right_iff]
    exact List.forall₂_same.mpr fun p _ => ⟨h1, rfl⟩
  · exact .nil

theorem draw_harder {e : Engine.Env K R σ} {env : Dab.Env K} (he : env.Valid) {d : Data K} {sch : Schedule} {s : Load.Brush K} (hs : PaintsPlainly s) :
    DrawnHarder (e.on (Spec.Now.draw env d) (Spec.Now.getColor env sch)) s (fun v v' => PaintedMore v.canvas v'.canvas) := by
  intro v v' a a' hc h ha
  show PaintedMore (Spec.Now.draw env d v a).2.canvas (Spec.Now.draw env d v' a').2.canvas
  rw [draw_all, draw_all]
  refine dabs_harder he (copies_harder d h) (fun x hx => ?_) hc
  obtain ⟨i, a1, a2, a3, a4, a5⟩ := ha
  have hp : PlainDab a :=
    ⟨a1 ▸ hs.lock i, a2 ▸ hs.colorize i, a3 ▸ hs.posterize i, a4 ▸ hs.pigment i, by rw [a5, hs.eraser, sub_zero]⟩
  rcases List.mem_cons.mp hx with q | q
  · rw [q]; exact hp
  · unfold Spec.Now.copies at q
    split at q
    · obtain ⟨y, -, e⟩ := List.mem_map.mp q
      rw [← e]
      exact ⟨hp.1, hp.2, hp.3, hp.4, hp.5⟩
    · cases q

/-- **C126** Two sessions, in blocks of any kind, from the same point of the history of a surface, with the same brush: a brush that paints plainly
and whose curves for the pressure belong to the opacity and rise. The events of the second session have at least the pressure. Then no pixel
is more transparent after the second session. -/
theorem harder_leaves_no_less_paint {e : Engine.Env K R σ} (hg : GrowingLaws e) {b : Build} {env : Dab.Env K} (he : env.Valid) {trig : Trig K}
    {sch : Schedule} {fuel : Nat} {s t t' : Studio K R} (hf : s.Fine b env trig) (hd : InForce s.surf.symm)
    (hc : CanvasValid s.surf.surf.canvas) (hb : PendingOk s.brush) (hs : PressureCurves s.brush.settings) (hp : PaintsPlainly s.brush.settings)
    {bls bls' : List (Block K)} (hq : Unswerving bls) (hq' : Unswerving bls')
    (hms : List.Forall₂ PressedHarder (bls.flatMap Block.motions) (bls'.flatMap Block.motions))
    (h : paint e b env trig sch fuel s bls = .ok t) (h' : paint e b env trig sch fuel s bls' = .ok t') :
    NoLessPaint t.surf.surf.canvas t'.surf.surf.canvas := by
  have k := paint_now bls hf.surf hd.agree hq h
  have k' := paint_now bls' hf.surf hd.agree hq' h'
  unfold Spec.Now.paint at k k'
  have hc0 : PaintedMore s.surf.surf.canvas s.surf.surf.canvas := by
    intro X Y p p' h1 h2
    rw [h1] at h2
    cases h2
    obtain ⟨q, hq, hv⟩ := hc X Y
    rw [h1] at hq
    cases hq
    exact ⟨hv, hv, le_refl _⟩
  have z := strokes_pressed (e := e.on (Spec.Now.draw env s.surf.symm) (Spec.Now.getColor env sch)) ⟨hg.exp, hg.pow⟩ hs.pressed
    (draw_harder he hp) hms ⟨rfl, rfl, rfl, le_refl _, fun _ _ _ => rfl, rfl, rfl, rfl, rfl, rfl, rfl, rfl⟩ hb hc0 k k'
  intro X Y p p' h1 h2
  exact (z X Y p p' h1 h2).2.2

end

namespace Demo

/-- A red brush whose opacity is the pressure. -/
def pressedRed : Brush ℚ Nat :=
  { red with settings := fun i => if i = sOpaqueMultiply then Engine.Demo.pressureCurve else red.settings i }

theorem pressedRed_plain : PaintsPlainly pressedRed.settings := by
  have v : ∀ id, id ≠ sOpaqueMultiply → ∀ i, calculate (pressedRed.settings id) i = (red.settings id).base := by
    intro id hid i
    show calculate (if id = sOpaqueMultiply then Engine.Demo.pressureCurve else red.settings id) i = _
    rw [if_neg hid]
    exact red_value id i
  refine ⟨?_, ?_, ?_, ?_, ?_⟩
  all_goals
    intro i
    rw [v _ (by decide)]
    decide +kernel

theorem pressedRed_curves : PressureCurves pressedRed.settings := by
  have v : ∀ id k, ((red.settings id).pts k).n = 0 := by
    intro id k
    show ((if id = sColorV then Engine.Demo.constant 1 else if id = sColorS then Engine.Demo.constant 1 else
      if id = sPaintMode then Engine.Demo.constant 0 else Engine.Demo.settings id).pts k).n = 0
    split_ifs <;> rfl
  refine ⟨fun id => ?_, fun id _ h2 => ?_, .inl (v sOpaque iPressure), .inr ⟨le_refl _, ?_, ?_⟩, ⟨rfl, ?_⟩, ?_⟩
  · by_cases h : id = sOpaqueMultiply
    · subst h; rfl
    · simp only [pressedRed, if_neg h]; exact v _ _
  · simp only [pressedRed, if_neg h2]; exact v _ _
  · intro i j hij _
    show ((i : ℕ) : ℚ) ≤ j
    exact_mod_cast hij
  · intro i j hij _
    show ((i : ℕ) : ℚ) ≤ j
    exact_mod_cast hij
  · show (red.settings sSmudge).base = 0
    decide +kernel
  · show (0 : ℚ) ≤ (red.settings sOpaqueLinearize).base
    decide +kernel

/-- The stroke of `events` with more pressure. -/
def harderEvents : List (Motion ℚ) :=
  [Engine.Demo.motion 60 10 (1 / 2) (1 / 10), Engine.Demo.motion 61 10 (3 / 4) (1 / 10), Engine.Demo.motion 66 10 (7 / 8) (1 / 10)]

example : List.Forall₂ PressedHarder events harderEvents := by
  unfold events harderEvents
  refine .cons ⟨?_, rfl, ?_⟩ (.cons ⟨?_, rfl, ?_⟩ (.cons ⟨?_, rfl, ?_⟩ .nil))
  all_goals
    unfold Engine.Demo.motion
    norm_num

/-- The paint of the stroke. -/
example : (observe pressedRed ⟨0, 0, 0, 0⟩ events [(61, 10), (64, 10), (66, 10), (66, 30)]).map Prod.snd =
    some [some ⟨21625, 0, 0, 21625⟩, some ⟨27514, 0, 0, 27514⟩, some ⟨21625, 0, 0, 21625⟩, some ⟨0, 0, 0, 0⟩] := by decide +kernel

/-- The paint of the stroke with more pressure. -/
example : (observe pressedRed ⟨0, 0, 0, 0⟩ harderEvents [(61, 10), (64, 10), (66, 10), (66, 30)]).map Prod.snd =
    some [some ⟨29299, 0, 0, 29299⟩, some ⟨32343, 0, 0, 32343⟩, some ⟨30258, 0, 0, 30258⟩, some ⟨0, 0, 0, 0⟩] := by decide +kernel

end Demo
end Verif.Painting
