import Verif.Lemmas.HardDab
import Verif.Props.C59_DabShape
import Verif.Props.C82_Grouping

/-!
# C94: a hard brush at full opacity paints like a stencil
-/

namespace Verif.Painting
open Verif.Full Verif.Dab Verif.Engine Verif.Blend Verif.Map Verif.Mask

section
variable {K R σ : Type} [Field K] [LinearOrder K] [IsStrictOrderedRing K] [FloorRing K]

/-! ## Specification -/

/-- A round brush without soft edge, at full opacity, of radius at least 3, in its own colour and in the normal mode, or erasing;
`p` is what it leaves. -/
structure HardBrush (e : Engine.Env K R σ) (s : Load.Brush K) (p : Px) : Prop where
  colour : PlainColour s
  mark : ((∀ i, calculate (s sEraser) i ≤ 0) ∧
      p = ⟨channel (chosenColour s).r, channel (chosenColour s).g, channel (chosenColour s).b, 32768⟩) ∨
    ((∀ i, 1 ≤ calculate (s sEraser) i) ∧ p = ⟨0, 0, 0, 0⟩)
  hard : ∀ i, 1 ≤ calculate (s sHardness) i
  edge : ∀ i, calculate (s sAntiAliasing) i ≤ 0
  full : ∀ i, 1 ≤ calculate (s sOpaque) i ∧ 1 ≤ calculate (s sOpaqueMultiply) i
  linearize : 0 ≤ (s sOpaqueLinearize).base
  random : ∀ i, calculate (s sRadiusByRandom) i = 0
  snap : ∀ i, calculate (s sSnapToPixel) i ≤ 0
  radius : ∀ i, 3 ≤ askedRadius e (calculate (s sRadiusLogarithmic) i)
  round : ∀ i, calculate (s sEllipticalDabRatio) i ≤ 1
  lock : ∀ i, calculate (s sLockAlpha) i ≤ 0
  colorize : ∀ i, calculate (s sColorize) i ≤ 0
  posterize : ∀ i, calculate (s sPosterize) i ≤ 0
  levels : ∀ i, 0 ≤ calculate (s sPosterizeNum) i ∧ calculate (s sPosterizeNum) i ≤ 1000
  paint : ∀ i, calculate (s sPaintMode) i ≤ 0
  soft : ∀ i, calculate (s sSoftness) i ≤ 0

/-! ## Proof -/

theorem hard_dabs {e : Engine.Env K R σ} (hp : ∀ y, 0 < y → e.pow 0 y = 0) {fuel : Nat} (ms : List (Motion K)) {b : Brush K R} (hb : Underway b) {p : Px}
    (hs : HardBrush e b.settings p) (surf : σ) {r : Brush K R × (σ × List (Args K))}
    (h : strokes (recordDabs e) fuel b (surf, []) ms = .ok r) : ∀ a ∈ r.2.2, HardDab a ∧ markOf a = p := by
  intro a ha
  obtain ⟨hcol, i1, hA⟩ := paints_own_colour e ms hb hs.colour surf h a ha
  obtain ⟨i2, q1, q2, q3, q4, q5, q6⟩ := passes_settings_on e ms hb surf h a ha
  obtain ⟨i3, hsh⟩ := dabs_shaped e ms hb surf h a ha
  have hed := hsh.edge hs.random hs.snap
  have h1 : max 0 (min 1 (calculate (b.settings sHardness) i3)) = 1 := by
    rw [min_eq_left (hs.hard i3), max_eq_right zero_le_one]
  rw [h1] at hed
  have hw := hed.wide (by rw [one_mul, sub_self]; exact hs.edge i3)
  have cr : a.colorR = (chosenColour b.settings).r := by rw [← hcol]
  have cg : a.colorG = (chosenColour b.settings).g := by rw [← hcol]
  have cb : a.colorB = (chosenColour b.settings).b := by rw [← hcol]
  refine ⟨⟨hw.2.ge, ?_, ?_, ?_, ?_, ?_, ?_, ?_, ?_, ?_, ?_⟩, ?_⟩
  · obtain ⟨f1, f2⟩ := hs.full i3
    refine (hsh.full hs.random hs.linearize hp ?_).ge
    rw [max_eq_right (by linarith : (0 : K) ≤ calculate (b.settings sOpaque) i3)]
    exact one_le_mul_of_one_le_of_one_le f1 f2
  · rw [q6, (clampK_eq_zero _).mpr (hs.soft i2)]
  · rcases hs.mark with ⟨m, -⟩ | ⟨m, -⟩
    · left; rw [hA]; linarith [m i1]
    · right; rw [hA]; linarith [m i1]
  · rw [q1]; exact hs.lock i2
  · rw [q2]; exact hs.colorize i2
  · rw [q3]; exact hs.posterize i2
  · rw [q4]; exact hs.levels i2
  · rw [q5]; exact hs.paint i2
  · rw [hsh.aspect]; exact hs.round i3
  · rw [hw.1]; exact hs.radius i3
  · unfold markOf
    rcases hs.mark with ⟨m, e⟩ | ⟨m, e⟩
    · rw [if_pos (by rw [hA]; linarith [m i1]), e, cr, cg, cb]
    · rw [if_neg (by rw [hA]; linarith [m i1]), e]

/-- One dab with its copies. -/
def stamp (env : Dab.Env K) (d : Symm.Data K) (c : Canvas) (a : Args K) : Canvas :=
  if visible a then (a :: Spec.Now.copies d a).foldl (Spec.Now.dabAt env) c else c

theorem stamped_invariant (e : Engine.Env K R σ) (env : Dab.Env K) (d : Symm.Data K) (sch : Schedule) (c0 : Canvas) :
    Invariant (recordDabs (e.on (Spec.Now.draw env d) (Spec.Now.getColor env sch))) (fun _ => True) (fun _ _ => True)
      (fun _ s => s.1.canvas = s.2.foldl (stamp env d) c0) (fun _ s => s.1.canvas = s.2.foldl (stamp env d) c0) :=
  Invariant.ofSettings (I := fun (_ : Load.Brush K) (s : Spec.Now.Picture × List (Args K)) => s.1.canvas = s.2.foldl (stamp env d) c0)
    (fun _ _ _ _ h _ => h) (fun _ _ h => h) (by
    intro br surf lin p h hd
    have hg : ∀ v x y r q, (Spec.Now.getColor env sch v x y r q).2.canvas = v.canvas := by
      intro v x y r q
      unfold Spec.Now.getColor
      split <;> rfl
    have key : ∀ {b' x y r sm}, smudgeStage (recordDabs (e.on (Spec.Now.draw env d) (Spec.Now.getColor env sch))) b' surf x y r = .ok sm →
        sm.2.2.1.canvas = sm.2.2.2.foldl (stamp env d) c0 := by
      intro b' x y r sm hsm
      rcases smudgeStage_surf hsm with q | ⟨px, py, r', p', q⟩
      · rw [q]; exact h
      · rw [q]
        show (Spec.Now.getColor env sch surf.1 px py r' p').2.canvas = _
        rw [hg]; exact h
    obtain ⟨o, pos, sm, -, -, h3, -, ⟨-, h5⟩ | ⟨-, col, -, -, h7⟩⟩ := drawDab_cases hd
    · have k := key h3
      rw [h5]; exact k
    · rw [h7]
      have k := key h3
      generalize dabArgs (recordDabs (e.on (Spec.Now.draw env d) (Spec.Now.getColor env sch))) col.2.2 lin pos.1 pos.2.1 _ _
        col.1 col.2.1 = a
      show (Spec.Now.draw env d sm.2.2.1 a).2.canvas = (sm.2.2.2 ++ [a]).foldl (stamp env d) c0
      rw [List.foldl_append, ← k]
      show _ = stamp env d sm.2.2.1.canvas a
      unfold Spec.Now.draw stamp
      split_ifs <;> rfl)

theorem copies_hard {d : Symm.Data K} {a a' : Args K} (h : HardDab a) (ha : a' ∈ a :: Spec.Now.copies d a) :
    HardDab a' ∧ markOf a' = markOf a := by
  rcases List.mem_cons.mp ha with q | q
  · rw [q]; exact ⟨h, rfl⟩
  · unfold Spec.Now.copies at q
    split at q
    · obtain ⟨x, -, e⟩ := List.mem_map.mp q
      rw [← e]
      exact ⟨⟨h.hard, h.full, h.soft, h.alpha, h.lock, h.colorize, h.posterize, h.levels, h.paint, h.round, h.radius⟩, rfl⟩
    · cases q

/-- A pixel that is covered has the colour, others are unchanged. -/
def Stencil (c c' : Canvas) (p : Px) (covered : Int → Int → Prop) : Prop :=
  ∀ X Y, (covered X Y → pixel c' X Y = .ok p) ∧ (¬ covered X Y → pixel c' X Y = pixel c X Y)

theorem hard_list {env : Dab.Env K} (he : env.Valid) {p : Px} : ∀ (l : List (Args K)) {c : Canvas}, CanvasValid c →
    (∀ a ∈ l, HardDab a ∧ markOf a = p) → CanvasValid (l.foldl (Spec.Now.dabAt env) c) ∧
      Stencil c (l.foldl (Spec.Now.dabAt env) c) p fun X Y => ∃ a ∈ l, Within a X Y
  | [], c, hc, _ => ⟨hc, fun X Y => ⟨fun q => absurd q (by simp), fun _ => rfl⟩⟩
  | a :: l, c, hc, h => by
    obtain ⟨ha, hp⟩ := h a List.mem_cons_self
    obtain ⟨op, h0, h1, h2⟩ := hard_dab_pixel he ha hc
    have e1 : Spec.Now.dabAt env c a = Spec.Surf.drawNow (kind env) c op := by
      unfold Spec.Now.dabAt; rw [h0]
    rw [List.foldl_cons, e1]
    obtain ⟨k1, k2⟩ := hard_list he l h1 fun a ha => h a (List.mem_cons_of_mem _ ha)
    refine ⟨k1, fun X Y => ⟨?_, ?_⟩⟩
    · rintro ⟨a', ha', hw⟩
      by_cases q : ∃ a ∈ l, Within a X Y
      · exact (k2 X Y).1 q
      · rw [(k2 X Y).2 q, h2, if_pos, hp]
        rcases List.mem_cons.mp ha' with e | e
        · rw [← e]; exact hw
        · exact absurd ⟨a', e, hw⟩ q
    · intro q
      rw [(k2 X Y).2 (fun ⟨a', h', w⟩ => q ⟨a', List.mem_cons_of_mem _ h', w⟩), h2,
        if_neg (fun w => q ⟨a, List.mem_cons_self, w⟩)]

theorem stamp_list {env : Dab.Env K} {d : Symm.Data K} : ∀ (l : List (Args K)) {c : Canvas}, (∀ a ∈ l, HardDab a) →
    l.foldl (stamp env d) c = (l.flatMap fun a => a :: Spec.Now.copies d a).foldl (Spec.Now.dabAt env) c
  | [], c, _ => rfl
  | a :: l, c, h => by
    obtain ⟨op, h0, -⟩ := hard_prepare (h a List.mem_cons_self)
    have hv : visible a = true := by unfold visible; rw [h0]
    rw [List.foldl_cons, List.flatMap_cons, List.foldl_append, stamp_list l fun a ha => h a (List.mem_cons_of_mem _ ha)]
    unfold stamp
    rw [if_pos hv]

/-! ## C94 -/

/-- **C94**. A session with a hard brush at full opacity, in any number of blocks, with any symmetry that is in force: the
dabs the stroke engine asks for, and their symmetric copies, are discs; the pixels whose centres are in one of them have exactly the
colour of the brush, or are exactly transparent for an eraser, whatever was there before; all others are exactly as before. -/
theorem hard_brush_is_a_stencil {e : Engine.Env K R σ} (hp : ∀ y, 0 < y → e.pow 0 y = 0) {b : Build} {env : Dab.Env K} (he : env.Valid) {trig : Symm.Trig K}
    {sch : Schedule} {fuel : Nat} (bls : List (Block K)) {s s' : Studio K R} (hs : s.Fine b env trig) (hd : InForce s.surf.symm)
    (hq : Unswerving bls) (hc : CanvasValid s.surf.surf.canvas) {p : Px} (hb : HardBrush e s.brush.settings p)
    (h : paint e b env trig sch fuel s bls = .ok s') :
    ∃ dabs, strokes (recordDabs (e.on (Spec.Now.draw env s.surf.symm) (Spec.Now.getColor env sch))) fuel s.brush
        (⟨s.surf.surf.canvas, s.samples⟩, []) (bls.flatMap Block.motions) =
          .ok (s'.brush, ⟨s'.surf.surf.canvas, s'.samples⟩, dabs) ∧
      Stencil s.surf.surf.canvas s'.surf.surf.canvas p fun X Y =>
        ∃ a ∈ dabs, ∃ a' ∈ a :: Spec.Now.copies s.surf.symm a, Within a' X Y := by
  have hn := paint_now bls hs.surf hd.agree hq h
  unfold Spec.Now.paint at hn
  obtain ⟨l, hl⟩ := strokes_recorded _ fuel _ s.brush _ [] hn
  refine ⟨l, hl, ?_⟩
  have k := (session_keeps (stamped_invariant e env s.surf.symm sch s.surf.surf.canvas) (fun _ => True) (fun _ _ _ _ => trivial)
    (fun _ _ _ _ => trivial) (fun _ _ => trivial) _ (fun _ _ => trivial) hs.brush rfl hl).1
  have hh := hard_dabs (e := e.on (Spec.Now.draw env s.surf.symm) (Spec.Now.getColor env sch)) hp _ hs.brush (p := p)
    ⟨hb.colour, hb.mark, hb.hard, hb.edge, hb.full, hb.linearize, hb.random, hb.snap, hb.radius, hb.round, hb.lock, hb.colorize,
      hb.posterize, hb.levels, hb.paint, hb.soft⟩ _ hl
  dsimp only at k hh
  rw [k, stamp_list l fun a ha => (hh a ha).1]
  have := (hard_list he (l.flatMap fun a => a :: Spec.Now.copies s.surf.symm a) hc (p := p) (by
    intro a' ha'
    obtain ⟨a, ha, h2⟩ := List.mem_flatMap.mp ha'
    obtain ⟨k1, k2⟩ := copies_hard (hh a ha).1 h2
    exact ⟨k1, k2.trans (hh a ha).2⟩)).2
  intro X Y
  have e1 : (∃ a ∈ l.flatMap fun a => a :: Spec.Now.copies s.surf.symm a, Within a X Y) ↔
      ∃ a ∈ l, ∃ a' ∈ a :: Spec.Now.copies s.surf.symm a, Within a' X Y := by
    constructor
    · rintro ⟨a', ha', w⟩
      obtain ⟨a, ha, h2⟩ := List.mem_flatMap.mp ha'
      exact ⟨a, ha, a', h2, w⟩
    · rintro ⟨a, ha, a', h2, w⟩
      exact ⟨a', List.mem_flatMap.mpr ⟨a, ha, h2⟩, w⟩
  have t := this X Y
  dsimp only at t ⊢
  rw [e1] at t
  exact t

end

/-! ### Examples -/

namespace Demo

example : demoEnv.Valid := demoEnv_valid

example : ∀ y, 0 < y → Engine.Demo.env.pow 0 y = 0 := fun _ _ => rfl

/-- A hard red brush of radius 4. -/
def pixelBrush : Brush ℚ Nat :=
  Engine.Demo.set (Engine.Demo.set (Engine.Demo.set red sRadiusLogarithmic 3) sHardness 1) sAntiAliasing 0

theorem pixelBrush_value (id : Nat) (i : Nat → ℚ) : calculate (pixelBrush.settings id) i = (pixelBrush.settings id).base := by
  show calculate (if id = sAntiAliasing then Engine.Demo.constant 0 else if id = sHardness then Engine.Demo.constant 1 else
    if id = sRadiusLogarithmic then Engine.Demo.constant 3 else red.settings id) i =
    (if id = sAntiAliasing then Engine.Demo.constant 0 else if id = sHardness then Engine.Demo.constant 1 else
    if id = sRadiusLogarithmic then Engine.Demo.constant 3 else red.settings id).base
  split_ifs
  · rfl
  · rfl
  · rfl
  · exact red_value id i

example : HardBrush Engine.Demo.env pixelBrush.settings ⟨32768, 0, 0, 32768⟩ := by
  refine ⟨⟨?_, ?_, ?_, ?_, ?_, ?_⟩, .inl ⟨?_, ?_⟩, ?_, ?_, ?_, ?_, ?_, ?_, ?_, ?_, ?_, ?_, ?_, ?_, ?_, ?_⟩
  any_goals
    intro i
    rw [pixelBrush_value]
    decide +kernel
  any_goals decide +kernel
  all_goals
    intro i
    rw [pixelBrush_value, pixelBrush_value]
    decide +kernel

/-- The stroke of `events`: inside it is red, outside it is as before. -/
example : observe pixelBrush ⟨100, 200, 300, 400⟩ events [(61, 10), (61, 13), (61, 14), (66, 30)] =
    some ([⟨58, 5, 13, 11⟩], [some ⟨32768, 0, 0, 32768⟩, some ⟨32768, 0, 0, 32768⟩, some ⟨100, 200, 300, 400⟩,
      some ⟨100, 200, 300, 400⟩]) := by decide +kernel

/-- The eraser leaves nothing. -/
example : observe (Engine.Demo.set pixelBrush sEraser 1) ⟨100, 200, 300, 400⟩ events [(61, 13), (61, 14)] =
    some ([⟨58, 5, 13, 11⟩], [some ⟨0, 0, 0, 0⟩, some ⟨100, 200, 300, 400⟩]) := by decide +kernel

/-- With anti-aliasing there are pixels in between. -/
theorem antialiasing_leaves_mixtures :
    observe (Engine.Demo.set pixelBrush sAntiAliasing 1) ⟨100, 200, 300, 400⟩ events [(61, 10), (61, 13), (61, 14)] =
    some ([⟨57, 4, 14, 12⟩], [some ⟨32564, 1, 1, 32566⟩, some ⟨26084, 40, 61, 26145⟩, some ⟨100, 200, 300, 400⟩]) := by
  decide +kernel

end Demo

end Verif.Painting
