import Verif.Props.C129_Bigger

/-!
# C130: a stronger brush brings an opaque picture at least as near to its colour

On an opaque canvas a brush that paints plainly in one colour moves every channel of every pixel towards that colour. One that is more opaque,
harder or less soft moves it at least as far, and never past it.
-/

namespace Verif.Painting
open Verif.Full Verif.Dab Verif.Engine Verif.Blend Verif.Symm Verif.Map Verif.Mask

/-! ### Specification -/

/-- `x'` lies between `x` and `c`. -/
def LiesBetween (c x x' : Nat) : Prop := x ≤ x' ∧ x' ≤ c ∨ c ≤ x' ∧ x' ≤ x

/-- No pixel is transparent. -/
def NoHoles (c : Canvas) : Prop := ∀ X Y p, pixel c X Y = .ok p → p.a = 32768

/-- Both pictures are opaque. In every pixel every channel of the second lies between that of the first and that of the colour. -/
def AtLeastAsNear (col : Blend.Color) (c c' : Canvas) : Prop :=
  ∀ X Y p p', pixel c X Y = .ok p → pixel c' X Y = .ok p' →
    p.a = 32768 ∧ p'.a = 32768 ∧ LiesBetween col.r p.r p'.r ∧ LiesBetween col.g p.g p'.g ∧ LiesBetween col.b p.b p'.b

/-! ### One pixel -/

/-- Two opaque pixels, the second nearer to the colour. -/
def DrawnNear (col : Blend.Color) (p p' : Px) : Prop :=
  p.Valid ∧ p'.Valid ∧ p.a = 32768 ∧ p'.a = 32768 ∧ LiesBetween col.r p.r p'.r ∧ LiesBetween col.g p.g p'.g ∧ LiesBetween col.b p.b p'.b

theorem between_over {c x x' A A' : Nat} (hA : A ≤ A') (hA' : A' ≤ 32768) (h : LiesBetween c x x') :
    LiesBetween c ((A * c + (32768 - A) * x) / 32768) ((A' * c + (32768 - A') * x') / 32768) := by
  obtain ⟨d, rfl⟩ := Nat.exists_eq_add_of_le hA
  obtain ⟨B, hB⟩ : ∃ B, 32768 - (A + d) = B := ⟨_, rfl⟩
  rw [hB, show 32768 - A = B + d by omega]
  have hs : A + d + B = 32768 := by omega
  rcases h with ⟨h1, h2⟩ | ⟨h1, h2⟩
  · left
    constructor
    · apply Nat.div_le_div_right
      nlinarith [Nat.mul_le_mul_left B h1, Nat.mul_le_mul_left d (h1.trans h2)]
    · apply Nat.div_le_of_le_mul
      rw [← hs]
      nlinarith [Nat.mul_le_mul_left B h2]
  · right
    constructor
    · rw [Nat.le_div_iff_mul_le (by norm_num), ← hs]
      nlinarith [Nat.mul_le_mul_left B h1]
    · apply Nat.div_le_div_right
      nlinarith [Nat.mul_le_mul_left B h2, Nat.mul_le_mul_left d (h1.trans h2)]

theorem normal_nearer {c : Blend.Color} (hc : c.Valid) {o o' m m' : Nat} (hm : m ≤ m') (hm' : m' ≤ 32768) (ho : o ≤ o') (ho' : o' ≤ 32768)
    {p p' : Px} (h : DrawnNear c p p') : DrawnNear c (normal c o m p) (normal c o' m' p') := by
  obtain ⟨h1, h2, h3, h4, h5, h6, h7⟩ := h
  refine ⟨normal_valid (hm.trans hm') (ho.trans ho') hc h1, normal_valid hm' ho' hc h2, ?_⟩
  obtain ⟨b1, b2, b3, b4⟩ := h1.bounds
  obtain ⟨b1', b2', b3', b4'⟩ := h2.bounds
  have hA : m * o / 32768 ≤ m' * o' / 32768 := Nat.div_le_div_right (Nat.mul_le_mul hm ho)
  have hA' : m' * o' / 32768 ≤ 32768 := topAlpha_eq hm' ho' ▸ topAlpha_le hm' ho'
  rw [normal_eq (hm.trans hm') (ho.trans ho') hc.1 hc.2.1 hc.2.2 b1 b2 b3 b4, normal_eq hm' ho' hc.1 hc.2.1 hc.2.2 b1' b2' b3' b4']
  refine ⟨?_, ?_, between_over hA hA' h5, between_over hA hA' h6, between_over hA hA' h7⟩
  · dsimp only
    rw [h3]
    omega
  · dsimp only
    rw [h4]
    omega

theorem normal_nears {c : Blend.Color} (hc : c.Valid) {o m : Nat} (hm : m ≤ 32768) (ho : o ≤ 32768) {p p' : Px}
    (h : DrawnNear c p p') : DrawnNear c p (normal c o m p') := by
  obtain ⟨h1, h2, h3, h4, h5, h6, h7⟩ := h
  obtain ⟨b1', b2', b3', b4'⟩ := h2.bounds
  have hA : m * o / 32768 ≤ 32768 := topAlpha_eq hm ho ▸ topAlpha_le hm ho
  refine ⟨h1, normal_valid hm ho hc h2, h3, ?_⟩
  rw [normal_eq hm ho hc.1 hc.2.1 hc.2.2 b1' b2' b3' b4']
  have key : ∀ {k x x'}, LiesBetween k x x' → LiesBetween k x ((m * o / 32768 * k + (32768 - m * o / 32768) * x') / 32768) := by
    intro k x x' hb
    have := between_over (Nat.zero_le _) hA hb
    rwa [Nat.zero_mul, Nat.zero_add, Nat.sub_zero, Nat.mul_div_cancel_left _ (by norm_num)] at this
  refine ⟨?_, key h5, key h6, key h7⟩
  dsimp only
  rw [h4]
  omega

section
variable {K R σ : Type} [Field K] [LinearOrder K] [IsStrictOrderedRing K] [FloorRing K]

/-! ### One dab -/

/-- The colour as it is on the canvas. -/
def onCanvas (c : Spectral.Rgb K) : Blend.Color := ⟨channel c.r, channel c.g, channel c.b⟩

/-- A dab of plain paint of a colour. -/
def PlainDabOf (col : Blend.Color) (a : Args K) : Prop := PlainDab a ∧ onCanvas ⟨a.colorR, a.colorG, a.colorB⟩ = col

omit [IsStrictOrderedRing K] in
theorem prepare_colour {a : Args K} {op : Op K} (h : prepare a = .ok (some op)) : op.color = onCanvas ⟨a.colorR, a.colorG, a.colorB⟩ := by
  unfold prepare at h
  obtain ⟨n, -, h⟩ := except_bind_ok h
  dsimp only at h
  by_cases h1 : a.radius < 1 / 10
  · rw [if_pos h1] at h; cases h
  by_cases h2 : clampK a.hardness 0 1 = 0
  · rw [if_neg h1, if_pos h2] at h; cases h
  by_cases h3 : clampK a.softness 0 1 = 1
  · rw [if_neg h1, if_neg h2, if_pos h3] at h; cases h
  by_cases h4 : clampK a.opaque' 0 1 = 0
  · rw [if_neg h1, if_neg h2, if_neg h3, if_pos h4] at h; cases h
  rw [if_neg h1, if_neg h2, if_neg h3, if_neg h4] at h
  cases h
  rfl

theorem pixelDab_nearer {col : Blend.Color} {env : Dab.Env K} (he : env.Valid) {a a' : Args K} (h : Covers a a') (ha : PlainDabOf col a) {X Y : Int}
    {p p' q q' : Px} (hc : DrawnNear col p p') (hq : pixelDab env X Y p a = .ok q) (hq' : pixelDab env X Y p' a' = .ok q') : DrawnNear col q q' := by
  obtain ⟨ha, hcol⟩ := ha
  have hcol' : onCanvas ⟨a'.colorR, a'.colorG, a'.colorB⟩ = col := by
    rw [h.1.2.2.2.2]
    exact hcol
  have ha' : PlainDab a' := by
    rw [h.1.2.2.2.2]
    exact ⟨ha.1, ha.2, ha.3, ha.4, ha.5⟩
  rcases prepare_stronger h with ⟨f, f', k1, k2⟩ | k | ⟨op, op', k1, k2, k3, k4, k5, k7, k8, k6⟩
  · unfold pixelDab at hq hq'
    rw [k1] at hq
    rw [k2] at hq'
    cases hq
    cases hq'
    exact hc
  · have e1 : p = q := by
      unfold pixelDab at hq
      rw [k] at hq
      exact Except.ok.inj hq
    subst e1
    cases hp : prepare a' with
    | error f =>
      unfold pixelDab at hq'
      rw [hp] at hq'
      cases hq'
      exact hc
    | ok o =>
      cases o with
      | none =>
        unfold pixelDab at hq'
        rw [hp] at hq'
        cases hq'
        exact hc
      | some op =>
        obtain ⟨j1, j2, j3, j4⟩ := pixelDab_plain he ha' hp X Y p'
        rw [prepare_colour hp, hcol'] at j1 j4
        rw [j1] at hq'
        rw [← Except.ok.inj hq']
        split_ifs
        · exact hc
        · exact normal_nears j4 j2 j3 hc
  · obtain ⟨j1, -, -, -⟩ := pixelDab_plain he ha k1 X Y p
    obtain ⟨j1', j2, j3, j4⟩ := pixelDab_plain he ha' k2 X Y p'
    have eo := opacity_stronger (env := env) (prepare_valid k1) (prepare_valid k2) k4 k5 k7 k8 k6 X Y
    rw [prepare_colour k1, hcol] at j1
    rw [prepare_colour k2, hcol'] at j1' j4
    rw [j1] at hq
    rw [j1'] at hq'
    rw [← Except.ok.inj hq, ← Except.ok.inj hq']
    by_cases w : opacity env op X Y = 0
    · rw [if_pos w]
      split_ifs
      · exact hc
      · exact normal_nears j4 j2 j3 hc
    · rw [if_neg w, if_neg (by omega)]
      exact normal_nearer j4 eo j2 (strength_mono k3) j3 hc

theorem start_near {c : Canvas} (hc : CanvasValid c) (ho : NoHoles c) (col : Blend.Color) :
    ∀ X Y p p', pixel c X Y = .ok p → pixel c X Y = .ok p' → DrawnNear col p p' := by
  intro X Y p p' h1 h2
  rw [h1] at h2
  cases h2
  obtain ⟨q, hq, hv⟩ := hc X Y
  rw [h1] at hq
  cases hq
  have key : ∀ k x, LiesBetween k x x := fun k x => (le_total x k).imp (fun h => ⟨le_refl _, h⟩) fun h => ⟨h, le_refl _⟩
  exact ⟨hv, hv, ho X Y p h1, ho X Y p h1, key _ _, key _ _, key _ _⟩

/-! ### The theorems -/

/-- **C130** Dabs of one colour on an opaque surface, and bigger, harder or more opaque ones in the same places: after those every channel of every
pixel is at least as near to the colour, and not past it. -/
theorem bigger_dabs_come_nearer {b : Build} {env : Dab.Env K} (he : env.Valid) {trig : Trig K} {order order' : List TileIndex → List TileIndex}
    (ho : ∀ l, (order l).Perm l) (ho' : ∀ l, (order' l).Perm l) {roi roi' : Option (Int × (Int → Rect))}
    {s t t' : FSurf K} (hs : Sound b env trig s s.surf.canvas) (hc : CanvasValid s.surf.canvas) (hn : NoHoles s.surf.canvas)
    {l l' : List (Args K)} (hl : List.Forall₂ Covers l l') {col : Blend.Color} (hq : ∀ a ∈ l, PlainDabOf col a)
    (h : drawBlock b env order roi s l = .ok t) (h' : drawBlock b env order' roi' s l' = .ok t') :
    AtLeastAsNear col t.surf.canvas t'.surf.canvas := by
  have z := blocks_cover he ho ho' (T := DrawnNear col) (Q := PlainDabOf col) (fun _ _ _ _ w => ⟨⟨w.1.1, w.1.2, w.1.3, w.1.4, w.1.5⟩, w.2⟩)
    (fun _ _ _ _ _ _ _ _ w1 w2 w3 w4 w5 => pixelDab_nearer he w1 w2 w3 w4 w5) hs (start_near hc hn col) hl hq h h'
  exact fun X Y p p' h1 h2 => (z X Y p p' h1 h2).2.2

/-- **C130** Two sessions from the same point of the history of an opaque surface, with the same events in blocks of any kind, the second with a brush
that is more opaque, harder and less soft. If the brush paints plainly and in its own colour, every channel of every pixel is after the second at
least as near to that colour, and not past it. -/
theorem stronger_comes_nearer {e : Engine.Env K R σ} (hg : GrowingLaws e) {b : Build} {env : Dab.Env K} (he : env.Valid) {trig : Trig K}
    {sch : Schedule} {fuel : Nat} {s t t' : Studio K R} (hf : s.Fine b env trig) (hd : InForce s.surf.symm)
    (hc : CanvasValid s.surf.surf.canvas) (hn : NoHoles s.surf.surf.canvas) {s' : Load.Brush K} (hs : Stronger s.brush.settings s')
    (hw : Sharp s.brush.settings s' ∨ LargeDabs e s.brush.settings) (hp : PaintsPlainly s.brush.settings) (hpc : PlainColour s.brush.settings)
    {bls bls' : List (Block K)} (hq : Unswerving bls) (hq' : Unswerving bls') (hms : bls.flatMap Block.motions = bls'.flatMap Block.motions)
    (h : paint e b env trig sch fuel s bls = .ok t) (h' : paint e b env trig sch fuel (s.withSettings s') bls' = .ok t') :
    AtLeastAsNear (onCanvas (chosenColour s.brush.settings)) t.surf.surf.canvas t'.surf.surf.canvas := by
  have k := paint_now bls hf.surf hd.agree hq h
  have k' := paint_now bls' (s := s.withSettings s') hf.surf hd.agree hq' h'
  unfold Spec.Now.paint at k k'
  rw [← hms] at k'
  have z := strokes_strong (e := e.on (Spec.Now.draw env s.surf.symm) (Spec.Now.getColor env sch)) ⟨hg.exp, hg.pow⟩ hs
    (draw_stronger he hw (T := DrawnNear (onCanvas (chosenColour s.brush.settings))) (Q := PlainDabOf (onCanvas (chosenColour s.brush.settings)))
      (fun _ _ _ _ w => ⟨⟨w.1.1, w.1.2, w.1.3, w.1.4, w.1.5⟩, w.2⟩)
      (fun a ⟨i, a1, a2, a3, a4, a5⟩ g => ⟨⟨a1 ▸ hp.lock i, a2 ▸ hp.colorize i, a3 ▸ hp.posterize i, a4 ▸ hp.pigment i, by rw [a5, hp.eraser, sub_zero]⟩,
        by rw [(g hpc).1]⟩)
      (fun _ _ _ _ _ _ _ _ w1 w2 w3 w4 w5 => pixelDab_nearer he w1 w2 w3 w4 w5)) _
    (b' := { s.brush with settings := s' }) ⟨rfl, rfl, rfl, fun _ _ => rfl, rfl, rfl, rfl, rfl, rfl, rfl, rfl⟩
    (by exact start_near hc hn _) k k'
  exact fun X Y p p' h1 h2 => (z X Y p p' h1 h2).2.2

end

namespace Demo

theorem redEdge_colour (h s : ℚ) : PlainColour (redEdge h s).settings := by
  have v : ∀ id, id ≠ sHardness → id ≠ sSoftness → id ≠ sAntiAliasing → ∀ i, calculate ((redEdge h s).settings id) i = (red.settings id).base := by
    intro id h1 h2 h3 i
    simp only [redEdge, if_neg h1, if_neg h2, if_neg h3]
    exact red_value id i
  refine ⟨?_, ?_, ?_, ?_, ?_, ?_⟩
  all_goals
    intro i
    rw [v _ (by decide) (by decide) (by decide)]
    decide +kernel

/-- The colour of the brush. -/
example : onCanvas (chosenColour (redEdge (1 / 2) 0).settings) = ⟨32768, 0, 0⟩ := by decide +kernel

/-- On an opaque canvas, with an edge of medium hardness and with a harder one. -/
example : (observe (redEdge (1 / 2) 0) ⟨10000, 20000, 0, 32768⟩ events [(61, 10), (66, 12), (66, 30)]).map Prod.snd =
    some [some ⟨30483, 2006, 0, 32768⟩, some ⟨14426, 16111, 0, 32768⟩, some ⟨10000, 20000, 0, 32768⟩] := by decide +kernel

example : (observe (redEdge (3 / 4) 0) ⟨10000, 20000, 0, 32768⟩ events [(61, 10), (66, 12), (66, 30)]).map Prod.snd =
    some [some ⟨32514, 222, 0, 32768⟩, some ⟨23280, 8333, 0, 32768⟩, some ⟨10000, 20000, 0, 32768⟩] := by decide +kernel

end Demo
end Verif.Painting
