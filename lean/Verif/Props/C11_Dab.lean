import Verif.Lemmas.Dab
import Verif.Props.C17_BlendModes
import Verif.Props.C06_DeferredDrawing

/-!
# C11, C12 and the canvas-wide form of C16: what a dab does to the canvas
-/

namespace Verif.Dab
open Verif.Blend Verif.Mask Verif.Spectral

variable {K : Type} [Field K] [LinearOrder K] [IsStrictOrderedRing K] [FloorRing K]

/-- A canvas: every tile, or the fault its processing ran into. -/
abbrev Canvas := TileIndex → Except Fault Tile

/-- The pixel at canvas coordinates (X, Y). -/
def pixel (c : Canvas) (X Y : Int) : Except Fault Px :=
  (c (tileOfPixel X Y)).map fun t => readPx t (offset X Y)

/-! ## C11 A dab is not cut at tile borders -/

/-- Drawing a dab acts pixel by pixel: the new colour of a canvas pixel depends only on its old
colour and on the opacity of the dab at that pixel (a function of the canvas position, which knows
nothing of tiles); where this opacity is zero the pixel is unchanged. This holds whenever drawing is
defined on the pixel's tile, for which see `dab_defined`. -/
theorem dab_pixelwise {env : Env K} (he : env.Valid) {op : Op K} (ho : op.Valid) (c : Canvas)
    (X Y : Int) (t t' : Tile) (ht : c (tileOfPixel X Y) = .ok t)
    (ht' : Spec.Surf.drawNow (kind env) c op (tileOfPixel X Y) = .ok t') :
    pixel (Spec.Surf.drawNow (kind env) c op) X Y =
      if opacity env op X Y = 0 then pixel c X Y
      else pixel c X Y >>= pixelStep (modes env op) (opacity env op X Y) := by
  have e1 : pixel c X Y = .ok (readPx t (offset X Y)) := by
    unfold pixel; rw [ht]; rfl
  have e2 : pixel (Spec.Surf.drawNow (kind env) c op) X Y = .ok (readPx t' (offset X Y)) := by
    unfold pixel; rw [ht']; rfl
  rw [e1, e2]
  simp only [bind, Except.bind]
  unfold Spec.Surf.drawNow at ht'
  by_cases hm : tileOfPixel X Y ∈ tilesOf op
  · rw [if_pos (show tileOfPixel X Y ∈ (kind env).tilesOf op from hm)] at ht'
    simp only [kind, ht, Except.bind] at ht'
    have := processOp_ok he ho ht' X Y rfl
    split_ifs at this ⊢ with h0
    · rw [this]
    · exact this.symm
  · rw [if_neg (show ¬ tileOfPixel X Y ∈ (kind env).tilesOf op from hm), ht] at ht'
    cases ht'
    have h0 : opacity env op X Y = 0 := by
      by_contra h
      exact hm (visible_in_tiles he ho h)
    rw [if_pos h0]

/-- Drawing is defined on a tile if the blend modes are defined on each of its pixels. -/
theorem dab_defined {env : Env K} (he : env.Valid) {op : Op K} (ho : op.Valid) (c : Canvas)
    (t : TileIndex) (tile : Tile) (ht : c t = .ok tile)
    (h : ∀ X Y, tileOfPixel X Y = t → opacity env op X Y ≠ 0 →
      ∃ q, pixelStep (modes env op) (opacity env op X Y) (readPx tile (offset X Y)) = .ok q) :
    ∃ t', Spec.Surf.drawNow (kind env) c op t = .ok t' := by
  unfold Spec.Surf.drawNow
  split_ifs with hm
  · simp only [kind, ht, Except.bind]
    exact processOp_exists he ho h
  · exact ⟨tile, ht⟩

/-- No pixel farther than radius + 1 from the centre, along either axis, is touched. The bound is on
pixel positions: `X` is the column of pixels between abscissas `X` and `X + 1`. -/
theorem dab_bounded {env : Env K} (he : env.Valid) {op : Op K} (ho : op.Valid) (X Y : Int)
    (h : opacity env op X Y ≠ 0) :
    op.x - (op.radius + 1) - 1 < X ∧ (X : K) ≤ op.x + (op.radius + 1) ∧
    op.y - (op.radius + 1) - 1 < Y ∧ (Y : K) ≤ op.y + (op.radius + 1) := by
  obtain ⟨h1, h2, h3, h4⟩ := opacityAt_support (shapeOf_valid he ho) h
  have f : ∀ (v : K) (n : Int), ⌊v⌋ ≤ n → v - 1 < n := by
    intro v n hn
    have a := Int.lt_floor_add_one v
    have b : ((⌊v⌋ : Int) : K) ≤ n := by exact_mod_cast hn
    linarith
  have g : ∀ (v : K) (n : Int), n ≤ ⌊v⌋ → (n : K) ≤ v := by
    intro v n hn
    exact (by exact_mod_cast hn : (n : K) ≤ ⌊v⌋).trans (Int.floor_le v)
  exact ⟨f _ _ h1, g _ _ h2, f _ _ h3, g _ _ h4⟩

/-! ## C12 Invisible dabs, clamped parameters -/

/-- What the caller asked for is invisible. -/
def Invisible (a : Args K) : Prop :=
  a.opaque' ≤ 0 ∨ a.hardness ≤ 0 ∨ 1 ≤ a.softness ∨ a.radius < 1 / 10

theorem clampK_eq_zero (v : K) : clampK v 0 1 = 0 ↔ v ≤ 0 := by
  unfold clampK
  split_ifs with h1 h2
  · constructor
    · intro h; exact absurd h one_ne_zero
    · intro h; linarith
  · exact ⟨fun _ => h2.le, fun _ => rfl⟩
  · exact ⟨fun h => h.le, fun h => le_antisymm h (not_lt.mp h2)⟩

theorem clampK_eq_one (v : K) : clampK v 0 1 = 1 ↔ 1 ≤ v := by
  unfold clampK
  split_ifs with h1 h2
  · exact ⟨fun _ => h1.le, fun _ => rfl⟩
  · constructor
    · intro h; exact absurd h zero_ne_one
    · intro h; linarith
  · exact ⟨fun h => h.ge, fun h => le_antisymm (not_lt.mp h1) h⟩

/-- A dab is queued exactly if it is visible, and a queued dab has every parameter in its range.
Preparing a dab fails only if `100 * posterize_num` does not fit an `int`. -/
theorem invisible_iff_nothing_queued (a : Args K) :
    (prepare a = .error .floatConv ∧ ∃ f, toInt (a.posterizeNum * 100 + 1 / 2) = .error f) ∨
    (Invisible a ∧ prepare a = .ok none) ∨
    (¬ Invisible a ∧ ∃ op, prepare a = .ok (some op) ∧ op.Valid) := by
  cases hn : toInt (a.posterizeNum * 100 + 1 / 2) with
  | error e =>
    left
    have : e = .floatConv := by
      unfold toInt at hn
      simp only at hn
      split_ifs at hn <;> cases hn <;> rfl
    refine ⟨?_, e, rfl⟩
    unfold prepare
    simp only [hn, bind, Except.bind, this]
  | ok n =>
    right
    by_cases hinv : Invisible a
    · left
      refine ⟨hinv, ?_⟩
      unfold prepare
      simp only [hn, bind, Except.bind, pure, Except.pure]
      by_cases h1 : a.radius < 1 / 10
      · rw [if_pos h1]
      rw [if_neg h1]
      by_cases h2 : clampK a.hardness 0 1 = 0
      · rw [if_pos h2]
      rw [if_neg h2]
      by_cases h3 : clampK a.softness 0 1 = 1
      · rw [if_pos h3]
      rw [if_neg h3]
      by_cases h4 : clampK a.opaque' 0 1 = 0
      · rw [if_pos h4]
      exfalso
      rw [clampK_eq_zero] at h2 h4
      rw [clampK_eq_one] at h3
      rcases hinv with h | h | h | h
      · exact h4 h
      · exact h2 h
      · exact h3 h
      · exact h1 h
    · right
      refine ⟨hinv, ?_⟩
      unfold Invisible at hinv
      push Not at hinv
      obtain ⟨h4, h2, h3, h1⟩ := hinv
      have hop : ∃ op, prepare a = .ok (some op) := by
        unfold prepare
        simp only [hn, bind, Except.bind, pure, Except.pure]
        rw [if_neg (not_lt.mpr h1), if_neg (by rw [clampK_eq_zero]; exact not_le.mpr h2),
          if_neg (by rw [clampK_eq_one]; exact not_le.mpr h3),
          if_neg (by rw [clampK_eq_zero]; exact not_le.mpr h4)]
        exact ⟨_, rfl⟩
      obtain ⟨op, hop⟩ := hop
      exact ⟨op, hop, prepare_valid hop⟩

/-! ## C16 on the whole canvas -/

/-- Every pixel of the canvas is a valid premultiplied pixel. -/
def CanvasValid (c : Canvas) : Prop := ∀ X Y, ∃ p, pixel c X Y = .ok p ∧ p.Valid

/-- Dabs without posterize, colorize and alpha-locked pigment mixing: the modes for which
validity is unconditional (see C16, C20 and `lockAlphaPaint_can_fail`). -/
def Op.Plain (op : Op K) : Prop :=
  op.colorize = 0 ∧ op.posterize = 0 ∧ (op.lockAlpha = 0 ∨ op.colorA = 0 ∨ op.paint = 0)

theorem strength_le {v : K} (h : v ≤ 1) : strength v ≤ 32768 := by
  unfold strength
  apply toUInt_le
  push_cast
  linarith

theorem mul_unit {a b : K} (ha : 0 ≤ a ∧ a ≤ 1) (hb : 0 ≤ b ∧ b ≤ 1) : 0 ≤ a * b ∧ a * b ≤ 1 :=
  ⟨mul_nonneg ha.1 hb.1, mul_le_one₀ ha.2 hb.1 hb.2⟩

theorem one_sub_unit {a : K} (ha : 0 ≤ a ∧ a ≤ 1) : 0 ≤ 1 - a ∧ 1 - a ≤ 1 :=
  ⟨by linarith [ha.2], by linarith [ha.1]⟩

/-- A list of modes that are each defined on valid pixels and keep them valid. -/
theorem pixelStep_valid (ms : List (Nat → Px → Except Fault Px)) (m : Nat)
    (h : ∀ body ∈ ms, ∀ p : Px, p.Valid → ∃ q, body m p = .ok q ∧ q.Valid) (p : Px) (hp : p.Valid) :
    ∃ q, pixelStep ms m p = .ok q ∧ q.Valid := by
  induction ms generalizing p with
  | nil => exact ⟨p, rfl, hp⟩
  | cons body ms ih =>
    obtain ⟨q, hq, hqv⟩ := h body (by simp) p hp
    obtain ⟨q', hq', hqv'⟩ := ih (fun b hb => h b (List.mem_cons_of_mem _ hb)) q hqv
    refine ⟨q', ?_, hqv'⟩
    unfold pixelStep at *
    simp only [List.foldlM_cons, hq, bind, Except.bind]
    exact hq'

omit [IsStrictOrderedRing K] in
theorem mem_ite_nil {α : Type} {P : Prop} [Decidable P] {l : List α} {x : α}
    (h : x ∈ if P then l else []) : P ∧ x ∈ l := by
  split_ifs at h with hp
  · exact ⟨hp, h⟩
  · simp at h

omit [IsStrictOrderedRing K] in
/-- Which blend modes are run, and when. -/
theorem mem_modes {env : Env K} {op : Op K} {body : Nat → Px → Except Fault Px}
    (h : body ∈ modes env op) :
    (op.paint < 1 ∧ op.normal ≠ 0 ∧ op.colorA = 1 ∧ body = fun m p => .ok (Blend.normal op.color
      (strength (op.normal * op.opaque' * (1 - op.paint))) m p)) ∨
    (op.paint < 1 ∧ op.normal ≠ 0 ∧ op.colorA ≠ 1 ∧ body = fun m p => .ok (normalAndEraser op.color
      (strength op.colorA) (strength (op.normal * op.opaque' * (1 - op.paint))) m p)) ∨
    (op.paint < 1 ∧ op.lockAlpha ≠ 0 ∧ op.colorA ≠ 0 ∧ body = fun m p => .ok (Blend.lockAlpha op.color
      (strength (op.lockAlpha * op.opaque' * (1 - op.colorize) * (1 - op.posterize) *
        (1 - op.paint))) m p)) ∨
    (0 < op.paint ∧ op.normal ≠ 0 ∧ op.colorA = 1 ∧ body = normalPaint env.pow op.color
      (strength (op.normal * op.opaque' * op.paint))) ∨
    (0 < op.paint ∧ op.normal ≠ 0 ∧ op.colorA ≠ 1 ∧ body = normalAndEraserPaint env.pow op.color
      (strength op.colorA) (strength (op.normal * op.opaque' * op.paint))) ∨
    (0 < op.paint ∧ op.lockAlpha ≠ 0 ∧ op.colorA ≠ 0 ∧ body = lockAlphaPaint env.pow op.color
      (strength (op.lockAlpha * op.opaque' * (1 - op.colorize) * (1 - op.posterize) * op.paint))) ∨
    (op.colorize ≠ 0 ∧ body = Blend.colorize op.color (strength (op.colorize * op.opaque'))) ∨
    (op.posterize ≠ 0 ∧ body = fun m p =>
      .ok (Blend.posterize op.posterizeNum (strength (op.posterize * op.opaque')) m p)) := by
  unfold modes at h
  rw [List.mem_append, List.mem_append, List.mem_append] at h
  rcases h with ((h | h) | h) | h
  · obtain ⟨h1, h⟩ := mem_ite_nil h
    rw [List.mem_append] at h
    rcases h with h | h
    · obtain ⟨h2, h⟩ := mem_ite_nil h
      split_ifs at h with h3
      · exact Or.inl ⟨h1, h2, h3, List.mem_singleton.mp h⟩
      · exact Or.inr (Or.inl ⟨h1, h2, h3, List.mem_singleton.mp h⟩)
    · obtain ⟨⟨h2, h3⟩, h⟩ := mem_ite_nil h
      exact Or.inr (Or.inr (Or.inl ⟨h1, h2, h3, List.mem_singleton.mp h⟩))
  · obtain ⟨h1, h⟩ := mem_ite_nil h
    rw [List.mem_append] at h
    rcases h with h | h
    · obtain ⟨h2, h⟩ := mem_ite_nil h
      split_ifs at h with h3
      · exact Or.inr (Or.inr (Or.inr (Or.inl ⟨h1, h2, h3, List.mem_singleton.mp h⟩)))
      · exact Or.inr (Or.inr (Or.inr (Or.inr (Or.inl ⟨h1, h2, h3, List.mem_singleton.mp h⟩))))
    · obtain ⟨⟨h2, h3⟩, h⟩ := mem_ite_nil h
      exact Or.inr (Or.inr (Or.inr (Or.inr (Or.inr (Or.inl ⟨h1, h2, h3, List.mem_singleton.mp h⟩)))))
  · obtain ⟨h1, h⟩ := mem_ite_nil h
    exact Or.inr (Or.inr (Or.inr (Or.inr (Or.inr (Or.inr (Or.inl ⟨h1, List.mem_singleton.mp h⟩))))))
  · obtain ⟨h1, h⟩ := mem_ite_nil h
    exact Or.inr (Or.inr (Or.inr (Or.inr (Or.inr (Or.inr (Or.inr ⟨h1, List.mem_singleton.mp h⟩))))))

theorem plain_modes_valid (env : Env K) {op : Op K} (ho : op.Valid) (hpl : op.Plain) (m : Nat)
    (hm : m ≤ 32768) :
    ∀ body ∈ modes env op, ∀ p : Px, p.Valid → ∃ q, body m p = .ok q ∧ q.Valid := by
  intro body hb p hp
  have hO : 0 ≤ op.opaque' ∧ op.opaque' ≤ 1 := ⟨ho.opa0.le, ho.opa1⟩
  have hN : 0 ≤ op.normal ∧ op.normal ≤ 1 := by
    rw [ho.normal]
    exact mul_unit (mul_unit (one_sub_unit ho.lock) (one_sub_unit ho.col)) (one_sub_unit ho.post)
  have hca : strength op.colorA ≤ 32768 := strength_le ho.alpha.2
  have hs1 : strength (op.normal * op.opaque' * (1 - op.paint)) ≤ 32768 :=
    strength_le (mul_unit (mul_unit hN hO) (one_sub_unit ho.paint)).2
  have hs2 : strength (op.normal * op.opaque' * op.paint) ≤ 32768 :=
    strength_le (mul_unit (mul_unit hN hO) ho.paint).2
  have hs3 : strength (op.lockAlpha * op.opaque' * (1 - op.colorize) * (1 - op.posterize) *
      (1 - op.paint)) ≤ 32768 :=
    strength_le (mul_unit (mul_unit (mul_unit (mul_unit ho.lock hO) (one_sub_unit ho.col))
      (one_sub_unit ho.post)) (one_sub_unit ho.paint)).2
  have hc : op.color.Valid := ho.color
  obtain ⟨hcol, hpost, hlock⟩ := hpl
  rcases mem_modes hb with ⟨_, _, _, rfl⟩ | ⟨_, _, _, rfl⟩ | ⟨_, _, _, rfl⟩ | ⟨_, _, _, rfl⟩ |
    ⟨_, _, _, rfl⟩ | ⟨h1, h2, h3, _⟩ | ⟨h, _⟩ | ⟨h, _⟩
  · exact ⟨_, rfl, normal_valid hm hs1 hc hp⟩
  · exact ⟨_, rfl, normalAndEraser_valid hm hs1 hca hc hp⟩
  · exact ⟨_, rfl, lockAlpha_valid hm hs3 hc hp⟩
  · obtain ⟨q, h1, h2, _⟩ := normalPaint_valid env.pow hm hs2 hc hp
    exact ⟨q, h1, h2⟩
  · obtain ⟨q, h1, h2, _⟩ := normalAndEraserPaint_valid env.pow hm hs2 hca hc hp
    exact ⟨q, h1, h2⟩
  · exfalso
    rcases hlock with h | h | h
    · exact h2 h
    · exact h3 h
    · exact h1.ne' h
  · exact absurd hcol h
  · exact absurd hpost h

/-- One dab keeps the canvas valid. -/
theorem dab_keeps_canvas_valid {env : Env K} (he : env.Valid) {op : Op K} (ho : op.Valid)
    (hpl : op.Plain) (c : Canvas) (hc : CanvasValid c) :
    CanvasValid (Spec.Surf.drawNow (kind env) c op) := by
  intro X Y
  have hstep : ∀ X Y p, p.Valid →
      ∃ q, pixelStep (modes env op) (opacity env op X Y) p = .ok q ∧ q.Valid := by
    intro X Y p hp
    exact pixelStep_valid _ _ (plain_modes_valid env ho hpl _
      (opacityAt_le (shapeOf_valid he ho) X Y)) p hp
  have hpix : ∀ X Y, ∃ t, c (tileOfPixel X Y) = .ok t ∧ (readPx t (offset X Y)).Valid := by
    intro X Y
    obtain ⟨p, hp, hv⟩ := hc X Y
    unfold pixel at hp
    cases ht : c (tileOfPixel X Y) with
    | error e => rw [ht] at hp; cases hp
    | ok t => rw [ht] at hp; cases hp; exact ⟨t, rfl, hv⟩
  obtain ⟨t, ht, hv⟩ := hpix X Y
  obtain ⟨t', ht'⟩ := dab_defined he ho c (tileOfPixel X Y) t ht (by
    intro X' Y' hT _
    obtain ⟨t2, ht2, hv2⟩ := hpix X' Y'
    rw [hT, ht] at ht2
    cases ht2
    obtain ⟨q, hq, _⟩ := hstep X' Y' _ hv2
    exact ⟨q, hq⟩)
  rw [dab_pixelwise he ho c X Y t t' ht ht']
  have e1 : pixel c X Y = .ok (readPx t (offset X Y)) := by
    unfold pixel; rw [ht]; rfl
  rw [e1]
  split_ifs
  · exact ⟨_, rfl, hv⟩
  · exact hstep X Y _ hv

/-- **C16 for whole sessions.** Any session of plain dabs, sampling and finished blocks on a valid
canvas leaves a valid canvas behind, in particular no pixel operation is undefined. Missing from the
full property: posterizing dabs (false, `posterize_breaks_validity`), colorizing dabs over fully
white pixels (false, `colorize_white_black_faults`) and alpha-locked pigment dabs over pixels of
alpha 1/32768 (false, `lockAlphaPaint_can_fail`). -/
theorem session_keeps_canvas_valid_partial {env : Env K} (he : env.Valid) (b : Build) (c : Canvas)
    (hc : CanvasValid c) (es : List (Surf.Event (Op K)))
    (hes : ∀ e ∈ es, match e with | .dab op => op.Valid ∧ op.Plain | _ => True)
    (order : List TileIndex → List TileIndex)
    (ho : ∀ e ∈ es ++ [.endAtomic order], Spec.Surf.OrderOk e) (os : List (List (Except Fault Tile)))
    (s : Surf (Op K) (Except Fault Tile))
    (h : Surf.session b (kind env) c (es ++ [.endAtomic order]) = .ok (os, s)) :
    CanvasValid s.canvas := by
  rw [(Surf.deferred_eq_immediate b (kind env) (fun d => tilesOf_nodup d) c es order ho os s h).2]
  clear h ho
  unfold Spec.Surf.final
  induction es generalizing c with
  | nil => exact hc
  | cons e es ih =>
    rw [List.foldl_cons]
    apply ih
    · have := hes e (by simp)
      cases e with
      | dab op => exact dab_keeps_canvas_valid he this.1 this.2 c hc
      | sample ts => exact hc
      | endAtomic o => exact hc
    · intro e' he'
      exact hes e' (List.mem_cons_of_mem _ he')

/-! ## C18 and C19 on the whole canvas -/

/-- A relation between old and new pixel that every mode of the dab establishes holds between the
old and the new canvas, if it is reflexive and transitive. -/
theorem pixelStep_rel (R : Px → Px → Prop) (hr : ∀ p, R p p) (ht : ∀ p q r, R p q → R q r → R p r)
    (ms : List (Nat → Px → Except Fault Px)) (m : Nat) (V : Px → Prop)
    (h : ∀ body ∈ ms, ∀ p q : Px, V p → body m p = .ok q → R p q ∧ V q) (p q : Px) (hp : V p)
    (hq : pixelStep ms m p = .ok q) : R p q := by
  induction ms generalizing p with
  | nil =>
    unfold pixelStep at hq
    simp only [List.foldlM_nil, pure, Except.pure] at hq
    cases hq
    exact hr _
  | cons body ms ih =>
    unfold pixelStep at hq
    rw [List.foldlM_cons] at hq
    obtain ⟨p1, h1, h2⟩ := except_bind_ok hq
    obtain ⟨hR, hV⟩ := h body (by simp) p p1 hp h1
    exact ht _ _ _ hR (ih (fun b hb => h b (List.mem_cons_of_mem _ hb)) p1 hV h2)

theorem lockAlphaPaint_alpha {pow : K → K → K} {c : Color} {o m : Nat} {p q : Px}
    (h : lockAlphaPaint pow c o m p = .ok q) : q.a = p.a := by
  unfold lockAlphaPaint at h
  simp only at h
  by_cases h0 : p.a = 0
  · rw [if_pos h0] at h
    injection h with h
    rw [← h]
    rfl
  · rw [if_neg h0] at h
    by_cases h1 : u32 (u32 (topAlpha m (minOpacity o) * p.a) / 32768 +
        u32 (bottomAlpha (topAlpha m (minOpacity o)) * p.a) / 32768) = 0
    · rw [if_pos h1] at h
      cases h
    · rw [if_neg h1] at h
      injection h with h
      rw [← h]

/-- **C18 on the canvas.** A dab with fully locked alpha, or full colorize, or full posterize leaves
the alpha of every canvas pixel unchanged, wherever drawing is defined. -/
theorem locked_dab_keeps_alpha {env : Env K} (he : env.Valid) {op : Op K} (ho : op.Valid)
    (hl : op.lockAlpha = 1 ∨ op.colorize = 1 ∨ op.posterize = 1) (c : Canvas) (X Y : Int)
    (t t' : Tile) (ht : c (tileOfPixel X Y) = .ok t)
    (ht' : Spec.Surf.drawNow (kind env) c op (tileOfPixel X Y) = .ok t') :
    (pixel (Spec.Surf.drawNow (kind env) c op) X Y).map Px.a = (pixel c X Y).map Px.a := by
  have hpw := dab_pixelwise he ho c X Y t t' ht ht'
  have e1 : pixel c X Y = .ok (readPx t (offset X Y)) := by
    unfold pixel; rw [ht]; rfl
  have e2 : pixel (Spec.Surf.drawNow (kind env) c op) X Y = .ok (readPx t' (offset X Y)) := by
    unfold pixel; rw [ht']; rfl
  have hN : op.normal = 0 := by
    rw [ho.normal]
    rcases hl with h | h | h <;> rw [h] <;> ring
  split_ifs at hpw with h0
  · rw [hpw]
  · rw [e2, e1] at hpw ⊢
    simp only [Except.map]
    congr 1
    refine pixelStep_rel (fun p q => q.a = p.a) (fun _ => rfl) (fun p q r h1 h2 => h2.trans h1)
      (modes env op) (opacity env op X Y) (fun _ => True) ?_ _ _ trivial hpw.symm
    intro body hb p q _ hq
    refine ⟨?_, trivial⟩
    rcases mem_modes hb with ⟨_, h, _, rfl⟩ | ⟨_, h, _, rfl⟩ | ⟨_, _, _, rfl⟩ | ⟨_, h, _, rfl⟩ |
      ⟨_, h, _, rfl⟩ | ⟨_, _, _, rfl⟩ | ⟨_, rfl⟩ | ⟨_, rfl⟩
    · exact absurd hN h
    · exact absurd hN h
    · injection hq with hq
      rw [← hq]
      rfl
    · exact absurd hN h
    · exact absurd hN h
    · exact lockAlphaPaint_alpha hq
    · exact colorize_alpha _ _ _ _ _ hq
    · injection hq with hq
      rw [← hq]
      rfl

/-- **C19 on the canvas.** A dab with colour alpha zero (and neither colorize nor posterize) never
raises the alpha of a valid canvas pixel, and without pigment mixing it raises no channel at all. -/
theorem erasing_dab_only_removes {env : Env K} (he : env.Valid) {op : Op K} (ho : op.Valid)
    (hA : op.colorA = 0) (hcol : op.colorize = 0) (hpost : op.posterize = 0) (c : Canvas)
    (X Y : Int) (t t' : Tile) (ht : c (tileOfPixel X Y) = .ok t)
    (hval : (readPx t (offset X Y)).Valid)
    (ht' : Spec.Surf.drawNow (kind env) c op (tileOfPixel X Y) = .ok t') :
    ∃ p q, pixel c X Y = .ok p ∧ pixel (Spec.Surf.drawNow (kind env) c op) X Y = .ok q ∧
      q.a ≤ p.a ∧ (op.paint = 0 → q.r ≤ p.r ∧ q.g ≤ p.g ∧ q.b ≤ p.b) := by
  have hpw := dab_pixelwise he ho c X Y t t' ht ht'
  have e1 : pixel c X Y = .ok (readPx t (offset X Y)) := by
    unfold pixel; rw [ht]; rfl
  have e2 : pixel (Spec.Surf.drawNow (kind env) c op) X Y = .ok (readPx t' (offset X Y)) := by
    unfold pixel; rw [ht']; rfl
  refine ⟨_, _, e1, e2, ?_⟩
  rw [e1, e2] at hpw
  split_ifs at hpw with h0
  · injection hpw with hpw
    rw [hpw]
    exact ⟨le_rfl, fun _ => ⟨le_rfl, le_rfl, le_rfl⟩⟩
  have hm := opacityAt_le (shapeOf_valid he ho) X Y
  have hc : op.color.Valid := ho.color
  have hO : 0 ≤ op.opaque' ∧ op.opaque' ≤ 1 := ⟨ho.opa0.le, ho.opa1⟩
  have hN : 0 ≤ op.normal ∧ op.normal ≤ 1 := by
    rw [ho.normal]
    exact mul_unit (mul_unit (one_sub_unit ho.lock) (one_sub_unit ho.col)) (one_sub_unit ho.post)
  have hs1 : strength (op.normal * op.opaque' * (1 - op.paint)) ≤ 32768 :=
    strength_le (mul_unit (mul_unit hN hO) (one_sub_unit ho.paint)).2
  have hs2 : strength (op.normal * op.opaque' * op.paint) ≤ 32768 :=
    strength_le (mul_unit (mul_unit hN hO) ho.paint).2
  have hca : strength op.colorA = 0 := by
    rw [hA]
    simp [strength, toUInt]
  refine pixelStep_rel (fun p q => q.a ≤ p.a ∧ (op.paint = 0 → q.r ≤ p.r ∧ q.g ≤ p.g ∧ q.b ≤ p.b))
    (fun _ => ⟨le_rfl, fun _ => ⟨le_rfl, le_rfl, le_rfl⟩⟩)
    (fun p q r h1 h2 => ⟨h2.1.trans h1.1, fun hp =>
      ⟨(h2.2 hp).1.trans (h1.2 hp).1, (h2.2 hp).2.1.trans (h1.2 hp).2.1,
        (h2.2 hp).2.2.trans (h1.2 hp).2.2⟩⟩)
    (modes env op) (opacity env op X Y) Px.Valid ?_ _ _ hval hpw.symm
  intro body hb p q hp hq
  rcases mem_modes hb with ⟨_, _, h, _⟩ | ⟨_, _, _, rfl⟩ | ⟨_, _, h, _⟩ | ⟨_, _, h, _⟩ |
    ⟨hpt, _, _, rfl⟩ | ⟨_, _, h, _⟩ | ⟨h, _⟩ | ⟨h, _⟩
  · rw [hA] at h; exact absurd h zero_ne_one
  · injection hq with hq
    rw [hca] at hq
    have hrem := erase_only_removes hm hs1 hc hp
    have hv := erase_valid hm hs1 hc hp
    unfold erase at hrem hv
    rw [← hq]
    exact ⟨⟨hrem.2.2.2.1, fun _ => ⟨hrem.1, hrem.2.1, hrem.2.2.1⟩⟩, hv⟩
  · exact absurd hA h
  · rw [hA] at h; exact absurd h zero_ne_one
  · rw [hca] at hq
    obtain ⟨q', hq', hv', ha'⟩ := normalAndEraserPaint_valid env.pow (ca := 0) hm hs2 (by simp) hc hp
    rw [show (opacityAt (shapeOf env op) X Y) = opacity env op X Y from rfl, hq] at hq'
    injection hq' with hq'
    subst hq'
    have hrem := erase_only_removes hm hs2 hc hp
    unfold erase at hrem
    refine ⟨⟨?_, fun h => absurd h hpt.ne'⟩, hv'⟩
    rw [ha']
    exact hrem.2.2.2.1
  · exact absurd hA h
  · exact absurd hcol h
  · exact absurd hpost h

/-! ### A concrete dab across a tile border -/

/-- An environment over the rationals (dab angle 0, constant power function). -/
def demoEnv : Env ℚ := ⟨fun _ => 0, fun _ => 1, fun _ _ => 1 / 2, 5642 / 10000⟩

theorem demoEnv_valid : demoEnv.Valid := ⟨fun _ => by norm_num [demoEnv], by norm_num [demoEnv]⟩

/-- Half-transparent red dab of radius 4 centred on the border between tiles 0 and 1. -/
def demoArgs : Args ℚ :=
  { x := 64, y := 10, radius := 4, colorR := 1, colorG := 0, colorB := 0, opaque' := 1 / 2
    hardness := 1 / 2, softness := 0, colorA := 1, aspect := 1, angle := 0, lockAlpha := 0
    colorize := 0, posterize := 0, posterizeNum := 1 / 20, paint := 0 }

example : (match prepare demoArgs with
    | .ok (some op) => decide (op.colorize = 0 ∧ op.posterize = 0 ∧ op.lockAlpha = 0) &&
        decide (tilesOf op = [⟨0, 0⟩, ⟨1, 0⟩]) &&
        decide (opacity demoEnv op 63 10 = 31744 ∧ opacity demoEnv op 64 10 = 31744 ∧
          opacity demoEnv op 67 10 = 7168 ∧ opacity demoEnv op 68 10 = 0)
    | _ => false) = true := by decide +kernel

/-- Painting it on a transparent canvas: the pixels on both sides of the border. -/
example : (match prepare demoArgs with
    | .ok (some op) =>
        let c := Spec.Surf.drawNow (kind demoEnv) (fun _ => .ok fun _ => 0) op
        decide (pixel c 63 10 = .ok ⟨15872, 0, 0, 15872⟩ ∧ pixel c 64 10 = .ok ⟨15872, 0, 0, 15872⟩ ∧
          pixel c 67 10 = .ok ⟨3584, 0, 0, 3584⟩ ∧ pixel c 68 10 = .ok ⟨0, 0, 0, 0⟩)
    | _ => false) = true := by decide +kernel

end Verif.Dab
