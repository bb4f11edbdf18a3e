import Verif.Lemmas.Painting
import Verif.Spec.PaintingDemo
import Verif.Props.C59_DabShape
import Verif.Props.C63_Where

/-!
# C64 to C66: what a painting session does to the picture

The brush engine and the tiled surface together, over any number of blocks.
-/

namespace Verif.Painting
open Verif.Full Verif.Dab Verif.Engine Verif.Blend Verif.Map Verif.Mask

section
variable {K R σ : Type} [Field K] [LinearOrder K] [IsStrictOrderedRing K] [FloorRing K]

/-- Induction over the blocks of a session. `I` is what is known of the brush, `Q` of the picture. -/
theorem paint_keeps {e : Engine.Env K R σ} {b : Build} {env : Dab.Env K} {trig : Symm.Trig K} {sch : Schedule} {fuel : Nat}
    {I : Brush K R → Prop} {Q : Canvas → Prop} (B : Block K → Prop) (S : Symm.Data K → Prop)
    (hS : ∀ bl s, B bl → S s.symm → S (bl.setUp s).symm)
    (hA : ∀ d d' : Symm.Data K, S d → d'.active = d.active → S d')
    (hI : ∀ bl br w r, B bl → Underway br → I br →
      strokes (recordDabs (onTiles e b env sch)) fuel br (w, []) bl.motions = .ok r → I r.1 ∧
      ∀ a ∈ r.2.2, ∀ x y θ (d : Symm.Data K), S d → (d.active = false → x = a.x ∧ y = a.y ∧ θ = a.angle) → ∀ op,
      prepare (moved a x y θ) = .ok (some op) → ∀ c, Q c → Q (Spec.Surf.drawNow (kind env) c op))
    (bls : List (Block K)) : ∀ {s s' : Studio K R}, s.Fine b env trig → (∀ bl ∈ bls, bl.Ok ∧ B bl) → S s.surf.symm →
    I s.brush → Q s.surf.surf.canvas → paint e b env trig sch fuel s bls = .ok s' →
    s'.Fine b env trig ∧ I s'.brush ∧ Q s'.surf.surf.canvas := by
  induction bls with
  | nil =>
    intro s s' hf _ _ hi hq h
    cases h
    exact ⟨hf, hi, hq⟩
  | cons bl bls ih =>
    intro s s' hf hb hs hi hq h
    unfold paint at h
    obtain ⟨⟨rs, s1⟩, h1, h⟩ := except_bind_ok h
    obtain ⟨hok, hB⟩ := hb bl List.mem_cons_self
    have hs1 := hS bl s.surf hB hs
    obtain ⟨f1, q1, a1⟩ := block_canvas hf hok h1 (Q := Q) (by
      intro w r hr a ha x y θ hxy
      exact (hI bl s.brush w r hB hf.brush hi hr).2 a ha x y θ _ hs1 hxy) hq
    obtain ⟨t1, t2, es, -, -, -, -, h5, -⟩ := block_eq hf h1
    have i1 := (hI bl s.brush _ _ hB hf.brush hi h5).1
    exact ih f1 (fun bl h => hb bl (List.mem_cons_of_mem _ h)) (hA _ _ hs1 a1) i1 q1 h

/-! ## C64 Paint stays near the pen -/

/-- The largest dabs: every radius the dynamics ask for is at most `ρ`, the soft edge at most `A`, and neither chance nor
snapping changes the radius. -/
structure Sized (e : Engine.Env K R σ) (s : Load.Brush K) (ρ A : K) : Prop where
  radius : ∀ i, askedRadius e (calculate (s sRadiusLogarithmic) i) ≤ ρ
  edge : ∀ i, calculate (s sAntiAliasing) i ≤ A
  random : ∀ i, calculate (s sRadiusByRandom) i = 0
  snap : ∀ i, calculate (s sSnapToPixel) i ≤ 0

/-- The centre of the pixel is within `d` of a point of the region, in each direction. -/
def Near (C : K → K → Prop) (d : K) (X Y : Int) : Prop :=
  ∃ px py, C px py ∧ |(X : K) + 1 / 2 - px| ≤ d ∧ |(Y : K) + 1 / 2 - py| ≤ d

theorem sized_radius {e : Engine.Env K R σ} {s : Load.Brush K} {ρ A : K} (hs : Sized e s ρ A) (hA : 0 ≤ A) {i : Nat → K}
    {a : Args K} (h : DabShape e s i a) : a.radius ≤ ρ + A / 2 := by
  have E := h.edge hs.random hs.snap
  have hR := hs.radius i
  have hf := hs.edge i
  have h1 : max 0 (min 1 (calculate (s sHardness) i)) ≤ 1 := max_le zero_le_one (min_le_left _ _)
  have R0 := askedRadius_pos e (calculate (s sRadiusLogarithmic) i)
  generalize askedRadius e (calculate (s sRadiusLogarithmic) i) = R at *
  generalize max 0 (min 1 (calculate (s sHardness) i)) = hd at *
  generalize calculate (s sAntiAliasing) i = f at *
  rcases le_or_gt f (R - hd * R) with q | q
  · rw [(E.wide q).1]; linarith
  · have w := E.width q
    have m := E.middle q
    have : hd * R ≤ R := by nlinarith
    linarith

theorem prepare_some {a : Args K} {op : Op K} (h : prepare a = .ok (some op)) :
    op.x = a.x ∧ op.y = a.y ∧ op.radius = a.radius ∧ op.colorA = clampK a.colorA 0 1 ∧ op.lockAlpha = clampK a.lockAlpha 0 1 ∧
      op.colorize = clampK a.colorize 0 1 ∧ op.posterize = clampK a.posterize 0 1 ∧ op.paint = clampK a.paint 0 1 := by
  unfold prepare at h
  obtain ⟨n, -, h⟩ := except_bind_ok h
  dsimp only at h
  by_cases h1 : a.radius < 1 / 10
  · rw [if_pos h1] at h; cases h
  by_cases h2 : clampK a.hardness 0 1 = 0
  · rw [if_neg h1, if_pos h2] at h; cases h
  by_cases h3 : clampK a.softness 0 1 = 1
  · rw [if_neg h1, if_neg h2, if_pos h3] at h; cases h
  by_cases h4 : clampK a.opaque' 0 1 = 0
  · rw [if_neg h1, if_neg h2, if_neg h3, if_pos h4] at h; cases h
  rw [if_neg h1, if_neg h2, if_neg h3, if_neg h4] at h
  rw [← Option.some.inj (Except.ok.inj h)]
  exact ⟨rfl, rfl, rfl, rfl, rfl, rfl, rfl, rfl⟩

theorem moved_op {a : Args K} {x y θ : K} {op : Op K} (h : prepare (moved a x y θ) = .ok (some op)) :
    op.x = x ∧ op.y = y ∧ op.radius = a.radius := by
  obtain ⟨h1, h2, h3, -⟩ := prepare_some h
  exact ⟨h1, h2, h3⟩

/-- **C64**. No symmetry, a brush that neither scatters nor snaps, and dabs of bounded size; the pen stays in a convex
region, over any number of blocks. Then no pixel changes its colour whose centre is farther from every point of the region
than the radius plus half the soft edge plus 3/2, in one of the directions; offsets of the dabs add at most 3240. -/
theorem paint_stays_near_the_pen {e : Engine.Env K R σ} (hd : Decays e) {b : Build} {env : Dab.Env K} (he : env.Valid)
    {trig : Symm.Trig K} {sch : Schedule} {fuel : Nat} {C : K → K → Prop} (hC : Engine.Convex C) {ρ A o : K} (hA : 0 ≤ A)
    (ho : 0 ≤ o) (bls : List (Block K)) {s s' : Studio K R} (hs : s.Fine b env trig)
    (hb : ∀ bl ∈ bls, bl.Ok ∧ bl.symmetry = none ∧ ∀ m ∈ bl.motions, ∀ x y, Place m x y → C x y)
    (ha : s.surf.symm.active = false) (hn : NoScatter s.brush.settings)
    (hoff : NoOffset s.brush.settings ∨ 3240 ≤ o) (hz : Sized e s.brush.settings ρ A)
    (hb0 : C s.brush.st.x s.brush.st.y) (hb1 : C s.brush.st.actualX s.brush.st.actualY)
    (h : paint e b env trig sch fuel s bls = .ok s') (X Y : Int) (hfar : ¬ Near C (ρ + A / 2 + o + 3 / 2) X Y) {q : Px}
    (hq : pixel s'.surf.surf.canvas X Y = .ok q) : pixel s.surf.surf.canvas X Y = .ok q := by
  refine (paint_keeps (I := fun br => br.settings = s.brush.settings ∧ C br.st.x br.st.y ∧ C br.st.actualX br.st.actualY)
    (Q := fun c => ∀ q, pixel c X Y = .ok q → pixel s.surf.surf.canvas X Y = .ok q)
    (B := fun bl => bl.symmetry = none ∧ ∀ m ∈ bl.motions, ∀ x y, Place m x y → C x y) (S := fun d => d.active = false)
    ?_ ?_ ?_ bls hs hb ha ⟨rfl, hb0, hb1⟩ (fun _ h => h) h).2.2 q hq
  · intro bl s hB ha
    unfold Block.setUp
    rw [hB.1]
    exact ha
  · intro d d' h h'
    rw [h', h]
  · intro bl br w r hB hu hI hr
    obtain ⟨hI, hI0, hI1⟩ := hI
    have hset := settings_kept _ bl.motions hu _ hr
    obtain ⟨k1, k2, k3⟩ := dabs_where_the_pen_was (e := onTiles e b env sch) hd hC bl.motions hB.2 hu (hI ▸ hn)
      (hI ▸ hz.snap) hI0 hI1 w hr
    refine ⟨⟨hset.trans hI, k1, k2⟩, ?_⟩
    intro a hin x y θ d hda hxy op hop c hc p hp
    obtain ⟨ex, ey, er⟩ := moved_op hop
    obtain ⟨ax, ay, -⟩ := hxy hda
    obtain ⟨p0, hp0⟩ := pixel_sticky hp
    by_cases hpp : p0 = p
    · exact hc p (hpp ▸ hp0)
    exfalso
    apply hfar
    obtain ⟨⟨x1, x2⟩, y1, y2⟩ := pixel_changed he (prepare_valid hop) hp0 hp hpp
    obtain ⟨i, hi⟩ := dabs_shaped (onTiles e b env sch) bl.motions hu w hr a hin
    have hrad := sized_radius (e := onTiles e b env sch) (s := br.settings) (ρ := ρ) (A := A)
      (hI ▸ ⟨hz.radius, hz.edge, hz.random, hz.snap⟩) hA hi
    obtain ⟨px, py, hCp, dx, dy, dn⟩ := k3 a hin
    have hoff' : |a.x - px| ≤ o ∧ |a.y - py| ≤ o := by
      rcases hoff with q | q
      · obtain ⟨z1, z2⟩ := dn (hI ▸ q)
        rw [z1, z2, sub_self, sub_self, abs_zero]
        exact ⟨ho, ho⟩
      · exact ⟨dx.trans q, dy.trans q⟩
    have lo : ∀ (v : K) (n : Int), ⌊v⌋ ≤ n → v - 1 < n := by
      intro v n hn
      have a := Int.lt_floor_add_one v
      have b : ((⌊v⌋ : Int) : K) ≤ n := by exact_mod_cast hn
      linarith
    have hi' : ∀ (v : K) (n : Int), n ≤ ⌊v⌋ → (n : K) ≤ v := by
      intro v n hn
      exact (by exact_mod_cast hn : (n : K) ≤ ⌊v⌋).trans (Int.floor_le v)
    have b1 := lo _ _ x1
    have b2 := hi' _ _ x2
    have b3 := lo _ _ y1
    have b4 := hi' _ _ y2
    rw [ex, er, ax] at b1 b2
    rw [ey, er, ay] at b3 b4
    have o1 := abs_le.mp hoff'.1
    have o2 := abs_le.mp hoff'.2
    refine ⟨px, py, hCp, abs_le.mpr ⟨?_, ?_⟩, abs_le.mpr ⟨?_, ?_⟩⟩ <;> linarith [o1.1, o1.2, o2.1, o2.2]

/-! ## C65 The picture stays valid -/

/-- The brush neither colorizes nor posterizes, and does not mix pigments under locked alpha. -/
structure PlainModes (s : Load.Brush K) : Prop where
  colorize : ∀ i, calculate (s sColorize) i ≤ 0
  posterize : ∀ i, calculate (s sPosterize) i ≤ 0
  locked : (∀ i, calculate (s sLockAlpha) i ≤ 0) ∨ ∀ i, calculate (s sPaintMode) i ≤ 0

/-- What the arguments of a dab become. -/
theorem moved_modes {a : Args K} {x y θ : K} {op : Op K} (h : prepare (moved a x y θ) = .ok (some op)) :
    op.colorA = clampK a.colorA 0 1 ∧ op.lockAlpha = clampK a.lockAlpha 0 1 ∧ op.colorize = clampK a.colorize 0 1 ∧
      op.posterize = clampK a.posterize 0 1 ∧ op.paint = clampK a.paint 0 1 := by
  obtain ⟨-, -, -, h⟩ := prepare_some h
  exact h

theorem moved_plain {s : Load.Brush K} (hs : PlainModes s) {a : Args K} (ha : PassedOn s a) {x y θ : K} {op : Op K}
    (h : prepare (moved a x y θ) = .ok (some op)) : op.Plain := by
  obtain ⟨i, h1, h2, h3, -, h5, -⟩ := ha
  obtain ⟨-, m2, m3, m4, m5⟩ := moved_modes h
  refine ⟨?_, ?_, ?_⟩
  · rw [m3, h2]; exact (clampK_eq_zero _).mpr (hs.colorize i)
  · rw [m4, h3]; exact (clampK_eq_zero _).mpr (hs.posterize i)
  · rcases hs.locked with q | q
    · left; rw [m2, h1]; exact (clampK_eq_zero _).mpr (q i)
    · right; right; rw [m5, h5]; exact (clampK_eq_zero _).mpr (q i)

/-- **C65**. A brush of the plain modes, any symmetry, any number of blocks: a valid picture stays valid; in particular no
pixel operation is undefined. -/
theorem painting_keeps_picture_valid {e : Engine.Env K R σ} {b : Build} {env : Dab.Env K} (he : env.Valid)
    {trig : Symm.Trig K} {sch : Schedule} {fuel : Nat} (bls : List (Block K)) {s s' : Studio K R}
    (hs : s.Fine b env trig) (hb : ∀ bl ∈ bls, bl.Ok) (hm : PlainModes s.brush.settings)
    (hc : CanvasValid s.surf.surf.canvas) (h : paint e b env trig sch fuel s bls = .ok s') :
    CanvasValid s'.surf.surf.canvas := by
  refine (paint_keeps (I := fun br => br.settings = s.brush.settings) (Q := CanvasValid) (B := fun _ => True)
    (S := fun _ => True) (fun _ _ _ _ => trivial) (fun _ _ _ _ => trivial) ?_ bls hs (fun bl h => ⟨hb bl h, trivial⟩)
    trivial rfl hc h).2.2
  intro bl br w r _ hu hI hr
  refine ⟨(settings_kept _ bl.motions hu _ hr).trans hI, ?_⟩
  intro a hin x y θ d _ _ op hop c hc
  exact dab_keeps_canvas_valid he (prepare_valid hop)
    (moved_plain (hI ▸ hm) (passes_settings_on _ bl.motions hu w hr a hin) hop) c hc

/-! ## C66 Locked alpha, erasing -/

theorem pixel_ok {c : Canvas} {X Y : Int} {p : Px} (h : pixel c X Y = .ok p) :
    ∃ t, c (tileOfPixel X Y) = .ok t ∧ readPx t (offset X Y) = p := by
  unfold pixel at h
  cases ht : c (tileOfPixel X Y) with
  | error e => rw [ht] at h; cases h
  | ok t => rw [ht] at h; exact ⟨t, rfl, Except.ok.inj h⟩

/-- **C66**, locked alpha. With a brush whose alpha is always fully locked, or that always fully colorizes or posterizes,
no session changes the alpha of any pixel. -/
theorem locked_brush_keeps_alpha {e : Engine.Env K R σ} {b : Build} {env : Dab.Env K} (he : env.Valid)
    {trig : Symm.Trig K} {sch : Schedule} {fuel : Nat} (bls : List (Block K)) {s s' : Studio K R}
    (hs : s.Fine b env trig) (hb : ∀ bl ∈ bls, bl.Ok)
    (hl : (∀ i, 1 ≤ calculate (s.brush.settings sLockAlpha) i) ∨ (∀ i, 1 ≤ calculate (s.brush.settings sColorize) i) ∨
      ∀ i, 1 ≤ calculate (s.brush.settings sPosterize) i)
    (h : paint e b env trig sch fuel s bls = .ok s') (X Y : Int) {q : Px}
    (hq : pixel s'.surf.surf.canvas X Y = .ok q) : ∃ p, pixel s.surf.surf.canvas X Y = .ok p ∧ q.a = p.a := by
  refine (paint_keeps (I := fun br => br.settings = s.brush.settings)
    (Q := fun c => ∀ q, pixel c X Y = .ok q → ∃ p, pixel s.surf.surf.canvas X Y = .ok p ∧ q.a = p.a) (B := fun _ => True)
    (S := fun _ => True) (fun _ _ _ _ => trivial) (fun _ _ _ _ => trivial) ?_ bls hs (fun bl h => ⟨hb bl h, trivial⟩)
    trivial rfl (fun q h => ⟨q, h, rfl⟩) h).2.2 q hq
  intro bl br w r _ hu hI hr
  refine ⟨(settings_kept _ bl.motions hu _ hr).trans hI, ?_⟩
  intro a hin x y θ d _ _ op hop c hc q hq
  obtain ⟨p0, hp0⟩ := pixel_sticky hq
  obtain ⟨t, ht, -⟩ := pixel_ok hp0
  obtain ⟨t', ht', -⟩ := pixel_ok hq
  have hl' : op.lockAlpha = 1 ∨ op.colorize = 1 ∨ op.posterize = 1 := by
    obtain ⟨i, h1, h2, h3, -, -, -⟩ := passes_settings_on _ bl.motions hu w hr a hin
    obtain ⟨-, m2, m3, m4, -⟩ := moved_modes hop
    rw [m2, m3, m4, clampK_eq_one, clampK_eq_one, clampK_eq_one, h1, h2, h3, hI]
    rcases hl with q | q | q
    · exact .inl (q i)
    · exact .inr (.inl (q i))
    · exact .inr (.inr (q i))
  have k := locked_dab_keeps_alpha he (prepare_valid hop) hl' c X Y t t' ht ht'
  rw [hq, hp0] at k
  obtain ⟨p, hp, hpa⟩ := hc p0 hp0
  exact ⟨p, hp, (Except.ok.inj k).trans hpa⟩

end

section
variable {K R σ : Type} [Field K] [LinearOrder K] [IsStrictOrderedRing K] [FloorRing K]

theorem smudgeColor_nonneg {e : Engine.Env K R σ} {b : Brush K R} {c : Spectral.Rgb K} {col : K × Spectral.Rgb K × Brush K R}
    (h : smudgeColor e b c = .ok col) : 0 ≤ col.1 := by
  unfold smudgeColor at h
  by_cases q : b.vals sSmudge > 0
  · rw [if_pos q] at h
    obtain ⟨v, -, h⟩ := Engine.bind_ok h
    rw [← Except.ok.inj h]
    unfold applySmudge
    dsimp only
    split_ifs <;> exact (clampK_ge zero_le_one).1
  · rw [if_neg q] at h
    rw [← Except.ok.inj h]
    exact zero_le_one

/-- The dabs of a brush that always erases completely are transparent, even if it smudges. -/
theorem eraser_invariant (e : Engine.Env K R σ) :
    Invariant (recordDabs e) (fun _ => True) (fun _ _ => True)
      (fun b s => (∀ i, 1 ≤ calculate (b.settings sEraser) i) ∧ ∀ a ∈ s.2, a.colorA ≤ 0)
      (fun b s => (∀ i, 1 ≤ calculate (b.settings sEraser) i) ∧ (∃ i, b.vals = fun id => calculate (b.settings id) i) ∧
        ∀ a ∈ s.2, a.colorA ≤ 0) :=
  Invariant.ofBlind (e := recordDabs e)
    (I := fun (s : Load.Brush K) (l : σ × List (Args K)) => (∀ i, 1 ≤ calculate (s sEraser) i) ∧ ∀ a ∈ l.2, a.colorA ≤ 0)
    (J := fun (s : Load.Brush K) (v : Nat → K) (l : σ × List (Args K)) => (∀ i, 1 ≤ calculate (s sEraser) i) ∧
      (∃ i, v = fun id => calculate (s id) i) ∧ ∀ a ∈ l.2, a.colorA ≤ 0)
    (fun s surf i h => ⟨h.1, ⟨_, rfl⟩, h.2⟩) (fun s v surf h => ⟨h.1, h.2.2⟩) (by
      rintro b surf lin p ⟨hp, ⟨i, hv⟩, hl⟩ hd
      refine ⟨hp, ?_⟩
      rcases drawDab_oneDab hd with h | ⟨o, pos, sm, col, -, -, -, fr, hc, fr2, -, h⟩
      · rw [h]; exact hl
      · rw [h]
        intro a ha
        rcases List.mem_append.mp ha with q | q
        · exact hl a q
        · rw [List.mem_singleton.mp q]
          show (if col.2.2.vals sEraser ≠ 0 then col.1 * (1 - col.2.2.vals sEraser) else col.1) ≤ 0
          have k : 1 ≤ col.2.2.vals sEraser := by rw [fr2.vals, hv]; exact hp i
          rw [if_pos (ne_of_gt (lt_of_lt_of_le zero_lt_one k))]
          exact mul_nonpos_of_nonneg_of_nonpos (smudgeColor_nonneg hc) (by linarith))

/-- **C66**, erasing. With a brush that always erases completely and neither colorizes nor posterizes, no session raises
the alpha of any pixel of a valid picture; without pigment mixing it raises no channel at all. -/
theorem eraser_only_removes {e : Engine.Env K R σ} {b : Build} {env : Dab.Env K} (he : env.Valid)
    {trig : Symm.Trig K} {sch : Schedule} {fuel : Nat} (bls : List (Block K)) {s s' : Studio K R}
    (hs : s.Fine b env trig) (hb : ∀ bl ∈ bls, bl.Ok) (hm : PlainModes s.brush.settings)
    (her : ∀ i, 1 ≤ calculate (s.brush.settings sEraser) i) (hc : CanvasValid s.surf.surf.canvas)
    (h : paint e b env trig sch fuel s bls = .ok s') (X Y : Int) :
    ∃ p q, pixel s.surf.surf.canvas X Y = .ok p ∧ pixel s'.surf.surf.canvas X Y = .ok q ∧ q.a ≤ p.a ∧
      ((∀ i, calculate (s.brush.settings sPaintMode) i ≤ 0) → q.r ≤ p.r ∧ q.g ≤ p.g ∧ q.b ≤ p.b) := by
  obtain ⟨p, hp, -⟩ := hc X Y
  suffices k : CanvasValid s'.surf.surf.canvas ∧ ∃ q, pixel s'.surf.surf.canvas X Y = .ok q ∧ q.a ≤ p.a ∧
      ((∀ i, calculate (s.brush.settings sPaintMode) i ≤ 0) → q.r ≤ p.r ∧ q.g ≤ p.g ∧ q.b ≤ p.b) by
    obtain ⟨-, q, k⟩ := k
    exact ⟨p, q, hp, k⟩
  refine (paint_keeps (I := fun br => br.settings = s.brush.settings)
    (Q := fun c => CanvasValid c ∧ ∃ q, pixel c X Y = .ok q ∧ q.a ≤ p.a ∧
      ((∀ i, calculate (s.brush.settings sPaintMode) i ≤ 0) → q.r ≤ p.r ∧ q.g ≤ p.g ∧ q.b ≤ p.b)) (B := fun _ => True)
    (S := fun _ => True) (fun _ _ _ _ => trivial) (fun _ _ _ _ => trivial) ?_ bls hs (fun bl h => ⟨hb bl h, trivial⟩)
    trivial rfl ⟨hc, p, hp, le_refl _, fun _ => ⟨le_refl _, le_refl _, le_refl _⟩⟩ h).2.2
  intro bl br w r _ hu hI hr
  refine ⟨(settings_kept _ bl.motions hu _ hr).trans hI, ?_⟩
  intro a hin x y θ d _ _ op hop c ⟨hc, q, hq, hqa, hqc⟩
  have pass := passes_settings_on _ bl.motions hu w hr a hin
  have plain := moved_plain (hI ▸ hm) pass hop
  have hv := prepare_valid hop
  have hc' := dab_keeps_canvas_valid he hv plain c hc
  refine ⟨hc', ?_⟩
  obtain ⟨q', hq', -⟩ := hc' X Y
  obtain ⟨t, ht, htq⟩ := pixel_ok hq
  obtain ⟨t', ht', -⟩ := pixel_ok hq'
  obtain ⟨m1, -, -, -, m5⟩ := moved_modes hop
  have hA : op.colorA = 0 := by
    rw [m1, clampK_eq_zero]
    exact (session_keeps (eraser_invariant (onTiles e b env sch)) (fun _ => True) (fun _ _ _ _ => trivial)
      (fun _ _ _ _ => trivial) (fun _ _ => trivial) bl.motions (fun _ _ => trivial) hu ⟨hI ▸ her, by simp⟩ hr).1.2 a hin
  obtain ⟨qv, hqv1, hqv2⟩ := hc X Y
  rw [hq] at hqv1
  have hval : (readPx t (offset X Y)).Valid := by
    rw [htq, Except.ok.inj hqv1]
    exact hqv2
  obtain ⟨p1, q1, k1, k2, k3, k4⟩ := erasing_dab_only_removes he hv hA plain.1 plain.2.1 c X Y t t' ht hval ht'
  rw [hq] at k1
  have e1 := Except.ok.inj k1
  subst e1
  refine ⟨q1, k2, k3.trans hqa, fun hp => ?_⟩
  have k5 := k4 (by
    obtain ⟨i, -, -, -, -, h5, -⟩ := pass
    rw [m5, clampK_eq_zero, h5, hI]
    exact hp i)
  have k6 := hqc hp
  exact ⟨k5.1.trans k6.1, k5.2.1.trans k6.2.1, k5.2.2.trans k6.2.2⟩

end

/-! ### Sessions that meet the hypotheses -/

namespace Demo

theorem strokeBlock_ok (ms : List (Motion ℚ)) : (strokeBlock ms).Ok :=
  ⟨fun l => List.Perm.refl l, fun _ _ _ _ _ _ h => by cases h⟩

theorem red_underway : Underway red := ⟨⟨le_refl _, zero_lt_one⟩, le_refl _⟩

/-- The studio of the examples. -/
theorem studio_fine {br : Brush ℚ Nat} (hb : Underway br) (p : Px) : ∃ s, studio br p = .ok s ∧
    s.Fine .normal demoEnv demoTrig ∧ s.brush = br ∧ s.surf.surf.canvas = uniform p := by
  obtain ⟨s0, h, -, -⟩ := init_sound .normal demoEnv demoTrig (fun _ => true) (fun _ => Symm.unit) 0 (uniform p)
  obtain ⟨h1, h2⟩ := Studio.fine_init h hb 0
  exact ⟨⟨br, s0, 0⟩, by unfold studio; rw [h], h1, rfl, h2⟩

/-- The region of the examples: a box that holds the pen and the new brush. -/
def box (x y : ℚ) : Prop := 0 ≤ x ∧ x ≤ 66 ∧ 0 ≤ y ∧ y ≤ 10

theorem box_convex : Engine.Convex box := by
  rintro x y x' y' t ⟨h1, h2, h3, h4⟩ ⟨k1, k2, k3, k4⟩ t0 t1
  refine ⟨?_, ?_, ?_, ?_⟩ <;> nlinarith

/-- The hypotheses of C64 hold with ρ = 3 and A = 1 ... -/
theorem red_local : NoScatter red.settings ∧ NoOffset red.settings ∧ Sized Engine.Demo.env red.settings 3 1 ∧
    box red.st.x red.st.y ∧ box red.st.actualX red.st.actualY ∧
    ∀ m ∈ events, ∀ x y, Place m x y → box x y := by
  refine ⟨⟨by decide +kernel, ?_, ?_⟩, ⟨?_, ?_, ?_, ?_, ?_, ?_, ?_, ?_⟩, ⟨?_, ?_, ?_, ?_⟩,
    by unfold box; decide +kernel, by unfold box; decide +kernel, ?_⟩
  any_goals
    intro i
    rw [red_value]
    decide +kernel
  intro m hm x y h
  have no : ∀ v : ℚ, |v| ≤ 100 → ¬ (Flt.fin v).Absurd := by
    intro v hv (h : (10 : ℚ) ^ 10 < |v|)
    norm_num at h
    linarith
  unfold box
  simp only [events, List.mem_cons, List.not_mem_nil, or_false] at hm
  rcases hm with rfl | rfl | rfl <;> rcases h with ⟨a, b, -⟩ | ⟨a | a, -⟩ <;>
    first
    | (exact (no _ (by norm_num) a).elim)
    | (simp only [Engine.Demo.motion, Flt.fin.injEq] at a b; subst a; subst b; norm_num)

/-- ... the pixel in column 63, row 30 is far ... -/
theorem far_pixel : ¬ Near box (3 + 1 / 2 + 0 + 3 / 2) 63 30 := by
  rintro ⟨px, py, ⟨-, -, -, h⟩, -, h2⟩
  have := (abs_le.mp h2).2
  norm_num at this
  linarith

/-- ... so C64 says that the stroke leaves it alone. -/
example {s s' : Studio ℚ Nat} (h0 : studio red ⟨0, 0, 0, 0⟩ = .ok s)
    (h : paint Engine.Demo.env .normal demoEnv demoTrig sch 100 s [strokeBlock events] = .ok s') {q : Px}
    (hq : pixel s'.surf.surf.canvas 63 30 = .ok q) : pixel s.surf.surf.canvas 63 30 = .ok q := by
  obtain ⟨s1, h1, hf, hb, -⟩ := studio_fine red_underway ⟨0, 0, 0, 0⟩
  rw [h0] at h1
  cases h1
  obtain ⟨r1, r2, r3, r4, r5, r6⟩ := red_local
  have ha : s.surf.symm.active = false := by
    unfold studio at h0
    have : (studio red ⟨0, 0, 0, 0⟩).toOption.map (fun s => s.surf.symm.active) = some false := by decide +kernel
    unfold studio at this
    rw [h0] at this
    exact Option.some.inj this
  rw [← hb] at r1 r2 r3 r4 r5
  exact paint_stays_near_the_pen demo_decays demoEnv_valid box_convex zero_le_one (le_refl 0) _ hf
    (by rintro bl (hm : bl ∈ [_]); rw [List.mem_singleton.mp hm]; exact ⟨strokeBlock_ok _, rfl, r6⟩) ha r1 (.inl r2) r3 r4 r5 h 63 30
    far_pixel hq

/-- The session, with two pixels under the stroke, and one beside it. -/
example : observe red ⟨0, 0, 0, 0⟩ events [(63, 10), (66, 10), (63, 30)] =
    some ([⟨58, 5, 12, 10⟩], [some ⟨32760, 0, 0, 32760⟩, some ⟨32243, 0, 0, 32243⟩, some ⟨0, 0, 0, 0⟩]) := by
  decide +kernel

/-- The hypotheses of C65 and of the eraser; the alpha of a blue canvas shrinks. -/
def rubber : Brush ℚ Nat := Engine.Demo.set red sEraser 1

theorem rubber_value (id : Nat) (i : Nat → ℚ) : calculate (rubber.settings id) i = (rubber.settings id).base := by
  show calculate (if id = sEraser then Engine.Demo.constant 1 else red.settings id) i =
    (if id = sEraser then Engine.Demo.constant 1 else red.settings id).base
  split_ifs
  · rfl
  · exact red_value id i

example : PlainModes rubber.settings ∧ (∀ i, 1 ≤ calculate (rubber.settings sEraser) i) ∧
    ∀ i, calculate (rubber.settings sPaintMode) i ≤ 0 := by
  refine ⟨⟨?_, ?_, .inl ?_⟩, ?_, ?_⟩ <;> intro i <;> rw [rubber_value] <;> decide +kernel

theorem uniform_pixel (p : Px) (X Y : Int) : pixel (uniform p) X Y = .ok p := by
  have h : offset X Y % 4 = 0 := by unfold offset; omega
  show Except.ok (readPx _ _) = _
  unfold readPx
  congr 1
  have h1 : (offset X Y + 1) % 4 = 1 := by omega
  have h2 : (offset X Y + 2) % 4 = 2 := by omega
  have h3 : (offset X Y + 3) % 4 = 3 := by omega
  simp only [h, h1, h2, h3]
  rfl

example : CanvasValid (uniform ⟨0, 0, 32768, 32768⟩) := fun X Y => ⟨_, uniform_pixel _ X Y, by decide⟩

example : observe rubber ⟨0, 0, 32768, 32768⟩ events [(63, 10), (66, 10), (63, 30)] =
    some ([⟨58, 5, 12, 10⟩], [some ⟨0, 0, 7, 7⟩, some ⟨0, 0, 524, 524⟩, some ⟨0, 0, 32768, 32768⟩]) := by
  decide +kernel

/-- With locked alpha the stroke recolours a half transparent canvas. -/
def locked : Brush ℚ Nat := Engine.Demo.set red sLockAlpha 1

example : ∀ i, 1 ≤ calculate (locked.settings sLockAlpha) i := fun _ => le_refl _

example : observe locked ⟨0, 0, 16384, 16384⟩ events [(63, 10), (66, 10), (63, 30)] =
    some ([⟨58, 5, 12, 10⟩], [some ⟨16380, 0, 3, 16384⟩, some ⟨16121, 0, 262, 16384⟩, some ⟨0, 0, 16384, 16384⟩]) := by
  decide +kernel

end Demo

end Verif.Painting
