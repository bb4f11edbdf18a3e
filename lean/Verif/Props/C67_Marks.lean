import Verif.Props.C60_Linearize
import Verif.Props.C64_Painting

/-!
# C67, C68: which strokes leave a mark, and which marks are reported
-/

namespace Verif.Painting
open Verif.Full Verif.Dab Verif.Engine Verif.Blend Verif.Map Verif.Mask Spec.Rect

section
variable {K R σ : Type} [Field K] [LinearOrder K] [IsStrictOrderedRing K] [FloorRing K]

/-- The radius that the settings ask for, and the hardness. -/
def radiusOf (e : Engine.Env K R σ) (s : Load.Brush K) (i : Nat → K) : K :=
  askedRadius e (calculate (s sRadiusLogarithmic) i)

def hardnessOf (s : Load.Brush K) (i : Nat → K) : K := max 0 (min 1 (calculate (s sHardness) i))

/-- The radius is neither random nor snapped to pixels. -/
structure Firm (s : Load.Brush K) : Prop where
  random : ∀ i, calculate (s sRadiusByRandom) i = 0
  snap : ∀ i, calculate (s sSnapToPixel) i ≤ 0

/-- A brush that never is transparent, has hardness, and is thick: the width of the soft edge that anti-aliasing asks for
is less than the radius plus the hard part of the radius. -/
structure Shown (e : Engine.Env K R σ) (s : Load.Brush K) : Prop extends Firm s where
  opaque' : ∀ i, 0 < calculate (s sOpaque) i
  multiply : ∀ i, 0 < calculate (s sOpaqueMultiply) i
  linearize : 0 ≤ (s sOpaqueLinearize).base
  hardness : ∀ i, 0 < calculate (s sHardness) i
  softness : ∀ i, calculate (s sSoftness) i < 1
  thick : ∀ i, calculate (s sAntiAliasing) i < radiusOf e s i + hardnessOf s i * radiusOf e s i

/-- A thin brush: the width of the soft edge that anti-aliasing asks for is at least the radius plus the hard part of the
radius. -/
structure Thin (e : Engine.Env K R σ) (s : Load.Brush K) : Prop extends Firm s where
  thin : ∀ i, radiusOf e s i + hardnessOf s i * radiusOf e s i ≤ calculate (s sAntiAliasing) i

/-- Roots of numbers below one are below one. -/
def Shrinks (e : Engine.Env K R σ) : Prop := ∀ a n : K, 0 ≤ a → a < 1 → 0 < n → e.pow a n < 1

theorem dabOpacity_pos {e : Engine.Env K R σ} (he : Shrinks e) {b : Brush K R} {i : Nat → K}
    (hv : b.vals = fun id => calculate (b.settings id) i) (ho : 0 < calculate (b.settings sOpaque) i)
    (hm : 0 < calculate (b.settings sOpaqueMultiply) i) (hl : 0 ≤ (b.settings sOpaqueLinearize).base) {o : K}
    (h : dabOpacity e b = .ok o) : 0 < o := by
  unfold dabOpacity at h
  dsimp only at h
  have p : 0 < clampK (Color.maxC 0 (b.vals sOpaque) * b.vals sOpaqueMultiply) 0 1 := by
    rw [clampK_eq _ _ _ zero_le_one, maxC_eq, hv]
    dsimp only
    rw [max_eq_right ho.le]
    exact lt_max_of_lt_right (lt_min zero_lt_one (mul_pos ho hm))
  have q : clampK (Color.maxC 0 (b.vals sOpaque) * b.vals sOpaqueMultiply) 0 1 ≤ 1 := (clampK_ge zero_le_one).2
  generalize clampK (Color.maxC 0 (b.vals sOpaque) * b.vals sOpaqueMultiply) 0 1 = c at *
  by_cases h0 : b.baseval sOpaqueLinearize = 0
  · rw [if_pos h0] at h
    rw [← Except.ok.inj h]
    exact p
  rw [if_neg h0] at h
  have hd : 1 ≤ (if (b.st.dabsPerActualRadius + b.st.dabsPerBasicRadius) * 2 < 1 then (1 : K)
        else (b.st.dabsPerActualRadius + b.st.dabsPerBasicRadius) * 2) := by
    split_ifs with t
    · exact le_refl _
    · exact not_lt.mp t
  have hb : b.baseval sOpaqueLinearize = (b.settings sOpaqueLinearize).base := rfl
  generalize (if (b.st.dabsPerActualRadius + b.st.dabsPerBasicRadius) * 2 < 1 then (1 : K)
        else (b.st.dabsPerActualRadius + b.st.dabsPerBasicRadius) * 2) = d at *
  have hpos : 0 < 1 + b.baseval sOpaqueLinearize * (d - 1) := by
    have := mul_nonneg hl (sub_nonneg.mpr hd)
    rw [hb]
    linarith
  rw [if_neg hpos.ne'] at h
  rw [← Except.ok.inj h]
  have := he (1 - c) (1 / (1 + b.baseval sOpaqueLinearize * (d - 1))) (by linarith) (by linarith)
    (div_pos zero_lt_one hpos)
  linarith

/-- Settings under which every dab has some opacity. -/
structure SomeOpacity (s : Load.Brush K) : Prop where
  random : ∀ i, calculate (s sRadiusByRandom) i = 0
  opaque' : ∀ i, 0 < calculate (s sOpaque) i
  multiply : ∀ i, 0 < calculate (s sOpaqueMultiply) i
  linearize : 0 ≤ (s sOpaqueLinearize).base

theorem opacity_invariant {e : Engine.Env K R σ} (he : Shrinks e) :
    Invariant (recordDabs e) (fun _ => True) (fun _ _ => True)
      (fun b s => SomeOpacity b.settings ∧ ∀ a ∈ s.2, 0 < a.opaque')
      (fun b s => SomeOpacity b.settings ∧ (∃ i, b.vals = fun id => calculate (b.settings id) i) ∧
        ∀ a ∈ s.2, 0 < a.opaque') :=
  Invariant.ofBlind (e := recordDabs e)
    (I := fun (s : Load.Brush K) (l : σ × List (Args K)) => SomeOpacity s ∧ ∀ a ∈ l.2, 0 < a.opaque')
    (J := fun (s : Load.Brush K) (v : Nat → K) (l : σ × List (Args K)) => SomeOpacity s ∧
      (∃ i, v = fun id => calculate (s id) i) ∧ ∀ a ∈ l.2, 0 < a.opaque')
    (fun s surf i h => ⟨h.1, ⟨_, rfl⟩, h.2⟩) (fun s v surf h => ⟨h.1, h.2.2⟩) (by
      rintro b surf lin p ⟨hp, ⟨i, hv⟩, hl⟩ hd
      refine ⟨hp, ?_⟩
      rcases drawDab_oneDab hd with h | ⟨o, pos, sm, col, ho, hpos, -, -, -, -, -, h⟩
      · rw [h]; exact hl
      · rw [h]
        intro a ha
        rcases List.mem_append.mp ha with q | q
        · exact hl a q
        · rw [List.mem_singleton.mp q]
          show 0 < (dabRadius (recordDabs e) pos.2.2 o).2.1
          have k : (dabRadius (recordDabs e) pos.2.2 o).2.1 = o := by
            unfold dabRadius
            dsimp only
            rw [(dabPosition_frame hpos).vals, hv]
            simp only
            rw [if_neg (not_not.mpr (hp.random i))]
          rw [k]
          exact dabOpacity_pos (e := recordDabs e) he hv (hp.opaque' i) (hp.multiply i) hp.linearize ho)

/-- The dabs of such a brush are visible. -/
theorem shown_visible {e : Engine.Env K R σ} (he : Shrinks e) {fuel : Nat} (ms : List (Motion K)) {b : Brush K R}
    (hb : Underway b) (hs : Shown e b.settings) (surf : σ) {r : Brush K R × (σ × List (Args K))}
    (h : strokes (recordDabs e) fuel b (surf, []) ms = .ok r) : ∀ a ∈ r.2.2, ¬ Invisible a := by
  intro a ha
  have k1 : 0 < a.opaque' := (session_keeps (opacity_invariant he) (fun _ => True) (fun _ _ _ _ => trivial)
    (fun _ _ _ _ => trivial) (fun _ _ => trivial) ms (fun _ _ => trivial) hb
    ⟨⟨hs.random, hs.opaque', hs.multiply, hs.linearize⟩, by simp⟩ h).1.2 a ha
  obtain ⟨i, hi⟩ := dabs_shaped e ms hb surf h a ha
  obtain ⟨j, -, -, -, -, -, hsoft⟩ := passes_settings_on e ms hb surf h a ha
  have E := hi.edge hs.random hs.snap
  have R0 := askedRadius_pos e (calculate (b.settings sRadiusLogarithmic) i)
  have R1 : 1 / 5 ≤ askedRadius e (calculate (b.settings sRadiusLogarithmic) i) := le_max_left _ _
  have h0 : 0 < max 0 (min 1 (calculate (b.settings sHardness) i)) :=
    lt_max_of_lt_right (lt_min zero_lt_one (hs.hardness i))
  have hf := hs.thick i
  unfold radiusOf hardnessOf at hf
  generalize askedRadius e (calculate (b.settings sRadiusLogarithmic) i) = R at *
  generalize max 0 (min 1 (calculate (b.settings sHardness) i)) = hd at *
  generalize calculate (b.settings sAntiAliasing) i = f at *
  have hp : 0 < hd * R := mul_pos h0 R0
  rintro (q | q | q | q)
  · linarith
  · rcases le_or_gt f (R - hd * R) with t | t
    · rw [(E.wide t).2] at q; linarith
    · have w := E.width t
      have m := E.middle t
      have : 0 < a.hardness * a.radius := by linarith
      have r0 : 0 < a.radius ∨ a.radius ≤ 0 := lt_or_ge _ _
      rcases r0 with r0 | r0
      · nlinarith
      · have : a.radius = (R + hd * R) / 2 + f / 2 := by linarith
        have := E.middle t
        rcases le_or_gt 0 f with z | z
        · linarith
        · nlinarith
  · rw [hsoft] at q
    have := (clampK_eq_one _).mp (le_antisymm (clampK_ge zero_le_one).2 q)
    linarith [hs.softness j]
  · rcases le_or_gt f (R - hd * R) with t | t
    · rw [(E.wide t).1] at q; linarith
    · have w := E.width t
      have m := E.middle t
      have h1 : 0 ≤ f ∨ f < 0 := le_or_gt _ _
      have : a.radius = (R + hd * R) / 2 + f / 2 := by linarith
      linarith

/-- The dabs of a thin brush are invisible. -/
theorem thin_invisible {e : Engine.Env K R σ} {fuel : Nat} (ms : List (Motion K)) {b : Brush K R}
    (hb : Underway b) (hs : Thin e b.settings) (surf : σ) {r : Brush K R × (σ × List (Args K))}
    (h : strokes (recordDabs e) fuel b (surf, []) ms = .ok r) : ∀ a ∈ r.2.2, Invisible a := by
  intro a ha
  obtain ⟨i, hi⟩ := dabs_shaped e ms hb surf h a ha
  have E := hi.edge hs.random hs.snap
  have R0 := askedRadius_pos e (calculate (b.settings sRadiusLogarithmic) i)
  have h0 : 0 ≤ max 0 (min 1 (calculate (b.settings sHardness) i)) := le_max_left _ _
  have hf := hs.thin i
  unfold radiusOf hardnessOf at hf
  generalize askedRadius e (calculate (b.settings sRadiusLogarithmic) i) = R at *
  generalize max 0 (min 1 (calculate (b.settings sHardness) i)) = hd at *
  generalize calculate (b.settings sAntiAliasing) i = f at *
  have hp : 0 ≤ hd * R := mul_nonneg h0 R0.le
  refine .inr (.inl ?_)
  rcases le_or_gt f (R - hd * R) with t | t
  · rw [(E.wide t).2]
    have : hd * R = 0 := by linarith
    rcases mul_eq_zero.mp this with z | z
    · exact z.le
    · linarith
  · have w := E.width t
    have m := E.middle t
    have z : a.hardness * a.radius ≤ 0 := by linarith
    have r0 : 0 < a.radius := by linarith
    by_contra q
    exact absurd (mul_pos (not_le.mp q) r0) (not_lt.mpr z)

/-- **C67**. A brush that is never transparent, has hardness and is thick; any symmetry, any number of blocks before. When
a block of motion events ends into a list of rectangles, every pixel whose colour is not what it was before the block lies
in one of them. Partial: see `fading_stroke_not_reported` for a brush that is transparent at times. -/
theorem strokes_reported_partial {e : Engine.Env K R σ} (hp : Shrinks e) {b : Build} {env : Dab.Env K} (he : env.Valid)
    {trig : Symm.Trig K} {sch : Schedule} {fuel : Nat} (bls : List (Block K)) (bl : Block K) {s0 s s' : Studio K R}
    {rs : List Rect} {n : Int} {old : Int → Rect} (hs : s0.Fine b env trig) (hb : ∀ bl' ∈ bls, bl'.Ok) (hbl : bl.Ok)
    (hsh : Shown e s0.brush.settings) (h0 : paint e b env trig sch fuel s0 bls = .ok s)
    (h : block e b env trig sch fuel s bl = .ok (rs, s')) (hroi : bl.roi = some (n, old)) :
    (∀ X Y p q, pixel s.surf.surf.canvas X Y = .ok p → pixel s'.surf.surf.canvas X Y = .ok q → p ≠ q →
      ∃ r ∈ rs, Has r X Y) ∧ (rs.length : Int) ≤ max 0 n := by
  obtain ⟨hf, hset, -⟩ := paint_keeps (I := fun br => br.settings = s0.brush.settings) (Q := fun _ => True)
    (B := fun _ => True) (S := fun _ => True) (fun _ _ _ _ => trivial) (fun _ _ _ _ => trivial)
    (fun bl br w r _ hu hI hr => ⟨(settings_kept _ bl.motions hu _ hr).trans hI, fun _ _ _ _ _ _ _ _ _ _ _ _ => trivial⟩)
    bls hs (fun bl h => ⟨hb bl h, trivial⟩) trivial rfl trivial h0
  obtain ⟨s1, s2, es, h1, h2, h3, h4, h5, -⟩ := block_eq hf h
  have hsu := setUp_sound hbl hf.surf
  obtain ⟨hs1, hdirty, hsurf, -⟩ := beginAtomic_sound h1 hsu
  have hc0 : ∀ m, Covered s.surf.surf.canvas s.surf.surf.canvas s1.boxes m := by
    intro m X Y p q hp hq hne
    rw [hp] at hq; cases hq; exact absurd rfl hne
  have hvis : ∀ a ∈ dabs es, ¬ Invisible a := shown_visible (e := onTiles e b env sch) hp bl.motions hf.brush
    (hset ▸ ⟨⟨hsh.random, hsh.snap⟩, hsh.opaque', hsh.multiply, hsh.linearize, hsh.hardness, hsh.softness, hsh.thick⟩)
    _ h5
  have key : ∃ m c', (m ≤ 0 ∨ m = s2.dirty) ∧ Sound b env trig s2 c' ∧
      Covered s.surf.surf.canvas c' s2.boxes m := by
    rcases List.eq_nil_or_concat (dabs es) with hn | ⟨l, a, hl⟩
    · obtain ⟨c', k1, k2, -⟩ := block_sound he es s1 s2 _ _ 0 h2 h3 hs1 (hc0 0) (Or.inl (by rw [hn]; simp))
      exact ⟨0, c', Or.inl le_rfl, k1, k2⟩
    · obtain ⟨c', k1, k2, -, -, hd, -⟩ := block_sound he es s1 s2 _ _ (usedOf s1.symm s1.numB) h2 h3 hs1 (hc0 _)
        (Or.inr rfl)
      rw [List.concat_eq_append] at hl
      exact ⟨_, c', Or.inr (hd l a hl (hvis a (by rw [hl]; simp))).symm, k1, k2⟩
  obtain ⟨m, c', hm, k1, k2⟩ := key
  obtain ⟨-, hcan, hrects⟩ := endAtomic_sound hbl.order h4 k1
  obtain ⟨hlen, hcover⟩ := hrects n old hroi
  constructor
  · intro X Y p q hp hq hne
    rw [hcan] at hq
    obtain ⟨i, hi0, hi1, hh⟩ := k2 X Y p q hp hq hne
    obtain ⟨r, hr, hsub⟩ := hcover i hi0 (by omega)
    exact ⟨r, hr, hsub X Y hh⟩
  · omega

/-- **C68**. Each dab of a brush that is never transparent, has hardness and is thick is really drawn. -/
theorem thick_brush_draws {e : Engine.Env K R σ} (hp : Shrinks e) {fuel : Nat} (ms : List (Motion K)) {b : Brush K R}
    (hb : Underway b) (hs : Shown e b.settings) (hn : ∀ i, |calculate (b.settings sPosterizeNum) i| ≤ 1000) (surf : σ)
    {r : Brush K R × (σ × List (Args K))} (h : strokes (recordDabs e) fuel b (surf, []) ms = .ok r) :
    ∀ a ∈ r.2.2, ∃ op, prepare a = .ok (some op) ∧ op.Valid := by
  intro a ha
  have k := shown_visible hp ms hb hs surf h a ha
  rcases invisible_iff_nothing_queued a with ⟨-, f, q⟩ | ⟨q, -⟩ | ⟨-, q⟩
  · exfalso
    obtain ⟨i, -, -, -, h4, -⟩ := passes_settings_on e ms hb surf h a ha
    have hi := abs_le.mp (hn i)
    rw [← h4] at hi
    unfold toInt at q
    dsimp only at q
    have l1 : (-100000 : Int) ≤ ⌊a.posterizeNum * 100 + 1 / 2⌋ := Int.le_floor.mpr (by push_cast; linarith [hi.1])
    have l2 : ⌈a.posterizeNum * 100 + 1 / 2⌉ ≤ (100001 : Int) := Int.ceil_le.mpr (by push_cast; linarith [hi.2])
    have l3 := Int.floor_le_ceil (a.posterizeNum * 100 + 1 / 2)
    have e1 : intMin = -2147483648 := rfl
    have e2 : intMax = 2147483647 := rfl
    rw [if_pos (by split_ifs <;> constructor <;> omega)] at q
    cases q
  · exact absurd q k
  · exact q

/-- **C68**, the gap. A thin brush paints nothing: no session, with any opacity, changes any pixel. -/
theorem thin_brush_paints_nothing {e : Engine.Env K R σ} {b : Build} {env : Dab.Env K}
    {trig : Symm.Trig K} {sch : Schedule} {fuel : Nat} (bls : List (Block K)) {s s' : Studio K R}
    (hs : s.Fine b env trig) (hb : ∀ bl ∈ bls, bl.Ok) (ht : Thin e s.brush.settings)
    (h : paint e b env trig sch fuel s bls = .ok s') : s'.surf.surf.canvas = s.surf.surf.canvas := by
  refine (paint_keeps (I := fun br => br.settings = s.brush.settings) (Q := fun c => c = s.surf.surf.canvas)
    (B := fun _ => True) (S := fun _ => True) (fun _ _ _ _ => trivial) (fun _ _ _ _ => trivial) ?_ bls hs
    (fun bl h => ⟨hb bl h, trivial⟩) trivial rfl rfl h).2.2
  intro bl br w r _ hu hI hr
  refine ⟨(settings_kept _ bl.motions hu _ hr).trans hI, ?_⟩
  intro a hin x y θ d _ _ op hop
  have k := thin_invisible (e := onTiles e b env sch) bl.motions hu (hI ▸ ⟨⟨ht.random, ht.snap⟩, ht.thin⟩) w hr a hin
  rcases invisible_iff_nothing_queued (moved a x y θ) with ⟨q, -⟩ | ⟨-, q⟩ | ⟨q, -⟩
  · rw [q] at hop; cases hop
  · rw [q] at hop; cases hop
  · exact absurd k q

end

/-! ### Sessions that meet the hypotheses, and the witness -/

theorem realEnv_shrinks {R σ : Type} (next gauss : R → ℝ × R) (draw : σ → Args ℝ → Bool × σ)
    (getColor : σ → Int → Int → ℝ → ℝ → Color.Rgba ℝ × σ) : Shrinks (realEnv next gauss draw getColor) :=
  fun _ _ h0 h1 hn => Real.rpow_lt_one h0 h1 hn

namespace Demo

theorem demo_shrinks : Shrinks Engine.Demo.env := fun _ _ _ h _ => h

theorem red_shown : Shown Engine.Demo.env red.settings := by
  refine ⟨⟨?_, ?_⟩, ?_, ?_, by decide +kernel, ?_, ?_, ?_⟩ <;> intro i
  any_goals
    rw [red_value]
    decide +kernel
  unfold radiusOf hardnessOf
  rw [red_value, red_value, red_value]
  decide +kernel

/-- **C67 fails** for a brush whose opacity is the pressure: the pen paints, and is lifted; the canvas has changed, but no
rectangle is reported. -/
theorem fading_stroke_not_reported : ∃ s s' p q, studio fading ⟨0, 0, 0, 0⟩ = .ok s ∧
    block Engine.Demo.env .normal demoEnv demoTrig sch 100 s (strokeBlock lifting) = .ok ([], s') ∧
    pixel s.surf.surf.canvas 63 10 = .ok p ∧ pixel s'.surf.surf.canvas 63 10 = .ok q ∧ p ≠ q := by
  have k : observe fading ⟨0, 0, 0, 0⟩ lifting [(63, 10)] = some ([], [some ⟨15835, 0, 0, 15835⟩]) := by decide +kernel
  obtain ⟨s, h1, -, -, h2⟩ := studio_fine (br := fading) ⟨⟨le_refl _, zero_lt_one⟩, le_refl _⟩ ⟨0, 0, 0, 0⟩
  unfold observe session at k
  rw [h1] at k
  change (match block Engine.Demo.env .normal demoEnv demoTrig sch 100 s (strokeBlock lifting) with
    | .error _ => none
    | .ok (rs, s) => some (rs, [((63, 10) : Int × Int)].map fun (q : Int × Int) => (pixel s.surf.surf.canvas q.1 q.2).toOption)) = _ at k
  cases h : block Engine.Demo.env .normal demoEnv demoTrig sch 100 s (strokeBlock lifting) with
  | error f => rw [h] at k; cases k
  | ok r =>
    obtain ⟨rs, s'⟩ := r
    rw [h] at k
    simp only [List.map_cons, List.map_nil, Option.some.injEq, Prod.mk.injEq, List.cons.injEq, and_true] at k
    obtain ⟨rfl, k⟩ := k
    refine ⟨s, s', ⟨0, 0, 0, 0⟩, ⟨15835, 0, 0, 15835⟩, h1, h, ?_, ?_, by decide⟩
    · rw [h2]; exact uniform_pixel _ _ _
    · cases hp : pixel s'.surf.surf.canvas 63 10 with
      | error f => rw [hp] at k; cases k
      | ok q => rw [hp] at k; exact congrArg _ (Option.some.inj k)

/-- A brush of radius 1/3 with full opacity, hardness 4/5 and the default anti-aliasing of 1. -/
def thin : Brush ℚ Nat := Engine.Demo.set red sRadiusLogarithmic (-2)

theorem thin_value (id : Nat) (i : Nat → ℚ) : calculate (thin.settings id) i = (thin.settings id).base := by
  show calculate (if id = sRadiusLogarithmic then Engine.Demo.constant (-2) else red.settings id) i =
    (if id = sRadiusLogarithmic then Engine.Demo.constant (-2) else red.settings id).base
  split_ifs
  · rfl
  · exact red_value id i

example : Thin Engine.Demo.env thin.settings ∧ (∀ i, calculate (thin.settings sOpaque) i = 1) ∧
    (∀ i, calculate (thin.settings sOpaqueMultiply) i = 1) ∧ (thin.settings sAntiAliasing).base = 1 ∧
    (thin.settings sHardness).base = 4 / 5 := by
  refine ⟨⟨⟨?_, ?_⟩, ?_⟩, ?_, ?_, by decide +kernel, by decide +kernel⟩ <;> intro i
  any_goals
    rw [thin_value]
    decide +kernel
  unfold radiusOf hardnessOf
  rw [thin_value, thin_value, thin_value]
  decide +kernel

/-- It draws dabs, but nothing happens. -/
example : Engine.Demo.look (fun r => r.2.2.map fun a => (a.radius, a.hardness, a.opaque'))
    (strokes (recordDabs Engine.Demo.env) 100 thin ([], []) [Engine.Demo.motion 60 10 1 (1 / 10),
      Engine.Demo.motion 61 10 1 (1 / 10), Engine.Demo.motion (245 / 4) 10 1 (1 / 10)]) =
    some [(4 / 5, -1 / 4, 1)] := by
  decide +kernel

example : observe thin ⟨0, 0, 0, 0⟩ events [(63, 10), (66, 10), (63, 30)] =
    some ([], [some ⟨0, 0, 0, 0⟩, some ⟨0, 0, 0, 0⟩, some ⟨0, 0, 0, 0⟩]) := by
  decide +kernel

end Demo

end Verif.Painting
