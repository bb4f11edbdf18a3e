import Verif.Props.C118_Custom

/-!
# C122: the smudge colour follows the canvas as the smudge length says

With each dab the brush takes up colour from the canvas: it keeps a part of what it carries and fills up with what it finds. The part
that it keeps is the smudge length. The dab is painted with what the brush carries then, mixed with its own colour.
-/

namespace Verif.Engine
open Verif.Mask Verif.Color Verif.Spectral Verif.Map

section
variable {K R σ : Type} [Field K] [LinearOrder K] [IsStrictOrderedRing K] [FloorRing K]

/-! ### Specification -/

/-- Writes down the colours that the canvas answers with. -/
def recordSamples (e : Env K R σ) : Env K R (σ × List (Rgba K)) :=
  { exp := e.exp, log := e.log, sqrt := e.sqrt, pow := e.pow, atan2 := e.atan2, cos := e.cos, sin := e.sin
    degrees := e.degrees, next := e.next, gauss := e.gauss
    draw := fun s a => ((e.draw s.1 a).1, (e.draw s.1 a).2, s.2)
    getColor := fun s x y r p => ((e.getColor s.1 x y r p).1, (e.getColor s.1 x y r p).2, s.2 ++ [(e.getColor s.1 x y r p).1]) }

/-- Paint of a colour, with as much of it as it covers. -/
def paintOf (c : Rgba K) : Rgba K := ⟨c.a * c.r, c.a * c.g, c.a * c.b, c.a⟩

/-- A part `u` of the paint `v`, filled up with the paint `w`. -/
def filledUp (u : K) (v w : Rgba K) : Rgba K :=
  ⟨u * v.r + (1 - u) * w.r, u * v.g + (1 - u) * w.g, u * v.b + (1 - u) * w.b, u * v.a + (1 - u) * w.a⟩

/-- What the brush carries after it has found a colour on the canvas; at first it takes what it finds. -/
def takesUp (u : K) (v : Option (Rgba K)) (c : Rgba K) : Rgba K :=
  match v with
  | none => paintOf c
  | some v => filledUp u v (paintOf c)

/-- What the brush carries after each of the colours that it finds. -/
def carries (u : K) : Option (Rgba K) → List (Rgba K) → List (Rgba K)
  | _, [] => []
  | v, c :: cs => takesUp u v c :: carries u (some (takesUp u v c)) cs

/-- The last of them. -/
def carriesAtLast (u : K) (v : Option (Rgba K)) (cs : List (Rgba K)) : Option (Rgba K) :=
  cs.foldl (fun v c => some (takesUp u v c)) v

/-- A dab of the paint `v` to the part `f`, and of the colour `c` for the rest. -/
def SmudgedDab (f : K) (c : Rgb K) (v : Rgba K) (a : Dab.Args K) : Prop :=
  a.colorA = f * v.a + (1 - f) ∧
    (0 < a.colorA → a.colorA * a.colorR = f * v.r + (1 - f) * c.r ∧ a.colorA * a.colorG = f * v.g + (1 - f) * c.g ∧
      a.colorA * a.colorB = f * v.b + (1 - f) * c.b)

/-- A brush that smudges in the old way: to the part `f`, with the smudge length `u`. -/
structure SmudgesBy (s : Load.Brush K) (u f : K) : Prop where
  length : ∀ i, calculate (s sSmudgeLength) i = u
  amount : ∀ i, calculate (s sSmudge) i = f
  mode : ∀ i, calculate (s sPaintMode) i ≤ 0
  old : isConstant (s sPaintMode) = true
  log : ∀ i, calculate (s sSmudgeLengthLog) i = 0
  transparency : ∀ i, calculate (s sSmudgeTransparency) i = 0
  eraser : ∀ i, calculate (s sEraser) i = 0
  h : ∀ i, calculate (s sChangeColorH) i = 0
  v : ∀ i, calculate (s sChangeColorV) i = 0
  hsvS : ∀ i, calculate (s sChangeColorHsvS) i = 0
  l : ∀ i, calculate (s sChangeColorL) i = 0
  hslS : ∀ i, calculate (s sChangeColorHslS) i = 0

/-- The canvas covers from 0 to 1. -/
def CoversWithin (e : Env K R σ) : Prop := ∀ s x y r p, 0 ≤ (e.getColor s x y r p).1.a ∧ (e.getColor s x y r p).1.a ≤ 1

/-- A colour that the canvas can answer with. -/
def CanvasShows (e : Env K R σ) (c : Rgba K) : Prop := ∃ s x y r p, (e.getColor s x y r p).1 = c

/-- The brush has no buckets and carries `v` (nothing yet for `none`). -/
def Carries (v : Option (Rgba K)) (b : Brush K R) : Prop :=
  b.buckets.mem = [] ∧
    match v with
    | none => b.st.smudge.recentness = 0
    | some v => b.st.smudge.recentness = 1 ∧ (⟨b.st.smudge.r, b.st.smudge.g, b.st.smudge.b, b.st.smudge.a⟩ : Rgba K) = v ∧ 0 ≤ v.a ∧ v.a ≤ 1

/-! ### One dab -/

omit [FloorRing K] in
theorem takesUp_range {u : K} (hu : 0 ≤ u) (hu1 : u ≤ 1) {v : Option (Rgba K)} {c : Rgba K} (hv : ∀ w ∈ v, 0 ≤ w.a ∧ w.a ≤ 1)
    (hc : 0 ≤ c.a ∧ c.a ≤ 1) : 0 ≤ (takesUp u v c).a ∧ (takesUp u v c).a ≤ 1 := by
  cases v with
  | none => exact hc
  | some w =>
    obtain ⟨w0, w1⟩ := hv w rfl
    show 0 ≤ u * w.a + (1 - u) * c.a ∧ u * w.a + (1 - u) * c.a ≤ 1
    constructor
    · have := mul_nonneg hu w0
      have := mul_nonneg (sub_nonneg.mpr hu1) hc.1
      linarith
    · have := mul_le_mul_of_nonneg_left w1 hu
      have := mul_le_mul_of_nonneg_left hc.2 (sub_nonneg.mpr hu1)
      linarith

theorem updateSmudge_old {e : Env K R σ} {u : K} {b : Brush K R} {surf : σ} {v : Bucket K} {px py : Int} {radius : K} {w : Option (Rgba K)}
    (hlen : b.vals sSmudgeLength = u) (hu1 : u < 1) (hleg : legacySmudge b = true) (hlog : b.vals sSmudgeLengthLog = 0)
    (ht : b.vals sSmudgeTransparency = 0) (hpow : ∀ y, e.pow y 0 = 1) (hg : CoversWithin e)
    (hv : match w with
      | none => v.recentness = 0
      | some w => v.recentness = 1 ∧ (⟨v.r, v.g, v.b, v.a⟩ : Rgba K) = w ∧ 0 ≤ w.a ∧ w.a ≤ 1) :
    ∃ r p, (updateSmudge e b surf v px py radius).1 = false ∧
      (updateSmudge e b surf v px py radius).2.2.1 = (e.getColor surf px py r p).2 ∧
      (updateSmudge e b surf v px py radius).2.1.recentness = 1 ∧
      (⟨(updateSmudge e b surf v px py radius).2.1.r, (updateSmudge e b surf v px py radius).2.1.g,
        (updateSmudge e b surf v px py radius).2.1.b, (updateSmudge e b surf v px py radius).2.1.a⟩ : Rgba K) =
        takesUp (max (1 / 100) u) w (e.getColor surf px py r p).1 := by
  refine ⟨clampK (radius * e.exp (b.vals sSmudgeRadiusLog)) (1 / 5) 1000, -1, ?_⟩
  have hc := hg surf px py (clampK (radius * e.exp (b.vals sSmudgeRadiusLog)) (1 / 5) 1000) (-1)
  have hmax : maxC (1 / 100) u = max (1 / 100) u := by
    unfold maxC
    split_ifs with h1
    · exact (max_eq_left h1.le).symm
    · exact (max_eq_right (not_lt.mp h1)).symm
  have hU1 : max (1 / 100) u < 1 := max_lt (by norm_num) hu1
  have hU0 : 0 < max (1 / 100) u := lt_of_lt_of_le (by norm_num) (le_max_left _ _)
  have hmin : minC 1 (1 + 1 / 10 ^ 16 : K) = 1 := by
    unfold minC
    rw [if_pos (by norm_num)]
  unfold updateSmudge
  dsimp only
  rw [hleg, hlen, hlog, ht, hmax, hpow, hmin]
  generalize max (1 / 100) u = U at hU0 hU1 ⊢
  simp only [if_true, lt_irrefl, gt_iff_lt, neg_zero, false_and, or_self, and_false, if_false]
  generalize e.getColor surf px py (clampK (radius * e.exp (b.vals sSmudgeRadiusLog)) (1 / 5) 1000) (-1) = got at hc ⊢
  cases w with
  | none =>
    have hv' : v.recentness = 0 := hv
    rw [hv']
    simp only [zero_mul, zero_lt_one, if_true, and_self, sub_zero, one_mul, zero_add, true_and]
    show (⟨_, _, _, _⟩ : Rgba K) = paintOf got.1
    unfold paintOf
    rw [clampK_eq _ _ _ zero_le_one, min_eq_right hc.2, max_eq_right hc.1]
  | some w =>
    obtain ⟨h1, h2, h3, h4⟩ := hv
    rw [h1]
    simp only [one_mul, hU1, if_true, true_and, hU0.ne', if_false]
    show (⟨_, _, _, _⟩ : Rgba K) = filledUp U w (paintOf got.1)
    have hr := takesUp_range (v := some w) hU0.le hU1.le (by rintro x hx; cases hx; exact ⟨h3, h4⟩) hc
    change 0 ≤ U * w.a + (1 - U) * got.1.a ∧ U * w.a + (1 - U) * got.1.a ≤ 1 at hr
    subst h2
    unfold filledUp paintOf
    rw [clampK_eq _ _ _ zero_le_one, min_eq_right hr.2, max_eq_right hr.1]
    simp only [mul_assoc]

theorem dabPosition_only {e : Env K R σ} {b : Brush K R} {p : K × K × Brush K R} (h : dabPosition e b = .ok p) :
    p.2.2 = { b with rng := p.2.2.rng } := by
  unfold dabPosition at h
  dsimp only at h
  by_cases q : b.vals sOffsetBySpeed ≠ 0 ∧ b.st.viewzoom = 0
  · rw [if_pos q] at h; cases h
  · rw [if_neg q] at h
    by_cases q2 : b.vals sOffsetByRandom ≠ 0
    · rw [if_pos q2] at h
      rw [← Except.ok.inj h]
    · rw [if_neg q2] at h
      rw [← Except.ok.inj h]

omit [IsStrictOrderedRing K] [FloorRing K] in
theorem dabRadius_only (e : Env K R σ) (b : Brush K R) (o : K) : (dabRadius e b o).2.2 = { b with rng := (dabRadius e b o).2.2.rng } := by
  unfold dabRadius
  dsimp only
  by_cases q : b.vals sRadiusByRandom ≠ 0
  · rw [if_pos q]
  · rw [if_neg q]

theorem smudgeStage_carries {e : Env K R σ} {b : Brush K R} {surf : (σ × List (Rgba K)) × List (Dab.Args K)} {x y r : K}
    {sm : Bool × Brush K R × ((σ × List (Rgba K)) × List (Dab.Args K))} {i : Nat → K} {u f : K} (hs : SmudgesBy b.settings u f) (hu1 : u < 1)
    (hf : 0 < f) (hpow : ∀ y, e.pow y 0 = 1) (hg : CoversWithin e) {w : Option (Rgba K)} (hw : Carries w b)
    (hv : b.vals = fun id => calculate (b.settings id) i) (h : smudgeStage (recordDabs (recordSamples e)) b surf x y r = .ok sm) :
    sm.1 = false ∧ ∃ c, CanvasShows e c ∧ sm.2.2.1.2 = surf.1.2 ++ [c] ∧ Carries (some (takesUp (max (1 / 100) u) w c)) sm.2.1 := by
  have hv' : ∀ id, b.vals id = calculate (b.settings id) i := fun id => by rw [hv]
  unfold smudgeStage at h
  rw [if_pos ⟨by rw [hv', hs.length]; exact hu1, .inl (by rw [hv', hs.amount]; exact hf.ne')⟩] at h
  have hfe : fetchSmudge b = (none, b) := by
    unfold fetchSmudge
    rw [if_pos (.inl (by rw [hw.1]; rfl))]
  rw [hfe] at h
  dsimp only at h
  obtain ⟨v, h1, h⟩ := bind_ok h
  obtain ⟨px, -, h⟩ := bind_ok h
  obtain ⟨py, -, h⟩ := bind_ok h
  obtain ⟨b2, h2, h⟩ := bind_ok h
  have e1 : b.st.smudge = v := Except.ok.inj h1
  have e2 := Except.ok.inj h2
  rw [← Except.ok.inj h]
  have hleg : legacySmudge b = true := by
    unfold legacySmudge
    rw [hv' sPaintMode]
    simp only [hs.mode i, hs.old, and_self, decide_true]
  obtain ⟨r', p', k1, k2, k3, k4⟩ := updateSmudge_old (e := recordDabs (recordSamples e)) (surf := surf) (v := v) (px := px) (py := py)
    (radius := r) (w := w) (b := b) (by rw [hv', hs.length]) hu1 hleg (by rw [hv', hs.log]) (by rw [hv', hs.transparency]) hpow
    (fun s x y r p => hg s.1.1 x y r p) (by rw [← e1]; exact hw.2)
  have hc := hg surf.1.1 px py r' p'
  refine ⟨k1, (e.getColor surf.1.1 px py r' p').1, ⟨_, _, _, _, _, rfl⟩, ?_, ?_, ?_⟩
  · dsimp only
    rw [k2]
    rfl
  · rw [← e2]; exact hw.1
  · rw [← e2]
    refine ⟨k3, k4, ?_⟩
    refine takesUp_range (lt_of_lt_of_le (by norm_num) (le_max_left _ _)).le (max_le (by norm_num) hu1.le) ?_ hc
    intro x hx
    cases w with
    | none => cases hx
    | some w =>
      cases hx
      exact hw.2.2.2

theorem applySmudge_old {e : Env K R σ} {b : Brush K R} {v : Bucket K} {w : Rgba K} {c : Rgb K} {f : K} (hf : b.vals sSmudge = f) (hf0 : 0 < f)
    (hf1 : f ≤ 1) (hleg : legacySmudge b = true) (hw : (⟨v.r, v.g, v.b, v.a⟩ : Rgba K) = w) (h0 : 0 ≤ w.a) (h1 : w.a ≤ 1) :
    (applySmudge e b v c).1 = f * w.a + (1 - f) ∧ (0 < (applySmudge e b v c).1 →
      (applySmudge e b v c).1 * (applySmudge e b v c).2.1.r = f * w.r + (1 - f) * c.r ∧
      (applySmudge e b v c).1 * (applySmudge e b v c).2.1.g = f * w.g + (1 - f) * c.g ∧
      (applySmudge e b v c).1 * (applySmudge e b v c).2.1.b = f * w.b + (1 - f) * c.b) := by
  subst hw
  have hm : minC 1 f = f := by
    unfold minC
    split_ifs with q
    · exact le_antisymm q.le hf1
    · rfl
  simp only at h0 h1
  have ha : clampK ((1 - f) + f * v.a) 0 1 = f * v.a + (1 - f) := by
    have l0 := mul_nonneg hf0.le h0
    have l1 := mul_le_mul_of_nonneg_left h1 hf0.le
    rw [clampK_eq _ _ _ zero_le_one, min_eq_right (by linarith), max_eq_right (by linarith), add_comm]
  unfold applySmudge
  dsimp only
  rw [hf, hm, ha, hleg]
  by_cases q : f * v.a + (1 - f) > 0
  · rw [if_pos q]
    simp only [if_true, true_and]
    exact fun _ => ⟨mul_div_cancel₀ _ q.ne', mul_div_cancel₀ _ q.ne', mul_div_cancel₀ _ q.ne'⟩
  · rw [if_neg q]
    exact ⟨rfl, fun k => absurd k q⟩

/-- The parts of one dab. -/
theorem drawDab_carries {e : Env K R σ} {b : Brush K R} {surf : (σ × List (Rgba K)) × List (Dab.Args K)} {lin : Bool}
    {p : Bool × Brush K R × ((σ × List (Rgba K)) × List (Dab.Args K))} {i : Nat → K} {u f : K} (hs : SmudgesBy b.settings u f) (hu1 : u < 1)
    (hf : 0 < f) (hf1 : f ≤ 1) (hpow : ∀ y, e.pow y 0 = 1) (hg : CoversWithin e) {w : Option (Rgba K)} (hw : Carries w b)
    (hv : b.vals = fun id => calculate (b.settings id) i)
    (hd : drawDab (recordDabs (recordSamples e)) { b with st := { b.st with flip := b.st.flip * -1 } } surf lin = .ok p) :
    ∃ c a, CanvasShows e c ∧ p.2.2.1.2 = surf.1.2 ++ [c] ∧ p.2.2.2 = surf.2 ++ [a] ∧ SmudgedDab f (chosenColour b.settings) (takesUp (max (1 / 100) u) w c) a ∧
      Carries (some (takesUp (max (1 / 100) u) w c)) p.2.1 := by
  obtain ⟨o, pos, sm, -, h2, h3, frs, h4⟩ := drawDab_cases hd
  have on1 := dabPosition_only h2
  have on2 := dabRadius_only (recordDabs (recordSamples e)) pos.2.2 o
  rw [on1] at on2
  have set1 : sm.2.1.settings = b.settings := by rw [frs.settings]
  have val1 : sm.2.1.vals = b.vals := by rw [frs.vals]
  have nd := smudgeStage_noDabs h3
  rw [← on1] at on2
  obtain ⟨k1, c, kc, k2, k3⟩ := smudgeStage_carries (i := i) (w := w) (u := u) (f := f) (by rw [on2, on1]; exact hs) hu1 hf hpow hg
    (by rw [on2, on1]; exact hw) (by rw [on2, on1]; exact hv) h3
  rw [k1] at h4
  simp only [Bool.false_eq_true, false_and, false_or, true_and] at h4
  obtain ⟨col, h5, h6, h7⟩ := h4
  have hv' : ∀ id, sm.2.1.vals id = calculate (b.settings id) i := fun id => by rw [val1, hv]
  unfold smudgeColor at h5
  rw [if_pos (by rw [hv', hs.amount]; exact hf)] at h5
  have hfe : fetchSmudge sm.2.1 = (none, sm.2.1) := by
    unfold fetchSmudge
    rw [if_pos (.inl (by rw [k3.1]; rfl))]
  rw [hfe] at h5
  dsimp only at h5
  obtain ⟨v, h8, h5⟩ := bind_ok h5
  have e1 : sm.2.1.st.smudge = v := Except.ok.inj h8
  have e2 := Except.ok.inj h5
  have hleg : legacySmudge sm.2.1 = true := by
    unfold legacySmudge
    rw [hv' sPaintMode, set1]
    simp only [hs.mode i, hs.old, and_self, decide_true]
  have hap := applySmudge_old (e := recordDabs (recordSamples e)) (b := sm.2.1) (v := v) (c := hsvToRgb ⟨(b.settings sColorH).base, (b.settings sColorS).base, (b.settings sColorV).base⟩)
    (by rw [hv', hs.amount]) hf hf1 hleg (by rw [← e1]; exact k3.2.2.1) k3.2.2.2.1 k3.2.2.2.2
  have hcv : ∀ id, col.2.2.vals id = calculate (b.settings id) i := by
    intro id; rw [h6.vals]; show b.vals id = _; rw [hv]
  refine ⟨c, _, kc, ?_, by rw [h7]; exact congrArg (· ++ [_]) nd, ?_, ?_⟩
  · rw [h7]; exact k2
  · unfold SmudgedDab dabArgs
    dsimp only
    rw [colorDynamics_plain (by rw [hcv, hs.h]) (by rw [hcv, hs.v]) (by rw [hcv, hs.hsvS]) (by rw [hcv, hs.l]) (by rw [hcv, hs.hslS]),
      hcv sEraser, hs.eraser, if_neg (not_not.mpr rfl), ← e2]
    exact hap
  · rw [h7, ← e2]
    exact k3

/-! ### Sessions -/

omit [LinearOrder K] [IsStrictOrderedRing K] [FloorRing K] in
theorem carries_snoc (u : K) (cs : List (Rgba K)) (c : Rgba K) : ∀ w, carries u w (cs ++ [c]) = carries u w cs ++ [takesUp u (carriesAtLast u w cs) c] ∧
    carriesAtLast u w (cs ++ [c]) = some (takesUp u (carriesAtLast u w cs) c) := by
  induction cs with
  | nil => intro w; exact ⟨rfl, rfl⟩
  | cons d ds ih =>
    intro w
    obtain ⟨k1, k2⟩ := ih (some (takesUp u w d))
    constructor
    · show _ :: carries u _ (ds ++ [c]) = _
      rw [k1]
      rfl
    · exact k2

omit [LinearOrder K] [IsStrictOrderedRing K] [FloorRing K] in
theorem carries_append (u : K) (cs ds : List (Rgba K)) : ∀ w, carries u w (cs ++ ds) = carries u w cs ++ carries u (carriesAtLast u w cs) ds ∧
    carriesAtLast u w (cs ++ ds) = carriesAtLast u (carriesAtLast u w cs) ds := by
  induction cs with
  | nil => intro w; exact ⟨rfl, rfl⟩
  | cons d cs ih =>
    intro w
    obtain ⟨k1, k2⟩ := ih (some (takesUp u w d))
    constructor
    · show _ :: carries u _ (cs ++ ds) = _
      rw [k1]
      rfl
    · exact k2

/-- The dabs since a moment at which the brush carried `w`. -/
def Smearing (e : Env K R σ) (s : Load.Brush K) (u f : K) (w : Option (Rgba K)) (surf0 : (σ × List (Rgba K)) × List (Dab.Args K)) (b : Brush K R)
    (surf : (σ × List (Rgba K)) × List (Dab.Args K)) : Prop :=
  b.settings = s ∧ ∃ found dabs, surf.1.2 = surf0.1.2 ++ found ∧ surf.2 = surf0.2 ++ dabs ∧ (∀ c ∈ found, CanvasShows e c) ∧
    List.Forall₂ (SmudgedDab f (chosenColour s)) (carries (max (1 / 100) u) w found) dabs ∧
    Carries (carriesAtLast (max (1 / 100) u) w found) b

theorem dabStep_smears {e : Env K R σ} {s : Load.Brush K} {u f : K} (hs : SmudgesBy s u f) (hu1 : u < 1) (hf : 0 < f) (hf1 : f ≤ 1)
    (hpow : ∀ y, e.pow y 0 = 1) (hg : CoversWithin e) {w : Option (Rgba K)} {surf0 : (σ × List (Rgba K)) × List (Dab.Args K)}
    {ev : Event K} {x y : K} {l l' : Loop K R ((σ × List (Rgba K)) × List (Dab.Args K))} (hl : Smearing e s u f w surf0 l.b l.surf)
    (h : dabStep (recordDabs (recordSamples e)) ev x y l = .ok l') : Smearing e s u f w surf0 l'.b l'.surf := by
  obtain ⟨hset, found, dabs, h1, h2, hon, h3, h4⟩ := hl
  obtain ⟨-, b1, p, b2, hu, hd, hb2, e1⟩ := dabStep_eq h
  have hb1 := update_eq hu
  have set1 : b1.settings = s := by rw [hb1]; exact hset
  have fr := drawDab_frame hd
  obtain ⟨c, a, kc, k1, k2, k3, k4⟩ := drawDab_carries (b := b1) (u := u) (f := f) (w := carriesAtLast (max (1 / 100) u) w found)
    (i := (inputsOf (recordDabs (recordSamples e)) l.b (moveStates (recordDabs (recordSamples e)) l.b _)).get)
    (by rw [set1]; exact hs) hu1 hf hf1 hpow hg (by rw [hb1]; exact h4) (by rw [hb1]; rfl) hd
  obtain ⟨q1, q2⟩ := carries_snoc (max (1 / 100) u) found c w
  rw [e1, hb2]
  refine ⟨?_, found ++ [c], dabs ++ [a], ?_, ?_, ?_, ?_, ?_⟩
  · show p.2.1.settings = s
    rw [fr.settings]; exact set1
  · dsimp only; rw [k1, h1, List.append_assoc]
  · dsimp only; rw [k2, h2, List.append_assoc]
  · intro d hd
    rcases List.mem_append.mp hd with q | q
    · exact hon d q
    · rw [List.mem_singleton.mp q]; exact kc
  · rw [q1]
    rw [set1] at k3
    exact List.rel_append h3 (.cons k3 .nil)
  · rw [q2]
    dsimp only
    rw [countDabs_st]
    exact k4

theorem moveTo_smears {e : Env K R σ} {u f : K} {b : Brush K R} (hs : SmudgesBy b.settings u f) (hu1 : u < 1) (hf : 0 < f) (hf1 : f ≤ 1)
    (hpow : ∀ y, e.pow y 0 = 1) (hg : CoversWithin e) {w : Option (Rgba K)} (hw : Carries w b) {fuel : Nat} {ev : Event K} {x y dt : K}
    {surf : (σ × List (Rgba K)) × List (Dab.Args K)} {r : Bool × Brush K R × ((σ × List (Rgba K)) × List (Dab.Args K))}
    (h : moveTo (recordDabs (recordSamples e)) fuel b surf ev x y dt = .ok r) : Smearing e b.settings u f w surf r.2.1 r.2.2 := by
  obtain ⟨l, b1, hl, hu, -, h2, h3⟩ := moveTo_eq h
  obtain ⟨h0, found, dabs, k1, k2, kc, k3, k4⟩ := (dabLoop_induct
    (fun l : Loop K R ((σ × List (Rgba K)) × List (Dab.Args K)) => Smearing e b.settings u f w surf l.b l.surf)
    (fun l l' _ hst hi => dabStep_smears hs hu1 hf hf1 hpow hg hi hst) _ _ _ hl
    ⟨by simp only; rw [countDabs_st], [], [], by simp, by simp, by simp, .nil, by simp only; rw [countDabs_st]; exact hw⟩).1
  have hb1 := update_eq hu
  rw [h3]
  refine ⟨?_, found, dabs, k1, k2, kc, k3, ?_⟩
  · rw [h2, splitStroke_eq]
    show b1.settings = _
    rw [hb1]; exact h0
  · rw [h2, splitStroke_eq]
    show Carries _ { b1 with st := { b1.st with partialDabs := l.moved + l.todo }, total := _, idle := _ }
    rw [hb1]; exact k4

theorem strokeEvent_smears {e : Env K R σ} {u f : K} {b : Brush K R} (hb : Undisturbed b) (hs : SmudgesBy b.settings u f) (hu1 : u < 1)
    (hf : 0 < f) (hf1 : f ≤ 1) (hpow : ∀ y, e.pow y 0 = 1) (hg : CoversWithin e) {w : Option (Rgba K)} (hw : Carries w b) {fuel : Nat}
    {ev : Event K} (h5 : ev.dtime ≤ 5) {surf : (σ × List (Rgba K)) × List (Dab.Args K)}
    {r : Bool × Brush K R × ((σ × List (Rgba K)) × List (Dab.Args K))}
    (h : strokeEvent (recordDabs (recordSamples e)) fuel b surf ev = .ok r) : Smearing e b.settings u f w surf r.2.1 r.2.2 := by
  have sk : skipStage (recordDabs (recordSamples e)) b ev.x ev.y ev.dtime = (b, ev.dtime, false) := steady_skip hb _ _ _
  have cu := cursor_tracks (e := recordDabs (recordSamples e)) (b := b) (T := (b.settings sSlowTracking).base) ⟨rfl, hb.noise, hb.skip⟩
    ev.x ev.y ev.dtime
  rcases strokeEvent_cases h with ⟨h1, -⟩ | ⟨-, h1, -⟩ | ⟨-, -, h⟩
  · rw [sk] at h1; cases h1
  · rw [sk, hb.reset] at h1
    rcases h1 with q | q
    · exact absurd q (not_lt.mpr h5)
    · cases q
  · simp only [sk, cu] at h
    exact moveTo_smears hs hu1 hf hf1 hpow hg hw h

theorem Smearing.trans {e : Env K R σ} {s : Load.Brush K} {u f : K} {w : Option (Rgba K)} {surf0 surf1 surf2 : (σ × List (Rgba K)) × List (Dab.Args K)}
    {b1 b2 : Brush K R} (h1 : Smearing e s u f w surf0 b1 surf1)
    (h2 : ∀ w', Carries w' b1 → Smearing e s u f w' surf1 b2 surf2) : Smearing e s u f w surf0 b2 surf2 := by
  obtain ⟨-, f1, d1, a1, a2, ao, a3, a4⟩ := h1
  obtain ⟨c0, f2, d2, c1, c2, co, c3, c4⟩ := h2 _ a4
  obtain ⟨q1, q2⟩ := carries_append (max (1 / 100) u) f1 f2 w
  refine ⟨c0, f1 ++ f2, d1 ++ d2, by rw [c1, a1, List.append_assoc], by rw [c2, a2, List.append_assoc],
    fun c hc => (List.mem_append.mp hc).elim (ao c) (co c), ?_, by rw [q2]; exact c4⟩
  rw [q1]
  exact List.rel_append a3 c3

/-- **What each dab is painted with**: with each dab the brush finds one colour on the canvas and takes it up, keeping the part `u` of what
it carried (at least 1/100, and nothing the first time), and paints the dab with what it then carries to the part `f`. -/
theorem smudge_follows_partial {e : Env K R σ} {u f : K} (hu1 : u < 1) (hf : 0 < f) (hf1 : f ≤ 1) (hpow : ∀ y, e.pow y 0 = 1)
    (hg : CoversWithin e) {fuel : Nat} (ms : List (Motion K)) : ∀ {b : Brush K R}, Midst b.settings b → SmudgesBy b.settings u f →
    (∀ m ∈ ms, m.dtime ≤ 5) → ∀ {w : Option (Rgba K)}, Carries w b → ∀ {surf : (σ × List (Rgba K)) × List (Dab.Args K)}
    {r : Brush K R × ((σ × List (Rgba K)) × List (Dab.Args K))}, strokes (recordDabs (recordSamples e)) fuel b surf ms = .ok r →
    ∃ found dabs, r.2.1.2 = surf.1.2 ++ found ∧ r.2.2 = surf.2 ++ dabs ∧ (∀ c ∈ found, CanvasShows e c) ∧
      List.Forall₂ (SmudgedDab f (chosenColour b.settings)) (carries (max (1 / 100) u) w found) dabs ∧
      Carries (carriesAtLast (max (1 / 100) u) w found) r.1 := by
  suffices key : ∀ {b : Brush K R}, Midst b.settings b → SmudgesBy b.settings u f →
      (∀ m ∈ ms, m.dtime ≤ 5) → ∀ {w : Option (Rgba K)}, Carries w b → ∀ {surf : (σ × List (Rgba K)) × List (Dab.Args K)}
      {r : Brush K R × ((σ × List (Rgba K)) × List (Dab.Args K))}, strokes (recordDabs (recordSamples e)) fuel b surf ms = .ok r →
      Smearing e b.settings u f w surf r.1 r.2 by
    intro b h1 h2 h3 w h4 surf r h5
    exact (key h1 h2 h3 h4 h5).2
  induction ms with
  | nil =>
    intro b _ _ _ w hw surf r h
    rw [← Except.ok.inj h]
    exact ⟨rfl, [], [], by simp, by simp, by simp, .nil, hw⟩
  | cons m ms ih =>
    intro b hb hs hm w hw surf r h
    unfold strokes at h
    obtain ⟨r1, h1, h⟩ := bind_ok h
    have k := strokeTo_placid hb.placid h1
    have kset := k.settings
    have key : Smearing e b.settings u f w surf r1.2.1 r1.2.2 := by
      have hmt := hm m (by simp)
      obtain ⟨ev, he, ⟨-, h2⟩ | ⟨-, inner, r2, hi, h2, h3⟩⟩ := strokeTo_cases h1
      · have h5 : ev.dtime ≤ 5 := by
          rw [sanitise_dtime he]
          split_ifs <;> linarith
        exact strokeEvent_smears hb.still hs hu1 hf hf1 hpow hg hw h5 h2
      · have h5 : inner.dtime ≤ 5 := by
          rw [sanitise_dtime hi]
          show (if ev.dtime - 1 / 10000 ≤ 0 then _ else ev.dtime - 1 / 10000) ≤ _
          rw [sanitise_dtime he]
          split_ifs <;> linarith
        have k2 := strokeEvent_placid hb.placid (sanitise_pressure hi).1 (sanitise_pressure hi).2.le h2
        refine (strokeEvent_smears hb.still hs hu1 hf hf1 hpow hg hw h5 h2).trans fun w' hw' => ?_
        have k3 := strokeEvent_smears (b := r2.2.1) k2.still (by rw [k2.settings]; exact hs) hu1 hf hf1 hpow hg hw'
          (ev := { ev with dtime := 1 / 10000 }) (by show (1 / 10000 : K) ≤ 5; norm_num) h3
        rw [k2.settings] at k3
        exact k3
    refine key.trans fun w' hw' => ?_
    have := ih (by rw [kset]; exact k) (by rw [kset]; exact hs) (fun m' hm' => hm m' (by simp [hm'])) hw' h
    rw [kset] at this
    exact this

omit [LinearOrder K] [IsStrictOrderedRing K] [FloorRing K] in
theorem carries_same (u : K) {c : Rgba K} (cs : List (Rgba K)) : ∀ v, (∀ d ∈ cs, d = c) →
    carriesAtLast u (some v) cs = some (filledUp (u ^ cs.length) v (paintOf c)) ∧
      ∀ n, (hn : n < (carries u (some v) cs).length) → (carries u (some v) cs)[n] = filledUp (u ^ (n + 1)) v (paintOf c) := by
  induction cs with
  | nil =>
    intro v _
    refine ⟨?_, fun n hn => absurd hn (Nat.not_lt_zero n)⟩
    show some v = _
    simp [filledUp]
  | cons d ds ih =>
    intro v h
    obtain rfl : d = c := h d (by simp)
    obtain ⟨k1, k2⟩ := ih (takesUp u (some v) d) fun x hx => h x (by simp [hx])
    have step : ∀ t : K, filledUp t (takesUp u (some v) d) (paintOf d) = filledUp (t * u) v (paintOf d) := by
      intro t
      unfold filledUp takesUp filledUp
      simp only [Color.Rgba.mk.injEq]
      refine ⟨?_, ?_, ?_, ?_⟩ <;> ring
    constructor
    · show carriesAtLast u (some (takesUp u (some v) d)) ds = _
      rw [k1, step, List.length_cons, pow_succ]
    · intro n hn
      cases n with
      | zero =>
        show takesUp u (some v) d = _
        rw [zero_add, pow_one]
        rfl
      | succ n =>
        show (carries u (some (takesUp u (some v) d)) ds)[n]'_ = _
        rw [k2, step, ← pow_succ]

/-- **On a canvas of one colour** the brush comes closer to it with each dab: the `n`-th dab is painted with what the brush carried to the
part `u ^ n`, and with the colour of the canvas for the rest. -/
theorem smudge_steadily_partial {e : Env K R σ} {u f : K} (hu1 : u < 1) (hf : 0 < f) (hf1 : f ≤ 1) (hpow : ∀ y, e.pow y 0 = 1)
    {c : Rgba K} (hc : 0 ≤ c.a ∧ c.a ≤ 1) (hg : ∀ s x y r p, (e.getColor s x y r p).1 = c) {fuel : Nat} (ms : List (Motion K))
    {b : Brush K R} (hb : Midst b.settings b) (hs : SmudgesBy b.settings u f) (hm : ∀ m ∈ ms, m.dtime ≤ 5) {v : Rgba K}
    (hv : Carries (some v) b) {surf : (σ × List (Rgba K)) × List (Dab.Args K)}
    {r : Brush K R × ((σ × List (Rgba K)) × List (Dab.Args K))} (h : strokes (recordDabs (recordSamples e)) fuel b surf ms = .ok r) :
    ∃ dabs, r.2.2 = surf.2 ++ dabs ∧ Carries (some (filledUp (max (1 / 100) u ^ dabs.length) v (paintOf c))) r.1 ∧
      ∀ n, (hn : n < dabs.length) → SmudgedDab f (chosenColour b.settings) (filledUp (max (1 / 100) u ^ (n + 1)) v (paintOf c)) dabs[n] := by
  obtain ⟨found, dabs, -, h2, h3, h4, h5⟩ := smudge_follows_partial hu1 hf hf1 hpow (fun s x y r p => by rw [hg]; exact hc) ms hb hs hm hv h
  obtain ⟨k1, k2⟩ := carries_same (max (1 / 100) u) (c := c) found v fun d hd => by
    obtain ⟨s, x, y, r, p, q⟩ := h3 d hd
    rw [← q, hg]
  have hl := h4.length_eq
  have hl2 : (carries (max (1 / 100) u) (some v) found).length = found.length := by
    clear h2 h3 h4 h5 k1 k2 hl
    generalize some v = o
    induction found generalizing o with
    | nil => rfl
    | cons d ds ih => show (carries _ _ ds).length + 1 = _; rw [ih]; rfl
  refine ⟨dabs, h2, ?_, fun n hn => ?_⟩
  · rw [k1, ← hl2, hl] at h5
    exact h5
  · have := List.forall₂_iff_get.mp h4 |>.2 n (by rw [hl]; exact hn) hn
    simp only [List.get_eq_getElem] at this
    rw [k2] at this
    exact this

/-! ### Never changing -/

/-- No dab takes colour from the canvas, and the brush carries what it carried. -/
def Retains (b0 : Brush K R) (surf0 : (σ × List (Rgba K)) × List (Dab.Args K)) (b : Brush K R)
    (surf : (σ × List (Rgba K)) × List (Dab.Args K)) : Prop :=
  b.settings = b0.settings ∧ b.st.smudge = b0.st.smudge ∧ b.buckets.mem = [] ∧ surf.1.2 = surf0.1.2

theorem dabStep_retains {e : Env K R σ} {b0 : Brush K R} (hs : ∀ i, 1 ≤ calculate (b0.settings sSmudgeLength) i)
    {surf0 : (σ × List (Rgba K)) × List (Dab.Args K)}
    {ev : Event K} {x y : K} {l l' : Loop K R ((σ × List (Rgba K)) × List (Dab.Args K))} (hl : Retains b0 surf0 l.b l.surf)
    (h : dabStep (recordDabs (recordSamples e)) ev x y l = .ok l') : Retains b0 surf0 l'.b l'.surf := by
  obtain ⟨hset, hsm, hbu, hsu⟩ := hl
  obtain ⟨-, b1, p, b2, hu, hd, hb2, e1⟩ := dabStep_eq h
  have hb1 := update_eq hu
  have set1 : b1.settings = b0.settings := by rw [hb1]; exact hset
  have v1 : b1.st.smudge = b0.st.smudge := by rw [hb1]; exact hsm
  have m1 : b1.buckets.mem = [] := by rw [hb1]; exact hbu
  have fr := drawDab_frame hd
  have hlen : ¬ b1.vals sSmudgeLength < 1 := by
    rw [hb1]
    refine not_lt.mpr ?_
    show 1 ≤ calculate (l.b.settings sSmudgeLength) _
    rw [hset]
    exact hs _
  have key : p.2.1.st.smudge = b0.st.smudge ∧ p.2.1.buckets.mem = [] ∧ p.2.2.1.2 = surf0.1.2 := by
    obtain ⟨o, pos, sm, -, h2, h3, frs, h4⟩ := drawDab_cases hd
    have on1 := dabPosition_only h2
    have on2 := dabRadius_only (recordDabs (recordSamples e)) pos.2.2 o
    have set2 : (dabRadius (recordDabs (recordSamples e)) pos.2.2 o).2.2.st.smudge = b0.st.smudge ∧
        (dabRadius (recordDabs (recordSamples e)) pos.2.2 o).2.2.buckets.mem = [] ∧
        (dabRadius (recordDabs (recordSamples e)) pos.2.2 o).2.2.vals = b1.vals := by
      rw [on2, on1]
      exact ⟨v1, m1, rfl⟩
    unfold smudgeStage at h3
    rw [if_neg (by rw [set2.2.2]; exact fun q => hlen q.1)] at h3
    have e3 := Except.ok.inj h3
    rw [← e3] at h4
    simp only [Bool.false_eq_true, false_and, false_or, true_and] at h4
    obtain ⟨col, h5, -, h7⟩ := h4
    have hcol : col.2.2.st.smudge = b0.st.smudge ∧ col.2.2.buckets.mem = [] := by
      unfold smudgeColor at h5
      have hfe : fetchSmudge (dabRadius (recordDabs (recordSamples e)) pos.2.2 o).2.2 =
          (none, (dabRadius (recordDabs (recordSamples e)) pos.2.2 o).2.2) := by
        unfold fetchSmudge
        rw [if_pos (.inl (by rw [set2.2.1]; rfl))]
      rw [hfe] at h5
      dsimp only at h5
      by_cases q : (dabRadius (recordDabs (recordSamples e)) pos.2.2 o).2.2.vals sSmudge > 0
      · rw [if_pos q] at h5
        obtain ⟨v, -, h5⟩ := bind_ok h5
        rw [← Except.ok.inj h5]
        exact ⟨set2.1, set2.2.1⟩
      · rw [if_neg q] at h5
        rw [← Except.ok.inj h5]
        exact ⟨set2.1, set2.2.1⟩
    rw [h7]
    exact ⟨hcol.1, hcol.2, hsu⟩
  rw [e1, hb2]
  refine ⟨?_, ?_, ?_, key.2.2⟩
  · show p.2.1.settings = _
    rw [fr.settings]; exact set1
  · dsimp only; rw [countDabs_st]; exact key.1
  · dsimp only; rw [countDabs_st]; exact key.2.1

theorem moveTo_retains {e : Env K R σ} {b : Brush K R} (hs : ∀ i, 1 ≤ calculate (b.settings sSmudgeLength) i) (hw : b.buckets.mem = [])
    {fuel : Nat} {ev : Event K} {x y dt : K} {surf : (σ × List (Rgba K)) × List (Dab.Args K)}
    {r : Bool × Brush K R × ((σ × List (Rgba K)) × List (Dab.Args K))}
    (h : moveTo (recordDabs (recordSamples e)) fuel b surf ev x y dt = .ok r) : Retains b surf r.2.1 r.2.2 := by
  obtain ⟨l, b1, hl, hu, -, h2, h3⟩ := moveTo_eq h
  obtain ⟨h0, k1, k2, k3⟩ := (dabLoop_induct
    (fun l : Loop K R ((σ × List (Rgba K)) × List (Dab.Args K)) => Retains b surf l.b l.surf)
    (fun l l' _ hst hi => dabStep_retains hs hi hst) _ _ _ hl
    (by simp only; rw [countDabs_st]; exact ⟨rfl, rfl, hw, rfl⟩)).1
  have hb1 := update_eq hu
  rw [h3, h2, splitStroke_eq]
  refine ⟨?_, ?_, ?_, k3⟩
  · show b1.settings = _
    rw [hb1]; exact h0
  · show b1.st.smudge = _
    rw [hb1]; exact k1
  · show b1.buckets.mem = _
    rw [hb1]; exact k2

theorem strokeEvent_retains {e : Env K R σ} {b : Brush K R} (hb : Undisturbed b) (hs : ∀ i, 1 ≤ calculate (b.settings sSmudgeLength) i)
    (hw : b.buckets.mem = []) {fuel : Nat} {ev : Event K} (h5 : ev.dtime ≤ 5) {surf : (σ × List (Rgba K)) × List (Dab.Args K)}
    {r : Bool × Brush K R × ((σ × List (Rgba K)) × List (Dab.Args K))}
    (h : strokeEvent (recordDabs (recordSamples e)) fuel b surf ev = .ok r) : Retains b surf r.2.1 r.2.2 := by
  have sk : skipStage (recordDabs (recordSamples e)) b ev.x ev.y ev.dtime = (b, ev.dtime, false) := steady_skip hb _ _ _
  have cu := cursor_tracks (e := recordDabs (recordSamples e)) (b := b) (T := (b.settings sSlowTracking).base) ⟨rfl, hb.noise, hb.skip⟩
    ev.x ev.y ev.dtime
  rcases strokeEvent_cases h with ⟨h1, -⟩ | ⟨-, h1, -⟩ | ⟨-, -, h⟩
  · rw [sk] at h1; cases h1
  · rw [sk, hb.reset] at h1
    rcases h1 with q | q
    · exact absurd q (not_lt.mpr h5)
    · cases q
  · simp only [sk, cu] at h
    exact moveTo_retains hs hw h

theorem Retains.trans {b0 b1 b2 : Brush K R} {surf0 surf1 surf2 : (σ × List (Rgba K)) × List (Dab.Args K)}
    (h1 : Retains b0 surf0 b1 surf1) (h2 : Retains b1 surf1 b2 surf2) : Retains b0 surf0 b2 surf2 :=
  ⟨h2.1.trans h1.1, h2.2.1.trans h1.2.1, h2.2.2.1, h2.2.2.2.trans h1.2.2.2⟩

/-- **A smudge length of 1 or more never changes what the brush carries**, and the canvas is never looked at. -/
theorem smudge_never_changes_partial {e : Env K R σ} {fuel : Nat} (ms : List (Motion K)) : ∀ {b : Brush K R}, Midst b.settings b →
    (∀ i, 1 ≤ calculate (b.settings sSmudgeLength) i) → b.buckets.mem = [] →
    (∀ m ∈ ms, m.dtime ≤ 5) → ∀ {surf : (σ × List (Rgba K)) × List (Dab.Args K)}
    {r : Brush K R × ((σ × List (Rgba K)) × List (Dab.Args K))}, strokes (recordDabs (recordSamples e)) fuel b surf ms = .ok r →
    Retains b surf r.1 r.2 := by
  induction ms with
  | nil =>
    intro b _ _ hw _ surf r h
    rw [← Except.ok.inj h]
    exact ⟨rfl, rfl, hw, rfl⟩
  | cons m ms ih =>
    intro b hb hs hw hm surf r h
    unfold strokes at h
    obtain ⟨r1, h1, h⟩ := bind_ok h
    have k := strokeTo_placid hb.placid h1
    have kset := k.settings
    have key : Retains b surf r1.2.1 r1.2.2 := by
      have hmt := hm m (by simp)
      obtain ⟨ev, he, ⟨-, h2⟩ | ⟨-, inner, r2, hi, h2, h3⟩⟩ := strokeTo_cases h1
      · have h5 : ev.dtime ≤ 5 := by
          rw [sanitise_dtime he]
          split_ifs <;> linarith
        exact strokeEvent_retains hb.still hs hw h5 h2
      · have h5 : inner.dtime ≤ 5 := by
          rw [sanitise_dtime hi]
          show (if ev.dtime - 1 / 10000 ≤ 0 then _ else ev.dtime - 1 / 10000) ≤ _
          rw [sanitise_dtime he]
          split_ifs <;> linarith
        have k2 := strokeEvent_placid hb.placid (sanitise_pressure hi).1 (sanitise_pressure hi).2.le h2
        have k3 := strokeEvent_retains hb.still hs hw h5 h2
        exact k3.trans (strokeEvent_retains (b := r2.2.1) k2.still (by rw [k2.settings]; exact hs) k3.2.2.1
          (ev := { ev with dtime := 1 / 10000 }) (by show (1 / 10000 : K) ≤ 5; norm_num) h3)
    exact key.trans (ih (by rw [kset]; exact k) (by rw [kset]; exact hs) key.2.2.1 (fun m' hm' => hm m' (by simp [hm'])) h)

end

namespace Demo

/-- A canvas that is red up to 4 and blue from there on. -/
def twoColours : Env ℚ Nat (List (Dab.Args ℚ)) :=
  { env with pow := fun _ _ => 1, getColor := fun s x _ _ _ => (if x ≤ 4 then ⟨1, 0, 0, 1⟩ else ⟨0, 0, 1, 1⟩, s) }

/-- A brush of black that smudges in the old way, to the full, with the smudge length `u`. -/
def smearer (u : ℚ) : Brush ℚ Nat :=
  { set (set (set brush sSmudge 1) sSmudgeLength u) sPaintMode 0 with resetRequested := false }

theorem smearer_midst (u : ℚ) : Midst (smearer u).settings (smearer u) := by
  refine ⟨⟨⟨?_, ?_⟩, ?_, ?_, ?_⟩, rfl, rfl⟩
  · exact le_refl (0 : ℚ)
  · exact zero_lt_one
  · rfl
  · show (0 : ℚ) ≤ _; norm_num
  · exact le_refl (0 : ℚ)

theorem smearer_smudges (u : ℚ) : SmudgesBy (smearer u).settings u 1 :=
  ⟨fun _ => rfl, fun _ => rfl, fun _ => le_refl (0 : ℚ), rfl, fun _ => rfl, fun _ => rfl, fun _ => rfl, fun _ => rfl, fun _ => rfl,
    fun _ => rfl, fun _ => rfl, fun _ => rfl⟩

theorem twoColours_within : CoversWithin twoColours := by
  intro s x y r p
  show 0 ≤ (if x ≤ 4 then (⟨1, 0, 0, 1⟩ : Rgba ℚ) else ⟨0, 0, 1, 1⟩).a ∧ (if x ≤ 4 then (⟨1, 0, 0, 1⟩ : Rgba ℚ) else ⟨0, 0, 1, 1⟩).a ≤ 1
  split_ifs <;> norm_num

/-- The dabs of a stroke across the border. -/
def acrossTheBorder (u : ℚ) : Option (List (ℚ × ℚ × ℚ × ℚ × ℚ)) :=
  look (fun r => r.2.map fun a => (a.x, a.colorA, a.colorR, a.colorG, a.colorB)) (strokes twoColours 100 (smearer u) []
    [motion 0 0 (1 / 2) (1 / 10), motion 6 0 (1 / 2) (3 / 40)])

/-- With the smudge length 1/2 the colour goes half of the way at each dab: all red, all red, half blue, three quarters blue. -/
theorem half_of_the_way : acrossTheBorder (1 / 2) =
    some [(3 / 2, 1, 1, 0, 0), (3, 1, 1, 0, 0), (9 / 2, 1, 1 / 2, 0, 1 / 2), (6, 1, 1 / 4, 0, 3 / 4)] := by decide +kernel

/-- **C122** (against the property). With the smudge length 0 the smudge colour should become that of the canvas at once. A hundredth of
what the brush carried stays with each dab. -/
theorem not_at_once : acrossTheBorder 0 =
    some [(3 / 2, 1, 1, 0, 0), (3, 1, 1, 0, 0), (9 / 2, 1, 1 / 100, 0, 99 / 100), (6, 1, 1 / 10000, 0, 9999 / 10000)] := by decide +kernel

/-- With the smudge length 1 the brush never takes up anything. -/
theorem never_taken_up : acrossTheBorder 1 = some [(3 / 2, 0, 1, 0, 0), (3, 0, 1, 0, 0), (9 / 2, 0, 1, 0, 0), (6, 0, 1, 0, 0)] := by decide +kernel

/-- The hypotheses hold for them. -/
example {fuel : Nat} {r : Brush ℚ Nat × ((List (Dab.Args ℚ) × List (Rgba ℚ)) × List (Dab.Args ℚ))}
    (h : strokes (recordDabs (recordSamples twoColours)) fuel (smearer (1 / 2)) (([], []), [])
      [motion 0 0 (1 / 2) (1 / 10), motion 6 0 (1 / 2) (3 / 40)] = .ok r) :
    ∃ found dabs, r.2.1.2 = found ∧ r.2.2 = dabs ∧ (∀ c ∈ found, CanvasShows twoColours c) ∧
      List.Forall₂ (SmudgedDab 1 (chosenColour (smearer (1 / 2)).settings)) (carries (max (1 / 100) (1 / 2)) none found) dabs ∧
      Carries (carriesAtLast (max (1 / 100) (1 / 2)) none found) r.1 := by
  have := smudge_follows_partial (u := (1 / 2 : ℚ)) (f := 1) (by norm_num) one_pos le_rfl (fun _ => rfl) twoColours_within _
    (smearer_midst _) (smearer_smudges _)
    (by intro m hm; simp only [List.mem_cons, List.not_mem_nil, or_false] at hm
        rcases hm with rfl | rfl <;> (simp only [motion]; norm_num)) (w := none) ⟨rfl, rfl⟩ h
  simpa using this

/-- A brush that carries red paint, on the blue canvas. -/
example (u : ℚ) : Carries (some ⟨1, 0, 0, 1⟩)
    { smearer u with st := { (smearer u).st with smudge := { (smearer u).st.smudge with r := 1, g := 0, b := 0, a := 1, recentness := 1 } } } :=
  ⟨rfl, rfl, rfl, zero_le_one, le_rfl⟩

example : ∀ i, (1 : ℚ) ≤ calculate ((smearer 1).settings sSmudgeLength) i := fun _ => le_refl (1 : ℚ)

end Demo
end Verif.Engine
