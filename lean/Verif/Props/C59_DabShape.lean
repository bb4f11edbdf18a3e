import Verif.Props.C58_PlainColour

/-!
# C59: radius, edge, opacity and position of a dab are those the settings ask for
-/

namespace Verif.Engine
open Verif.Mask Verif.Color Verif.Spectral Verif.Map

section
variable {K R σ : Type} [Field K] [LinearOrder K] [IsStrictOrderedRing K] [FloorRing K]

/-- The radius that the value of the radius setting stands for: its exponential, from 0.2 to 1000. -/
def askedRadius (e : Env K R σ) (v : K) : K := max (1 / 5) (min 1000 (e.exp v))

/-- The edge of a dab of radius `R` and hardness `h` that asks for a soft edge of at least `f`: the soft edge of
a dab is the ring from `hardness * radius` to `radius`; anti-aliasing widens it to `f` and keeps its middle in place. -/
structure Edge (R h f : K) (a : Dab.Args K) : Prop where
  wide : f ≤ R - h * R → a.radius = R ∧ a.hardness = h
  width : R - h * R < f → a.radius - a.hardness * a.radius = f
  middle : R - h * R < f → (a.radius + a.hardness * a.radius) / 2 = (R + h * R) / 2

/-- The shape of a dab for the values `i` of the inputs. The conditions are on the brush, not on one moment. -/
structure DabShape (e : Env K R σ) (s : Load.Brush K) (i : Nat → K) (a : Dab.Args K) : Prop where
  aspect : a.aspect = calculate (s sEllipticalDabRatio) i
  edge : (∀ j, calculate (s sRadiusByRandom) j = 0) → (∀ j, calculate (s sSnapToPixel) j ≤ 0) →
    Edge (askedRadius e (calculate (s sRadiusLogarithmic) i)) (max 0 (min 1 (calculate (s sHardness) i)))
      (calculate (s sAntiAliasing) i) a
  opacity : (∀ j, calculate (s sRadiusByRandom) j = 0) → (s sOpaqueLinearize).base = 0 →
    a.opaque' = max 0 (min 1 (max 0 (calculate (s sOpaque) i) * calculate (s sOpaqueMultiply) i))
  snapped : (∀ j, calculate (s sSnapToPixel) j = 1) →
    (∃ m : ℤ, a.x = m + 1 / 2) ∧ (∃ m : ℤ, a.y = m + 1 / 2) ∧ ∃ m : ℕ, 1 ≤ m ∧ a.radius = m / 2 - 1 / 10000
  full : (∀ j, calculate (s sRadiusByRandom) j = 0) → 0 ≤ (s sOpaqueLinearize).base → (∀ y, 0 < y → e.pow 0 y = 0) →
    1 ≤ max 0 (calculate (s sOpaque) i) * calculate (s sOpaqueMultiply) i → a.opaque' = 1
  snappedRadius : (∀ j, calculate (s sRadiusByRandom) j = 0) → (∀ j, calculate (s sSnapToPixel) j = 1) →
    (∀ j, calculate (s sAntiAliasing) j ≤ 0) → a.hardness = max 0 (min 1 (calculate (s sHardness) i)) ∧
      a.radius = ((max 1 ⌊2 * askedRadius e (calculate (s sRadiusLogarithmic) i) + 1 / 2⌋ : ℤ) : K) / 2 - 1 / 10000

theorem clampK_eq (a lo hi : K) (h : lo ≤ hi) : clampK a lo hi = max lo (min hi a) := by
  unfold clampK
  split_ifs with h1 h2
  · rw [min_eq_left h1.le, max_eq_right h]
  · rw [min_eq_right (not_lt.mp h1), max_eq_left h2.le]
  · rw [min_eq_right (not_lt.mp h1), max_eq_right (not_lt.mp h2)]

theorem finalRadius_eq (e : Env K R σ) (v : K) : finalRadius e v = askedRadius e v := by
  unfold finalRadius askedRadius
  dsimp only
  generalize e.exp v = r
  split_ifs with h1 h2 h2
  · norm_num at h2
  · rw [min_eq_right (by linarith), max_eq_left h1.le]
  · rw [min_eq_left h2.le, max_eq_right (by norm_num)]
  · rw [min_eq_right (not_lt.mp h2), max_eq_right (not_lt.mp h1)]

theorem askedRadius_pos (e : Env K R σ) (v : K) : 0 < askedRadius e v :=
  lt_of_lt_of_le (by norm_num) (le_max_left _ _)

omit [FloorRing K] in
theorem antiAlias_edge {b : Brush K R} {h r : K} (h0 : 0 ≤ h) (h1 : h ≤ 1) (r0 : 0 < r) (a : Dab.Args K)
    (e1 : a.hardness = (antiAlias b h r).1) (e2 : a.radius = (antiAlias b h r).2) :
    Edge r h (b.vals sAntiAliasing) a := by
  unfold antiAlias at e1 e2
  dsimp only at e1 e2
  generalize b.vals sAntiAliasing = f at *
  by_cases q : r * (1 - h) < f
  · rw [if_pos q] at e1 e2
    simp only at e1 e2
    have hw : ¬ f ≤ r - h * r := by
      intro hc; have : r * (1 - h) = r - h * r := by ring
      linarith
    obtain ⟨o, ho⟩ : ∃ o, o = r - (1 - h) * r / 2 := ⟨_, rfl⟩
    rw [← ho] at e1 e2
    have ho2 : o = (r + h * r) / 2 := by rw [ho]; ring
    have hf : 0 < f := lt_of_le_of_lt (mul_nonneg r0.le (sub_nonneg.mpr h1)) q
    have ho3 : 0 < o := by
      have := mul_nonneg h0 r0.le
      rw [ho2]
      linarith
    have hz : o + f / 2 ≠ 0 := by
      have : 0 < o + f / 2 := by linarith
      exact this.ne'
    have e3 : 1 - (o - f / 2) / (o + f / 2) = f / (o + f / 2) := by
      rw [eq_div_iff hz, sub_mul, div_mul_cancel₀ _ hz]
      ring
    have e4 : a.radius = o + f / 2 := by rw [e2, e3, div_div_eq_mul_div, mul_div_cancel_left₀ _ hf.ne']
    have e5 : a.hardness * a.radius = o - f / 2 := by rw [e1, e4, div_mul_cancel₀ _ hz]
    refine ⟨fun hc => absurd hc hw, fun _ => ?_, fun _ => ?_⟩
    · rw [e5, e4]; ring
    · rw [e5, e4, ← ho2]; ring
  · rw [if_neg q] at e1 e2
    have : r * (1 - h) = r - h * r := by ring
    refine ⟨fun _ => ⟨e2, e1⟩, fun hc => ?_, fun hc => ?_⟩ <;> exact absurd hc (by rw [← this]; exact q)

theorem snap_grid {b : Brush K R} (h : b.vals sSnapToPixel = 1) (x y : K) {r : K} (r0 : 0 < r) :
    (∃ m : ℤ, (snap b x y r).1 = m + 1 / 2) ∧ (∃ m : ℤ, (snap b x y r).2.1 = m + 1 / 2) ∧
      ∃ m : ℕ, 1 ≤ m ∧ (snap b x y r).2.2 = m / 2 - 1 / 10000 := by
  unfold snap
  dsimp only
  rw [h, if_pos one_pos, if_pos (show (1 : K) > 9999 / 10000 by norm_num)]
  refine ⟨⟨⌊x⌋, ?_⟩, ⟨⌊y⌋, ?_⟩, ?_⟩
  · simp only; ring
  · simp only; ring
  · simp only
    by_cases q : (roundHalf (r * 2) : K) / 2 < 1 / 2
    · rw [if_pos q]
      exact ⟨1, le_refl _, by push_cast; ring⟩
    · rw [if_neg q]
      have q1 : (1 : K) ≤ roundHalf (r * 2) := by
        have := not_lt.mp q
        linarith
      have q2 : (1 : ℤ) ≤ roundHalf (r * 2) := by exact_mod_cast q1
      refine ⟨(roundHalf (r * 2)).toNat, by omega, ?_⟩
      have q3 : (((roundHalf (r * 2)).toNat : ℤ) : K) = (roundHalf (r * 2) : K) := by
        rw [Int.toNat_of_nonneg (by omega)]
      rw [Int.cast_natCast] at q3
      rw [q3]
      ring

theorem snap_radius {b : Brush K R} (h : b.vals sSnapToPixel = 1) (x y : K) {r : K} (r0 : 0 < r) :
    (snap b x y r).2.2 = ((max 1 ⌊2 * r + 1 / 2⌋ : ℤ) : K) / 2 - 1 / 10000 := by
  unfold snap
  dsimp only
  rw [h, if_pos one_pos, if_pos (show (1 : K) > 9999 / 10000 by norm_num)]
  simp only
  have e : roundHalf (r * 2) = ⌊2 * r + 1 / 2⌋ := by
    unfold roundHalf
    rw [if_pos (by linarith), mul_comm]
  rw [e]
  generalize ⌊2 * r + 1 / 2⌋ = n
  by_cases q : (n : K) / 2 < 1 / 2
  · rw [if_pos q]
    have q1 : (n : K) < 1 := by linarith
    have q2 : n < 1 := by exact_mod_cast q1
    rw [max_eq_left q2.le]
    push_cast; ring
  · rw [if_neg q]
    have q1 : (1 : K) ≤ n := by have := not_lt.mp q; linarith
    have q2 : 1 ≤ n := by exact_mod_cast q1
    rw [max_eq_right q2]
    ring

/-- What an update leaves, for the shape. -/
def Shaped (e : Env K R σ) (b : Brush K R) : Prop :=
  ∃ i, (b.vals = fun id => calculate (b.settings id) i) ∧
    b.st.actualRadius = askedRadius e (calculate (b.settings sRadiusLogarithmic) i) ∧
    b.st.ratio = calculate (b.settings sEllipticalDabRatio) i

theorem update_shaped {e : Env K R σ} {b b' : Brush K R} {s : Step K} (h : update e b s = .ok b') : Shaped e b' := by
  rw [update_eq h]
  refine ⟨(inputsOf e b (moveStates e b s)).get, rfl, ?_, rfl⟩
  rw [← finalRadius_eq]
  rfl

/-- What is drawn is one more dab, with the shape for the values of the inputs, at the angle of the brush. -/
theorem drawDab_new {e : Env K R σ} {b : Brush K R} {surf : σ × List (Dab.Args K)} {lin : Bool}
    {p : Bool × Brush K R × (σ × List (Dab.Args K))} {i : Nat → K} (hv : b.vals = fun id => calculate (b.settings id) i)
    (hr : b.st.actualRadius = askedRadius e (calculate (b.settings sRadiusLogarithmic) i))
    (hq : b.st.ratio = calculate (b.settings sEllipticalDabRatio) i)
    (hd : drawDab (recordDabs e) { b with st := { b.st with flip := b.st.flip * -1 } } surf lin = .ok p) :
    p.2.2.2 = surf.2 ∨ ∃ a, p.2.2.2 = surf.2 ++ [a] ∧ DabShape e b.settings i a ∧ a.angle = b.st.angle := by
  rcases drawDab_oneDab hd with h | ⟨o, pos, sm, col, ho, hpos, -, fr, hc, fr2, -, h⟩
  · exact .inl h
  refine .inr ⟨_, h, ?_, ?_⟩
  swap
  · show col.2.2.st.angle = _
    rw [fr2.st]
  have kv : ∀ id, col.2.2.vals id = calculate (b.settings id) i := by
    intro id; rw [fr2.vals]; show b.vals id = _; rw [hv]
  have kp : pos.2.2.vals = b.vals := (dabPosition_frame hpos).vals
  have kr : pos.2.2.st.actualRadius = b.st.actualRadius := by rw [(dabPosition_frame hpos).st]
  have hrad : 0 < (dabRadius (recordDabs e) pos.2.2 o).1 := by
    unfold dabRadius
    dsimp only
    by_cases q : pos.2.2.vals sRadiusByRandom ≠ 0
    · rw [if_pos q]; exact lt_of_lt_of_le (by norm_num) (clampK_ge (by norm_num)).1
    · rw [if_neg q]; simp only; rw [kr, hr]; exact askedRadius_pos _ _
  have hh : clampK (col.2.2.vals sHardness) 0 1 = max 0 (min 1 (calculate (b.settings sHardness) i)) := by
    rw [kv, clampK_eq _ _ _ zero_le_one]
  have hh0 : 0 ≤ clampK (col.2.2.vals sHardness) 0 1 ∧ clampK (col.2.2.vals sHardness) 0 1 ≤ 1 := clampK_ge zero_le_one
  have hnr : (∀ j, calculate (b.settings sRadiusByRandom) j = 0) →
      dabRadius (recordDabs e) pos.2.2 o = (b.st.actualRadius, o, pos.2.2) := by
    intro hz
    unfold dabRadius
    dsimp only
    rw [kp, hv]
    simp only
    rw [if_neg (not_not.mpr (hz i)), kr]
  constructor
  · show col.2.2.st.ratio = _
    rw [fr2.st]; exact hq
  · intro hz hsn
    have es : ∀ x y r, snap col.2.2 x y r = (x, y, r) := by
      intro x y r
      unfold snap
      dsimp only
      rw [kv]
      exact if_neg (not_lt.mpr (hsn i))
    have k := antiAlias_edge (b := col.2.2) hh0.1 hh0.2 (r := b.st.actualRadius) (by rw [hr]; exact askedRadius_pos _ _)
      (dabArgs (recordDabs e) col.2.2 lin pos.1 pos.2.1 (dabRadius (recordDabs e) pos.2.2 o).1
        (dabRadius (recordDabs e) pos.2.2 o).2.1 col.1 col.2.1)
      (by unfold dabArgs; simp only; rw [hnr hz]) (by unfold dabArgs; simp only; rw [es, hnr hz])
    rw [hr, hh, kv] at k
    exact k
  · intro hz hlin
    show (dabRadius (recordDabs e) pos.2.2 o).2.1 = _
    rw [hnr hz]
    unfold dabOpacity at ho
    dsimp only at ho
    have hlin' : Brush.baseval { b with st := { b.st with flip := b.st.flip * -1 } } sOpaqueLinearize = 0 := hlin
    rw [if_pos hlin'] at ho
    rw [← Except.ok.inj ho, clampK_eq _ _ _ zero_le_one, hv]
    simp only [maxC]
    congr 3
    rw [max_def]
    split_ifs <;> first | rfl | (exfalso; linarith) | skip
  · intro hsn
    have hsn2 : col.2.2.vals sSnapToPixel = 1 := by rw [kv]; exact hsn i
    have hpos2 : 0 < (antiAlias col.2.2 (clampK (col.2.2.vals sHardness) 0 1)
        (dabRadius (recordDabs e) pos.2.2 o).1).2 :=
      (antiAlias_range (A := max 0 (col.2.2.vals sAntiAliasing)) hh0.1 hh0.2 hrad (le_max_right _ _)
        (le_max_left _ _)).2.1
    exact snap_grid hsn2 pos.1 pos.2.1 hpos2
  · intro hz hlin hpow hfull
    show (dabRadius (recordDabs e) pos.2.2 o).2.1 = _
    rw [hnr hz]
    unfold dabOpacity at ho
    dsimp only at ho
    have e1 : clampK (maxC 0 (b.vals sOpaque) * b.vals sOpaqueMultiply) 0 1 = 1 := by
      have : maxC 0 (b.vals sOpaque) = max 0 (b.vals sOpaque) := by
        simp only [maxC]
        rw [max_def]
        split_ifs <;> first | rfl | (exfalso; linarith) | skip
      rw [clampK_eq _ _ _ zero_le_one, this, hv]
      simp only
      rw [min_eq_left hfull, max_eq_right zero_le_one]
    rw [e1] at ho
    have hl : Brush.baseval { b with st := { b.st with flip := b.st.flip * -1 } } sOpaqueLinearize =
      (b.settings sOpaqueLinearize).base := rfl
    rw [hl] at ho
    generalize (b.settings sOpaqueLinearize).base = l at ho hlin
    generalize (b.st.dabsPerActualRadius + b.st.dabsPerBasicRadius) * 2 = d at ho
    by_cases q : l = 0
    · rw [if_pos q] at ho; exact (Except.ok.inj ho).symm
    · rw [if_neg q] at ho
      have hd : 0 < 1 + l * ((if d < 1 then 1 else d) - 1) := by
        have : 0 ≤ l * ((if d < 1 then 1 else d) - 1) := mul_nonneg hlin (by split_ifs <;> linarith)
        linarith
      generalize 1 + l * ((if d < 1 then 1 else d) - 1) = D at ho hd
      rw [if_neg hd.ne'] at ho
      have e2 := Except.ok.inj ho
      have e3 : (recordDabs e).pow (1 - 1) (1 / D) = 0 := by
        rw [sub_self]; exact hpow _ (one_div_pos.mpr hd)
      simp only
      rw [← e2, e3, sub_zero]
  · intro hz hsn haa
    have hsn2 : col.2.2.vals sSnapToPixel = 1 := by rw [kv]; exact hsn i
    have rpos : 0 < b.st.actualRadius := by rw [hr]; exact askedRadius_pos _ _
    have ea : antiAlias col.2.2 (clampK (col.2.2.vals sHardness) 0 1) b.st.actualRadius =
        (clampK (col.2.2.vals sHardness) 0 1, b.st.actualRadius) := by
      unfold antiAlias
      dsimp only
      refine if_neg (not_lt.mpr ?_)
      rw [kv sAntiAliasing]
      exact (haa i).trans (mul_nonneg rpos.le (by linarith [hh0.2]))
    unfold dabArgs
    simp only
    rw [hnr hz]
    simp only
    rw [ea, ← hr]
    exact ⟨hh, snap_radius hsn2 _ _ rpos⟩

theorem drawDab_shape {e : Env K R σ} (b : Brush K R) (surf : σ × List (Dab.Args K)) (lin : Bool)
    (p : Bool × Brush K R × (σ × List (Dab.Args K)))
    (hb : Shaped e b ∧ ∀ a ∈ surf.2, ∃ i, DabShape e b.settings i a)
    (hd : drawDab (recordDabs e) { b with st := { b.st with flip := b.st.flip * -1 } } surf lin = .ok p) :
    ∀ a ∈ p.2.2.2, ∃ i, DabShape e b.settings i a := by
  obtain ⟨⟨i, hv, hr, hq⟩, hl⟩ := hb
  rcases drawDab_new hv hr hq hd with h | ⟨a0, h, h1, -⟩
  · rw [h]; exact hl
  · rw [h]
    intro a ha
    rcases List.mem_append.mp ha with q | q
    · exact hl a q
    · rw [List.mem_singleton.mp q]
      exact ⟨i, h1⟩

/-- **C59**. Every dab of every session has the shape that the settings ask for, for some values of the inputs. -/
theorem dabs_shaped (e : Env K R σ) {fuel : Nat} (ms : List (Motion K)) {b : Brush K R} (hb : Underway b) (surf : σ)
    {r : Brush K R × (σ × List (Dab.Args K))} (h : strokes (recordDabs e) fuel b (surf, []) ms = .ok r) :
    ∀ a ∈ r.2.2, ∃ i, DabShape e b.settings i a := by
  rw [← settings_kept _ ms hb _ h]
  exact (session_keeps (Invariant.ofSettings
      (I := fun (s : Load.Brush K) (l : σ × List (Dab.Args K)) => ∀ a ∈ l.2, ∃ i, DabShape e s i a)
      (J := fun (b : Brush K R) (l : σ × List (Dab.Args K)) => Shaped e b ∧ ∀ a ∈ l.2, ∃ i, DabShape e b.settings i a)
      (fun b b' st surf h hu => ⟨update_shaped (e := recordDabs e) hu, by rw [update_eq hu]; exact h⟩)
      (fun b surf h => h.2) drawDab_shape)
    (fun _ => True) (fun _ _ _ _ => trivial) (fun _ _ _ _ => trivial) (fun _ _ => trivial) ms (fun _ _ => trivial) hb
    (by simp) h).1

end

/-! ### Sessions that meet the hypotheses -/

/-- A brush of radius 2 with hardness 4/5, so that its soft edge would be 2/5 wide, and an anti-aliasing of 1. -/
def demoEdge : Brush ℚ Nat :=
  Demo.set (Demo.set (Demo.set Demo.brush sRadiusLogarithmic 1) sHardness (4 / 5)) sAntiAliasing 1

theorem demoEdge_underway : Underway demoEdge := ⟨⟨le_refl _, zero_lt_one⟩, le_refl _⟩

/-- The same, snapped. -/
def demoSnap : Brush ℚ Nat := Demo.set demoEdge sSnapToPixel 1

def demoEvents : List (Motion ℚ) :=
  [Demo.motion 0 0 (1 / 2) (1 / 10), Demo.motion 1 0 (1 / 2) (1 / 10), Demo.motion (9 / 4) 0 (1 / 2) (1 / 10)]

/-- The dab: radius 23/10, hardness 13/23: a soft edge of width 1 from 13/10 to 23/10 around 9/5. -/
example : Demo.look (fun r => r.2.2.map fun a => (a.radius, a.hardness, a.opaque'))
    (strokes (recordDabs Demo.env) 100 demoEdge ([], []) demoEvents) = some [(23 / 10, 13 / 23, 1)] := by
  decide +kernel

example : Demo.look (fun r => r.2.2.map fun a => (a.x, a.y, a.radius))
    (strokes (recordDabs Demo.env) 100 demoSnap ([], []) demoEvents) = some [(5 / 2, 1 / 2, 5 / 2 - 1 / 10000)] := by
  decide +kernel

end Verif.Engine
