import Verif.Props.C59_DabShape
import Mathlib.Analysis.SpecialFunctions.Log.Deriv
import Mathlib.Analysis.SpecialFunctions.Pow.Real

/-!
# C60: overlapping dabs add up to the opacity that was asked for

and C62: the speed inputs are calibrated. Both are statements about the real functions.
-/

namespace Verif.Engine
open Verif.Mask Verif.Color Verif.Spectral Verif.Map

section
variable {K R σ : Type} [Field K] [LinearOrder K] [IsStrictOrderedRing K] [FloorRing K]

/-- The opacity that the settings ask for. -/
def askedOpacity (s : Load.Brush K) (i : Nat → K) : K :=
  max 0 (min 1 (max 0 (calculate (s sOpaque) i) * calculate (s sOpaqueMultiply) i))

/-- How many dabs cover a point of a straight line: the dabs per radius of both kinds, on a length of two radii; at
least one. -/
def overlap (s : Load.Brush K) (i : Nat → K) : K :=
  max 1 (2 * (calculate (s sDabsPerActualRadius) i + calculate (s sDabsPerBasicRadius) i))

/-- The number of dabs that the linearisation reckons with, from one (setting 0) to `overlap` (setting 1). -/
def reckoned (s : Load.Brush K) (i : Nat → K) : K := 1 + (s sOpaqueLinearize).base * (overlap s i - 1)

/-- The dabs on one spot, of the opacity of `a`, one over the other, let through what one dab of the opacity asked for
would. -/
def AddsUp (e : Env K R σ) (s : Load.Brush K) (a : Dab.Args K) : Prop :=
  ∃ i, e.pow (1 - a.opaque') (reckoned s i) = 1 - askedOpacity s i

/-- The root really is a root. -/
def Roots (e : Env K R σ) : Prop := ∀ a n : K, 0 ≤ a → 0 < n → e.pow (e.pow a (1 / n)) n = a

/-- A power with exponent one. -/
def Powers (e : Env K R σ) : Prop := ∀ a : K, e.pow a 1 = a

/-- A brush that may be linearised: no random radius, which changes the opacity too. -/
structure Linear (s : Load.Brush K) : Prop where
  linearize : 0 ≤ (s sOpaqueLinearize).base
  random : ∀ j, calculate (s sRadiusByRandom) j = 0

def Rated (b : Brush K R) : Prop :=
  ∃ i, (b.vals = fun id => calculate (b.settings id) i) ∧
    b.st.dabsPerActualRadius = calculate (b.settings sDabsPerActualRadius) i ∧
    b.st.dabsPerBasicRadius = calculate (b.settings sDabsPerBasicRadius) i

theorem update_rated {e : Env K R σ} {b b' : Brush K R} {s : Step K} (h : update e b s = .ok b') : Rated b' := by
  rw [update_eq h]
  exact ⟨(inputsOf e b (moveStates e b s)).get, rfl, rfl, rfl⟩

theorem maxC_eq (a b : K) : maxC a b = max a b := by
  unfold maxC
  rw [max_def]
  split_ifs <;> first | rfl | (exfalso; linarith) | (apply le_antisymm <;> linarith)

theorem dabOpacity_adds_up {e : Env K R σ} (hr : Roots e) (hp : Powers e) {b : Brush K R} {i : Nat → K}
    (hv : b.vals = fun id => calculate (b.settings id) i)
    (h1 : b.st.dabsPerActualRadius = calculate (b.settings sDabsPerActualRadius) i)
    (h2 : b.st.dabsPerBasicRadius = calculate (b.settings sDabsPerBasicRadius) i)
    (hl : 0 ≤ (b.settings sOpaqueLinearize).base) {o : K} (h : dabOpacity e b = .ok o) :
    e.pow (1 - o) (reckoned b.settings i) = 1 - askedOpacity b.settings i := by
  unfold dabOpacity at h
  dsimp only at h
  have ha : clampK (maxC 0 (b.vals sOpaque) * b.vals sOpaqueMultiply) 0 1 = askedOpacity b.settings i := by
    rw [clampK_eq _ _ _ zero_le_one, maxC_eq, hv]
    rfl
  have ha1 : askedOpacity b.settings i ≤ 1 := max_le zero_le_one (min_le_left _ _)
  rw [ha] at h
  unfold reckoned
  by_cases h0 : b.baseval sOpaqueLinearize = 0
  · rw [if_pos h0] at h
    have h0' : (b.settings sOpaqueLinearize).base = 0 := h0
    rw [← Except.ok.inj h, h0', zero_mul, add_zero, hp]
  · rw [if_neg h0] at h
    have hd : (if (b.st.dabsPerActualRadius + b.st.dabsPerBasicRadius) * 2 < 1 then (1 : K)
        else (b.st.dabsPerActualRadius + b.st.dabsPerBasicRadius) * 2) = overlap b.settings i := by
      unfold overlap
      rw [h1, h2, mul_comm _ (2 : K), max_def]
      split_ifs <;> first | rfl | (exfalso; linarith) | (apply le_antisymm <;> linarith)
    rw [hd] at h
    have hpos : 0 < 1 + (b.settings sOpaqueLinearize).base * (overlap b.settings i - 1) := by
      have := mul_nonneg hl (sub_nonneg.mpr (le_max_left (1 : K) (2 * (calculate (b.settings sDabsPerActualRadius) i +
        calculate (b.settings sDabsPerBasicRadius) i))))
      unfold overlap
      linarith
    have hb : b.baseval sOpaqueLinearize = (b.settings sOpaqueLinearize).base := rfl
    rw [hb, if_neg hpos.ne'] at h
    rw [← Except.ok.inj h, sub_sub_cancel]
    exact hr _ _ (sub_nonneg.mpr ha1) hpos

theorem drawDab_adds_up {e : Env K R σ} (hr : Roots e) (hp : Powers e) (b : Brush K R)
    (surf : σ × List (Dab.Args K)) (lin : Bool) (p : Bool × Brush K R × (σ × List (Dab.Args K)))
    (hb : (Linear b.settings ∧ Rated b) ∧ ∀ a ∈ surf.2, AddsUp e b.settings a)
    (hd : drawDab (recordDabs e) { b with st := { b.st with flip := b.st.flip * -1 } } surf lin = .ok p) :
    Linear b.settings ∧ ∀ a ∈ p.2.2.2, AddsUp e b.settings a := by
  obtain ⟨⟨hl0, i, hv, h1, h2⟩, hl⟩ := hb
  refine ⟨hl0, ?_⟩
  rcases drawDab_oneDab hd with h | ⟨o, pos, sm, col, ho, hpos, -, fr, hc, fr2, -, h⟩
  · rw [h]; exact hl
  rw [h]
  intro a ha
  rcases List.mem_append.mp ha with q | q
  · exact hl a q
  refine ⟨i, ?_⟩
  rw [List.mem_singleton.mp q]
  have kp : pos.2.2.vals = b.vals := (dabPosition_frame hpos).vals
  have hnr : (dabRadius (recordDabs e) pos.2.2 o).2.1 = o := by
    unfold dabRadius
    dsimp only
    rw [kp, hv]
    simp only
    rw [if_neg (not_not.mpr (hl0.random i))]
  show e.pow (1 - (dabRadius (recordDabs e) pos.2.2 o).2.1) _ = _
  rw [hnr]
  exact dabOpacity_adds_up (e := recordDabs e) hr hp
    (b := { b with st := { b.st with flip := b.st.flip * -1 } }) hv h1 h2 hl0.linearize ho

/-- **C60**. In every session, for every dab: as many dabs of its opacity, one over the other, as the settings put on one
spot let through as much of the canvas as a single dab of the opacity asked for. -/
theorem overlapping_dabs_add_up {e : Env K R σ} (hr : Roots e) (hp : Powers e) {fuel : Nat} (ms : List (Motion K))
    {b : Brush K R} (hb : Underway b) (hl : Linear b.settings) (surf : σ)
    {r : Brush K R × (σ × List (Dab.Args K))} (h : strokes (recordDabs e) fuel b (surf, []) ms = .ok r) :
    ∀ a ∈ r.2.2, AddsUp e b.settings a := by
  rw [← settings_kept _ ms hb _ h]
  exact (session_keeps (Invariant.ofSettings
      (I := fun (s : Load.Brush K) (l : σ × List (Dab.Args K)) => Linear s ∧ ∀ a ∈ l.2, AddsUp e s a)
      (J := fun (b : Brush K R) (l : σ × List (Dab.Args K)) =>
        (Linear b.settings ∧ Rated b) ∧ ∀ a ∈ l.2, AddsUp e b.settings a)
      (fun b b' st surf h hu => ⟨⟨by rw [update_eq hu]; exact h.1, update_rated hu⟩, by rw [update_eq hu]; exact h.2⟩)
      (fun b surf h => ⟨h.1.1, h.2⟩) (drawDab_adds_up hr hp))
    (fun _ => True) (fun _ _ _ _ => trivial) (fun _ _ _ _ => trivial) (fun _ _ => trivial) ms (fun _ _ => trivial) hb
    ⟨hl, by simp⟩ h).1.2

end

/-- The real functions qualify. -/
theorem realEnv_roots {R σ : Type} (next gauss : R → ℝ × R) (draw : σ → Dab.Args ℝ → Bool × σ)
    (getColor : σ → Int → Int → ℝ → ℝ → Color.Rgba ℝ × σ) :
    Roots (realEnv next gauss draw getColor) ∧ Powers (realEnv next gauss draw getColor) := by
  refine ⟨fun a n ha hn => ?_, fun a => Real.rpow_one a⟩
  show (a ^ (1 / n : ℝ)) ^ n = a
  rw [← Real.rpow_mul ha, one_div, inv_mul_cancel₀ hn.ne', Real.rpow_one]

/-- The default brush, with nine tenths of linearisation, qualifies. -/
example : Linear (Demo.set Demo.brush sOpaqueLinearize (9 / 10)).settings :=
  ⟨by show (0 : ℚ) ≤ 9 / 10; norm_num, fun j => demo_constant _ j⟩

/-- With 2 dabs per radius of both kinds together, 4 dabs cover a point; asked for 15/16, one dab has 1/2. -/
example : ((1 : ℝ) - 1 / 2) ^ (4 : ℝ) = 1 - 15 / 16 := by
  rw [show (4 : ℝ) = ((4 : ℕ) : ℝ) by norm_num, Real.rpow_natCast]
  norm_num

/-! ### Speed -/

section
variable {R σ : Type} (next gauss : R → ℝ × R) (draw : σ → Dab.Args ℝ → Bool × σ)
  (getColor : σ → Int → Int → ℝ → ℝ → Color.Rgba ℝ × σ)

/-- **C62**. Whatever the gamma setting, a speed of 45 gives the input one half. -/
theorem speed_calibrated (gammaLog : ℝ) :
    speedInput (realEnv next gauss draw getColor) gammaLog 45 = 1 / 2 := by
  unfold speedInput realEnv
  dsimp only
  rw [add_comm (Real.exp gammaLog) 45]
  ring

/-- **C62**. and there it grows by 0.015 for each unit of the speed. -/
theorem speed_slope (gammaLog : ℝ) :
    HasDerivAt (speedInput (realEnv next gauss draw getColor) gammaLog) (15 / 1000) 45 := by
  have hpos : 0 < Real.exp gammaLog + 45 := by have := Real.exp_pos gammaLog; linarith
  have h1 : HasDerivAt (fun v : ℝ => Real.log (Real.exp gammaLog + v)) (1 / (Real.exp gammaLog + 45)) 45 :=
    ((hasDerivAt_id (45 : ℝ)).const_add (Real.exp gammaLog)).log hpos.ne'
  have h2 := (h1.mul_const (15 / 1000 * (45 + Real.exp gammaLog))).add_const
    (1 / 2 - 15 / 1000 * (45 + Real.exp gammaLog) * Real.log (45 + Real.exp gammaLog))
  have e1 : 1 / (Real.exp gammaLog + 45) * (15 / 1000 * (45 + Real.exp gammaLog)) = 15 / 1000 := by
    rw [add_comm (45 : ℝ)]
    field_simp
  rw [e1] at h2
  exact h2

/-- **C62**. A faster stroke has a greater input. -/
theorem speed_monotone (gammaLog : ℝ) {u v : ℝ} (hu : 0 ≤ u) (huv : u < v) :
    speedInput (realEnv next gauss draw getColor) gammaLog u < speedInput (realEnv next gauss draw getColor) gammaLog v := by
  have hg := Real.exp_pos gammaLog
  have hl : Real.log (Real.exp gammaLog + u) < Real.log (Real.exp gammaLog + v) :=
    Real.log_lt_log (by linarith) (by linarith)
  have hm : 0 < 15 / 1000 * (45 + Real.exp gammaLog) := by positivity
  have := mul_lt_mul_of_pos_right hl hm
  unfold speedInput realEnv
  dsimp only
  linarith

end

end Verif.Engine
