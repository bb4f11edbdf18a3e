import Verif.Props.C59_DabShape

/-!
# C121: dabs of random size carry no more paint

The radius of the dabs may vary at random. A dab that comes out bigger is more transparent, so that its area times its opacity is
that of a dab of the radius and the opacity that the settings ask for. A smaller dab keeps its opacity.
-/

namespace Verif.Engine
open Verif.Mask Verif.Color Verif.Spectral Verif.Map

section
variable {K R σ : Type} [Field K] [LinearOrder K] [IsStrictOrderedRing K] [FloorRing K]

/-! ### Specification -/

/-- The opacity that the settings ask for: that of the stroke, shared by the dabs that overlap as far as the setting says. -/
def sharedOpacity (e : Env K R σ) (s : Load.Brush K) (i : Nat → K) : K :=
  let o := max 0 (min 1 (max 0 (calculate (s sOpaque) i) * calculate (s sOpaqueMultiply) i))
  let overlapping := max 1 (2 * (calculate (s sDabsPerActualRadius) i + calculate (s sDabsPerBasicRadius) i))
  let share := (s sOpaqueLinearize).base
  if share = 0 then o else 1 - e.pow (1 - o) (1 / (1 + share * (overlapping - 1)))

/-- A dab of opacity `o` and radius `ρ`, where opacity `o₀` and radius `ρ₀` were asked for. -/
structure EvenedOut (o₀ ρ₀ o ρ : K) : Prop where
  bigger : ρ₀ ≤ ρ → o * ρ ^ 2 = o₀ * ρ₀ ^ 2
  smaller : ρ ≤ ρ₀ → o = o₀

/-- The brush draws the dabs as they are: no anti-aliasing, no snapping to pixels. -/
structure DrawsAsIs (s : Load.Brush K) : Prop where
  aliased : ∀ i, calculate (s sAntiAliasing) i ≤ 0
  free : ∀ i, calculate (s sSnapToPixel) i ≤ 0

/-- Some normal number `g` decides on the radius: the logarithm of the radius varies by `g` times the setting. -/
def RandomDab (e : Env K R σ) (s : Load.Brush K) (i : Nat → K) (a : Dab.Args K) : Prop :=
  EvenedOut (sharedOpacity e s i) (askedRadius e (calculate (s sRadiusLogarithmic) i)) a.opaque' a.radius ∧
  ((calculate (s sRadiusByRandom) i = 0 ∧ a.radius = askedRadius e (calculate (s sRadiusLogarithmic) i)) ∨
    ∃ g : R, a.radius = askedRadius e (calculate (s sRadiusLogarithmic) i + (e.gauss g).1 * calculate (s sRadiusByRandom) i))

/-! ### Proof -/

omit [FloorRing K] in
theorem evenedOut {o ρ₀ ρ : K} (h0 : 0 < ρ₀) (h : 0 < ρ) :
    EvenedOut o ρ₀ (if (ρ₀ / ρ) * (ρ₀ / ρ) ≤ 1 then o * ((ρ₀ / ρ) * (ρ₀ / ρ)) else o) ρ := by
  have key : (ρ₀ / ρ) * (ρ₀ / ρ) ≤ 1 ↔ ρ₀ ≤ ρ := by
    rw [← sq, ← one_pow 2, sq_le_sq₀ (div_pos h0 h).le zero_le_one, div_le_one h]
  constructor
  · intro q
    rw [if_pos (key.mpr q)]
    field_simp
  · intro q
    by_cases hc : (ρ₀ / ρ) * (ρ₀ / ρ) ≤ 1
    · have : ρ = ρ₀ := le_antisymm q (key.mp hc)
      rw [if_pos hc, this, div_self h0.ne']
      ring
    · rw [if_neg hc]

omit [FloorRing K] [IsStrictOrderedRing K] in
theorem maxC_max (a b : K) : maxC a b = max a b := by
  unfold maxC
  split_ifs with h1
  · exact (max_eq_left h1.le).symm
  · exact (max_eq_right (not_lt.mp h1)).symm

/-- What an update leaves. -/
def Spaced (b : Brush K R) (i : Nat → K) : Prop :=
  b.st.dabsPerActualRadius = calculate (b.settings sDabsPerActualRadius) i ∧
    b.st.dabsPerBasicRadius = calculate (b.settings sDabsPerBasicRadius) i

theorem drawDab_random {e : Env K R σ} {b : Brush K R} {surf : σ × List (Dab.Args K)} {lin : Bool}
    {p : Bool × Brush K R × (σ × List (Dab.Args K))} {i : Nat → K} (hs : DrawsAsIs b.settings)
    (hv : b.vals = fun id => calculate (b.settings id) i)
    (hr : b.st.actualRadius = askedRadius e (calculate (b.settings sRadiusLogarithmic) i)) (hn : Spaced b i)
    (hd : drawDab (recordDabs e) { b with st := { b.st with flip := b.st.flip * -1 } } surf lin = .ok p) :
    p.2.2.2 = surf.2 ∨ ∃ a, p.2.2.2 = surf.2 ++ [a] ∧ RandomDab e b.settings i a := by
  rcases drawDab_oneDab hd with h | ⟨o, pos, sm, col, ho, hpos, -, fr, hc, fr2, -, h⟩
  · exact .inl h
  refine .inr ⟨_, h, ?_⟩
  have kv : ∀ id, col.2.2.vals id = calculate (b.settings id) i := by
    intro id; rw [fr2.vals]; show b.vals id = _; rw [hv]
  have kp : ∀ id, pos.2.2.vals id = calculate (b.settings id) i := by
    intro id; rw [(dabPosition_frame hpos).vals]; show b.vals id = _; rw [hv]
  have kr : pos.2.2.st.actualRadius = askedRadius e (calculate (b.settings sRadiusLogarithmic) i) := by
    rw [(dabPosition_frame hpos).st]; exact hr
  have hh : clampK (col.2.2.vals sHardness) 0 1 ≤ 1 := (clampK_ge zero_le_one).2
  have hrad : 0 < (dabRadius (recordDabs e) pos.2.2 o).1 := by
    unfold dabRadius
    dsimp only
    by_cases q : pos.2.2.vals sRadiusByRandom ≠ 0
    · rw [if_pos q]; exact lt_of_lt_of_le (by norm_num) (clampK_ge (by norm_num)).1
    · rw [if_neg q]; simp only; rw [kr]; exact askedRadius_pos _ _
  have er : (dabArgs (recordDabs e) col.2.2 lin pos.1 pos.2.1 (dabRadius (recordDabs e) pos.2.2 o).1
      (dabRadius (recordDabs e) pos.2.2 o).2.1 col.1 col.2.1).radius = (dabRadius (recordDabs e) pos.2.2 o).1 := by
    have ea : ∀ r : K, 0 < r → antiAlias col.2.2 (clampK (col.2.2.vals sHardness) 0 1) r = (clampK (col.2.2.vals sHardness) 0 1, r) := by
      intro r r0
      unfold antiAlias
      dsimp only
      refine if_neg (not_lt.mpr ?_)
      rw [kv sAntiAliasing]
      exact (hs.aliased i).trans (mul_nonneg r0.le (by linarith))
    have es : ∀ x y r, snap col.2.2 x y r = (x, y, r) := by
      intro x y r
      unfold snap
      dsimp only
      rw [kv]
      exact if_neg (not_lt.mpr (hs.free i))
    unfold dabArgs
    simp only
    rw [ea _ hrad, es]
  have eo : o = sharedOpacity e b.settings i := by
    unfold dabOpacity at ho
    dsimp only at ho
    have hlin : Brush.baseval { b with st := { b.st with flip := b.st.flip * -1 } } sOpaqueLinearize =
      (b.settings sOpaqueLinearize).base := rfl
    have hmax : ∀ d : K, (if d < 1 then 1 else d) = max 1 d := by
      intro d
      split_ifs with q
      · exact (max_eq_left q.le).symm
      · exact (max_eq_right (not_lt.mp q)).symm
    rw [hlin, hn.1, hn.2, hmax, maxC_max, clampK_eq _ _ _ zero_le_one, hv] at ho
    unfold sharedOpacity
    dsimp only
    rw [mul_comm 2 (_ + _)]
    by_cases q : (b.settings sOpaqueLinearize).base = 0
    · rw [if_pos q] at ho ⊢
      exact (Except.ok.inj ho).symm
    · rw [if_neg q] at ho ⊢
      split_ifs at ho
      exact (Except.ok.inj ho).symm
  show EvenedOut _ _ (dabRadius (recordDabs e) pos.2.2 o).2.1 _ ∧ _
  rw [er]
  unfold dabRadius
  dsimp only
  rw [kp, kp, kr, ← eo]
  have ec : ∀ v, clampK (e.exp v) (1 / 5) 1000 = askedRadius e v := fun v => clampK_eq _ _ _ (by norm_num)
  by_cases q : calculate (b.settings sRadiusByRandom) i ≠ 0
  · rw [if_pos q]
    have e1 : (recordDabs e).exp = e.exp := rfl
    have e2 : (recordDabs e).gauss = e.gauss := rfl
    simp only [e1, e2, ec]
    exact ⟨evenedOut (askedRadius_pos _ _) (askedRadius_pos _ _), .inr ⟨_, rfl⟩⟩
  · rw [if_neg q]
    exact ⟨⟨fun _ => rfl, fun _ => rfl⟩, .inl ⟨not_not.mp q, rfl⟩⟩

theorem update_spaced {e : Env K R σ} {b b' : Brush K R} {s : Step K} (h : update e b s = .ok b') :
    ∃ i, (b'.vals = fun id => calculate (b'.settings id) i) ∧
      b'.st.actualRadius = askedRadius e (calculate (b'.settings sRadiusLogarithmic) i) ∧ Spaced b' i := by
  rw [update_eq h]
  refine ⟨(inputsOf e b (moveStates e b s)).get, rfl, ?_, rfl, rfl⟩
  rw [← finalRadius_eq]
  rfl

/-! ### The theorems -/

/-- **Dabs of random size are evened out**: every dab of every session has the opacity that makes up for a bigger radius. -/
theorem random_dabs_evened (e : Env K R σ) {fuel : Nat} (ms : List (Motion K)) {b : Brush K R} (hb : Underway b)
    (hs : DrawsAsIs b.settings) (surf : σ) {r : Brush K R × (σ × List (Dab.Args K))}
    (h : strokes (recordDabs e) fuel b (surf, []) ms = .ok r) : ∀ a ∈ r.2.2, ∃ i, RandomDab e b.settings i a := by
  have key := (session_keeps (Invariant.ofSettings
      (I := fun (s : Load.Brush K) (l : σ × List (Dab.Args K)) => DrawsAsIs s ∧ ∀ a ∈ l.2, ∃ i, RandomDab e s i a)
      (J := fun (b : Brush K R) (l : σ × List (Dab.Args K)) => (∃ i, (b.vals = fun id => calculate (b.settings id) i) ∧
        b.st.actualRadius = askedRadius e (calculate (b.settings sRadiusLogarithmic) i) ∧ Spaced b i) ∧ DrawsAsIs b.settings ∧ ∀ a ∈ l.2, ∃ i, RandomDab e b.settings i a)
      (fun b b' st surf h hu => ⟨update_spaced (e := recordDabs e) hu, by rw [update_eq hu]; exact h⟩)
      (fun b surf h => h.2)
      (by
        intro b surf lin p hb hd
        obtain ⟨⟨i, hv, hr, hn⟩, hs, hl⟩ := hb
        refine ⟨hs, ?_⟩
        rcases drawDab_random hs hv hr hn hd with h | ⟨a0, h, h1⟩
        · rw [h]; exact hl
        · rw [h]
          intro a ha
          rcases List.mem_append.mp ha with q | q
          · exact hl a q
          · rw [List.mem_singleton.mp q]
            exact ⟨i, h1⟩))
    (fun _ => True) (fun _ _ _ _ => trivial) (fun _ _ _ _ => trivial) (fun _ _ => trivial) ms (fun _ _ => trivial) hb
    ⟨hs, by simp⟩ h).1
  rw [← settings_kept _ ms hb _ h]
  exact key.2

/-- **No more paint than asked for**: with constant settings, the area of each dab times its opacity is at most that of a dab of the
radius and opacity that the settings ask for. -/
theorem random_dabs_no_more_paint (e : Env K R σ) {fuel : Nat} (ms : List (Motion K)) {b : Brush K R} (hb : Underway b)
    (hs : DrawsAsIs b.settings) {o ρ : K} (ho : ∀ i, sharedOpacity e b.settings i = o) (o0 : 0 ≤ o)
    (hρ : ∀ i, askedRadius e (calculate (b.settings sRadiusLogarithmic) i) = ρ) (surf : σ)
    {r : Brush K R × (σ × List (Dab.Args K))} (h : strokes (recordDabs e) fuel b (surf, []) ms = .ok r) :
    ∀ a ∈ r.2.2, a.opaque' * a.radius ^ 2 ≤ o * ρ ^ 2 ∧ a.opaque' ≤ o := by
  intro a ha
  obtain ⟨i, ⟨k1, k2⟩, k3⟩ := random_dabs_evened e ms hb hs surf h a ha
  rw [ho, hρ] at k1
  rw [ho, hρ] at k2
  have p0 : 0 < ρ := by rw [← hρ i]; exact askedRadius_pos _ _
  have a0 : 0 < a.radius := by
    rcases k3 with ⟨-, q⟩ | ⟨g, q⟩
    · rw [q]; exact askedRadius_pos _ _
    · rw [q]; exact askedRadius_pos _ _
  rcases le_total ρ a.radius with q | q
  · refine ⟨(k1 q).le, ?_⟩
    have q2 : ρ ^ 2 ≤ a.radius ^ 2 := pow_le_pow_left₀ p0.le q 2
    have q3 : a.opaque' * a.radius ^ 2 ≤ o * a.radius ^ 2 := by
      rw [k1 q]; exact mul_le_mul_of_nonneg_left q2 o0
    exact le_of_mul_le_mul_right q3 (pow_pos a0 2)
  · rw [k2 q]
    exact ⟨mul_le_mul_of_nonneg_left (pow_le_pow_left₀ a0.le q 2) o0, le_refl _⟩

end

namespace Demo

/-- A brush of radius 2 and opacity 1/2 whose radius varies by 1. -/
def varied : Brush ℚ Nat :=
  { set (set (set (set (set brush sRadiusLogarithmic 1) sOpaque (1 / 2)) sAntiAliasing 0) sRadiusByRandom 1) sOpaqueLinearize 0 with
    resetRequested := false }

/-- The random numbers are 1 and -1/2 in turn. -/
def turnsEnv : Env ℚ Nat (List (Dab.Args ℚ)) := { env with gauss := fun r => (if r % 4 = 0 then 1 else -1 / 2, r + 1) }

theorem varied_asIs : DrawsAsIs varied.settings := ⟨fun _ => le_refl (0 : ℚ), fun _ => le_refl (0 : ℚ)⟩

theorem varied_underway : Underway varied := ⟨⟨le_refl (0 : ℚ), zero_lt_one⟩, le_refl (0 : ℚ)⟩

/-- The dabs of radius 3 have the opacity 2/9, those of radius 3/2 have 1/2. -/
example : look (fun r => r.2.map fun a => (a.radius, a.opaque')) (strokes turnsEnv 100 varied []
    [motion 0 0 (1 / 2) (1 / 10), motion 4 3 (1 / 2) (3 / 40)]) =
    some [(3, 2 / 9), (3 / 2, 1 / 2), (3, 2 / 9), (3 / 2, 1 / 2), (3, 2 / 9)] := by decide +kernel

/-- The hypotheses hold for it. -/
example {fuel : Nat} {ms : List (Motion ℚ)} {r : Brush ℚ Nat × (List (Dab.Args ℚ) × List (Dab.Args ℚ))}
    (h : strokes (recordDabs turnsEnv) fuel varied ([], []) ms = .ok r) :
    ∀ a ∈ r.2.2, a.opaque' * a.radius ^ 2 ≤ 1 / 2 * 2 ^ 2 ∧ a.opaque' ≤ 1 / 2 := by
  have h1 : sharedOpacity turnsEnv varied.settings (fun _ => 0) = 1 / 2 := by decide +kernel
  have h2 : askedRadius turnsEnv (calculate (varied.settings sRadiusLogarithmic) fun _ => 0) = 2 := by decide +kernel
  exact random_dabs_no_more_paint turnsEnv ms varied_underway varied_asIs (fun _ => h1) (by norm_num) (fun _ => h2) [] h

end Demo

end Verif.Engine
