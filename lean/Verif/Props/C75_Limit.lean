import Verif.Props.C61_Smudge
import Verif.Lemmas.EngineSim

/-!
# C75: the limit of transparency for smudging
-/

namespace Verif.Engine
open Verif.Mask Verif.Color Verif.Spectral Verif.Map

section
variable {K R σ : Type} [Field K] [LinearOrder K] [IsStrictOrderedRing K] [FloorRing K]

/-! ### Specification -/

/-- What a brush asks of a surface. -/
inductive Act (K : Type) where
  | sample (colour : Rgba K)
  | dab (args : Dab.Args K)

/-- The same surface, with a record of what it was asked for. -/
def watch (e : Env K R σ) : Env K R (σ × List (Act K)) where
  exp := e.exp
  log := e.log
  sqrt := e.sqrt
  pow := e.pow
  atan2 := e.atan2
  cos := e.cos
  sin := e.sin
  degrees := e.degrees
  next := e.next
  gauss := e.gauss
  draw s a := ((e.draw s.1 a).1, ((e.draw s.1 a).2, s.2 ++ [.dab a]))
  getColor s x y r p := ((e.getColor s.1 x y r p).1, ((e.getColor s.1 x y r p).2, s.2 ++ [.sample (e.getColor s.1 x y r p).1]))

/-- Right before every dab the canvas was sampled, and what was found there is as wanted. -/
def Guarded (ok : Rgba K → Prop) (log : List (Act K)) : Prop :=
  ∀ l a r, log = l ++ Act.dab a :: r → ∃ l' c, l = l' ++ [Act.sample c] ∧ ok c

/-- A brush that samples the canvas for every dab. -/
structure AlwaysSamples (s : Load.Brush K) : Prop where
  length : ∀ i, calculate (s sSmudgeLength) i < 1
  smudge : ∀ i, calculate (s sSmudge) i ≠ 0
  log : ∀ i, calculate (s sSmudgeLengthLog) i = 0

/-! ### The record -/

omit [Field K] [LinearOrder K] [IsStrictOrderedRing K] [FloorRing K] in
theorem Guarded.sample {ok : Rgba K → Prop} {log : List (Act K)} (h : Guarded ok log) (c : Rgba K) :
    Guarded ok (log ++ [.sample c]) := by
  intro l a r hl
  rcases List.eq_nil_or_concat r with q | ⟨r', z, q⟩
  · rw [q] at hl
    have := (List.append_inj' hl rfl).2
    cases this
  · rw [q, List.concat_eq_append, ← List.cons_append, ← List.append_assoc] at hl
    exact h l a r' (List.append_inj' hl rfl).1

omit [Field K] [LinearOrder K] [IsStrictOrderedRing K] [FloorRing K] in
theorem Guarded.dab {ok : Rgba K → Prop} {log : List (Act K)} (h : Guarded ok log) {c : Rgba K} (hc : ok c)
    (d : Dab.Args K) : Guarded ok (log ++ [.sample c] ++ [.dab d]) := by
  intro l a r hl
  rcases List.eq_nil_or_concat r with q | ⟨r', z, q⟩
  · rw [q] at hl
    exact ⟨log, c, (List.append_inj' hl rfl).1.symm, hc⟩
  · rw [q, List.concat_eq_append, ← List.cons_append, ← List.append_assoc] at hl
    exact h.sample c l a r' (List.append_inj' hl rfl).1

/-! ### One more thing to keep, about the settings and the surface -/

theorem Invariant.also {e : Env K R σ} {E : Event K → Prop} {T : K → K → Prop} {I J : Brush K R → σ → Prop}
    (H : Invariant e E T I J) (G : Load.Brush K → σ → Prop)
    (hd : ∀ b surf lin p, J b surf → G b.settings surf →
      drawDab e { b with st := { b.st with flip := b.st.flip * -1 } } surf lin = .ok p → G b.settings p.2.2) :
    Invariant e E T (fun b s => I b s ∧ G b.settings s) (fun b s => J b s ∧ G b.settings s) where
  skip b s ev he h := ⟨H.skip b s ev he h.1, by rw [skipStage_eq]; exact h.2⟩
  pull b s ev he ht h := ⟨H.pull b s ev he ht h.1, by rw [cursor_eq, skipStage_eq]; exact h.2⟩
  target b s ev he ht h := H.target b s ev he ht h.1
  start b s ev x y b' he hT h hq hs := by
    refine ⟨H.start b s ev x y b' he hT h.1 (hq.imp id fun ⟨b0, h0, q⟩ => ⟨b0, h0.1, q⟩) hs, ?_⟩
    obtain ⟨bk, -, e1⟩ := startOver_eq hs
    rw [e1]; exact h.2
  count b s x y dt h := ⟨H.count b s x y dt h.1, by rw [countDabs_st]; exact h.2⟩
  step b s ev x y d f t b' he hT h1 h2 h3 h4 h hu :=
    ⟨H.step b s ev x y d f t b' he hT h1 h2 h3 h4 h.1 hu, by rw [update_eq hu]; exact h.2⟩
  draw b s lin p h hp := by
    refine ⟨H.draw b s lin p h.1 hp, ?_⟩
    have k := hd _ _ _ _ h.1 h.2 hp
    have k2 : p.2.1.settings = b.settings := (drawDab_frame hp).settings
    rw [← k2] at k
    exact k
  finish b s n total idle h := ⟨H.finish b s n total idle h.1, h.2⟩

/-! ### Sampling -/

/-- What the limit asks of the alpha that was found. -/
def Passes (lim a : K) : Prop := (0 < lim → lim ≤ a) ∧ (lim < 0 → a ≤ -lim)

/-- If the memory is not recent enough, `update_smudge_color` samples, and stops if the limit says so. -/
theorem updateSmudge_samples (e : Env K R σ) (b : Brush K R) (surf : σ) (v : Bucket K) (px py : Int) (r : K)
    (hp : ∀ a, 0 < a → e.pow a 0 = 1) (h1 : b.vals sSmudgeLength < 1) (h2 : b.vals sSmudgeLengthLog = 0)
    (h3 : v.recentness ≤ 1) :
    ∃ rr pp, (updateSmudge e b surf v px py r).2.2.1 = (e.getColor surf px py rr pp).2 ∧
      ((updateSmudge e b surf v px py r).1 = false → Passes (b.vals sSmudgeTransparency) (e.getColor surf px py rr pp).1.a) := by
  have m0 : (0 : K) < maxC (1 / 100) (b.vals sSmudgeLength) := by
    rw [Color.maxC_eq]; exact lt_max_of_lt_left (by norm_num)
  have m1 : maxC (1 / 100) (b.vals sSmudgeLength) < 1 := by
    rw [Color.maxC_eq]; exact max_lt (by norm_num) h1
  have hQ : v.recentness * maxC (1 / 100) (b.vals sSmudgeLength) <
      minC 1 (e.pow (1 / 2 * maxC (1 / 100) (b.vals sSmudgeLength)) (b.vals sSmudgeLengthLog) + 1 / 10 ^ 16) := by
    rw [h2, hp _ (by positivity), Color.minC_eq, min_eq_left (le_add_of_nonneg_right (by positivity))]
    have := mul_le_mul_of_nonneg_right h3 m0.le
    linarith
  refine ⟨clampK (r * e.exp (b.vals sSmudgeRadiusLog)) (1 / 5) 1000, if legacySmudge b then -1 else b.vals sPaintMode, ?_⟩
  unfold updateSmudge
  dsimp only
  simp only [hQ, if_true, true_and]
  generalize e.getColor surf px py (clampK (r * e.exp (b.vals sSmudgeRadiusLog)) (1 / 5) 1000)
    (if legacySmudge b then -1 else b.vals sPaintMode) = got
  by_cases hr : (b.vals sSmudgeTransparency > 0 ∧ got.1.a < b.vals sSmudgeTransparency) ∨
    (b.vals sSmudgeTransparency < 0 ∧ got.1.a > -b.vals sSmudgeTransparency)
  · rw [if_pos hr]
    exact ⟨rfl, fun q => by cases q⟩
  · rw [if_neg hr]
    refine ⟨?_, fun _ => ⟨fun q => ?_, fun q => ?_⟩⟩
    · split_ifs <;> rfl
    · by_contra hc
      exact hr (.inl ⟨q, not_le.mp hc⟩)
    · by_contra hc
      exact hr (.inr ⟨q, not_le.mp hc⟩)

theorem smudgeStage_samples {e : Env K R σ} (hp : ∀ a, 0 < a → e.pow a 0 = 1) {b : Brush K R} {i : Nat → K}
    (hv : b.vals = fun id => calculate (b.settings id) i) (ha : AlwaysSamples b.settings) (hm : Memory b) {surf : σ}
    {x y r : K} {sm : Bool × Brush K R × σ} (h : smudgeStage e b surf x y r = .ok sm) :
    ∃ px py rr pp, sm.2.2 = (e.getColor surf px py rr pp).2 ∧
      (sm.1 = false → Passes (calculate (b.settings sSmudgeTransparency) i) (e.getColor surf px py rr pp).1.a) := by
  have hc : b.vals sSmudgeLength < 1 ∧ (b.vals sSmudge ≠ 0 ∨ isConstant (b.settings sSmudge) = false) := by
    rw [hv]
    exact ⟨ha.length i, .inl (ha.smudge i)⟩
  unfold smudgeStage at h
  rw [if_pos hc] at h
  dsimp only at h
  obtain ⟨v, h1, h⟩ := bind_ok h
  obtain ⟨px, -, h⟩ := bind_ok h
  obtain ⟨py, -, h⟩ := bind_ok h
  obtain ⟨b2, -, h⟩ := bind_ok h
  have k := (fetchSmudge_memory hm).2 v h1
  have ev : (fetchSmudge b).2.vals = b.vals := (fetchSmudge_frame b).vals
  obtain ⟨rr, pp, k1, k2⟩ := updateSmudge_samples e (fetchSmudge b).2 surf v px py r hp (by rw [ev]; exact hc.1)
    (by rw [ev, hv]; exact ha.log i) k.recent.2
  rw [ev] at k2
  rw [← Except.ok.inj h]
  refine ⟨px, py, rr, pp, k1, fun q => ?_⟩
  have := k2 q
  rw [hv] at this
  exact this

/-! ### Sessions -/

/-- The dabs of a session: each one comes right after a sample that the limit lets pass, for some value of the limit
that the settings allow. -/
theorem guarded_session {e : Env K R σ} (hp : ∀ a b, 0 ≤ a → a ≤ 1 → 0 ≤ b → 0 ≤ e.pow a b ∧ e.pow a b ≤ 1)
    (hz : ∀ a, 0 < a → e.pow a 0 = 1) (hS : ∀ s x y r p, (e.getColor s x y r p).1.Ok) {fuel : Nat} (ms : List (Motion K))
    {b : Brush K R} (hb : Underway b) (hs : SmudgeSettings b.settings) (hm : Memory b) (ha : AlwaysSamples b.settings)
    (surf : σ) {ok : Rgba K → Prop}
    (hok : ∀ i s x y r p, Passes (calculate (b.settings sSmudgeTransparency) i) (e.getColor s x y r p).1.a →
      ok (e.getColor s x y r p).1)
    {r : Brush K R × (σ × List (Act K))} (h : strokes (watch e) fuel b (surf, []) ms = .ok r) : Guarded ok r.2.2 := by
  obtain ⟨l', hl⟩ := strokes_recorded _ _ _ _ _ [] h
  have H := (smudge_invariant (e := watch e) hp (fun s x y r p => hS s.1 x y r p)).also
    (fun s w => AlwaysSamples s ∧ (∀ i s' x y r p, Passes (calculate (s sSmudgeTransparency) i) (e.getColor s' x y r p).1.a →
      ok (e.getColor s' x y r p).1) ∧ Guarded ok w.1.2)
    (by
      rintro b surf lin p ⟨⟨i, hv⟩, hs, hm, -⟩ ⟨ha, hok, hg⟩ hd
      refine ⟨ha, hok, ?_⟩
      obtain ⟨o, pos, sm, -, h2, h3, fr, hcase⟩ := drawDab_cases hd
      have k1 : pos.2.2.settings = b.settings ∧ pos.2.2.buckets = b.buckets ∧ pos.2.2.st.smudge = b.st.smudge := by
        unfold dabPosition at h2
        dsimp only at h2
        split_ifs at h2 <;> first | (cases h2; done) | (rw [← Except.ok.inj h2]; exact ⟨rfl, rfl, rfl⟩)
      have k2 : ∀ c : Brush K R, (dabRadius (recordDabs (watch e)) c o).2.2.settings = c.settings ∧
          (dabRadius (recordDabs (watch e)) c o).2.2.buckets = c.buckets ∧
          (dabRadius (recordDabs (watch e)) c o).2.2.st.smudge = c.st.smudge := by
        intro c
        unfold dabRadius
        dsimp only
        split_ifs <;> exact ⟨rfl, rfl, rfl⟩
      have k3 := k2 pos.2.2
      have hm1 : Memory (dabRadius (recordDabs (watch e)) pos.2.2 o).2.2 :=
        hm.of (k3.1.trans k1.1) (k3.2.1.trans k1.2.1) (k3.2.2.trans k1.2.2)
      have fr0 := (dabPosition_frame h2).trans (dabRadius_frame (recordDabs (watch e)) pos.2.2 o)
      have es0 : (dabRadius (recordDabs (watch e)) pos.2.2 o).2.2.settings = b.settings := fr0.settings
      have ev0 : (dabRadius (recordDabs (watch e)) pos.2.2 o).2.2.vals = b.vals := fr0.vals
      obtain ⟨px, py, rr, pp, q1, q2⟩ := smudgeStage_samples (e := recordDabs (watch e)) hz (i := i)
        (by rw [es0, ev0]; exact hv) (by rw [es0]; exact ha) hm1 h3
      rw [es0] at q2
      have q3 : sm.2.2.1.2 = surf.1.2 ++ [.sample (e.getColor surf.1.1 px py rr pp).1] := by rw [q1]; rfl
      rcases hcase with ⟨-, hc⟩ | ⟨hf, col, -, -, hpe⟩
      · rw [hc]
        show Guarded ok sm.2.2.1.2
        rw [q3]
        exact hg.sample _
      · rw [hpe]
        show Guarded ok (sm.2.2.1.2 ++ [.dab _])
        rw [q3]
        exact hg.dab (hok i _ _ _ _ _ (q2 hf)) _)
  have k := (session_keeps H (fun _ => True) (fun _ _ _ _ => trivial) (fun _ _ _ _ => trivial)
    (fun _ _ => trivial) ms (fun _ _ => trivial) hb ⟨⟨hs, hm, by simp⟩, ha, hok, fun l a r q => by
      cases l <;> cases q⟩ hl).1
  exact k.2.2.2

/-- **C75**. If the limit is never below `lo`, there is no dab without a sample right before it whose alpha is at least
`lo`. -/
theorem smudge_limit_kept_partial {e : Env K R σ}
    (hp : ∀ a b, 0 ≤ a → a ≤ 1 → 0 ≤ b → 0 ≤ e.pow a b ∧ e.pow a b ≤ 1)
    (hz : ∀ a, 0 < a → e.pow a 0 = 1) (hS : ∀ s x y r p, (e.getColor s x y r p).1.Ok) {fuel : Nat} (ms : List (Motion K))
    {b : Brush K R} (hb : Underway b) (hs : SmudgeSettings b.settings) (hm : Memory b) (ha : AlwaysSamples b.settings)
    (surf : σ) {lo : K} (h0 : 0 < lo) (hl : ∀ i, lo ≤ calculate (b.settings sSmudgeTransparency) i)
    {r : Brush K R × (σ × List (Act K))} (h : strokes (watch e) fuel b (surf, []) ms = .ok r) :
    Guarded (fun c => lo ≤ c.a) r.2.2 :=
  guarded_session hp hz hS ms hb hs hm ha surf (fun i _ _ _ _ _ q => (hl i).trans (q.1 (h0.trans_le (hl i)))) h

/-- The same for a negative limit: nothing is drawn where the canvas is too opaque. -/
theorem smudge_negative_limit_kept_partial {e : Env K R σ}
    (hp : ∀ a b, 0 ≤ a → a ≤ 1 → 0 ≤ b → 0 ≤ e.pow a b ∧ e.pow a b ≤ 1)
    (hz : ∀ a, 0 < a → e.pow a 0 = 1) (hS : ∀ s x y r p, (e.getColor s x y r p).1.Ok) {fuel : Nat} (ms : List (Motion K))
    {b : Brush K R} (hb : Underway b) (hs : SmudgeSettings b.settings) (hm : Memory b) (ha : AlwaysSamples b.settings)
    (surf : σ) {hi : K} (hl : ∀ i, calculate (b.settings sSmudgeTransparency) i < 0 ∧
      -hi ≤ calculate (b.settings sSmudgeTransparency) i)
    {r : Brush K R × (σ × List (Act K))} (h : strokes (watch e) fuel b (surf, []) ms = .ok r) :
    Guarded (fun c => c.a ≤ hi) r.2.2 :=
  guarded_session hp hz hS ms hb hs hm ha surf
    (fun i _ _ _ _ _ q => (q.2 (hl i).1).trans (by have := (hl i).2; linarith)) h

/-- A canvas that is too transparent everywhere is left alone. -/
theorem too_transparent_untouched_partial {e : Env K R σ}
    (hp : ∀ a b, 0 ≤ a → a ≤ 1 → 0 ≤ b → 0 ≤ e.pow a b ∧ e.pow a b ≤ 1)
    (hz : ∀ a, 0 < a → e.pow a 0 = 1) (hS : ∀ s x y r p, (e.getColor s x y r p).1.Ok) {fuel : Nat} (ms : List (Motion K))
    {b : Brush K R} (hb : Underway b) (hs : SmudgeSettings b.settings) (hm : Memory b) (ha : AlwaysSamples b.settings)
    (surf : σ) {lo : K} (hl : ∀ i, lo ≤ calculate (b.settings sSmudgeTransparency) i)
    (ht : ∀ s x y r p, (e.getColor s x y r p).1.a < lo)
    {r : Brush K R × (σ × List (Act K))} (h : strokes (watch e) fuel b (surf, []) ms = .ok r) (d : Dab.Args K) :
    Act.dab d ∉ r.2.2 := by
  intro hd
  obtain ⟨l, r', hlr⟩ := List.append_of_mem hd
  have k : Guarded (fun _ => False) r.2.2 := guarded_session hp hz hS ms hb hs hm ha surf (fun i s x y r p q => by
    have k1 := ht s x y r p
    have k2 := (hS s x y r p).2.2.2.1
    have k3 := q.1 (lt_of_lt_of_le (lt_of_le_of_lt k2 k1) (hl i))
    exact absurd (hl i) (not_le.mpr (lt_of_le_of_lt k3 k1))) h
  obtain ⟨-, -, -, q⟩ := k l d r' hlr
  exact q

omit [IsStrictOrderedRing K] in
/-- Watching changes nothing else. -/
theorem strokes_watched (e : Env K R σ) (fuel : Nat) (ms : List (Motion K)) (b : Brush K R) (s : σ)
    (l : List (Act K)) {r : Brush K R × σ} (h : strokes e fuel b s ms = .ok r) :
    ∃ l', strokes (watch e) fuel b (s, l) ms = .ok (r.1, (r.2, l')) := by
  have H : Shows e (watch e).draw (watch e).getColor Prod.fst := ⟨fun _ _ => rfl, fun _ _ _ _ _ => rfl⟩
  have k := strokes_see H fuel ms b (s, l)
  have e1 : e.on (watch e).draw (watch e).getColor = watch e := rfl
  rw [e1, h] at k
  cases hr : strokes (watch e) fuel b (s, l) ms with
  | error f => rw [hr] at k; cases k
  | ok q =>
    rw [hr] at k
    have := Except.ok.inj k
    refine ⟨q.2.2, ?_⟩
    rw [this]

end

/-! ### A session that meets the hypotheses, and one in which the limit is not kept -/

/-- A half transparent red canvas. -/
def limitEnv : Env ℚ Nat (List (Dab.Args ℚ)) := { redEnv with pow := fun a b => if b = 0 then 1 else a }

def demoLimit (v : ℚ) : Brush ℚ Nat := Demo.set (Demo.set demoSmudge sSmudgeTransparency v) sSmudgeLengthLog 0

def demoLine : List (Motion ℚ) :=
  [Demo.motion 0 0 (1 / 2) (1 / 10), Demo.motion 1 0 (1 / 2) (1 / 10), Demo.motion 4 0 (1 / 2) (1 / 10)]

/-- What was asked for: the alpha of the samples, and nothing for a dab. -/
def alphas (l : List (Act ℚ)) : List (Option ℚ) := l.map fun
  | .sample c => some c.a
  | .dab _ => none

example : AlwaysSamples (demoLimit (1 / 3)).settings ∧ SmudgeSettings (demoLimit (1 / 3)).settings ∧
    Memory (demoLimit (1 / 3)) ∧ Underway (demoLimit (1 / 3)) ∧
    (∀ i, (1 / 3 : ℚ) ≤ calculate ((demoLimit (1 / 3)).settings sSmudgeTransparency) i) ∧
    (∀ a : ℚ, 0 < a → limitEnv.pow a 0 = 1) ∧
    (∀ a b : ℚ, 0 ≤ a → a ≤ 1 → 0 ≤ b → 0 ≤ limitEnv.pow a b ∧ limitEnv.pow a b ≤ 1) := by
  have c : ∀ id v i, (demoLimit (1 / 3)).settings id = Demo.constant v → calculate ((demoLimit (1 / 3)).settings id) i = v :=
    fun id v i h => by rw [h]; exact demo_constant _ i
  refine ⟨⟨fun i => ?_, fun i => ?_, fun i => ?_⟩, ⟨fun h => absurd ?_ h, fun i => ?_⟩, ⟨?_, (by intro x hx; cases hx), fun _ => rfl⟩,
    ⟨⟨le_refl _, zero_lt_one⟩, le_refl _⟩, fun i => ?_, fun a _ => ?_, fun a b h0 h1 _ => ?_⟩
  · rw [c sSmudgeLength (1 / 2) i rfl]; norm_num
  · rw [c sSmudge (1 / 2) i rfl]; norm_num
  · rw [c sSmudgeLengthLog 0 i rfl]
  · exact ⟨le_refl _, by rfl⟩
  · rw [c sEraser 0 i rfl]; norm_num
  · have z : (0 : ℚ) ≤ 0 ∧ (0 : ℚ) ≤ 1 := ⟨le_refl _, zero_le_one⟩
    exact ⟨z, z, z, z, z, z, z, z, z, fun _ => ⟨le_refl _, le_refl _, le_refl _⟩⟩
  · rw [c sSmudgeTransparency (1 / 3) i rfl]
  · show (if (0 : ℚ) = 0 then (1 : ℚ) else a) = 1
    exact if_pos rfl
  · show 0 ≤ (if b = 0 then 1 else a) ∧ (if b = 0 then 1 else a) ≤ 1
    split_ifs
    · norm_num
    · exact ⟨h0, h1⟩

/-- Above the limit it draws, below it does not, and in reverse for a negative limit. -/
example : (([1 / 3, 2 / 3, -1 / 3, -2 / 3] : List ℚ).map fun v =>
      Demo.look (fun r => alphas r.2.2) (strokes (watch limitEnv) 100 (demoLimit v) ([], []) demoLine)) =
    [some [some (1 / 2), none, some (1 / 2), none], some [some (1 / 2), some (1 / 2)],
      some [some (1 / 2), some (1 / 2)], some [some (1 / 2), none, some (1 / 2), none]] := by
  decide +kernel

/-- **C75 fails** for a brush that does not sample for every dab: after a sample that is too transparent the next dab is
drawn all the same, because the brush takes it for a recent sample. -/
theorem limit_lost_between_samples :
    Demo.look (fun r => alphas r.2.2)
      (strokes (watch redEnv) 100 (Demo.set (demoLimit (2 / 3)) sSmudgeLengthLog 1) ([], []) demoLine) =
    some [some (1 / 2), none] := by
  decide +kernel

end Verif.Engine
