import Verif.Lemmas.Engine
import Verif.Spec.Quiet
import Mathlib.Tactic.Linarith

/-!
# Two brushes that differ only in what does not matter

`Twin q b b'`: the brushes have the same settings and states. With `q = false` they may differ only in the static buffer of
`mix_colors`. With `q = true` they may also differ in the random generator, the values of the settings from the last step,
the clocks and the place where events were skipped; then the settings must be `Quiet`.
-/

namespace Verif.Engine
open Verif.Mask Verif.Color Verif.Spectral Verif.Map

section
variable {K R σ : Type} [Field K] [LinearOrder K] [IsStrictOrderedRing K] [FloorRing K]

/-- What may differ. -/
structure Hide (K R : Type) where
  total : K
  idle : K
  random : K
  skip : K
  skipX : K
  skipY : K
  skippedTime : K
  rng : R
  mix : Rgba K
  gx : K
  gy : K

def Hide.at (h : Hide K R) (st : State K) : Hide K R := { h with gx := st.gridmapX, gy := st.gridmapY }

def veil (h : Hide K R) (b : Brush K R) : Brush K R :=
  { total := h.total, idle := h.idle, st := { b.st with gridmapX := h.gx, gridmapY := h.gy }, buckets := b.buckets
    random := h.random, skip := h.skip, skipX := h.skipX, skipY := h.skipY, skippedTime := h.skippedTime, rng := h.rng
    settings := b.settings, vals := b.vals, resetRequested := b.resetRequested, mix := h.mix }

/-- Nothing is hidden but the buffer. -/
structure Agree (h : Hide K R) (b : Brush K R) : Prop where
  total : h.total = b.total
  idle : h.idle = b.idle
  random : h.random = b.random
  skip : h.skip = b.skip
  skipX : h.skipX = b.skipX
  skipY : h.skipY = b.skipY
  skippedTime : h.skippedTime = b.skippedTime
  rng : h.rng = b.rng
  gx : h.gx = b.st.gridmapX
  gy : h.gy = b.st.gridmapY

/-- With `q = false` everything agrees, with `q = true` the settings are quiet and no events are being skipped. -/
def Calm (q : Bool) (h : Hide K R) (b : Brush K R) : Prop :=
  (q = false ∧ Agree h b) ∨ (q = true ∧ Quiet b.settings ∧ b.skip ≤ 1 / 1000 ∧ h.skip ≤ 1 / 1000)

/-- Between steps. -/
def Twin (q : Bool) (b b' : Brush K R) : Prop :=
  PaintOk b.settings ∧ ∃ h v, b' = { veil h b with vals := v } ∧ Calm q h b ∧ (q = false → v = b.vals)

/-- After a step the values are those of the settings, and the same. -/
def Close (q : Bool) (b b' : Brush K R) : Prop :=
  PaintOk b.settings ∧ (∃ i, b.vals = fun id => calculate (b.settings id) i) ∧ ∃ h, b' = veil h b ∧ Calm q h b

omit [IsStrictOrderedRing K] [FloorRing K] in
theorem Close.twin {q : Bool} {b b' : Brush K R} (h : Close q b b') : Twin q b b' := by
  obtain ⟨p, -, h, rfl, c⟩ := h
  exact ⟨p, h, b.vals, rfl, c, fun _ => rfl⟩

/-! ### Outcomes -/

/-- The same fault, or results that are related. -/
inductive Alike {α : Type} (P : α → α → Prop) : Except Fault α → Except Fault α → Prop
  | error (f : Fault) : Alike P (.error f) (.error f)
  | ok {a a' : α} (h : P a a') : Alike P (.ok a) (.ok a')

theorem Alike.bind {α β : Type} {P : α → α → Prop} {Q : β → β → Prop} {x x' : Except Fault α} {f f' : α → Except Fault β}
    (hx : Alike P x x') (hf : ∀ a a', P a a' → Alike Q (f a) (f' a')) : Alike Q (x >>= f) (x' >>= f') := by
  cases hx with
  | error g => exact .error g
  | ok h => exact hf _ _ h

theorem Alike.same {α : Type} {P : α → α → Prop} (x : Except Fault α) (h : ∀ a, x = .ok a → P a a) : Alike P x x := by
  cases x with
  | error f => exact .error f
  | ok a => exact .ok (h a rfl)

/-! ### One step -/

omit [IsStrictOrderedRing K] in
theorem update_twin {e : Env K R σ} {q : Bool} {b b' : Brush K R} (h : Twin q b b') (s : Step K) :
    Alike (Close q) (update e b s) (update e b' s) := by
  obtain ⟨p, h, v, rfl, c, hv⟩ := h
  have key : settingValues b.settings (inputsOf e { veil h b with vals := v } (moveStates e { veil h b with vals := v } s)) =
      settingValues b.settings (inputsOf e b (moveStates e b s)) := by
    rcases c with ⟨hq, a⟩ | ⟨hq, qu, -⟩
    · have := hv hq
      subst this
      have e1 : ({ veil h b with vals := b.vals } : Brush K R) = { b with mix := h.mix } := by
        unfold veil
        rw [a.total, a.idle, a.random, a.skip, a.skipX, a.skipY, a.skippedTime, a.rng, a.gx, a.gy]
      rw [e1]
      rfl
    · funext id
      refine qu.inputs id _ _ (fun k k1 k2 k3 => ?_)
      unfold Inputs.get
      simp only [k1, k2, k3, if_false]
      rfl
  unfold update
  dsimp only
  by_cases hz : s.viewzoom ≤ 0 ∧ usesInput b.settings iViewzoom = true
  · rw [if_pos hz, if_pos (show s.viewzoom ≤ 0 ∧ usesInput (veil h b).settings iViewzoom = true from hz)]
    exact .error _
  · rw [if_neg hz, if_neg (show ¬ (s.viewzoom ≤ 0 ∧ usesInput (veil h b).settings iViewzoom = true) from hz)]
    refine .ok ⟨p, ⟨_, rfl⟩, h.at (moveStates e { veil h b with vals := v } s), ?_, ?_⟩
    · have e2 : (veil h b).settings = b.settings := rfl
      dsimp only [e2]
      rw [show settingValues (veil h b).settings (inputsOf e { veil h b with vals := v }
        (moveStates e { veil h b with vals := v } s)) = _ from key]
      rfl
    · rcases c with ⟨hq, a⟩ | ⟨hq, qu, c1, c2⟩
      · have := hv hq
        subst this
        have e1 : ({ veil h b with vals := b.vals } : Brush K R) = { b with mix := h.mix } := by
          unfold veil
          rw [a.total, a.idle, a.random, a.skip, a.skipX, a.skipY, a.skippedTime, a.rng, a.gx, a.gy]
        refine .inl ⟨hq, ⟨a.total, a.idle, a.random, a.skip, a.skipX, a.skipY, a.skippedTime, a.rng, ?_, ?_⟩⟩
        · dsimp only
          rw [e1]
          rfl
        · dsimp only
          rw [e1]
          rfl
      · exact .inr ⟨hq, qu, c1, c2⟩

/-! ### One dab -/

omit [IsStrictOrderedRing K] in
theorem dabPosition_twin {e : Env K R σ} {q : Bool} {b b' : Brush K R} (h : Close q b b') :
    Alike (fun r r' => r'.1 = r.1 ∧ r'.2.1 = r.2.1 ∧ Close q r.2.2 r'.2.2) (dabPosition e b) (dabPosition e b') := by
  obtain ⟨p, ⟨i, hi⟩, h, rfl, c⟩ := h
  unfold dabPosition
  dsimp only
  by_cases hz : b.vals sOffsetBySpeed ≠ 0 ∧ b.st.viewzoom = 0
  · rw [if_pos hz, if_pos (show (veil h b).vals sOffsetBySpeed ≠ 0 ∧ (veil h b).st.viewzoom = 0 from hz)]
    exact .error _
  · rw [if_neg hz, if_neg (show ¬ ((veil h b).vals sOffsetBySpeed ≠ 0 ∧ (veil h b).st.viewzoom = 0) from hz)]
    by_cases hr : b.vals sOffsetByRandom ≠ 0
    · rw [if_pos hr, if_pos (show (veil h b).vals sOffsetByRandom ≠ 0 from hr)]
      rcases c with ⟨hq, a⟩ | ⟨hq, qu, -⟩
      · have e1 : (veil h b).rng = b.rng := a.rng
        rw [e1]
        refine .ok ⟨rfl, rfl, p, ⟨i, hi⟩, { h with rng := (e.gauss (e.gauss b.rng).2).2 }, rfl, .inl ⟨hq, ?_⟩⟩
        exact ⟨a.total, a.idle, a.random, a.skip, a.skipX, a.skipY, a.skippedTime, rfl, a.gx, a.gy⟩
      · exact absurd (by rw [hi]; exact qu.offset i) hr
    · rw [if_neg hr, if_neg (show ¬ (veil h b).vals sOffsetByRandom ≠ 0 from hr)]
      exact .ok ⟨rfl, rfl, p, ⟨i, hi⟩, h, rfl, c⟩

omit [IsStrictOrderedRing K] [FloorRing K] in
theorem dabRadius_twin {e : Env K R σ} {q : Bool} {b b' : Brush K R} (h : Close q b b') (o : K) :
    (dabRadius e b' o).1 = (dabRadius e b o).1 ∧ (dabRadius e b' o).2.1 = (dabRadius e b o).2.1 ∧
      Close q (dabRadius e b o).2.2 (dabRadius e b' o).2.2 := by
  obtain ⟨p, ⟨i, hi⟩, h, rfl, c⟩ := h
  unfold dabRadius
  dsimp only
  by_cases hr : b.vals sRadiusByRandom ≠ 0
  · rw [if_pos hr, if_pos (show (veil h b).vals sRadiusByRandom ≠ 0 from hr)]
    rcases c with ⟨hq, a⟩ | ⟨hq, qu, -⟩
    · have e1 : (veil h b).rng = b.rng := a.rng
      rw [e1]
      refine ⟨rfl, rfl, p, ⟨i, hi⟩, { h with rng := (e.gauss b.rng).2 }, rfl, .inl ⟨hq, ?_⟩⟩
      exact ⟨a.total, a.idle, a.random, a.skip, a.skipX, a.skipY, a.skippedTime, rfl, a.gx, a.gy⟩
    · exact absurd (by rw [hi]; exact qu.radius i) hr
  · rw [if_neg hr, if_neg (show ¬ (veil h b).vals sRadiusByRandom ≠ 0 from hr)]
    exact ⟨rfl, rfl, p, ⟨i, hi⟩, h, rfl, c⟩

omit [FloorRing K] in
/-- The buffer does not matter unless the pigment mixing is negative. -/
theorem mixColors_buffer (pow : K → K → K) (old old' a b : Rgba K) (f : K) {paint : K} (h : 0 ≤ paint) :
    mixColors pow old a b f paint = mixColors pow old' a b f paint := by
  unfold mixColors
  rcases lt_or_eq_of_le h with h | h
  · simp only [gt_iff_lt, if_pos h]
  · subst h
    simp only [gt_iff_lt, lt_irrefl, if_false, mul_zero, zero_add, zero_lt_one, if_true]

omit [IsStrictOrderedRing K] [FloorRing K] in
theorem paint_nonneg {b : Brush K R} (p : PaintOk b.settings) {i : Nat → K}
    (hi : b.vals = fun id => calculate (b.settings id) i) (hl : legacySmudge b = false) : 0 ≤ b.vals sPaintMode := by
  rcases p with p | p
  · unfold legacySmudge at hl
    by_contra hn
    simp [p, le_of_lt (not_le.mp hn)] at hl
  · rw [hi]; exact p i

omit [FloorRing K] in
theorem updateSmudge_twin {e : Env K R σ} {b b' : Brush K R} (surf : σ) (v : Bucket K) (px py : Int) (radius : K)
    (p : PaintOk b.settings) {i : Nat → K} (hi : b.vals = fun id => calculate (b.settings id) i)
    (hs : b'.settings = b.settings) (hv : b'.vals = b.vals) :
    ∃ m, updateSmudge e b' surf v px py radius =
      ((updateSmudge e b surf v px py radius).1, (updateSmudge e b surf v px py radius).2.1,
        (updateSmudge e b surf v px py radius).2.2.1, m) := by
  have hl : legacySmudge b' = legacySmudge b := by unfold legacySmudge; rw [hs, hv]
  unfold updateSmudge
  dsimp only
  rw [hv, hl]
  have hp : legacySmudge b = false → 0 ≤ b.vals sPaintMode := paint_nonneg p hi
  generalize legacySmudge b = leg at hp ⊢
  generalize e.getColor surf px py _ _ = got
  have hm : leg = false → ∀ x y f, mixColors e.pow b'.mix x y f (b.vals sPaintMode) =
      mixColors e.pow b.mix x y f (b.vals sPaintMode) := fun q x y f => mixColors_buffer e.pow _ _ x y f (hp q)
  by_cases hr : v.recentness * maxC (1 / 100) (b.vals sSmudgeLength) <
      minC 1 (e.pow (1 / 2 * maxC (1 / 100) (b.vals sSmudgeLength)) (b.vals sSmudgeLengthLog) + 1 / 10 ^ 16)
  · simp only [hr, if_true, true_and]
    by_cases h1 : b.vals sSmudgeTransparency > 0 ∧ got.1.a < b.vals sSmudgeTransparency ∨
      b.vals sSmudgeTransparency < 0 ∧ got.1.a > -b.vals sSmudgeTransparency
    · simp only [h1, if_true]
      exact ⟨_, rfl⟩
    · simp only [h1, if_false]
      cases leg with
      | true => simp only [if_true]; exact ⟨_, rfl⟩
      | false =>
        simp only [Bool.false_eq_true, if_false, hm rfl]
        by_cases h2 : got.1.a > 1 / 1000 * 10
        · simp only [h2, if_true]; exact ⟨_, rfl⟩
        · simp only [h2, if_false]; exact ⟨_, rfl⟩
  · simp only [hr, if_false, false_and]
    cases leg with
    | true => simp only [if_true]; exact ⟨_, rfl⟩
    | false =>
      simp only [Bool.false_eq_true, if_false, hm rfl]
      by_cases h2 : v.prevA > 1 / 1000 * 10
      · simp only [h2, if_true]; exact ⟨_, rfl⟩
      · simp only [h2, if_false]; exact ⟨_, rfl⟩

omit [FloorRing K] in
theorem applySmudge_twin {e : Env K R σ} {b b' : Brush K R} (v : Bucket K) (c : Rgb K)
    (p : PaintOk b.settings) {i : Nat → K} (hi : b.vals = fun id => calculate (b.settings id) i)
    (hs : b'.settings = b.settings) (hv : b'.vals = b.vals) :
    ∃ m, applySmudge e b' v c = ((applySmudge e b v c).1, (applySmudge e b v c).2.1, m) := by
  have hl : legacySmudge b' = legacySmudge b := by unfold legacySmudge; rw [hs, hv]
  unfold applySmudge
  dsimp only
  rw [hv, hl]
  have hp : legacySmudge b = false → 0 ≤ b.vals sPaintMode := paint_nonneg p hi
  generalize legacySmudge b = leg at hp ⊢
  by_cases ht : clampK ((1 - minC 1 (b.vals sSmudge)) + minC 1 (b.vals sSmudge) * v.a) 0 1 > 0
  · rw [if_pos ht, if_pos ht]
    cases leg with
    | true => simp only [if_true]; exact ⟨_, rfl⟩
    | false =>
      simp only [Bool.false_eq_true, if_false]
      rw [mixColors_buffer e.pow b'.mix b.mix _ _ _ (hp rfl)]
      exact ⟨_, rfl⟩
  · rw [if_neg ht, if_neg ht]
    exact ⟨_, rfl⟩

/-- The bucket is found at the same place. -/
theorem fetchSmudge_veil (h : Hide K R) (b : Brush K R) :
    fetchSmudge (veil h b) = ((fetchSmudge b).1, veil h (fetchSmudge b).2) := by
  unfold fetchSmudge
  by_cases q : b.buckets.mem.isEmpty ∨ b.buckets.num = 0
  · rw [if_pos q, if_pos (show (veil h b).buckets.mem.isEmpty ∨ (veil h b).buckets.num = 0 from q)]
  · rw [if_neg q, if_neg (show ¬ ((veil h b).buckets.mem.isEmpty ∨ (veil h b).buckets.num = 0) from q)]
    rfl

theorem fetchSmudge_same (b : Brush K R) : (fetchSmudge b).2 = { b with buckets := (fetchSmudge b).2.buckets } := by
  unfold fetchSmudge
  split_ifs <;> rfl

theorem loadSmudge_veil (h : Hide K R) (b : Brush K R) (o : Option Int) : loadSmudge (veil h b) o = loadSmudge b o := by
  cases o <;> rfl

theorem smudgeStage_twin {e : Env K R σ} {q : Bool} {b b' : Brush K R} (h : Close q b b') (surf : σ) (x y radius : K) :
    Alike (fun r r' => r'.1 = r.1 ∧ r'.2.2 = r.2.2 ∧ Close q r.2.1 r'.2.1) (smudgeStage e b surf x y radius)
      (smudgeStage e b' surf x y radius) := by
  obtain ⟨p, ⟨i, hi⟩, h, rfl, c⟩ := h
  unfold smudgeStage
  by_cases hc : b.vals sSmudgeLength < 1 ∧ (b.vals sSmudge ≠ 0 ∨ isConstant (b.settings sSmudge) = false)
  · rw [if_pos hc, if_pos (show (veil h b).vals sSmudgeLength < 1 ∧
      ((veil h b).vals sSmudge ≠ 0 ∨ isConstant ((veil h b).settings sSmudge) = false) from hc)]
    dsimp only
    rw [fetchSmudge_veil]
    dsimp only
    rw [loadSmudge_veil]
    have hf := fetchSmudge_same b
    generalize fetchSmudge b = f at hf ⊢
    obtain ⟨o, fb⟩ := f
    dsimp only at hf ⊢
    have p' : PaintOk fb.settings := by rw [hf]; exact p
    have hi' : fb.vals = fun id => calculate (fb.settings id) i := by rw [hf]; exact hi
    have c' : Calm q h fb := by
      rw [hf]
      rcases c with ⟨hq, a⟩ | ⟨hq, c⟩
      · exact .inl ⟨hq, a.total, a.idle, a.random, a.skip, a.skipX, a.skipY, a.skippedTime, a.rng, a.gx, a.gy⟩
      · exact .inr ⟨hq, c⟩
    refine Alike.bind (Alike.same (P := Eq) _ fun _ _ => rfl) ?_
    rintro v _ rfl
    refine Alike.bind (Alike.same (P := Eq) _ fun _ _ => rfl) ?_
    rintro px _ rfl
    refine Alike.bind (Alike.same (P := Eq) _ fun _ _ => rfl) ?_
    rintro py _ rfl
    obtain ⟨m, hm⟩ := updateSmudge_twin (e := e) (b := fb) (b' := veil h fb) surf v px py radius p' hi' rfl rfl
    rw [hm]
    dsimp only
    generalize updateSmudge e fb surf v px py radius = u
    refine Alike.bind (P := fun r r' => r' = veil h r ∧ r.settings = fb.settings ∧ r.vals = fb.vals ∧ Calm q h r) ?_ ?_
    · cases o with
      | none =>
        refine .ok ⟨rfl, rfl, rfl, ?_⟩
        rcases c' with ⟨hq, a⟩ | ⟨hq, c⟩
        · exact .inl ⟨hq, a.total, a.idle, a.random, a.skip, a.skipX, a.skipY, a.skippedTime, a.rng, a.gx, a.gy⟩
        · exact .inr ⟨hq, c⟩
      | some o =>
        refine Alike.bind (Alike.same (P := Eq) _ fun _ _ => rfl) ?_
        rintro mem _ rfl
        refine .ok ⟨rfl, rfl, rfl, ?_⟩
        rcases c' with ⟨hq, a⟩ | ⟨hq, c⟩
        · exact .inl ⟨hq, a.total, a.idle, a.random, a.skip, a.skipX, a.skipY, a.skippedTime, a.rng, a.gx, a.gy⟩
        · exact .inr ⟨hq, c⟩
    · rintro r _ ⟨rfl, r1, r2, r3⟩
      refine .ok ⟨rfl, rfl, ?_, ⟨i, ?_⟩, { h with mix := m }, rfl, ?_⟩
      · exact r1 ▸ p'
      · show r.vals = fun id => calculate (r.settings id) i
        rw [r1, r2]; exact hi'
      · rcases r3 with ⟨hq, a⟩ | ⟨hq, c⟩
        · exact .inl ⟨hq, a.total, a.idle, a.random, a.skip, a.skipX, a.skipY, a.skippedTime, a.rng, a.gx, a.gy⟩
        · exact .inr ⟨hq, c⟩
  · rw [if_neg hc, if_neg (show ¬ ((veil h b).vals sSmudgeLength < 1 ∧
      ((veil h b).vals sSmudge ≠ 0 ∨ isConstant ((veil h b).settings sSmudge) = false)) from hc)]
    exact .ok ⟨rfl, rfl, p, ⟨i, hi⟩, h, rfl, c⟩

theorem smudgeColor_twin {e : Env K R σ} {q : Bool} {b b' : Brush K R} (h : Close q b b') (c : Rgb K) :
    Alike (fun r r' => r'.1 = r.1 ∧ r'.2.1 = r.2.1 ∧ Close q r.2.2 r'.2.2) (smudgeColor e b c) (smudgeColor e b' c) := by
  obtain ⟨p, ⟨i, hi⟩, h, rfl, ca⟩ := h
  unfold smudgeColor
  by_cases hc : b.vals sSmudge > 0
  · rw [if_pos hc, if_pos (show (veil h b).vals sSmudge > 0 from hc)]
    dsimp only
    rw [fetchSmudge_veil]
    dsimp only
    rw [loadSmudge_veil]
    have hf := fetchSmudge_same b
    generalize fetchSmudge b = f at hf ⊢
    obtain ⟨o, fb⟩ := f
    dsimp only at hf ⊢
    have p' : PaintOk fb.settings := by rw [hf]; exact p
    have hi' : fb.vals = fun id => calculate (fb.settings id) i := by rw [hf]; exact hi
    have c' : Calm q h fb := by
      rw [hf]
      rcases ca with ⟨hq, a⟩ | ⟨hq, c⟩
      · exact .inl ⟨hq, a.total, a.idle, a.random, a.skip, a.skipX, a.skipY, a.skippedTime, a.rng, a.gx, a.gy⟩
      · exact .inr ⟨hq, c⟩
    refine Alike.bind (Alike.same (P := Eq) _ fun _ _ => rfl) ?_
    rintro v _ rfl
    obtain ⟨m, hm⟩ := applySmudge_twin (e := e) (b := fb) (b' := veil h fb) v c p' hi' rfl rfl
    rw [hm]
    refine .ok ⟨rfl, rfl, p', ⟨i, hi'⟩, { h with mix := m }, rfl, ?_⟩
    rcases c' with ⟨hq, a⟩ | ⟨hq, c⟩
    · exact .inl ⟨hq, a.total, a.idle, a.random, a.skip, a.skipX, a.skipY, a.skippedTime, a.rng, a.gx, a.gy⟩
    · exact .inr ⟨hq, c⟩
  · rw [if_neg hc, if_neg (show ¬ (veil h b).vals sSmudge > 0 from hc)]
    exact .ok ⟨rfl, rfl, p, ⟨i, hi⟩, h, rfl, ca⟩

theorem drawDab_twin {e : Env K R σ} {q : Bool} {b b' : Brush K R} (h : Close q b b') (surf : σ) (lin : Bool) :
    Alike (fun r r' => r'.1 = r.1 ∧ r'.2.2 = r.2.2 ∧ Close q r.2.1 r'.2.1) (drawDab e b surf lin)
      (drawDab e b' surf lin) := by
  have ho : dabOpacity e b' = dabOpacity e b := by
    obtain ⟨-, -, h, rfl, -⟩ := h
    rfl
  have hb : b'.settings = b.settings := by
    obtain ⟨-, -, h, rfl, -⟩ := h
    rfl
  unfold drawDab
  rw [ho]
  refine Alike.bind (Alike.same (P := Eq) _ fun _ _ => rfl) ?_
  rintro o _ rfl
  refine Alike.bind (dabPosition_twin h) ?_
  rintro ⟨x, y, b1⟩ ⟨x', y', b1'⟩ ⟨h1, h2, h3⟩
  dsimp only at h1 h2 h3 ⊢
  subst h1 h2
  obtain ⟨r1, r2, r3⟩ := dabRadius_twin (e := e) h3 o
  rw [r1, r2]
  refine Alike.bind (smudgeStage_twin r3 surf _ _ _) ?_
  rintro ⟨stop, b2, s2⟩ ⟨stop', b2', s2'⟩ ⟨h4, h5, h6⟩
  dsimp only at h4 h5 h6 ⊢
  subst h4 h5
  cases stop' with
  | true => exact .ok ⟨rfl, rfl, h6⟩
  | false =>
    rw [if_neg (by simp), if_neg (by simp)]
    have hcol : (⟨b'.baseval sColorH, b'.baseval sColorS, b'.baseval sColorV⟩ : Hue K) =
        ⟨b.baseval sColorH, b.baseval sColorS, b.baseval sColorV⟩ := by
      unfold Brush.baseval; rw [hb]
    rw [hcol]
    refine Alike.bind (smudgeColor_twin h6 _) ?_
    rintro ⟨t, c, b3⟩ ⟨t', c', b3'⟩ ⟨h7, h8, h9⟩
    dsimp only at h7 h8 h9 ⊢
    subst h7 h8
    have ha : dabArgs e b3' lin x' y' (dabRadius e b1 o).1 (dabRadius e b1 o).2.1 t' c' =
        dabArgs e b3 lin x' y' (dabRadius e b1 o).1 (dabRadius e b1 o).2.1 t' c' := by
      obtain ⟨-, -, h, rfl, -⟩ := h9
      rfl
    rw [ha]
    exact .ok ⟨rfl, rfl, h9⟩

/-! ### Sessions -/

omit [FloorRing K] in
theorem countDabs_veil (e : Env K R σ) (h : Hide K R) (v : Nat → K) (b : Brush K R) (x y dt : K) :
    countDabs e { veil h b with vals := v } x y dt =
      ((countDabs e b x y dt).1, { veil h (countDabs e b x y dt).2 with vals := v }) := by
  unfold countDabs
  dsimp only
  by_cases q : b.st.actualRadius = 0
  · rw [if_pos q, if_pos (show (veil h b).st.actualRadius = 0 from q)]
    rfl
  · rw [if_neg q, if_neg (show ¬ (veil h b).st.actualRadius = 0 from q)]
    rfl

omit [FloorRing K] in
theorem countDabs_same (e : Env K R σ) (b : Brush K R) (x y dt : K) :
    ∃ r, (countDabs e b x y dt).2 = { b with st := { b.st with actualRadius := r } } := by
  unfold countDabs
  dsimp only
  by_cases q : b.st.actualRadius = 0
  · rw [if_pos q]; exact ⟨_, rfl⟩
  · rw [if_neg q]; exact ⟨b.st.actualRadius, rfl⟩

omit [FloorRing K] in
theorem countDabs_twin {e : Env K R σ} {q : Bool} {b b' : Brush K R} (h : Twin q b b') (x y dt : K) :
    (countDabs e b' x y dt).1 = (countDabs e b x y dt).1 ∧ Twin q (countDabs e b x y dt).2 (countDabs e b' x y dt).2 := by
  obtain ⟨p, h, v, rfl, c, hv⟩ := h
  rw [countDabs_veil]
  refine ⟨rfl, ?_⟩
  obtain ⟨r, hr⟩ := countDabs_same e b x y dt
  rw [hr]
  refine ⟨p, h, v, rfl, ?_, hv⟩
  rcases c with ⟨hq, a⟩ | ⟨hq, c⟩
  · exact .inl ⟨hq, a.total, a.idle, a.random, a.skip, a.skipX, a.skipY, a.skippedTime, a.rng, a.gx, a.gy⟩
  · exact .inr ⟨hq, c⟩

/-- The same for the dab loop. -/
structure LoopTwin (q : Bool) (l l' : Loop K R σ) : Prop where
  b : Twin q l.b l'.b
  surf : l'.surf = l.surf
  moved : l'.moved = l.moved
  todo : l'.todo = l.todo
  left : l'.dtimeLeft = l.dtimeLeft
  painted : l'.painted = l.painted

omit [FloorRing K] in
theorem Close.flip {q : Bool} {b b' : Brush K R} (h : Close q b b') :
    Close q { b with st := { b.st with flip := b.st.flip * -1 } } { b' with st := { b'.st with flip := b'.st.flip * -1 } } := by
  obtain ⟨p, hi, h, rfl, c⟩ := h
  refine ⟨p, hi, h, rfl, ?_⟩
  rcases c with ⟨hq, a⟩ | ⟨hq, c⟩
  · exact .inl ⟨hq, a.total, a.idle, a.random, a.skip, a.skipX, a.skipY, a.skippedTime, a.rng, a.gx, a.gy⟩
  · exact .inr ⟨hq, c⟩

omit [FloorRing K] in
theorem Close.next {e : Env K R σ} {q : Bool} {b b' : Brush K R} (h : Close q b b') :
    Close q { b with random := (e.next b.rng).1, rng := (e.next b.rng).2 }
      { b' with random := (e.next b'.rng).1, rng := (e.next b'.rng).2 } := by
  obtain ⟨p, hi, h, rfl, c⟩ := h
  refine ⟨p, hi, { h with random := (e.next h.rng).1, rng := (e.next h.rng).2 }, rfl, ?_⟩
  rcases c with ⟨hq, a⟩ | ⟨hq, c⟩
  · refine .inl ⟨hq, a.total, a.idle, ?_, a.skip, a.skipX, a.skipY, a.skippedTime, ?_, a.gx, a.gy⟩
    · show (e.next h.rng).1 = (e.next b.rng).1
      rw [a.rng]
    · show (e.next h.rng).2 = (e.next b.rng).2
      rw [a.rng]
  · exact .inr ⟨hq, c⟩

theorem Twin.step {q : Bool} {b b' : Brush K R} (h : Twin q b b') (ev : Event K) (x y d f t : K) :
    stepTo b'.st ev x y d f t = stepTo b.st ev x y d f t := by
  obtain ⟨-, h, v, rfl, -⟩ := h
  rfl

theorem dabStep_twin {e : Env K R σ} {q : Bool} {l l' : Loop K R σ} (h : LoopTwin q l l') (ev : Event K) (x y : K) :
    Alike (LoopTwin q) (dabStep e ev x y l) (dabStep e ev x y l') := by
  obtain ⟨b, surf, moved, todo, left, painted⟩ := l
  obtain ⟨b', surf', moved', todo', left', painted'⟩ := l'
  obtain ⟨hb, h1, h2, h3, h4, h5⟩ := h
  dsimp only at hb h1 h2 h3 h4 h5
  subst h1 h2 h3 h4 h5
  unfold dabStep
  dsimp only
  by_cases hz : todo' = 0
  · rw [if_pos hz, if_pos hz]; exact .error _
  · rw [if_neg hz, if_neg hz, hb.step]
    refine Alike.bind (update_twin hb _) ?_
    intro b1 b1' hc
    refine Alike.bind (drawDab_twin hc.flip _ _) ?_
    rintro ⟨d, b2, s2⟩ ⟨d', b2', s2'⟩ ⟨g1, g2, g3⟩
    dsimp only at g1 g2 g3 ⊢
    subst g1 g2
    obtain ⟨k1, k2⟩ := countDabs_twin (e := e) (g3.next (e := e)).twin x y
      (left' - (stepTo b.st ev x y (if moved' > 0 then 1 - moved' else 1)
        ((if moved' > 0 then 1 - moved' else 1) / todo') left').dtime)
    exact .ok ⟨k2, rfl, rfl, k1, rfl, rfl⟩

theorem dabLoop_twin {e : Env K R σ} {q : Bool} (ev : Event K) (x y : K) (fuel : Nat) : ∀ {l l' : Loop K R σ},
    LoopTwin q l l' → Alike (LoopTwin q) (dabLoop e ev x y fuel l) (dabLoop e ev x y fuel l') := by
  induction fuel with
  | zero =>
    intro l l' h
    unfold dabLoop
    rw [h.moved, h.todo]
    by_cases hc : l.moved + l.todo ≥ 1
    · rw [if_pos hc, if_pos hc]; exact .error _
    · rw [if_neg hc, if_neg hc]; exact .ok h
  | succ fuel ih =>
    intro l l' h
    unfold dabLoop
    rw [h.moved, h.todo]
    by_cases hc : l.moved + l.todo ≥ 1
    · rw [if_pos hc, if_pos hc]
      exact Alike.bind (dabStep_twin h ev x y) fun a a' ha => ih ha
    · rw [if_neg hc, if_neg hc]; exact .ok h

/-- The results of an event. -/
def ResTwin (q : Bool) (r r' : Bool × Brush K R × σ) : Prop :=
  r'.2.2 = r.2.2 ∧ Twin q r.2.1 r'.2.1 ∧ (q = false → r'.1 = r.1)

omit [FloorRing K] in
theorem splitStroke_same (b : Brush K R) (p : Painted) (dt pr dp : K) :
    ∃ t i, (splitStroke b p dt pr dp).2 = { b with total := t, idle := i } := by
  unfold splitStroke
  dsimp only
  split_ifs <;> exact ⟨_, _, rfl⟩

omit [FloorRing K] in
theorem splitStroke_twin {q : Bool} {b b' : Brush K R} (h : Twin q b b') (p : Painted) (dt pr dp : K) :
    Twin q (splitStroke b p dt pr dp).2 (splitStroke b' p dt pr dp).2 ∧
      (q = false → (splitStroke b' p dt pr dp).1 = (splitStroke b p dt pr dp).1) := by
  obtain ⟨po, h, v, rfl, c, hv⟩ := h
  rcases c with ⟨hq, a⟩ | ⟨hq, c⟩
  · have := hv hq
    subst this
    have e1 : ({ veil h b with vals := b.vals } : Brush K R) = { b with mix := h.mix } := by
      unfold veil
      rw [a.total, a.idle, a.random, a.skip, a.skipX, a.skipY, a.skippedTime, a.rng, a.gx, a.gy]
    have e2 : splitStroke { b with mix := h.mix } p dt pr dp =
        ((splitStroke b p dt pr dp).1, { (splitStroke b p dt pr dp).2 with mix := h.mix }) := by
      unfold splitStroke
      dsimp only
      split_ifs <;> rfl
    rw [e1, e2]
    refine ⟨?_, fun _ => rfl⟩
    obtain ⟨t, i, ht⟩ := splitStroke_same b p dt pr dp
    rw [ht]
    exact ⟨po, ⟨t, i, b.random, b.skip, b.skipX, b.skipY, b.skippedTime, b.rng, h.mix, b.st.gridmapX, b.st.gridmapY⟩, b.vals,
      rfl, .inl ⟨hq, rfl, rfl, rfl, rfl, rfl, rfl, rfl, rfl, rfl, rfl⟩, fun _ => rfl⟩
  · obtain ⟨t, i, ht⟩ := splitStroke_same b p dt pr dp
    obtain ⟨t', i', ht'⟩ := splitStroke_same { veil h b with vals := v } p dt pr dp
    rw [ht, ht']
    exact ⟨⟨po, { h with total := t', idle := i' }, v, rfl, .inr ⟨hq, c⟩, by rw [hq]; intro x; cases x⟩,
      by rw [hq]; intro x; cases x⟩

theorem moveTo_twin {e : Env K R σ} {q : Bool} {b b' : Brush K R} (h : Twin q b b') (fuel : Nat) (surf : σ) (ev : Event K)
    (x y dt : K) : Alike (ResTwin q) (moveTo e fuel b surf ev x y dt) (moveTo e fuel b' surf ev x y dt) := by
  unfold moveTo
  dsimp only
  obtain ⟨k1, k2⟩ := countDabs_twin (e := e) h x y dt
  have k3 : b'.st.partialDabs = b.st.partialDabs := by
    obtain ⟨-, h, v, rfl, -⟩ := h
    rfl
  rw [k1, k3]
  refine Alike.bind (dabLoop_twin (e := e) ev x y fuel ⟨k2, rfl, rfl, rfl, rfl, rfl⟩) ?_
  rintro ⟨b, surf, moved, todo, left, painted⟩ ⟨b', surf', moved', todo', left', painted'⟩ ⟨hb, h1, h2, h3, h4, h5⟩
  dsimp only at hb h1 h2 h3 h4 h5 ⊢
  subst h1 h2 h3 h4 h5
  rw [hb.step]
  refine Alike.bind (update_twin hb _) ?_
  intro b1 b1' hc
  have hc' : Twin q { b1 with st := { b1.st with partialDabs := moved' + todo' } }
      { b1' with st := { b1'.st with partialDabs := moved' + todo' } } := by
    obtain ⟨p, hi, h, rfl, c⟩ := hc
    refine ⟨p, h, b1.vals, rfl, ?_, fun _ => rfl⟩
    rcases c with ⟨hq, a⟩ | ⟨hq, c⟩
    · exact .inl ⟨hq, a.total, a.idle, a.random, a.skip, a.skipX, a.skipY, a.skippedTime, a.rng, a.gx, a.gy⟩
    · exact .inr ⟨hq, c⟩
  obtain ⟨s1, s2⟩ := splitStroke_twin hc' painted' dt ev.pressure (stepTo b.st ev x y todo' 1 left').dpressure
  exact .ok ⟨rfl, s1, s2⟩

omit [FloorRing K] in
/-- With `q = false` only the buffer differs. -/
theorem Twin.of_false {b b' : Brush K R} : Twin false b b' ↔ PaintOk b.settings ∧ ∃ m, b' = { b with mix := m } := by
  constructor
  · rintro ⟨po, h, v, rfl, c, hv⟩
    rcases c with ⟨hq, a⟩ | ⟨hq, c⟩
    · have := hv rfl
      subst this
      refine ⟨po, h.mix, ?_⟩
      unfold veil
      rw [a.total, a.idle, a.random, a.skip, a.skipX, a.skipY, a.skippedTime, a.rng, a.gx, a.gy]
    · cases hq
  · rintro ⟨po, m, rfl⟩
    exact ⟨po, ⟨b.total, b.idle, b.random, b.skip, b.skipX, b.skipY, b.skippedTime, b.rng, m, b.st.gridmapX, b.st.gridmapY⟩,
      b.vals, rfl, .inl ⟨rfl, rfl, rfl, rfl, rfl, rfl, rfl, rfl, rfl, rfl, rfl⟩, fun _ => rfl⟩

omit [FloorRing K] in
theorem skipStage_twin {e : Env K R σ} {q : Bool} {b b' : Brush K R} (h : Twin q b b') (x y dt : K) :
    (skipStage e b' x y dt).2 = (skipStage e b x y dt).2 ∧ Twin q (skipStage e b x y dt).1 (skipStage e b' x y dt).1 := by
  cases q with
  | false =>
    obtain ⟨po, m, rfl⟩ := Twin.of_false.mp h
    have e1 : skipStage e { b with mix := m } x y dt =
        ({ (skipStage e b x y dt).1 with mix := m }, (skipStage e b x y dt).2) := by
      unfold skipStage
      dsimp only
      split_ifs <;> rfl
    have e2 : (skipStage e b x y dt).1.settings = b.settings := by
      unfold skipStage
      dsimp only
      split_ifs <;> rfl
    rw [e1]
    exact ⟨rfl, Twin.of_false.mpr ⟨e2 ▸ po, m, rfl⟩⟩
  | true =>
    have h' := h
    obtain ⟨po, h, v, rfl, c, hv⟩ := h
    rcases c with ⟨hq, -⟩ | ⟨-, qu, c1, c2⟩
    · cases hq
    · have e0 : skipStage e b x y dt = (b, dt, false) := if_neg (not_lt.mpr c1)
      have e1 : skipStage e { veil h b with vals := v } x y dt = ({ veil h b with vals := v }, dt, false) :=
        if_neg (show ¬ h.skip > 1 / 1000 from not_lt.mpr c2)
      rw [e0, e1]
      exact ⟨rfl, h'⟩

omit [FloorRing K] in
theorem cursor_twin {e : Env K R σ} {q : Bool} {b b' : Brush K R} (h : Twin q b b') (x y dt : K) :
    (cursor e b' x y dt).1 = (cursor e b x y dt).1 ∧ (cursor e b' x y dt).2.1 = (cursor e b x y dt).2.1 ∧
      Twin q (cursor e b x y dt).2.2 (cursor e b' x y dt).2.2 := by
  cases q with
  | false =>
    obtain ⟨po, m, rfl⟩ := Twin.of_false.mp h
    have e1 : cursor e { b with mix := m } x y dt =
        ((cursor e b x y dt).1, (cursor e b x y dt).2.1, { (cursor e b x y dt).2.2 with mix := m }) := by
      unfold cursor
      dsimp only
      by_cases w : b.baseval sTrackingNoise ≠ 0 ∧
          e.exp (b.baseval sRadiusLogarithmic) * b.baseval sTrackingNoise > 1 / 1000
      · rw [if_pos w, if_pos (show ({ b with mix := m } : Brush K R).baseval sTrackingNoise ≠ 0 ∧
          e.exp (({ b with mix := m } : Brush K R).baseval sRadiusLogarithmic) *
            ({ b with mix := m } : Brush K R).baseval sTrackingNoise > 1 / 1000 from w)]
        rfl
      · rw [if_neg w, if_neg (show ¬ (({ b with mix := m } : Brush K R).baseval sTrackingNoise ≠ 0 ∧
          e.exp (({ b with mix := m } : Brush K R).baseval sRadiusLogarithmic) *
            ({ b with mix := m } : Brush K R).baseval sTrackingNoise > 1 / 1000) from w)]
        rfl
    have e2 : (cursor e b x y dt).2.2.settings = b.settings := by
      unfold cursor
      dsimp only
      split_ifs <;> rfl
    rw [e1]
    exact ⟨rfl, rfl, Twin.of_false.mpr ⟨e2 ▸ po, m, rfl⟩⟩
  | true =>
    have h' := h
    obtain ⟨po, h, v, rfl, c, hv⟩ := h
    rcases c with ⟨hq, -⟩ | ⟨-, qu, -⟩
    · cases hq
    · have z : ¬ (b.baseval sTrackingNoise ≠ 0 ∧
          e.exp (b.baseval sRadiusLogarithmic) * b.baseval sTrackingNoise > 1 / 1000) := fun w => w.1 qu.noise
      unfold cursor
      dsimp only
      rw [if_neg z, if_neg (show ¬ (({ veil h b with vals := v } : Brush K R).baseval sTrackingNoise ≠ 0 ∧
          e.exp (({ veil h b with vals := v } : Brush K R).baseval sRadiusLogarithmic) *
            ({ veil h b with vals := v } : Brush K R).baseval sTrackingNoise > 1 / 1000) from z)]
      exact ⟨rfl, rfl, h'⟩

omit [FloorRing K] in
theorem startOver_twin {e : Env K R σ} {q : Bool} {b b' : Brush K R} (h : Twin q b b') (x y p : K) :
    Alike (Twin q) (startOver e b x y p) (startOver e b' x y p) := by
  obtain ⟨po, h, v, rfl, c, hv⟩ := h
  unfold startOver brushReset
  simp only [bind_assoc]
  refine Alike.bind (P := Eq) (Alike.same (P := Eq) (resetBuckets b.buckets) fun _ _ => rfl) ?_
  rintro bk _ rfl
  refine .ok ⟨po, ⟨h.total, h.idle, (e.next h.rng).1, 0, 0, 0, 0, (e.next h.rng).2, h.mix, 0, 0⟩, v, rfl, ?_, hv⟩
  rcases c with ⟨hq, a⟩ | ⟨hq, qu, -⟩
  · refine .inl ⟨hq, a.total, a.idle, ?_, rfl, rfl, rfl, rfl, ?_, rfl, rfl⟩
    · show (e.next h.rng).1 = (e.next b.rng).1
      rw [a.rng]
    · show (e.next h.rng).2 = (e.next b.rng).2
      rw [a.rng]
  · refine .inr ⟨hq, qu, ?_, ?_⟩
    · show (0 : K) ≤ 1 / 1000
      norm_num
    · show (0 : K) ≤ 1 / 1000
      norm_num

theorem strokeEvent_twin {e : Env K R σ} {q : Bool} {b b' : Brush K R} (h : Twin q b b') (fuel : Nat) (surf : σ)
    (ev : Event K) : Alike (ResTwin q) (strokeEvent e fuel b surf ev) (strokeEvent e fuel b' surf ev) := by
  unfold strokeEvent
  dsimp only
  obtain ⟨k1, k2⟩ := skipStage_twin (e := e) h ev.x ev.y ev.dtime
  have hr : b'.resetRequested = b.resetRequested := by
    obtain ⟨-, h, v, rfl, -⟩ := h
    rfl
  rw [k1, hr]
  generalize skipStage e b ev.x ev.y ev.dtime = sk at k2 ⊢
  generalize (skipStage e b' ev.x ev.y ev.dtime).1 = sb' at k2 ⊢
  by_cases hs : sk.2.2 = true
  · rw [if_pos hs, if_pos hs]
    exact .ok ⟨rfl, k2, fun _ => rfl⟩
  · rw [if_neg hs, if_neg hs]
    obtain ⟨c1, c2, c3⟩ := cursor_twin (e := e) k2 ev.x ev.y sk.2.1
    rw [c1, c2]
    by_cases hz : sk.2.1 > 5 ∨ b.resetRequested = true
    · rw [if_pos hz, if_pos hz]
      refine Alike.bind (startOver_twin c3 _ _ _) ?_
      intro b1 b1' h1
      exact .ok ⟨rfl, h1, fun _ => rfl⟩
    · rw [if_neg hz, if_neg hz]
      exact moveTo_twin c3 fuel surf ev _ _ _

theorem strokeTo_twin {e : Env K R σ} {q : Bool} {b b' : Brush K R} (h : Twin q b b') (fuel : Nat) (surf : σ)
    (m : Motion K) : Alike (ResTwin q) (strokeTo e fuel b surf m) (strokeTo e fuel b' surf m) := by
  unfold strokeTo
  have hp : b'.st.pressure = b.st.pressure := by
    obtain ⟨-, h, v, rfl, -⟩ := h
    rfl
  refine Alike.bind (Alike.same (P := Eq) _ fun _ _ => rfl) ?_
  rintro ev _ rfl
  rw [hp]
  by_cases hc : ev.dtime > 1 / 10 ∧ ev.pressure ≠ 0 ∧ b.st.pressure = 0
  · rw [if_pos hc, if_pos hc]
    refine Alike.bind (Alike.same (P := Eq) _ fun _ _ => rfl) ?_
    rintro i _ rfl
    refine Alike.bind (strokeEvent_twin h fuel surf i) ?_
    rintro r r' ⟨r1, r2, -⟩
    rw [r1]
    exact strokeEvent_twin r2 fuel _ _
  · rw [if_neg hc, if_neg hc]
    exact strokeEvent_twin h fuel surf ev

/-- Sessions of twins: the same surface. -/
theorem strokes_twin {e : Env K R σ} {q : Bool} (fuel : Nat) (ms : List (Motion K)) : ∀ {b b' : Brush K R} (surf : σ),
    Twin q b b' → Alike (fun r r' => r'.2 = r.2 ∧ Twin q r.1 r'.1) (strokes e fuel b surf ms) (strokes e fuel b' surf ms) := by
  induction ms with
  | nil => intro b b' surf h; exact .ok ⟨rfl, h⟩
  | cons m ms ih =>
    intro b b' surf h
    unfold strokes
    refine Alike.bind (strokeTo_twin h fuel surf m) ?_
    rintro r r' ⟨r1, r2, -⟩
    rw [r1]
    exact ih _ r2

end
end Verif.Engine
