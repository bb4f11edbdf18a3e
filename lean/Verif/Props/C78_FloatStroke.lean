import Mathlib.Data.Nat.Sqrt
import Verif.Lemmas.FloatLoop

/-!
# C78: motion events in single precision

With exact numbers every motion event ends (C43).  With `float` it ends if the brush does not come too
close to the precision of its coordinates, and hangs otherwise.
-/

namespace Verif.FloatStroke

open Float32 Spec.FloatStroke

/-- **C78 (partial).**  Let a brush ask for at most `A` dabs per pixel and `B` dabs per second at any
time, whatever its dynamics do, and let all coordinates be at most `M` pixels from the origin.  If
`A * M` is at most 2^19, the loop ends after at most three dabs for each dab that is ahead, and the brush
arrives where the event was, up to rounding.

Missing: larger coordinates, where the property fails (`far_event_hangs`). -/
theorem event_ends_partial (L : Libm) (hL : LibmOk L) (A B M : ℚ) (hM : 1 ≤ M) (hAM : A * M ≤ 2 ^ 19)
    (hB : B ≤ 2 ^ 40) (sp : Nat → Spacing) (hsp : ∀ i, Bounded A B (sp i)) (x y : ℚ) (hx : F32 x)
    (hy : F32 y) (hxM : |x| ≤ M) (hyM : |y| ≤ M) (p : Pen) (hpx : F32 p.x) (hpy : F32 p.y)
    (hpxM : |p.x| ≤ M) (hpyM : |p.y| ≤ M) (hm : F32 p.moved) (hm0 : 0 ≤ p.moved) (hm1 : p.moved < 1)
    (hT : ahead A B p x y ≤ 2 ^ 39) (fuel : Nat) (hfuel : 3 * ahead A B p x y + 4 ≤ fuel) :
    ∃ q n, loop L sp x y fuel 0 p = some (q, n) ∧ n ≤ fuel ∧
      |(arrive x y q).1 - x| ≤ M / 2 ^ 18 ∧ |(arrive x y q).2 - y| ≤ M / 2 ^ 18 := by
  have hA0 : 0 ≤ A := by
    have h := (hsp 0).perPixel
    have h1 := (hsp 0).radius
    have h2 := (hsp 0).base
    have hst : 0 ≤ stretch (sp 0).ratio := by unfold stretch; split_ifs <;> linarith
    have a1 : 0 ≤ (sp 0).perActual / (sp 0).radius := div_nonneg (hsp 0).actual (by linarith)
    have a2 : 0 ≤ (sp 0).perBasic / (sp 0).base := div_nonneg (hsp 0).basic (by linarith)
    exact le_trans (by positivity) h
  have hB0 : 0 ≤ B := le_trans (mul_nonneg (hsp 0).second (by norm_num)) (hsp 0).perTime
  have hT0 : 0 ≤ ahead A B p x y := by unfold ahead; positivity
  -- arriving
  have harr : ∀ z Z : ℚ, F32 z → F32 Z → |z| ≤ M → |z - Z| ≤ M * (21 / 10) →
      |rnd (Z + rnd (z - Z)) - z| ≤ M / 2 ^ 18 := by
    intro z Z hz hZ hzM hd
    have h := go_left hz hZ (by norm_num : (0 : ℚ) ≤ 1) le_rfl
    have e : go z Z 1 = rnd (Z + rnd (z - Z)) := by
      unfold go; rw [one_mul, rnd_of_float (rnd_float (z - Z))]
    rw [e, abs_sub_comm] at h
    linarith
  have fin : ∀ q, Near M x y q → |(arrive x y q).1 - x| ≤ M / 2 ^ 18 ∧ |(arrive x y q).2 - y| ≤ M / 2 ^ 18 :=
    fun q hq => ⟨harr x q.x hx hq.fx hxM hq.dx, harr y q.y hy hq.fy hyM hq.dy⟩
  by_cases hc : rnd (p.moved + countDabs L (sp 0) p x y) ≥ 1
  · obtain ⟨a, b, c⟩ := iter_first hA0 hB0 hM hAM hB hx hy hxM hyM hpx hpy hpxM hpyM hm hm0 hm1
      (countDabs_nonneg L (sp 0) p x y) hc
    cases fuel with
    | zero => norm_num at hfuel; linarith
    | succ fuel =>
      push_cast at hfuel
      obtain ⟨q, n, h1, h2, h3⟩ := loop_ends hL hM hAM hB hx hy hxM hyM hA0 hB0 hsp fuel 1 _ a b
        (by linarith) (by linarith)
      refine ⟨q, n, ?_, by omega, fin q h2⟩
      rw [loop]; rw [if_pos hc]; exact h1
  · refine ⟨p, 0, ?_, Nat.zero_le _, fin p ⟨hpx, hpy, ?_, ?_⟩⟩
    · cases fuel <;> rw [loop, if_neg hc]
    · exact le_trans (abs_sub _ _) (by linarith)
    · exact le_trans (abs_sub _ _) (by linarith)

/-- At the end of the loop less than one dab is pending. -/
theorem loop_exit {L : Libm} {sp : Nat → Spacing} {x y : ℚ} (fuel : Nat) : ∀ (i : Nat) (p q : Pen) (n : Nat),
    loop L sp x y fuel i p = some (q, n) →
    rnd (q.moved + countDabs L (sp n) q x y) < 1 ∧ (q.moved = 0 ∨ q.moved = p.moved) := by
  induction fuel with
  | zero =>
    intro i p q n h
    rw [loop] at h
    split_ifs at h with hc
    obtain ⟨rfl, rfl⟩ := Prod.mk.inj (Option.some.inj h)
    exact ⟨not_le.mp hc, .inr rfl⟩
  | succ fuel ih =>
    intro i p q n h
    rw [loop] at h
    split_ifs at h with hc
    · obtain ⟨a, b⟩ := ih _ _ _ _ h
      refine ⟨a, .inl ?_⟩
      rcases b with b | b
      · exact b
      · rw [b]; rfl
    · obtain ⟨rfl, rfl⟩ := Prod.mk.inj (Option.some.inj h)
      exact ⟨not_le.mp hc, .inr rfl⟩

/-- One event of a session. -/
theorem event_settles {L : Libm} (hL : LibmOk L) {A B M : ℚ} (hM : 1 ≤ M) (hAM : A * M ≤ 2 ^ 18)
    (hB : B ≤ 2 ^ 36) {fuel : Nat} (hfuel : 12 * (A * M * (1 + 1 / 2 ^ 17)) + 15 * B + 4 ≤ fuel) {b : Pen}
    (hb : Settled M b) {m : Motion} (hsp : ∀ i, Bounded A B (m.sp i)) (hx : F32 m.x) (hy : F32 m.y)
    (hxM : |m.x| ≤ M) (hyM : |m.y| ≤ M) (h0 : 0 ≤ m.dt) (h5 : m.dt ≤ 5) :
    ∃ b', event L fuel b m.sp m.x m.y m.dt = some b' ∧ Settled M b' ∧
      |b'.x - m.x| ≤ M / 2 ^ 17 ∧ |b'.y - m.y| ≤ M / 2 ^ 17 := by
  have hA0 : 0 ≤ A := by
    have h := (hsp 0).perPixel
    have h1 := (hsp 0).radius
    have h2 := (hsp 0).base
    have hst : 0 ≤ stretch (m.sp 0).ratio := by unfold stretch; split_ifs <;> linarith
    have a1 : 0 ≤ (m.sp 0).perActual / (m.sp 0).radius := div_nonneg (hsp 0).actual (by linarith)
    have a2 : 0 ≤ (m.sp 0).perBasic / (m.sp 0).base := div_nonneg (hsp 0).basic (by linarith)
    exact le_trans (by positivity) h
  have hB0 : 0 ≤ B := le_trans (mul_nonneg (hsp 0).second (by norm_num)) (hsp 0).perTime
  have hah : ahead A B { b with left := m.dt } m.x m.y ≤ 4 * (A * M * (1 + 1 / 2 ^ 17)) + 5 * B := by
    unfold ahead
    have d1 : |m.x - b.x| ≤ 2 * (M * (1 + 1 / 2 ^ 17)) := le_trans (abs_sub _ _) (by linarith [hb.x])
    have d2 : |m.y - b.y| ≤ 2 * (M * (1 + 1 / 2 ^ 17)) := le_trans (abs_sub _ _) (by linarith [hb.y])
    have d3 : A * (|m.x - b.x| + |m.y - b.y|) ≤ A * (4 * (M * (1 + 1 / 2 ^ 17))) :=
      mul_le_mul_of_nonneg_left (by linarith) hA0
    have d4 : B * |m.dt| ≤ B * 5 := mul_le_mul_of_nonneg_left (by rw [abs_of_nonneg h0]; exact h5) hB0
    dsimp only
    linarith
  have hAM' : A * (M * (1 + 1 / 2 ^ 17)) ≤ 2 ^ 19 := by
    rw [← mul_assoc]; norm_num at *; linarith
  obtain ⟨q, n, h1, h2, h3, h4⟩ := event_ends_partial L hL A B (M * (1 + 1 / 2 ^ 17)) (by linarith) hAM'
    (le_trans hB (by norm_num)) m.sp hsp m.x m.y hx hy (by linarith) (by linarith) { b with left := m.dt } hb.fx hb.fy
    hb.x hb.y hb.moved hb.nonneg hb.below (le_trans hah (by norm_num at *; linarith)) fuel (by linarith)
  obtain ⟨e1, e2⟩ := loop_exit _ _ _ _ _ h1
  have hq0 : 0 ≤ q.moved := by rcases e2 with e | e <;> rw [e]; exact hb.nonneg
  have k1 : M * (1 + 1 / 2 ^ 17) / 2 ^ 18 ≤ M / 2 ^ 17 := by norm_num; linarith
  refine ⟨⟨(arrive m.x m.y q).1, (arrive m.x m.y q).2, rnd (q.moved + countDabs L (m.sp n) q m.x m.y), 0⟩, ?_, ?_, ?_, ?_⟩
  · unfold event; rw [h1]
  · refine ⟨rnd_float _, rnd_float _, ?_, ?_, rnd_float _, rnd_nonneg (add_nonneg hq0 (countDabs_nonneg _ _ _ _ _)), e1⟩
    · show |(arrive m.x m.y q).1| ≤ _
      have := abs_sub_abs_le_abs_sub (arrive m.x m.y q).1 m.x
      linarith
    · show |(arrive m.x m.y q).2| ≤ _
      have := abs_sub_abs_le_abs_sub (arrive m.x m.y q).2 m.y
      linarith
  · exact le_trans h3 k1
  · exact le_trans h4 k1

/-- **C78, whole sessions (partial).**  A brush with bounded dab rates that starts anywhere and is moved
within a region small enough for its spacing gets through all events of a session; each event draws at
most a bounded number of dabs, and the fraction of a dab carried over stays below 1. -/
theorem session_ends_partial {L : Libm} (hL : LibmOk L) {A B M : ℚ} (hM : 1 ≤ M) (hAM : A * M ≤ 2 ^ 18)
    (hB : B ≤ 2 ^ 36) {fuel : Nat} (hfuel : 12 * (A * M * (1 + 1 / 2 ^ 17)) + 15 * B + 4 ≤ fuel) (ms : List Motion)
    (hms : ∀ m ∈ ms, (∀ i, Bounded A B (m.sp i)) ∧ F32 m.x ∧ F32 m.y ∧ |m.x| ≤ M ∧ |m.y| ≤ M ∧ 0 ≤ m.dt ∧ m.dt ≤ 5)
    (b : Pen) (hb : Settled M b) :
    ∃ b', session L fuel b ms = some b' ∧ 0 ≤ b'.moved ∧ b'.moved < 1 ∧
      ∀ m, ms.getLast? = some m → |b'.x - m.x| ≤ M / 2 ^ 17 ∧ |b'.y - m.y| ≤ M / 2 ^ 17 := by
  induction ms generalizing b with
  | nil => exact ⟨b, rfl, hb.nonneg, hb.below, by simp⟩
  | cons m rest ih =>
    obtain ⟨c1, c2, c3, c4, c5, c6, c7⟩ := hms m (List.mem_cons_self ..)
    obtain ⟨b1, e1, s1, p1, p2⟩ := event_settles hL hM hAM hB hfuel hb c1 c2 c3 c4 c5 c6 c7
    obtain ⟨b2, e2, m0, m1, l⟩ := ih (fun m' h => hms m' (List.mem_cons_of_mem _ h)) b1 s1
    refine ⟨b2, ?_, m0, m1, ?_⟩
    · rw [session, e1]; exact e2
    · intro m' hm'
      cases rest with
      | nil =>
        rw [session] at e2
        rw [← Option.some.inj e2]
        rw [List.getLast?_singleton] at hm'
        rw [← Option.some.inj hm']
        exact ⟨p1, p2⟩
      | cons m2 rest =>
        rw [List.getLast?_cons_cons] at hm'
        exact l m' hm'

/-- Steps of up to half a unit in the last place get lost. -/
theorem stuck {k : ℤ} (hk : -100 ≤ k) {s : ℚ} (h0 : 0 ≤ s) (h1 : s ≤ 2 ^ (k - 24)) : rnd (2 ^ k + s) = 2 ^ k := by
  have h2 : (2 : ℚ) ≠ 0 := by norm_num
  have hf : F32 (2 ^ k) := float_pow (by omega)
  refine le_antisymm ?_ (le_rnd hf (by linarith))
  refine le_trans (round_mono 24 (-149) (by norm_num) (by linarith : 2 ^ k + s ≤ 2 ^ k + 2 ^ (k - 24))) ?_
  obtain ⟨z, hz⟩ : ∃ z : ℚ, z = 2 ^ k + 2 ^ (k - 24) := ⟨_, rfl⟩
  have e24 : (2 : ℚ) ^ (k - 24) = 2 ^ k / 16777216 := by
    rw [zpow_sub₀ h2]; norm_num
  have hpos := two_pos_zpow k
  have hz0 : 0 < z := by rw [hz, e24]; positivity
  have hlog : Int.log 2 |z| = k := by
    have a1 := lt_of_le_of_lt (pow_log_le hz0.ne') (by
      rw [abs_of_pos hz0, hz, e24, zpow_add₀ h2, zpow_one]; linarith : |z| < (2 : ℚ) ^ (k + 1))
    have a2 := lt_of_le_of_lt (by rw [abs_of_pos hz0, hz, e24]; linarith : (2 : ℚ) ^ k ≤ |z|) (lt_pow_log z)
    have b1 := (zpow_lt_zpow_iff_right₀ (by norm_num : (1 : ℚ) < 2)).mp a1
    have b2 := (zpow_lt_zpow_iff_right₀ (by norm_num : (1 : ℚ) < 2)).mp a2
    omega
  have hpl : place 24 (-149) z = k - 23 := by
    unfold place; rw [hlog]
    rw [max_eq_left (by push_cast; omega)]; push_cast; ring
  rw [← hz, Float32.round, hpl]
  have e23 : (2 : ℚ) ^ (k - 23) = 2 ^ k / 8388608 := by
    rw [zpow_sub₀ h2]; norm_num
  have hq : z / 2 ^ (k - 23) = 8388608 + 1 / 2 := by
    rw [hz, e24, e23]; field_simp; norm_num
  have hr : roundEven (8388608 + 1 / 2) = 8388608 := by norm_num [roundEven, Int.fract]
  rw [hq, hr, e23]
  push_cast
  apply le_of_eq
  field_simp

/-- **C78, the negation.**  Let `k` be between 21 and 26, so that coordinates up to about 2^k are below
the limit of 1e8 that the code checks.  Every round brush with the default of at least two dabs per
radius and a radius of at most 2^(k-23) pixels (8 pixels for `k = 26`) that moves from `x = 2^k` to the
next `float` to the right draws dabs for ever: its position does not change. -/
theorem far_event_hangs (L : Libm) (hL : ∀ d, F32 d → L.hypotf d 0 = |d|) (k : ℤ) (hk : 21 ≤ k) (hk1 : k ≤ 26)
    (sp : Nat → Spacing) (hr : ∀ i, 0 < (sp i).radius ∧ (sp i).radius ≤ 2 ^ (k - 23))
    (hb : ∀ i, 0 < (sp i).base) (ha : ∀ i, 2 ≤ (sp i).perActual) (hbb : ∀ i, 0 ≤ (sp i).perBasic)
    (hs : ∀ i, (sp i).perSecond = 0) (hround : ∀ i, (sp i).ratio ≤ 1) (y : ℚ) (hy : F32 y) (moved left : ℚ)
    (hm : 0 ≤ moved) (hm1 : moved < 1) (fuel : Nat) :
    (2 ^ k + 2 ^ (k - 23) < (10 : ℚ) ^ 8) ∧
    loop L sp (2 ^ k + 2 ^ (k - 23)) y fuel 0 ⟨2 ^ k, y, moved, left⟩ = none := by
  have h2 : (2 : ℚ) ≠ 0 := by norm_num
  constructor
  · have a1 : (2 : ℚ) ^ k ≤ 2 ^ (26 : ℤ) := two_zpow_le hk1
    have a2 : (2 : ℚ) ^ (k - 23) ≤ 2 ^ (3 : ℤ) := two_zpow_le (by omega)
    norm_num at a1 a2
    linarith
  obtain ⟨X, hX⟩ : ∃ X : ℚ, X = 2 ^ k := ⟨_, rfl⟩
  obtain ⟨d, hd⟩ : ∃ d : ℚ, d = 2 ^ (k - 23) := ⟨_, rfl⟩
  have hdf : F32 d := hd ▸ float_pow (by omega)
  have hd0 : 0 < d := hd ▸ two_pos_zpow _
  have hstuck : ∀ s, 0 ≤ s → s ≤ d / 2 → rnd (X + s) = X := by
    intro s s0 s1
    rw [hX]
    refine stuck (by omega) s0 (le_trans s1 (le_of_eq ?_))
    rw [hd, show k - 24 = k - 23 - 1 by ring, zpow_sub_one₀ h2]; ring
  have hhalf : F32 (d / 2) := by
    rw [hd, show (2 : ℚ) ^ (k - 23) / 2 = 2 ^ (k - 24) by
      rw [show k - 24 = k - 23 - 1 by ring, zpow_sub_one₀ h2]; ring]
    exact float_pow (by omega)
  rw [← hX, ← hd]
  have htwo : F32 2 := by simpa using float_int 2 (by norm_num)
  have hcount : ∀ i moved left, 2 ≤ countDabs L (sp i) ⟨X, y, moved, left⟩ (X + d) y := by
    intro i moved left
    obtain ⟨r0, r1⟩ := hr i
    have e1 : distance L (sp i) (rnd (X + d - X)) (rnd (y - y)) = d := by
      unfold distance
      rw [if_neg (not_lt.mpr (hround i)), sub_self, rnd_zero, add_sub_cancel_left, rnd_of_float hdf, hL d hdf,
        abs_of_pos hd0]
    unfold countDabs
    dsimp only
    rw [e1, hs i, mul_zero, rnd_zero, add_zero]
    have c1 : 1 ≤ rnd (d / (sp i).radius) := le_rnd float_one (by rw [one_le_div r0, hd]; exact r1)
    have c2 : 2 ≤ rnd (rnd (d / (sp i).radius) * (sp i).perActual) := le_rnd htwo (by nlinarith [ha i])
    have c3 : 0 ≤ rnd (rnd (d / (sp i).base) * (sp i).perBasic) :=
      rnd_nonneg (mul_nonneg (rnd_nonneg (div_nonneg hd0.le (hb i).le)) (hbb i))
    have c4 : 2 ≤ rnd (rnd (rnd (rnd (d / (sp i).radius) * (sp i).perActual)
        + rnd (rnd (d / (sp i).base) * (sp i).perBasic))) := le_rnd htwo (le_rnd htwo (by linarith))
    rw [if_neg (by linarith)]
    exact c4
  have key : ∀ (fuel i : Nat) (moved left : ℚ), 0 ≤ moved → moved < 1 →
      loop L sp (X + d) y fuel i ⟨X, y, moved, left⟩ = none := by
    intro fuel
    induction fuel with
    | zero =>
      intro i moved left hm hm1
      have := hcount i moved left
      rw [loop, if_pos (le_rnd float_one (by linarith))]
    | succ fuel ih =>
      intro i moved left hm hm1
      have hc := hcount i moved left
      rw [loop, if_pos (le_rnd float_one (by linarith))]
      obtain ⟨todo, ht⟩ : ∃ t, t = countDabs L (sp i) ⟨X, y, moved, left⟩ (X + d) y := ⟨_, rfl⟩
      rw [← ht] at hc ⊢
      have s0 : 0 ≤ stepDabs ⟨X, y, moved, left⟩ := (stepDabs_le hm hm1).1
      have s1 : stepDabs ⟨X, y, moved, left⟩ ≤ 1 := by
        unfold stepDabs
        split_ifs
        · exact rnd_le float_one (round_le 53 (-1074) (by norm_num)
            ⟨1, 0, by norm_num, by norm_num, by simp⟩ (by dsimp only; linarith))
        · exact le_rfl
      have hhf : F32 (1 / 2) := ⟨1, -1, by norm_num, by norm_num, by norm_num⟩
      have f0 : 0 ≤ rnd (stepDabs ⟨X, y, moved, left⟩ / todo) := rnd_nonneg (div_nonneg s0 (by linarith))
      have f1 : rnd (stepDabs ⟨X, y, moved, left⟩ / todo) ≤ 1 / 2 :=
        rnd_le hhf (by rw [div_le_iff₀ (by linarith)]; linarith)
      obtain ⟨f, hf⟩ : ∃ f, f = rnd (stepDabs ⟨X, y, moved, left⟩ / todo) := ⟨_, rfl⟩
      rw [← hf] at f0 f1
      have e : iter (X + d) y todo ⟨X, y, moved, left⟩ = ⟨X, y, 0, rest left f⟩ := by
        have hx : rnd (X + rnd (f * rnd (X + d - X))) = X := by
          rw [add_sub_cancel_left, rnd_of_float hdf]
          refine hstuck _ (rnd_nonneg (mul_nonneg f0 hd0.le)) (rnd_le hhalf ?_)
          nlinarith
        have hyy : rnd (y + rnd (f * rnd (y - y))) = y := by
          rw [sub_self, rnd_zero, mul_zero, rnd_zero, add_zero, rnd_of_float hy]
        unfold iter
        dsimp only
        rw [← hf, hx, hyy]
        rfl
      rw [e]
      exact ih (i + 1) 0 _ le_rfl (by norm_num)
  exact key fuel 0 moved left hm hm1

/-! ### A library and brushes that meet the conditions -/

/-- A square root, good to 200 binary digits behind the point. -/
def root (v : ℚ) : ℚ := (Nat.sqrt ⌊v * 4 ^ 200⌋₊ : ℚ) / 2 ^ 200

/-- A library with these square roots. -/
def libm : Libm := ⟨fun dx dy => root (dx ^ 2 + dy ^ 2), root⟩

theorem root_le {v s : ℚ} (hs : 0 ≤ s) (h : v ≤ s ^ 2) : root v ≤ s := by
  obtain ⟨P, hP⟩ : ∃ P : ℚ, P = 2 ^ 200 := ⟨_, rfl⟩
  have h4 : (4 : ℚ) ^ 200 = P ^ 2 := by rw [hP, ← pow_mul, mul_comm, pow_mul]; norm_num
  have hP0 : 0 < P := hP ▸ by positivity
  unfold root
  rw [h4, ← hP, div_le_iff₀ hP0]
  obtain ⟨n, hn⟩ : ∃ n : Nat, n = ⌊v * P ^ 2⌋₊ := ⟨_, rfl⟩
  have hle : (n : ℚ) ≤ s ^ 2 * P ^ 2 := by
    rcases le_or_gt 0 v with hv | hv
    · exact hn ▸ le_trans (Nat.floor_le (by positivity)) (mul_le_mul_of_nonneg_right h (by positivity))
    · rw [hn, Nat.floor_of_nonpos (mul_nonpos_of_nonpos_of_nonneg hv.le (by positivity))]; push_cast; positivity
  rw [← hn]
  have hsq : ((Nat.sqrt n : ℚ)) ^ 2 ≤ n := by exact_mod_cast Nat.sqrt_le' n
  have : ((Nat.sqrt n : ℚ)) ^ 2 ≤ (s * P) ^ 2 := by rw [mul_pow]; exact hsq.trans hle
  exact le_of_sq_le_sq this (by positivity)

theorem libm_ok : LibmOk libm where
  hypotf := by
    intro dx dy
    have h0 : 0 ≤ |dx| + |dy| := by positivity
    have : root (dx ^ 2 + dy ^ 2) ≤ |dx| + |dy| := root_le h0 (by
      rw [← sq_abs dx, ← sq_abs dy]; nlinarith [abs_nonneg dx, abs_nonneg dy])
    show root _ ≤ _
    linarith
  sqrt := by
    intro v s hs h
    have : root v ≤ s := root_le hs h
    show root _ ≤ _
    linarith

theorem libm_hypotf (d : ℚ) (hd : F32 d) : libm.hypotf d 0 = |d| := by
  obtain ⟨n, e, he, -, rfl⟩ := hd
  obtain ⟨j, hj⟩ : ∃ j : Nat, e + 200 = j := Int.eq_ofNat_of_zero_le (by omega)
  obtain ⟨P, hP⟩ : ∃ P : ℚ, P = 2 ^ 200 := ⟨_, rfl⟩
  have h4 : (4 : ℚ) ^ 200 = P ^ 2 := by rw [hP, ← pow_mul, mul_comm, pow_mul]; norm_num
  have hP0 : 0 < P := hP ▸ by positivity
  have hE : (2 : ℚ) ^ e * P = 2 ^ j := by
    rw [hP, ← zpow_natCast, ← zpow_natCast, ← hj, zpow_add₀ (by norm_num)]; rfl
  obtain ⟨E, hEe⟩ : ∃ E : ℚ, E = 2 ^ e := ⟨_, rfl⟩
  have hE0 : 0 < E := hEe ▸ two_pos_zpow e
  rw [← hEe] at hE ⊢
  show root _ = _
  unfold root
  rw [h4, ← hP]
  have : ((n : ℚ) * E) ^ 2 + 0 ^ 2 = ((n : ℚ) * E) ^ 2 := by ring
  rw [this, show ((n : ℚ) * E) ^ 2 * P ^ 2 = (((n.natAbs * 2 ^ j) * (n.natAbs * 2 ^ j) : Nat) : ℚ) by
    push_cast
    rw [← hE, Nat.cast_natAbs]
    push_cast
    rw [show |(n : ℚ)| * (E * P) * (|(n : ℚ)| * (E * P)) = (|(n : ℚ)|) ^ 2 * E ^ 2 * P ^ 2 by ring, sq_abs]
    ring]
  rw [Nat.floor_natCast, Nat.sqrt_eq]
  push_cast
  rw [← hE, Nat.cast_natAbs, abs_mul, abs_of_pos hE0]
  push_cast
  field_simp

/-- A round brush of 4 pixels with the default dab rates. -/
def small : Spacing := ⟨4, 4, 2, 0, 0, 1, 1, 0⟩

/-- Within a million pixels from the origin it gets everywhere: here from the origin to `(1000, -3000)`. -/
example : ∃ q n, loop libm (fun _ => small) 1000 (-3000) 10000 0 ⟨0, 0, 1 / 2, 1⟩ = some (q, n) ∧ n ≤ 10000 ∧
    |(arrive 1000 (-3000) q).1 - 1000| ≤ 3000 / 2 ^ 18 ∧ |(arrive 1000 (-3000) q).2 - -3000| ≤ 3000 / 2 ^ 18 := by
  refine event_ends_partial libm libm_ok (501 / 1000) 0 3000 (by norm_num) (by norm_num) (by norm_num) _ ?_ 1000
    (-3000) ?_ ?_ (by norm_num) (by norm_num) _ ?_ ?_ (by norm_num) (by norm_num) ?_ (by norm_num) (by norm_num)
    ?_ _ ?_
  · intro _
    constructor <;> norm_num [small, stretch]
  · simpa using float_int 1000 (by norm_num)
  · simpa using float_int (-3000) (by norm_num)
  · exact float_zero
  · exact float_zero
  · exact ⟨1, -1, by norm_num, by norm_num, by norm_num⟩
  · norm_num [ahead]
  · norm_num [ahead]

/-- Two motions of it. -/
def twice : List Motion := [⟨100, 50, 1 / 100, fun _ => small⟩, ⟨-300, 20, 1 / 50, fun _ => small⟩]

theorem small_bounded : Bounded (501 / 1000) 0 small := by
  constructor <;> norm_num [small, stretch]

theorem twice_ok : ∀ m ∈ twice, (∀ i, Bounded (501 / 1000) 0 (m.sp i)) ∧ F32 m.x ∧ F32 m.y ∧ |m.x| ≤ 300 ∧
    |m.y| ≤ 300 ∧ 0 ≤ m.dt ∧ m.dt ≤ 5 := by
  intro m hm
  simp only [twice, List.mem_cons, List.not_mem_nil, or_false] at hm
  rcases hm with rfl | rfl
  · exact ⟨fun _ => small_bounded, by simpa using float_int 100 (by norm_num), by simpa using float_int 50 (by norm_num),
      by norm_num, by norm_num, by norm_num, by norm_num⟩
  · exact ⟨fun _ => small_bounded, by simpa using float_int (-300) (by norm_num), by simpa using float_int 20 (by norm_num),
      by norm_num, by norm_num, by norm_num, by norm_num⟩

/-- They end. -/
example (fuel : Nat) (hf : 10000 ≤ fuel) : ∃ b', session libm fuel ⟨0, 0, 0, 0⟩ twice = some b' ∧
    0 ≤ b'.moved ∧ b'.moved < 1 ∧ |b'.x - -300| ≤ 300 / 2 ^ 17 ∧ |b'.y - 20| ≤ 300 / 2 ^ 17 := by
  have hfq : ((10000 : Nat) : ℚ) ≤ fuel := Nat.cast_le.mpr hf
  have hs : Settled 300 ⟨0, 0, 0, 0⟩ :=
    ⟨float_zero, float_zero, by norm_num, by norm_num, float_zero, le_rfl, by norm_num⟩
  obtain ⟨b', h1, h2, h3, h4⟩ := session_ends_partial libm_ok (A := 501 / 1000) (B := 0) (M := 300) (by norm_num)
    (by norm_num) (by norm_num) (fuel := fuel) (le_trans (by norm_num) hfq) twice twice_ok _ hs
  obtain ⟨h5, h6⟩ := h4 ⟨-300, 20, 1 / 50, fun _ => small⟩ (by simp [twice])
  exact ⟨b', h1, h2, h3, h5, h6⟩

/-- At 67108864 pixels it hangs. -/
example (fuel : Nat) : loop libm (fun _ => small) (2 ^ (26 : ℤ) + 2 ^ (26 - 23 : ℤ)) 0 fuel 0
    ⟨2 ^ (26 : ℤ), 0, 0, 1⟩ = none :=
  (far_event_hangs libm libm_hypotf 26 (by norm_num) le_rfl _ (fun _ => by norm_num [small])
    (fun _ => by norm_num [small]) (fun _ => by norm_num [small]) (fun _ => by norm_num [small]) (fun _ => rfl)
    (fun _ => by norm_num [small]) 0 float_zero 0 1 le_rfl (by norm_num) fuel).2

end Verif.FloatStroke
