import Verif.Lemmas.FloatSample
import Verif.Lemmas.FloatColor
import Verif.Lemmas.FloatPaint

/-!
# Rounding errors of the running average
-/

namespace Verif.FloatSample
open Float32 Blend Sample Spectral

theorem rnd0 : rnd (0 : ℚ) = 0 := round_zero 24 (-149)

theorem isFloat_one : IsFloat 24 (-149) 1 := ⟨1, 0, by norm_num, by norm_num, by norm_num⟩

/-- The weight of what was there before. -/
theorem rest_near {fa : ℚ} (f0 : 0 ≤ fa) (f1 : fa ≤ 1) :
    0 ≤ rnd (rnd64 (1 - fa)) ∧ rnd (rnd64 (1 - fa)) ≤ 1 ∧ |rnd (rnd64 (1 - fa)) - (1 - fa)| ≤ 101 / 100 / 16000000 := by
  have a : 0 ≤ rnd64 (1 - fa) := le_round 53 (-1074) (by norm_num) ⟨0, 0, by norm_num, by norm_num, by norm_num⟩ (by linarith)
  have b : rnd64 (1 - fa) ≤ 1 := round_le 53 (-1074) (by norm_num) ⟨1, 0, by norm_num, by norm_num, by norm_num⟩ (by linarith)
  have c := FloatPaint.rnd64_near (x := 1 - fa) (B := 1) (by rw [abs_of_nonneg (by linarith)]; linarith) (by norm_num)
  generalize rnd64 (1 - fa) = q at *
  have d := FloatPaint.rnd_rel a
  refine ⟨le_round 24 (-149) (by norm_num) ⟨0, 0, by norm_num, by norm_num, by norm_num⟩ a,
    round_le 24 (-149) (by norm_num) isFloat_one b, ?_⟩
  rw [abs_le] at c d ⊢
  constructor <;> linarith [c.1, c.2, d.1, d.2]

/-- The error of one step. -/
def drift : ℚ := 4 / 10 ^ 7

theorem addTo_between {lo hi e avg fa : ℚ} {c a : ℕ} (l0 : 0 ≤ lo) (h1 : hi ≤ 1) (ha : 0 < a) (hl : lo * a ≤ c) (hh : (c : ℚ) ≤ hi * a)
    (f0 : 0 ≤ fa) (f1 : fa ≤ 1) (e0 : 0 ≤ e) (e1 : e ≤ 1 / 10) (v0 : 0 ≤ avg) (v1 : avg ≤ 11 / 10)
    (mid : fa < 1 → lo - e ≤ avg ∧ avg ≤ hi + e) :
    lo - (e + drift) ≤ addTo c a fa (rnd (rnd64 (1 - fa))) avg ∧ addTo c a fa (rnd (rnd64 (1 - fa))) avg ≤ hi + (e + drift) ∧
      0 ≤ addTo c a fa (rnd (rnd64 (1 - fa))) avg := by
  have aq : (0 : ℚ) < a := by exact_mod_cast ha
  have a1 : (1 : ℚ) ≤ a := by exact_mod_cast ha
  obtain ⟨b0, b1, bn⟩ := rest_near f0 f1
  have c0 : (0 : ℚ) ≤ c := Nat.cast_nonneg c
  have zero : IsFloat 24 (-149) 0 := ⟨0, 0, by norm_num, by norm_num, by norm_num⟩
  obtain ⟨x, hx⟩ : ∃ x : ℚ, x = c / a := ⟨_, rfl⟩
  have xc : (c : ℚ) = x * a := by rw [hx]; field_simp
  have x0 : 0 ≤ x := by rw [hx]; positivity
  have xl : lo ≤ x := by rw [hx, le_div_iff₀ aq]; exact hl
  have xh : x ≤ hi := by rw [hx, div_le_iff₀ aq]; exact hh
  unfold addTo
  generalize rnd (rnd64 (1 - fa)) = fb at *
  have p0 : 0 ≤ x * fa := mul_nonneg x0 f0
  have p1 : x * fa ≤ 1 := mul_le_one₀ (xh.trans h1) f0 f1
  have t1 := FloatPaint.rnd_rel (x := (c : ℚ) * fa) (by positivity)
  have q1 : 0 ≤ rnd ((c : ℚ) * fa) := le_round 24 (-149) (by norm_num) zero (by positivity)
  have t1' : |rnd ((c : ℚ) * fa) / a - x * fa| ≤ (1 + 1 / 10 ^ 30) / 16000000 := by
    have : rnd ((c : ℚ) * fa) / a - x * fa = (rnd ((c : ℚ) * fa) - c * fa) / a := by rw [xc]; field_simp
    rw [this, abs_div, abs_of_pos aq, div_le_iff₀ aq]
    refine t1.trans ?_
    have : (c : ℚ) * fa = x * fa * a := by rw [xc]; ring
    rw [this]
    have : x * fa * a ≤ 1 * a := mul_le_mul_of_nonneg_right p1 aq.le
    have : (1 : ℚ) / 10 ^ 30 ≤ 1 / 10 ^ 30 * a := by linarith [mul_le_mul_of_nonneg_left a1 (show (0 : ℚ) ≤ 1 / 10 ^ 30 by norm_num)]
    linarith
  have q2 : 0 ≤ rnd ((c : ℚ) * fa) / a := div_nonneg q1 aq.le
  generalize rnd ((c : ℚ) * fa) / a = y at *
  have t2 := FloatPaint.rnd_rel q2
  have q3 : 0 ≤ rnd y := le_round 24 (-149) (by norm_num) zero q2
  have m0 : 0 ≤ avg * fb := mul_nonneg v0 b0
  have m1 : avg * fb ≤ 11 / 10 := by
    calc avg * fb ≤ avg * 1 := mul_le_mul_of_nonneg_left b1 v0
      _ ≤ _ := by linarith
  have t3 := FloatPaint.rnd_rel m0
  have q4 : 0 ≤ rnd (avg * fb) := le_round 24 (-149) (by norm_num) zero m0
  have t4 := FloatPaint.rnd_rel (add_nonneg q3 q4)
  have near : |avg * fb - avg * (1 - fa)| ≤ 11 / 10 * (101 / 100 / 16000000) := by
    rw [← mul_sub, abs_mul, abs_of_nonneg v0]
    exact mul_le_mul v1 bn (abs_nonneg _) (by norm_num)
  have low : lo - e ≤ x * fa + avg * (1 - fa) := by
    rcases f1.lt_or_eq with h | h
    · have := mid h
      nlinarith
    · rw [h]; linarith
  have high : x * fa + avg * (1 - fa) ≤ hi + e := by
    rcases f1.lt_or_eq with h | h
    · have := mid h
      nlinarith
    · rw [h]; linarith
  have s1 : x * fa + avg * (1 - fa) ≤ 11 / 10 := by nlinarith
  refine ⟨?_, ?_, le_round 24 (-149) (by norm_num) zero (add_nonneg q3 q4)⟩
  all_goals
    unfold drift
    rw [abs_le] at t1' t2 t3 t4 near
    generalize rnd y = r1 at *
    generalize rnd (avg * fb) = r2 at *
    generalize rnd (r1 + r2) = r3 at *
    generalize avg * fb = z at *
    generalize x * fa = z1 at *
    generalize avg * (1 - fa) = z2 at *
    linarith [t1'.1, t1'.2, t2.1, t2.2, t3.1, t3.2, t4.1, t4.2, near.1, near.2]

/-! ### One pixel -/

/-- The bounds for a pixel: opacity between `la` and `ha`, and, unless it is transparent, colour between `lo` and `hi`. -/
structure InBox (lo hi : Rgb ℚ) (la ha : ℚ) (p : Px) : Prop where
  alo : la * 32768 ≤ p.a
  ahi : (p.a : ℚ) ≤ ha * 32768
  rlo : 0 < p.a → lo.r * p.a ≤ p.r
  rhi : 0 < p.a → (p.r : ℚ) ≤ hi.r * p.a
  glo : 0 < p.a → lo.g * p.a ≤ p.g
  ghi : 0 < p.a → (p.g : ℚ) ≤ hi.g * p.a
  blo : 0 < p.a → lo.b * p.a ≤ p.b
  bhi : 0 < p.a → (p.b : ℚ) ≤ hi.b * p.a

/-- The average of one component. -/
structure Mean (lo hi e a avg : ℚ) : Prop where
  float : IsFloat 24 (-149) avg
  nonneg : 0 ≤ avg
  top : avg ≤ 11 / 10
  mid : 0 < a → lo - e ≤ avg ∧ avg ≤ hi + e

theorem Mean.mono {lo hi e a avg e' : ℚ} (h : Mean lo hi e a avg) (he : e ≤ e') : Mean lo hi e' a avg :=
  ⟨h.float, h.nonneg, h.top, fun q => ⟨by linarith [(h.mid q).1], by linarith [(h.mid q).2]⟩⟩

theorem Mean.step {lo hi e a avg a' fa : ℚ} (h : Mean lo hi e a avg) {c n : ℕ} (l0 : 0 ≤ lo) (h1 : hi ≤ 1) (hn : 0 < n)
    (hl : lo * n ≤ c) (hh : (c : ℚ) ≤ hi * n) (f0 : 0 ≤ fa) (f1 : fa ≤ 1) (e0 : 0 ≤ e) (e1 : e + drift ≤ 1 / 10)
    (first : fa < 1 → 0 < a) : Mean lo hi (e + drift) a' (addTo c n fa (rnd (rnd64 (1 - fa))) avg) := by
  have d : 0 ≤ drift := by unfold drift; norm_num
  obtain ⟨k1, k2, k3⟩ := addTo_between l0 h1 hn hl hh f0 f1 e0 (by linarith) h.nonneg h.top fun q => h.mid (first q)
  exact ⟨isFloat_round _ _ _, k3, by linarith, fun _ => ⟨k1, k2⟩⟩

/-- What holds after `k` sampled pixels. -/
structure Holds (lo hi : Rgb ℚ) (la ha : ℚ) (k : ℕ) (w a : ℚ) (avg : Rgb ℚ) : Prop where
  afloat : IsFloat 24 (-149) a
  asize : a = 0 ∨ 2 ^ (-30 : ℤ) ≤ a
  wsize : w = 0 ∨ 2 ^ (-15 : ℤ) ≤ w
  sums : ∃ W A : ℚ, Window (k + 1) w W ∧ Window (k + 2) a A ∧ la * W ≤ A ∧ A ≤ ha * W ∧ W ≤ k
  started : 0 < k → 0 < w
  r : Mean lo.r hi.r (k * drift) a avg.r
  g : Mean lo.g hi.g (k * drift) a avg.g
  b : Mean lo.b hi.b (k * drift) a avg.b

theorem isFloat_pow {n : ℕ} (hn : n ≤ 100) : IsFloat 24 (-149) ((2 : ℚ) ^ (-(n : ℤ))) :=
  ⟨1, -n, by omega, by norm_num, by norm_num⟩

/-- The opacity that a pixel adds. -/
theorem added {m n : ℕ} (hm : 1 ≤ m) :
    (n = 0 → rnd (rnd ((m : ℚ) * n) / 1073741824) = 0) ∧ (0 < n → (2 : ℚ) ^ (-30 : ℤ) ≤ rnd (rnd ((m : ℚ) * n) / 1073741824)) := by
  constructor
  · rintro rfl
    rw [Nat.cast_zero, mul_zero, rnd0, zero_div, rnd0]
  · intro h
    have : (1 : ℚ) ≤ (m : ℚ) * n := by exact_mod_cast Nat.mul_pos hm h
    have k := le_round 24 (-149) (by norm_num) isFloat_one this
    exact le_round 24 (-149) (by norm_num) (isFloat_pow (n := 30) (by norm_num)) (by
      rw [le_div_iff₀ (by norm_num)]
      refine le_trans (by norm_num) k)

theorem added_window {m n : ℕ} (hm : 1 ≤ m) : Window 2 (rnd (rnd ((m : ℚ) * n) / 1073741824)) ((m : ℚ) * n / 1073741824) := by
  have tiny : ∀ j : ℕ, j ≤ 100 → (2 : ℚ) ^ (-126 : ℤ) ≤ 2 ^ (-(j : ℤ)) := fun j hj => two_zpow_le (by omega)
  have k0 : (m : ℚ) * n = 0 ∨ 1 ≤ (m : ℚ) * n := by
    rcases Nat.eq_zero_or_pos n with rfl | h
    · left; simp
    · right; exact_mod_cast Nat.mul_pos hm h
  have w := (Window.refl (show (0 : ℚ) ≤ (m : ℚ) * n by positivity)).rnd (k0.imp id fun q => le_trans (tiny 0 (by norm_num)) (by simpa using q))
  have w' := w.div (Window.refl (X := 1073741824) (by norm_num)) (by norm_num)
  refine w'.rnd ?_
  rcases k0 with q | q
  · left; rw [q, rnd0, zero_div]
  · right
    have k := le_round 24 (-149) (by norm_num) isFloat_one q
    rw [le_div_iff₀ (by norm_num)]
    refine le_trans ?_ k
    calc (2 : ℚ) ^ (-126 : ℤ) * 1073741824 ≤ 2 ^ (-30 : ℤ) * 1073741824 := mul_le_mul_of_nonneg_right (tiny 30 (by norm_num)) (by norm_num)
      _ ≤ 1 := by norm_num

/-- The limits are colours. -/
structure Limits (lo hi : Rgb ℚ) (la ha : ℚ) : Prop where
  r0 : 0 ≤ lo.r
  r1 : hi.r ≤ 1
  g0 : 0 ≤ lo.g
  g1 : hi.g ≤ 1
  b0 : 0 ≤ lo.b
  b1 : hi.b ≤ 1

theorem sampleOne_holds {lo hi : Rgb ℚ} {la ha : ℚ} (L : Limits lo hi la ha) {k : ℕ} (hk : ((k + 1 : ℕ) : ℚ) * drift ≤ 1 / 10) {st : LoopSt ℚ}
    (h : Holds lo hi la ha k st.w st.a st.avg) {v : Nat × Px} (hm : 1 ≤ v.1) (hm1 : v.1 ≤ 32768) (hv : InBox lo hi la ha v.2) :
    ∃ st', sampleOne 0 st v = .ok st' ∧ st'.spec = st.spec ∧ Holds lo hi la ha (k + 1) st'.w st'.a st'.avg := by
  obtain ⟨m, p⟩ := v
  dsimp only at hm hm1 hv
  have d0 : 0 ≤ drift := by unfold drift; norm_num
  have e0 : (0 : ℚ) ≤ k * drift := by positivity
  have e1 : ((k + 1 : ℕ) : ℚ) * drift = k * drift + drift := by push_cast; ring
  have le : (k : ℚ) * drift ≤ ((k + 1 : ℕ) : ℚ) * drift := by linarith
  have aw := added_window (n := p.a) hm
  obtain ⟨z, nz⟩ := added (n := p.a) hm
  have af : IsFloat 24 (-149) (rnd (rnd ((m : ℚ) * p.a) / 1073741824)) := isFloat_round _ _ _
  refine ⟨_, rfl, rfl, ?_⟩
  dsimp only
  simp only [show (0 : ℚ) < 1 from one_pos, true_and]
  generalize ha' : rnd (rnd ((m : ℚ) * p.a) / 1073741824) = a at *
  have m1 : (1 : ℚ) ≤ m := by exact_mod_cast hm
  have m2 : (m : ℚ) ≤ 32768 := by exact_mod_cast hm1
  have a0 : 0 ≤ a := aw.nonneg'
  have sa0 : 0 ≤ st.a := by rcases h.asize with q | q
                            · exact q.ge
                            · exact (zpow_pos (by norm_num) _).le.trans q
  have sw0 : 0 ≤ st.w := by rcases h.wsize with q | q
                            · exact q.ge
                            · exact (zpow_pos (by norm_num) _).le.trans q
  have tiny : ∀ j : ℕ, j ≤ 100 → (2 : ℚ) ^ (-126 : ℤ) ≤ 2 ^ (-(j : ℤ)) := fun j hj => two_zpow_le (by omega)
  have q15 : (2 : ℚ) ^ (-15 : ℤ) ≤ (m : ℚ) / 32768 := by rw [le_div_iff₀ (by norm_num)]; refine le_trans (by norm_num) m1
  have r15 : (2 : ℚ) ^ (-15 : ℤ) ≤ rnd ((m : ℚ) / 32768) := le_round 24 (-149) (by norm_num) (isFloat_pow (n := 15) (by norm_num)) q15
  have ww := (Window.refl (show (0 : ℚ) ≤ (m : ℚ) / 32768 by positivity)).rnd (.inr ((tiny 15 (by norm_num)).trans q15))
  have s15 : (2 : ℚ) ^ (-15 : ℤ) ≤ st.w + rnd ((m : ℚ) / 32768) := by linarith
  have asz : st.a + a = 0 ∨ (2 : ℚ) ^ (-30 : ℤ) ≤ st.a + a := by
    rcases h.asize with q | q
    · rcases Nat.eq_zero_or_pos p.a with y | y
      · left; rw [q, z y, add_zero]
      · right; have := nz y; linarith
    · right; linarith
  have wnew : (2 : ℚ) ^ (-15 : ℤ) ≤ rnd (st.w + rnd ((m : ℚ) / 32768)) :=
    le_round 24 (-149) (by norm_num) (isFloat_pow (n := 15) (by norm_num)) s15
  have sums : ∃ W A : ℚ, Window (k + 1 + 1) (rnd (st.w + rnd ((m : ℚ) / 32768))) W ∧ Window (k + 1 + 2) (rnd (st.a + a)) A ∧
      la * W ≤ A ∧ A ≤ ha * W ∧ W ≤ ((k + 1 : ℕ) : ℚ) := by
    obtain ⟨W, A, k1, k2, k3, k4, k5⟩ := h.sums
    refine ⟨W + (m : ℚ) / 32768, A + (m : ℚ) * p.a / 1073741824, ?_, ?_, ?_, ?_, ?_⟩
    · exact (k1.add (ww.mono (by omega))).rnd (.inr ((tiny 15 (by norm_num)).trans s15))
    · exact (k2.add (aw.mono (by omega))).rnd (asz.imp id (tiny 30 (by norm_num)).trans)
    · have := mul_le_mul_of_nonneg_left hv.alo (show (0 : ℚ) ≤ (m : ℚ) / 1073741824 by positivity)
      have e : (m : ℚ) / 1073741824 * (la * 32768) = la * (m / 32768) := by ring
      have e' : (m : ℚ) / 1073741824 * p.a = m * p.a / 1073741824 := by ring
      rw [mul_add]; linarith
    · have := mul_le_mul_of_nonneg_left hv.ahi (show (0 : ℚ) ≤ (m : ℚ) / 1073741824 by positivity)
      have e : (m : ℚ) / 1073741824 * (ha * 32768) = ha * (m / 32768) := by ring
      have e' : (m : ℚ) / 1073741824 * p.a = m * p.a / 1073741824 := by ring
      rw [mul_add]; linarith
    · have : (m : ℚ) / 32768 ≤ 1 := by rw [div_le_iff₀ (by norm_num)]; linarith
      push_cast; linarith
  rcases Nat.eq_zero_or_pos p.a with y | y
  · have ea : rnd (st.a + a) = st.a := by rw [z y, add_zero]; exact round_of_isFloat 24 (-149) (by norm_num) h.afloat
    rw [ea] at sums
    rw [if_neg (by omega), ea]
    exact ⟨h.afloat, h.asize, .inr wnew, sums, fun _ => (zpow_pos (by norm_num) _).trans_le wnew,
      h.r.mono le, h.g.mono le, h.b.mono le⟩
  · have a30 := nz y
    have ap : 0 < a := (zpow_pos (by norm_num) _).trans_le a30
    have s1 : a ≤ rnd (a + st.a) := le_round 24 (-149) (by norm_num) af (by linarith)
    have sp : 0 < rnd (a + st.a) := ap.trans_le s1
    have u := (show 0 ≤ rnd (a / rnd (a + st.a)) ∧ rnd (a / rnd (a + st.a)) ≤ 1 from
      ⟨le_round 24 (-149) (by norm_num) ⟨0, 0, by norm_num, by norm_num, by norm_num⟩ (div_nonneg a0 sp.le),
       round_le 24 (-149) (by norm_num) isFloat_one ((div_le_one sp).2 s1)⟩)
    have first : rnd (a / rnd (a + st.a)) < 1 → 0 < st.a := by
      intro q
      refine lt_of_le_of_ne sa0 fun e => ?_
      rw [← e, add_zero, show rnd a = a from round_of_isFloat 24 (-149) (by norm_num) af, div_self ap.ne',
        show rnd 1 = 1 from round_of_isFloat 24 (-149) (by norm_num) isFloat_one] at q
      exact lt_irrefl _ q
    rw [if_pos y, if_pos sp, if_pos sp]
    have anew : (2 : ℚ) ^ (-30 : ℤ) ≤ rnd (st.a + a) := le_round 24 (-149) (by norm_num) (isFloat_pow (n := 30) (by norm_num)) (by linarith)
    refine ⟨isFloat_round _ _ _, .inr anew, .inr wnew, sums, fun _ => (zpow_pos (by norm_num) _).trans_le wnew, ?_, ?_, ?_⟩
    · rw [e1] at hk ⊢
      exact h.r.step L.r0 L.r1 y (hv.rlo y) (hv.rhi y) u.1 u.2 e0 hk first
    · rw [e1] at hk ⊢
      exact h.g.step L.g0 L.g1 y (hv.glo y) (hv.ghi y) u.1 u.2 e0 hk first
    · rw [e1] at hk ⊢
      exact h.b.step L.b0 L.b1 y (hv.blo y) (hv.bhi y) u.1 u.2 e0 hk first

/-! ### The loop and the tiles -/

/-- How many of the visited pixels of a tile are sampled: every `interval`-th, and those the random numbers choose. -/
def samples (interval : Nat) (coin : Nat → Bool) : Nat → Nat → List (Nat × Px) → Nat
  | _, _, [] => 0
  | j, counter, _ :: l => (if counter = 0 ∨ coin j = true then 1 else 0) + samples interval coin (j + 1) ((counter + 1) % interval) l

theorem sampleLoop_holds {lo hi : Rgb ℚ} {la ha : ℚ} (L : Limits lo hi la ha) {interval : Nat} (hi0 : 0 < interval) (coin : Nat → Bool) {N : ℕ}
    (hN : (N : ℚ) * drift ≤ 1 / 10) : ∀ (l : List (Nat × Px)) (j counter k : ℕ) (st : LoopSt ℚ),
    (∀ v ∈ l, 1 ≤ v.1 ∧ v.1 ≤ 32768 ∧ InBox lo hi la ha v.2) → k + samples interval coin j counter l ≤ N →
    Holds lo hi la ha k st.w st.a st.avg →
    ∃ st', sampleLoop 0 interval coin j counter l st = .ok st' ∧ st'.spec = st.spec ∧
      Holds lo hi la ha (k + samples interval coin j counter l) st'.w st'.a st'.avg
  | [], _, _, k, st, _, _, h => ⟨st, rfl, rfl, by simpa [samples] using h⟩
  | v :: l, j, counter, k, st, hl, hs, h => by
    have d0 : 0 ≤ drift := by unfold drift; norm_num
    obtain ⟨v1, v2, v3⟩ := hl v (by simp)
    have rest : ∀ u ∈ l, 1 ≤ u.1 ∧ u.1 ≤ 32768 ∧ InBox lo hi la ha u.2 := fun u hu => hl u (by simp [hu])
    unfold samples at hs ⊢
    unfold sampleLoop
    by_cases c : counter = 0 ∨ coin j = true
    · simp only [if_pos c, if_neg hi0.ne'] at hs ⊢
      obtain ⟨st1, e1, s1, h1⟩ := sampleOne_holds L (k := k) (by
        have : ((k + 1 : ℕ) : ℚ) ≤ N := by exact_mod_cast (show k + 1 ≤ N by omega)
        exact (mul_le_mul_of_nonneg_right this d0).trans hN) h v1 v2 v3
      obtain ⟨st2, e2, s2, h2⟩ := sampleLoop_holds L hi0 coin hN l (j + 1) ((counter + 1) % interval) (k + 1) st1 rest (by omega) h1
      refine ⟨st2, ?_, s2.trans s1, ?_⟩
      · simp only [bind, Except.bind, e1, e2]
      · rw [← Nat.add_assoc]; exact h2
    · simp only [if_neg c, if_neg hi0.ne', Nat.zero_add] at hs ⊢
      obtain ⟨st2, e2, s2, h2⟩ := sampleLoop_holds L hi0 coin hN l (j + 1) ((counter + 1) % interval) k st rest hs h
      exact ⟨st2, by simp only [bind, Except.bind, e2], s2, h2⟩

theorem blend_zero {x : ℚ} (s : ℚ) (hx : IsFloat 24 (-149) x) : blend 0 s x = x := by
  unfold blend
  have e : rnd64 x = x := FloatColor.rnd64_of_float hx
  have e1 : rnd64 (1 - 0) = 1 := by rw [sub_zero]; exact FloatColor.rnd64_of_float isFloat_one
  rw [mul_zero, rnd0, e1, one_mul, e, zero_add, e]
  exact round_of_isFloat 24 (-149) (by norm_num) hx

/-- How many pixels of all tiles are sampled. -/
def sampled (interval : Nat) : List Visit → Nat
  | [] => 0
  | t :: ts => samples interval t.2 0 0 t.1 + sampled interval ts

theorem total_holds {lo hi : Rgb ℚ} {la ha : ℚ} (L : Limits lo hi la ha) {interval : Nat} (hi0 : 0 < interval) {N : ℕ}
    (hN : (N : ℚ) * drift ≤ 1 / 10) : ∀ (tiles : List Visit) (k : ℕ) (acc : Acc ℚ),
    (∀ t ∈ tiles, ∀ v ∈ t.1, 1 ≤ v.1 ∧ v.1 ≤ 32768 ∧ InBox lo hi la ha v.2) → k + sampled interval tiles ≤ N →
    Holds lo hi la ha k acc.w acc.a ⟨acc.r, acc.g, acc.b⟩ →
    ∃ acc', tiles.foldlM (fun acc t => accumulateTile 0 interval t.2 t.1 acc) acc = .ok acc' ∧
      Holds lo hi la ha (k + sampled interval tiles) acc'.w acc'.a ⟨acc'.r, acc'.g, acc'.b⟩
  | [], k, acc, _, _, h => ⟨acc, rfl, by simpa [sampled] using h⟩
  | t :: ts, k, acc, ht, hs, h => by
    unfold sampled at hs ⊢
    obtain ⟨st, e, _, h1⟩ := sampleLoop_holds L hi0 t.2 hN t.1 0 0 k
      { w := acc.w, a := acc.a, avg := ⟨acc.r, acc.g, acc.b⟩, spec := if (0 : ℚ) < 0 then FloatPaint.toSpectrum ⟨acc.r, acc.g, acc.b⟩ else List.replicate 10 0 }
      (ht t (by simp)) (by omega) h
    have tile : accumulateTile 0 interval t.2 t.1 acc = .ok { w := st.w, a := st.a, r := st.avg.r, g := st.avg.g, b := st.avg.b } := by
      unfold accumulateTile
      rw [if_neg (lt_irrefl _)]
      simp only [bind, Except.bind, pure, Except.pure, e]
      rw [blend_zero _ h1.r.float, blend_zero _ h1.g.float, blend_zero _ h1.b.float]
    obtain ⟨acc', e2, h2⟩ := total_holds L hi0 hN ts (k + samples interval t.2 0 0 t.1)
      { w := st.w, a := st.a, r := st.avg.r, g := st.avg.g, b := st.avg.b } (fun u hu => ht u (by simp [hu])) (by omega) h1
    refine ⟨acc', ?_, by rw [← Nat.add_assoc]; exact h2⟩
    rw [List.foldlM_cons, tile]
    exact e2

end Verif.FloatSample
