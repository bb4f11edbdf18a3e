import Verif.Lemmas.FloatAverage
import Verif.Spec.Pick

/-!
# C100: a colour picked from the canvas is accurate in single precision
-/

namespace Verif.FloatSample
open Float32 Blend Sample Spectral

deriving instance DecidableEq for Sample.Result

/-! ### Legacy sampling: sums -/

/-- A sum of the machine, beside the exact one. -/
structure SumOk (n : ℕ) (x X : ℚ) : Prop where
  win : Window (n + 1) x X
  whole : x = 0 ∨ 1 ≤ x
  bound : X ≤ n * 2 ^ 32

theorem one_isFloat : IsFloat 24 (-149) 1 := ⟨1, 0, by norm_num, by norm_num, by norm_num⟩

theorem rnd_ge_one {x : ℚ} (h : 1 ≤ x) : 1 ≤ Float32.rnd x := le_round 24 (-149) (by norm_num) one_isFloat h

theorem tiny_le_one : (2 : ℚ) ^ (-126 : ℤ) ≤ 1 := zpow_le_one_of_nonpos₀ (by norm_num) (by norm_num)

theorem SumOk.step {n : ℕ} {x X : ℚ} (h : SumOk n x X) {s : ℕ} (hs : s ≤ 2 ^ 32) :
    SumOk (n + 1) (rnd (x + rnd (s : ℚ))) (X + s) := by
  have h0 : (s : ℚ) = 0 ∨ 1 ≤ (s : ℚ) := by
    rcases Nat.eq_zero_or_pos s with q | q
    · left; rw [q]; rfl
    · right; exact_mod_cast q
  have w1 : Window 1 (rnd (s : ℚ)) s := (Window.refl (Nat.cast_nonneg s)).rnd (h0.imp id tiny_le_one.trans)
  have h1 : rnd (s : ℚ) = 0 ∨ 1 ≤ rnd (s : ℚ) := by
    rcases h0 with q | q
    · left; rw [q]; exact round_zero 24 (-149)
    · exact .inr (rnd_ge_one q)
  have h2 : x + rnd (s : ℚ) = 0 ∨ 1 ≤ x + rnd (s : ℚ) := by
    have n1 := h.win.nonneg'
    have n2 := w1.nonneg'
    rcases h.whole with q | q
    · rw [q, zero_add]; exact h1
    · right; linarith
  refine ⟨(h.win.add (w1.mono (by omega))).rnd (h2.imp id tiny_le_one.trans), ?_, ?_⟩
  · rcases h2 with q | q
    · left; rw [q]; exact round_zero 24 (-149)
    · exact .inr (rnd_ge_one q)
  · have := h.bound
    have hs' : (s : ℚ) ≤ 2 ^ 32 := by exact_mod_cast hs
    push_cast
    linarith

theorem SumOk.start : SumOk 0 0 0 := ⟨⟨le_rfl, by simp, by simp⟩, .inl rfl, by simp⟩

theorem u32_le (n : ℕ) : u32 n ≤ 2 ^ 32 := by
  unfold u32
  exact (Nat.mod_lt _ (by norm_num)).le

theorem legacySums_le (l : List (Nat × Px)) : (legacySums l).1 ≤ 2 ^ 32 ∧ (legacySums l).2.1 ≤ 2 ^ 32 ∧
    (legacySums l).2.2.1 ≤ 2 ^ 32 ∧ (legacySums l).2.2.2.1 ≤ 2 ^ 32 ∧ (legacySums l).2.2.2.2 ≤ 2 ^ 32 := by
  unfold legacySums
  rcases List.eq_nil_or_concat l with rfl | ⟨l, v, rfl⟩
  · simp
  · rw [List.concat_eq_append, List.foldl_append]
    exact ⟨u32_le _, u32_le _, u32_le _, u32_le _, u32_le _⟩

/-- All sums. -/
structure SumsOk (n : ℕ) (x X : Acc ℚ) : Prop where
  w : SumOk n x.w X.w
  r : SumOk n x.r X.r
  g : SumOk n x.g X.g
  b : SumOk n x.b X.b
  a : SumOk n x.a X.a

theorem sums_step {n : ℕ} {x X : Acc ℚ} (h : SumsOk n x X) (l : List (Nat × Px)) :
    SumsOk (n + 1) (legacyTile l x) (Sample.legacyTile l X) := by
  obtain ⟨s1, s2, s3, s4, s5⟩ := legacySums_le l
  exact ⟨h.w.step s1, h.r.step s2, h.g.step s3, h.b.step s4, h.a.step s5⟩

theorem sums_ok {paint : ℚ} (hp : paint < 0) (pow : ℚ → ℚ → ℚ) (interval : Nat) (tiles : List Visit) : ∀ {n : ℕ} {x X : Acc ℚ}, SumsOk n x X →
    ∃ y Y, tiles.foldlM (fun acc t => accumulateTile paint interval t.2 t.1 acc) x = .ok y ∧
      tiles.foldlM (fun acc t => Sample.accumulateTile pow paint interval t.2 t.1 acc) X = .ok Y ∧ SumsOk (n + tiles.length) y Y := by
  induction tiles with
  | nil => intro n x X h; exact ⟨x, X, rfl, rfl, h⟩
  | cons t l ih =>
    intro n x X h
    obtain ⟨y, Y, h1, h2, h3⟩ := ih (sums_step h t.1)
    refine ⟨y, Y, ?_, ?_, ?_⟩
    · rw [List.foldlM_cons]
      unfold accumulateTile
      rw [if_pos hp]
      exact h1
    · rw [List.foldlM_cons]
      unfold Sample.accumulateTile
      rw [if_pos hp]
      exact h2
    · rw [List.length_cons, ← add_assoc, add_right_comm]
      exact h3

/-- How far apart the two results may be, with `n` tiles. -/
def slack (n : ℕ) : ℚ := ((4 * n + 7 : ℕ) : ℚ) / (2 ^ 24 - ((4 * n + 7 : ℕ) : ℚ))

/-- Two results that are that close. -/
structure CloseBy (d : ℚ) (x X : Result ℚ) : Prop where
  r : |x.r - X.r| ≤ d
  g : |x.g - X.g| ≤ d
  b : |x.b - X.b| ≤ d
  a : |x.a - X.a| ≤ d

theorem quotient_window {n : ℕ} (hn : 4 * n + 7 < 2 ^ 24) {x X w W : ℚ} (h : SumOk n x X) (hw : SumOk n w W) (hW : 0 < W) :
    Window (2 * n + 3) (rnd (x / w)) (X / W) ∧ (rnd (x / w) = 0 ∨ 2 ^ (-58 : ℤ) ≤ rnd (x / w)) ∧ rnd (x / w) ≤ 2 ^ (58 : ℤ) := by
  have hn' : ((n : ℕ) : ℚ) ≤ 2 ^ 22 := by
    have : n ≤ 2 ^ 22 := by omega
    exact_mod_cast this
  have half : (1 : ℚ) / 2 ≤ loss ^ (n + 1) := by
    refine le_trans ?_ (loss_bernoulli (n + 1))
    push_cast
    have : ((n : ℚ) + 1) / 2 ^ 24 ≤ 1 / 2 := by
      rw [div_le_iff₀ (by norm_num)]; linarith
    linarith
  have big : ∀ {y Y : ℚ}, SumOk n y Y → y ≤ 2 ^ (57 : ℤ) := by
    intro y Y q
    have h1 := q.win.high
    have h2 := q.bound
    have h3 := q.win.nonneg'
    have h4 : y * (1 / 2) ≤ y * loss ^ (n + 1) := mul_le_mul_of_nonneg_left half h3
    have h5 : (n : ℚ) * 2 ^ 32 ≤ 2 ^ 22 * 2 ^ 32 := by linarith
    have h6 : ((2 : ℚ) ^ (57 : ℤ)) = 2 ^ 57 := by norm_num
    rw [h6]
    linarith
  have w1 : 1 ≤ w := by
    rcases hw.whole with q | q
    · have := hw.win.pos_iff.2 hW
      linarith
    · exact q
  have w0 : 0 < w := by linarith
  have f58 : IsFloat 24 (-149) ((2 : ℚ) ^ (58 : ℤ)) := ⟨1, 58, by norm_num, by norm_num, by norm_num⟩
  have g58 : IsFloat 24 (-149) ((2 : ℚ) ^ (-58 : ℤ)) := ⟨1, -58, by norm_num, by norm_num, by norm_num⟩
  have small : x / w = 0 ∨ 2 ^ (-58 : ℤ) ≤ x / w := by
    rcases h.whole with q | q
    · left; rw [q, zero_div]
    · right
      rw [le_div_iff₀ w0]
      have := big hw
      calc (2 : ℚ) ^ (-58 : ℤ) * w ≤ 2 ^ (-58 : ℤ) * 2 ^ (57 : ℤ) := mul_le_mul_of_nonneg_left this (by positivity)
        _ ≤ 1 := by norm_num
        _ ≤ x := q
  refine ⟨?_, ?_, ?_⟩
  · have := (h.win.div hw.win hW).rnd (small.imp id fun q => le_trans (zpow_le_zpow_right₀ (by norm_num) (by norm_num)) q)
    rwa [show n + 1 + (n + 1) + 1 = 2 * n + 3 by ring] at this
  · rcases small with q | q
    · left; rw [q]; exact round_zero 24 (-149)
    · exact .inr (le_round 24 (-149) (by norm_num) g58 q)
  · refine round_le 24 (-149) (by norm_num) f58 ?_
    rw [div_le_iff₀ w0]
    have := big h
    have h6 : ((2 : ℚ) ^ (57 : ℤ)) ≤ 2 ^ (58 : ℤ) := by norm_num
    have h7 : (0 : ℚ) ≤ 2 ^ (58 : ℤ) := by positivity
    nlinarith

theorem straight_window {n : ℕ} (hn : 4 * n + 7 < 2 ^ 24) {x X a A w W : ℚ} (h : SumOk n x X) (ha : SumOk n a A) (hw : SumOk n w W)
    (hW : 0 < W) (hA : 0 < A) : Window (4 * n + 7) (rnd (rnd (x / w) / rnd (a / w))) (X / W / (A / W)) := by
  obtain ⟨h1, h2, -⟩ := quotient_window hn h hw hW
  obtain ⟨k1, k2, k3⟩ := quotient_window hn ha hw hW
  have hp : 0 < A / W := div_pos hA hW
  have kp : 0 < rnd (a / w) := k1.pos_iff.2 hp
  have := (h1.div k1 hp).rnd ?_
  · rwa [show 2 * n + 3 + (2 * n + 3) + 1 = 4 * n + 7 by ring] at this
  · rcases h2 with q | q
    · left; rw [q, zero_div]
    · right
      rw [le_div_iff₀ kp]
      calc (2 : ℚ) ^ (-126 : ℤ) * rnd (a / w) ≤ 2 ^ (-126 : ℤ) * 2 ^ (58 : ℤ) := mul_le_mul_of_nonneg_left k3 (by positivity)
        _ ≤ 2 ^ (-58 : ℤ) := by
          rw [← zpow_add₀ (by norm_num)]
          exact zpow_le_zpow_right₀ (by norm_num) (by norm_num)
        _ ≤ _ := q

theorem slack_mono {n k : ℕ} (hk : k ≤ 4 * n + 7) (hn : 4 * n + 7 < 2 ^ 24) : (k : ℚ) / (2 ^ 24 - k) ≤ slack n := by
  unfold slack
  have h1 : (k : ℚ) ≤ ((4 * n + 7 : ℕ) : ℚ) := by exact_mod_cast hk
  have h2 : ((4 * n + 7 : ℕ) : ℚ) < 2 ^ 24 := by exact_mod_cast hn
  generalize ((4 * n + 7 : ℕ) : ℚ) = m at *
  have h0 : (0 : ℚ) ≤ k := Nat.cast_nonneg k
  exact div_le_div₀ (h0.trans h1) h1 (by linarith) (by linarith)

theorem slack_nonneg {n : ℕ} (hn : 4 * n + 7 < 2 ^ 24) : 0 ≤ slack n := by
  have := slack_mono (Nat.zero_le _) hn (k := 0)
  simpa using this

/-- **C100** The colour and the opacity that legacy sampling gives on the machine are those of exact arithmetic, up to
`(4n + 7) / (2²⁴ − (4n + 7))`, whatever the pixels are; `n` is the number of tiles. -/
theorem legacy_sampling_accurate {paint : ℚ} (hp : paint < 0) (pow : ℚ → ℚ → ℚ) (interval : Nat) {tiles : List Visit}
    (hn : 4 * tiles.length + 7 < 2 ^ 24) :
    (pick paint interval tiles = .error .assertFail ∧ Spec.pick pow paint interval tiles = .error .assertFail) ∨
    ∃ x X, pick paint interval tiles = .ok x ∧ Spec.pick pow paint interval tiles = .ok X ∧ CloseBy (slack tiles.length) x X := by
  obtain ⟨y, Y, h1, h2, h⟩ := sums_ok hp pow interval tiles (n := 0) (x := ⟨0, 0, 0, 0, 0⟩) (X := ⟨0, 0, 0, 0, 0⟩)
    ⟨.start, .start, .start, .start, .start⟩
  rw [zero_add] at h
  unfold pick total Spec.pick
  rw [h1, h2]
  simp only [bind, Except.bind]
  unfold finish Sample.finish
  simp only [if_pos hp]
  by_cases hw : 0 < Y.w
  · right
    have hw' : 0 < y.w := h.w.win.pos_iff.2 hw
    obtain ⟨k1, k2, k3⟩ := quotient_window hn h.a h.w hw
    rw [if_neg (not_not.mpr hw'), if_neg (not_not.mpr hw)]
    have ca := (k1.clamp (by omega)).trans (slack_mono (by omega) hn)
    by_cases hA : 0 < Y.a / Y.w
    · have hA' : 0 < rnd (y.a / y.w) := k1.pos_iff.2 hA
      rw [if_pos hA', if_pos hA]
      have hA2 : 0 < Y.a := by
        rcases div_pos_iff.mp hA with q | q
        · exact q.1
        · linarith [q.2]
      exact ⟨_, _, rfl, rfl, (straight_window hn h.r h.a h.w hw hA2).clamp hn, (straight_window hn h.g h.a h.w hw hA2).clamp hn,
        (straight_window hn h.b h.a h.w hw hA2).clamp hn, ca⟩
    · have hA' : ¬ 0 < rnd (y.a / y.w) := fun q => hA (k1.pos_iff.1 q)
      rw [if_neg hA', if_neg hA]
      have z := slack_nonneg hn
      exact ⟨_, _, rfl, rfl, by rw [sub_self, abs_zero]; exact z, by rw [sub_self, abs_zero]; exact z,
        by rw [sub_self, abs_zero]; exact z, ca⟩
  · left
    have hw' : ¬ 0 < y.w := fun q => hw (h.w.win.pos_iff.1 q)
    rw [if_pos hw', if_pos hw]
    exact ⟨rfl, rfl⟩

/-! ### The running average -/

theorem clamp_between {x lo hi e : ℚ} (l1 : lo ≤ 1) (h0 : 0 ≤ hi) (e0 : 0 ≤ e) (a : lo - e ≤ x) (b : x ≤ hi + e) :
    lo - e ≤ Mask.clampK x 0 1 ∧ Mask.clampK x 0 1 ≤ hi + e := by
  unfold Mask.clampK
  split_ifs <;> constructor <;> linarith

/-- How far the opacity can be off, with `k` pixels sampled. -/
def opacityError (k : ℕ) : ℚ := ((2 * k + 4 : ℕ) : ℚ) / (2 ^ 24 - ((2 * k + 4 : ℕ) : ℚ))

/-- **C100** Without pigments, where the running average is taken: if the pixels that the dab covers have their colours between `lo`
and `hi` and their opacities between `la` and `ha`, so have the colour and the opacity that are picked, up to 4 parts in ten
million per sampled pixel. -/
theorem average_between {lo hi : Rgb ℚ} {la ha : ℚ} (r0 : 0 ≤ lo.r) (g0 : 0 ≤ lo.g) (b0 : 0 ≤ lo.b) (r1 : hi.r ≤ 1) (g1 : hi.g ≤ 1)
    (b1 : hi.b ≤ 1) (rr : lo.r ≤ hi.r) (gg : lo.g ≤ hi.g) (bb : lo.b ≤ hi.b) (a0 : 0 ≤ la) (a1 : ha ≤ 1)
    {interval : Nat} (hi0 : 0 < interval) {tiles : List Visit}
    (hv : ∀ t ∈ tiles, ∀ v ∈ t.1, 1 ≤ v.1 ∧ v.1 ≤ 32768 ∧ InBox lo hi la ha v.2)
    (some : 0 < sampled interval tiles) (few : sampled interval tiles ≤ 250000) :
    ∃ x, pick 0 interval tiles = .ok x ∧
      la - opacityError (sampled interval tiles) ≤ x.a ∧ x.a ≤ ha + opacityError (sampled interval tiles) ∧
      (0 < la → 0 < x.a) ∧
      (0 < x.a → (lo.r - sampled interval tiles * drift ≤ x.r ∧ x.r ≤ hi.r + sampled interval tiles * drift) ∧
        (lo.g - sampled interval tiles * drift ≤ x.g ∧ x.g ≤ hi.g + sampled interval tiles * drift) ∧
        (lo.b - sampled interval tiles * drift ≤ x.b ∧ x.b ≤ hi.b + sampled interval tiles * drift)) := by
  have d0 : 0 ≤ drift := by unfold drift; norm_num
  have few' : (sampled interval tiles : ℚ) ≤ 250000 := by exact_mod_cast few
  have L : Limits lo hi la ha := ⟨r0, r1, g0, g1, b0, b1⟩
  have z : IsFloat 24 (-149) 0 := ⟨0, 0, by norm_num, by norm_num, by norm_num⟩
  have m0 : ∀ l h : ℚ, Mean l h ((0 : ℕ) * drift) 0 0 := fun l h => ⟨z, le_rfl, by norm_num, fun q => absurd q (lt_irrefl _)⟩
  have w0 : ∀ k : ℕ, Window k 0 0 := fun k => ⟨le_rfl, by simp, by simp⟩
  obtain ⟨acc, e, h⟩ := total_holds L hi0 (N := sampled interval tiles) (by unfold drift; linarith) tiles 0 ⟨0, 0, 0, 0, 0⟩ hv (by omega)
    ⟨z, .inl rfl, .inl rfl, ⟨0, 0, w0 _, w0 _, by simp, by simp, by simp⟩, fun q => absurd q (lt_irrefl _), m0 _ _, m0 _ _, m0 _ _⟩
  rw [Nat.zero_add] at h
  generalize sampled interval tiles = k at *
  have hw := h.started some
  obtain ⟨W, A, k1, k2, k3, k4, k5⟩ := h.sums
  have hW : 0 < W := k1.pos_iff.1 hw
  have kd : (0 : ℚ) ≤ k * drift := by positivity
  have win : Window (2 * k + 4) (rnd (acc.a / acc.w)) (A / W) := by
    have := (k2.div k1 hW).rnd ?_
    · rwa [show k + 2 + (k + 1) + 1 = 2 * k + 4 by ring] at this
    · rcases h.asize with q | q
      · left; rw [q, zero_div]
      · right
        rw [le_div_iff₀ hw]
        have wl : acc.w ≤ 2 ^ (30 : ℤ) := by
          have b := loss_bernoulli (k + 1)
          have : ((k + 1 : ℕ) : ℚ) ≤ 250001 := by push_cast; linarith
          have : (1 / 2 : ℚ) ≤ loss ^ (k + 1) := by refine le_trans ?_ b; linarith
          have g := k1.high
          have : acc.w * (1 / 2) ≤ acc.w * loss ^ (k + 1) := mul_le_mul_of_nonneg_left this hw.le
          norm_num
          linarith
        calc (2 : ℚ) ^ (-126 : ℤ) * acc.w ≤ 2 ^ (-126 : ℤ) * 2 ^ (30 : ℤ) := mul_le_mul_of_nonneg_left wl (by positivity)
          _ ≤ 2 ^ (-30 : ℤ) := by
            rw [← zpow_add₀ (by norm_num)]
            exact zpow_le_zpow_right₀ (by norm_num) (by norm_num)
          _ ≤ _ := q
  have near := win.clamp (by omega)
  have q0 : la ≤ A / W := by rw [le_div_iff₀ hW]; exact k3
  have q1 : A / W ≤ ha := by rw [div_le_iff₀ hW]; exact k4
  rw [show Mask.clampK (A / W) 0 1 = A / W by
    unfold Mask.clampK
    rw [if_neg (by linarith), if_neg (by linarith)], abs_le] at near
  have same : ∀ {x : ℚ}, IsFloat 24 (-149) x → rnd (x / 1) = x := fun hx => by
    rw [div_one]; exact round_of_isFloat 24 (-149) (by norm_num) hx
  unfold pick total
  rw [e]
  simp only [bind, Except.bind]
  unfold finish
  rw [if_neg (not_not.mpr hw)]
  simp only [if_neg (lt_irrefl (0 : ℚ))]
  rw [same h.r.float, same h.g.float, same h.b.float]
  have alpha : la - opacityError k ≤ Mask.clampK (rnd (acc.a / acc.w)) 0 1 ∧ Mask.clampK (rnd (acc.a / acc.w)) 0 1 ≤ ha + opacityError k := by
    unfold opacityError
    constructor <;> linarith [near.1, near.2]
  have pos : 0 < la → 0 < rnd (acc.a / acc.w) := fun q => win.pos_iff.2 (q.trans_le q0)
  by_cases hp : 0 < rnd (acc.a / acc.w)
  · rw [if_pos hp]
    have ap : 0 < acc.a := by
      have := win.pos_iff.1 hp
      rcases div_pos_iff.mp this with q | q
      · exact k2.pos_iff.2 q.1
      · linarith [q.2]
    refine ⟨_, rfl, alpha.1, alpha.2, fun _ => ?_, fun _ => ?_⟩
    · dsimp only
      unfold Mask.clampK
      split_ifs <;> linarith
    · have kr := h.r.mid ap
      have kg := h.g.mid ap
      have kb := h.b.mid ap
      exact ⟨clamp_between (by linarith) (by linarith) kd kr.1 kr.2, clamp_between (by linarith) (by linarith) kd kg.1 kg.2,
        clamp_between (by linarith) (by linarith) kd kb.1 kb.2⟩
  · rw [if_neg hp]
    have zero : Mask.clampK (rnd (acc.a / acc.w)) 0 1 = 0 := by
      unfold Mask.clampK
      have := win.nonneg'
      split_ifs <;> linarith
    refine ⟨_, rfl, alpha.1, alpha.2, fun q => absurd (pos q) hp, fun q => ?_⟩
    dsimp only at q
    rw [zero] at q
    exact absurd q (lt_irrefl _)

/-- **C100** From an area of one colour, that colour is picked, up to 4 parts in ten million per sampled pixel. -/
theorem uniform_area {p : Px} (ha : 0 < p.a) (h1 : p.a ≤ 32768) (hr : p.r ≤ p.a) (hg : p.g ≤ p.a) (hb : p.b ≤ p.a)
    {interval : Nat} (hi0 : 0 < interval) {tiles : List Visit} (hv : ∀ t ∈ tiles, ∀ v ∈ t.1, 1 ≤ v.1 ∧ v.1 ≤ 32768 ∧ v.2 = p)
    (some : 0 < sampled interval tiles) (few : sampled interval tiles ≤ 250000) :
    ∃ x, pick 0 interval tiles = .ok x ∧ |x.a - (p.a : ℚ) / 32768| ≤ opacityError (sampled interval tiles) ∧ 0 < x.a ∧
      |x.r - (p.r : ℚ) / p.a| ≤ sampled interval tiles * drift ∧ |x.g - (p.g : ℚ) / p.a| ≤ sampled interval tiles * drift ∧
      |x.b - (p.b : ℚ) / p.a| ≤ sampled interval tiles * drift := by
  have aq : (0 : ℚ) < p.a := by exact_mod_cast ha
  have a1 : (p.a : ℚ) / 32768 ≤ 1 := by rw [div_le_iff₀ (by norm_num)]; exact_mod_cast (by omega : p.a ≤ 1 * 32768)
  have le : ∀ {n : ℕ}, n ≤ p.a → (n : ℚ) / p.a ≤ 1 := fun h => by rw [div_le_one aq]; exact_mod_cast h
  have box : InBox ⟨(p.r : ℚ) / p.a, (p.g : ℚ) / p.a, (p.b : ℚ) / p.a⟩ ⟨(p.r : ℚ) / p.a, (p.g : ℚ) / p.a, (p.b : ℚ) / p.a⟩
      ((p.a : ℚ) / 32768) ((p.a : ℚ) / 32768) p := by
    constructor <;> (try intro _) <;> (apply le_of_eq; field_simp)
  obtain ⟨x, e, l, h, pos, c⟩ := average_between (lo := ⟨(p.r : ℚ) / p.a, (p.g : ℚ) / p.a, (p.b : ℚ) / p.a⟩)
    (hi := ⟨(p.r : ℚ) / p.a, (p.g : ℚ) / p.a, (p.b : ℚ) / p.a⟩) (la := (p.a : ℚ) / 32768) (ha := (p.a : ℚ) / 32768)
    (by positivity) (by positivity) (by positivity) (le hr) (le hg) (le hb) le_rfl le_rfl le_rfl (by positivity) a1 hi0
    (tiles := tiles) (fun t ht v hv' => by obtain ⟨q1, q2, q3⟩ := hv t ht v hv'; exact ⟨q1, q2, q3 ▸ box⟩) some few
  have xa := pos (by positivity)
  obtain ⟨⟨c1, c2⟩, ⟨c3, c4⟩, c5, c6⟩ := c xa
  dsimp only at c1 c2 c3 c4 c5 c6
  refine ⟨x, e, abs_le.2 ⟨?_, ?_⟩, xa, abs_le.2 ⟨?_, ?_⟩, abs_le.2 ⟨?_, ?_⟩, abs_le.2 ⟨?_, ?_⟩⟩ <;> linarith

/-! ### Where it does not hold -/

/-- White, opaque. -/
def whitePixel : Px := ⟨32768, 32768, 32768, 32768⟩

/-- `n` white pixels in one tile, with the mask at full strength. -/
def whiteArea (n : Nat) : List Visit := [(List.replicate n (32768, whitePixel), fun _ => false)]

/-- With pigments the colour of a uniform area is not what is picked: twelve white pixels give a blue below 0.9991, while the
bound above would leave it above 0.99999. -/
theorem uniform_area_fails_with_pigments :
    ∃ x, pick 1 1 (whiteArea 12) = .ok x ∧ x.b < 9991 / 10000 ∧ sampled 1 (whiteArea 12) = 12 ∧ 99999 / 100000 < 1 - 12 * drift := by
  refine ⟨⟨4193337 / 128 / 32768, 16763899 / 512 / 32768, 16761727 / 512 / 32768, 1⟩, by decide +kernel, by norm_num, by decide +kernel,
    by unfold drift; norm_num⟩

/-! ### Cases that meet the hypotheses -/

namespace Demo

/-- A half-covered, half-transparent area in two tiles. -/
def area : List Visit :=
  [(List.replicate 3 (20000, ⟨1000, 2000, 3000, 7777⟩), fun _ => false), (List.replicate 2 (1, ⟨1000, 2000, 3000, 7777⟩), fun _ => true)]

example : 4 * area.length + 7 < 2 ^ 24 ∧ sampled 3 area = 3 ∧
    (∀ t ∈ area, ∀ v ∈ t.1, 1 ≤ v.1 ∧ v.1 ≤ 32768 ∧ v.2 = ⟨1000, 2000, 3000, 7777⟩) := by
  refine ⟨by decide, by decide, ?_⟩
  intro t ht v hv
  simp only [area, List.mem_cons, List.not_mem_nil, or_false] at ht
  rcases ht with rfl | rfl <;> (simp only [List.mem_replicate] at hv; obtain ⟨_, rfl⟩ := hv; exact ⟨by norm_num, by norm_num, rfl⟩)

/-- Legacy sampling of this area: what the machine gives is not exactly the colour. -/
example : ∃ x, pick (-1) 1 area = .ok x ∧ x.r ≠ 1000 / 7777 ∧ |x.r - 1000 / 7777| < 1 / 10000 := by
  refine ⟨⟨4312727 / 33554432, 4312727 / 16777216, 12945251 / 33554432, 15924403 / 67108864⟩, by decide +kernel, by norm_num, by norm_num⟩

end Demo

end Verif.FloatSample
