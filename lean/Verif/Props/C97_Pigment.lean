import Verif.Lemmas.FloatPaint
import Verif.Props.C16_Blend

/-!
# C97: painting with pigments in single precision

What a dab of pigment does to a pixel, with every rounding of the machine and with the approximate power function, compared with
the same formula in real numbers and with the true power function: alpha is the same, and each colour channel differs by at most
34 of 32768. The pixel stays premultiplied. Painting a colour over itself changes it by at most 40 of 32768 in one dab; but
the changes add up from dab to dab (`white_turns_red`).
-/

namespace Verif.FloatPaint
open Float32 FastPow Blend Spectral

theorem exactDot_bound (w : (Int × Int × Int) → ℝ) : ∀ (ns : List Int) (l : List (Int × Int × Int)) (u : ℝ),
    (∀ s ∈ l, 0 ≤ w s ∧ w s ≤ top s) → |exactDot u ns (l.map w)| ≤ |u| + weight ns l
  | [], l, u, _ => by simp [exactDot, weight]
  | n :: ns, [], u, _ => by simp [exactDot, weight]
  | n :: ns, s :: l, u, h => by
    have ih := exactDot_bound w ns l (u + (n : ℝ) / 10 ^ 15 * w s) fun x hx => h x (by simp [hx])
    obtain ⟨w0, w1⟩ := h s (by simp)
    simp only [exactDot, weight, List.map]
    push_cast
    have a := abs_add_le u ((n : ℝ) / 10 ^ 15 * w s)
    rw [abs_mul, abs_of_nonneg w0] at a
    have b : |(n : ℝ) / 10 ^ 15| * w s ≤ |(n : ℝ) / 10 ^ 15| * top s := mul_le_mul_of_nonneg_left w1 (abs_nonneg _)
    linarith

theorem weights : weight (tMatrix.map (·.1)) primaries ≤ 19948 / 10000 ∧ weight (tMatrix.map (·.2.1)) primaries ≤ 19948 / 10000 ∧
    weight (tMatrix.map (·.2.2)) primaries ≤ 19948 / 10000 := by
  refine ⟨?_, ?_, ?_⟩ <;> decide +kernel

/-- One component of the colour of a mixture. -/
theorem component_near {w : (Int × Int × Int) → ℝ} (hw : ∀ s ∈ primaries, 0 ≤ w s ∧ w s ≤ top s) {sp : List ℚ}
    (hsp : List.Forall₂ (fun s (r : ℚ) => |(r : ℝ) - w s| ≤ w s / 1960) primaries sp) {ns : List Int}
    (hn : ∀ n ∈ ns, GoodCoefficient n) (hW : weight ns primaries ≤ 19948 / 10000) :
    |(unlift (dot (ns.map con) sp) : ℝ) - Mask.clampK ((exactDot 0 ns (primaries.map w) - 1 / 1000) / (1 - 1 / 1000)) 0 1| ≤
      10232 / 10 ^ 7 := by
  have hW' : (weight ns primaries : ℝ) ≤ 19948 / 10000 := by
    have := (Rat.cast_le (K := ℝ)).2 hW
    push_cast at this; exact this
  have W0 : (0 : ℝ) ≤ weight ns primaries := by exact_mod_cast weight_nonneg ns primaries tables_good
  have ln : ((primaries.length : ℕ) : ℝ) = 10 := by norm_num [primaries]
  have k := dotFrom_near w ns primaries sp 0 0 hn tables_good hw hsp (by rw [ln]; push_cast; norm_num; linarith)
  rw [ln] at k
  push_cast at k
  rw [sub_zero, abs_zero, zero_add] at k
  have b := exactDot_bound w ns primaries 0 hw
  rw [abs_zero, zero_add] at b
  have d : dot (ns.map con) sp = dotFrom 0 ns sp := dot_eq ns sp 0
  rw [d]
  have kk : |(dotFrom 0 ns sp : ℝ) - exactDot 0 ns (primaries.map w)| ≤ 102138 / 10 ^ 8 := by linarith
  have t4 : |dotFrom 0 ns sp| ≤ 4 := by
    have : |(dotFrom 0 ns sp : ℝ)| ≤ 4 := by
      have := abs_sub_abs_le_abs_sub (dotFrom 0 ns sp : ℝ) (exactDot 0 ns (primaries.map w))
      linarith
    exact_mod_cast this
  exact (unlift_near t4 kk).trans (by norm_num)

/-- The weights of a dab. -/
theorem weights_ok {n d : Nat} (h : n ≤ d) (hd : 0 < d) :
    Weights ((n : ℚ) / d) (rnd ((n : ℚ) / d)) (rnd (rnd64 (1 - rnd ((n : ℚ) / d)))) := by
  have f0 : (0 : ℚ) ≤ (n : ℚ) / d := by positivity
  have f1 : (n : ℚ) / d ≤ 1 := by
    rw [div_le_one (by exact_mod_cast hd)]; exact_mod_cast h
  generalize (n : ℚ) / d = f at *
  have z : IsFloat 24 (-149) 0 := ⟨0, 0, by norm_num, by norm_num, by simp⟩
  have o : IsFloat 24 (-149) 1 := ⟨1, 0, by norm_num, by norm_num, by simp⟩
  have z64 : IsFloat 53 (-1074) 0 := ⟨0, 0, by norm_num, by norm_num, by simp⟩
  have o64 : IsFloat 53 (-1074) 1 := ⟨1, 0, by norm_num, by norm_num, by simp⟩
  have a0 : 0 ≤ rnd f := le_round 24 (-149) (by norm_num) z f0
  have a1 : rnd f ≤ 1 := round_le 24 (-149) (by norm_num) o f1
  have na := rnd_near (x := f) (B := 1) (by rw [abs_of_nonneg f0]; exact f1) (by norm_num)
  generalize rnd f = fa at *
  have c0 : 0 ≤ rnd64 (1 - fa) := le_round 53 (-1074) (by norm_num) z64 (by linarith)
  have c1 : rnd64 (1 - fa) ≤ 1 := round_le 53 (-1074) (by norm_num) o64 (by linarith)
  have nc := rnd64_near (x := 1 - fa) (B := 1) (by rw [abs_of_nonneg (by linarith)]; linarith) (by norm_num)
  generalize rnd64 (1 - fa) = c at *
  have nb := rnd_near (x := c) (B := 1) (by rw [abs_of_nonneg c0]; exact c1) (by norm_num)
  refine ⟨f0, f1, a0, a1, le_round 24 (-149) (by norm_num) z c0, round_le 24 (-149) (by norm_num) o c1, ?_, ?_⟩
  · exact na.trans (by norm_num)
  · rw [abs_le] at na nb nc ⊢
    constructor <;> linarith [na.1, na.2, nb.1, nb.2, nc.1, nc.2]

/-- The power function of real numbers. -/
noncomputable def power (x y : ℝ) : ℝ := x ^ y

theorem spectrum_eq (r g b : ℚ) : rgbToSpectral (⟨(r : ℝ), g, b⟩ : Rgb ℝ) = primaries.map fun s => ((exactBand s ⟨r, g, b⟩ : ℚ) : ℝ) := by
  unfold rgbToSpectral
  refine List.map_congr_left fun s _ => ?_
  simp only [exactBand, up, dec, eps]
  push_cast
  norm_num

/-- The colour of the mixture in real numbers. -/
noncomputable def ideal (c : Color) (p : Px) (f : ℝ) : Rgb ℝ :=
  spectralToRgb (wgm power (brushSpectrum c) (pixelSpectrum p) f (1 - f))

def brushRgb (c : Color) : Rgb ℚ := ⟨(c.r : ℚ) / 32768, (c.g : ℚ) / 32768, (c.b : ℚ) / 32768⟩
def pixelRgb (p : Px) : Rgb ℚ := ⟨(p.r : ℚ) / p.a, (p.g : ℚ) / p.a, (p.b : ℚ) / p.a⟩

theorem wgm_eq (c : Color) (p : Px) (f : ℚ) : wgm power (brushSpectrum c) (pixelSpectrum p) (f : ℝ) (1 - f) =
    primaries.map fun s => exactMix s (brushRgb c) (pixelRgb p) f := by
  have e1 : brushSpectrum (K := ℝ) c = primaries.map fun s => ((exactBand s (brushRgb c) : ℚ) : ℝ) := by
    rw [show brushRgb c = ⟨(c.r : ℚ) / 32768, (c.g : ℚ) / 32768, (c.b : ℚ) / 32768⟩ from rfl, ← spectrum_eq]
    unfold brushSpectrum frac
    push_cast; rfl
  have e2 : pixelSpectrum (K := ℝ) p = primaries.map fun s => ((exactBand s (pixelRgb p) : ℚ) : ℝ) := by
    rw [show pixelRgb p = ⟨(p.r : ℚ) / p.a, (p.g : ℚ) / p.a, (p.b : ℚ) / p.a⟩ from rfl, ← spectrum_eq]
    unfold pixelSpectrum
    push_cast; rfl
  rw [e1, e2]
  unfold wgm
  rw [List.zipWith_map, List.zipWith_self]
  rfl

theorem ideal_eq (c : Color) (p : Px) (f : ℚ) :
    let S := primaries.map fun s => exactMix s (brushRgb c) (pixelRgb p) f
    ideal c p f = ⟨Mask.clampK ((exactDot 0 (tMatrix.map (·.1)) S - 1 / 1000) / (1 - 1 / 1000)) 0 1,
      Mask.clampK ((exactDot 0 (tMatrix.map (·.2.1)) S - 1 / 1000) / (1 - 1 / 1000)) 0 1,
      Mask.clampK ((exactDot 0 (tMatrix.map (·.2.2)) S - 1 / 1000) / (1 - 1 / 1000)) 0 1⟩ := by
  intro S
  unfold ideal
  rw [wgm_eq]
  unfold spectralToRgb
  simp only [sums_eq, eps]
  rfl

theorem unit_div {n a : Nat} (h : n ≤ a) : (0 : ℚ) ≤ (n : ℚ) / a ∧ (n : ℚ) / a ≤ 1 :=
  ⟨by positivity, div_le_one_of_le₀ (by exact_mod_cast h) (by positivity)⟩

theorem columns_good : (∀ n ∈ tMatrix.map (·.1), GoodCoefficient n) ∧ (∀ n ∈ tMatrix.map (·.2.1), GoodCoefficient n) ∧
    ∀ n ∈ tMatrix.map (·.2.2), GoodCoefficient n := by
  simp only [List.forall_mem_map]
  exact ⟨fun t ht => (matrix_good t ht).1, fun t ht => (matrix_good t ht).2.1, fun t ht => (matrix_good t ht).2.2⟩

/-- The colour of a mixture. -/
theorem toRgb_near {w : (Int × Int × Int) → ℝ} (hw : ∀ s ∈ primaries, 0 ≤ w s ∧ w s ≤ top s) {sp : List ℚ}
    (hsp : List.Forall₂ (fun s (r : ℚ) => |(r : ℝ) - w s| ≤ w s / 1960) primaries sp) :
    |((toRgb sp).r : ℝ) - Mask.clampK ((exactDot 0 (tMatrix.map (·.1)) (primaries.map w) - 1 / 1000) / (1 - 1 / 1000)) 0 1| ≤ 10232 / 10 ^ 7 ∧
    |((toRgb sp).g : ℝ) - Mask.clampK ((exactDot 0 (tMatrix.map (·.2.1)) (primaries.map w) - 1 / 1000) / (1 - 1 / 1000)) 0 1| ≤ 10232 / 10 ^ 7 ∧
    |((toRgb sp).b : ℝ) - Mask.clampK ((exactDot 0 (tMatrix.map (·.2.2)) (primaries.map w) - 1 / 1000) / (1 - 1 / 1000)) 0 1| ≤ 10232 / 10 ^ 7 := by
  obtain ⟨w1, w2, w3⟩ := weights
  obtain ⟨g1, g2, g3⟩ := columns_good
  have c1 := component_near hw hsp g1 w1
  have c2 := component_near hw hsp g2 w2
  have c3 := component_near hw hsp g3 w3
  rw [List.map_map] at c1 c2 c3
  exact ⟨c1, c2, c3⟩

theorem toChannel_close {a : Nat} (ha : a ≤ 32768) {x : ℚ} {X : ℝ} (x0 : 0 ≤ x) (x1 : x ≤ 1) (hx : |(x : ℝ) - X| ≤ 10232 / 10 ^ 7) :
    ∃ m, toChannel x a = .ok m ∧ m ≤ a ∧ |(m : ℝ) - X * a| ≤ 341 / 10 := by
  obtain ⟨m, e, n1, n2⟩ := toChannel_near x0 x1 ha
  refine ⟨m, e, n2, ?_⟩
  have ar : (a : ℝ) ≤ 32768 := by exact_mod_cast ha
  have a0 : (0 : ℝ) ≤ a := Nat.cast_nonneg a
  have : |(x : ℝ) * a - X * a| ≤ 10232 / 10 ^ 7 * 32768 := by
    rw [← sub_mul, abs_mul, abs_of_nonneg a0]
    exact mul_le_mul hx ar a0 (by norm_num)
  rw [abs_le] at this n1 ⊢
  constructor <;> linarith [this.1, this.2, n1.1, n1.2]

theorem toRgb_range (sp : List ℚ) : (0 ≤ (toRgb sp).r ∧ (toRgb sp).r ≤ 1) ∧ (0 ≤ (toRgb sp).g ∧ (toRgb sp).g ≤ 1) ∧
    (0 ≤ (toRgb sp).b ∧ (toRgb sp).b ≤ 1) := ⟨unlift_range _, unlift_range _, unlift_range _⟩

theorem mixPixel_of {c : Color} {p : Px} {n d a r g b : Nat} {sp : List ℚ}
    (h : mixSpectra (toSpectrum ⟨rnd ((c.r : ℚ) / 32768), rnd ((c.g : ℚ) / 32768), rnd ((c.b : ℚ) / 32768)⟩)
      (toSpectrum ⟨rnd ((p.r : ℚ) / p.a), rnd ((p.g : ℚ) / p.a), rnd ((p.b : ℚ) / p.a)⟩)
      (rnd ((n : ℚ) / d)) (rnd (rnd64 (1 - rnd ((n : ℚ) / d)))) = .ok sp)
    (hr : toChannel (toRgb sp).r a = .ok r) (hg : toChannel (toRgb sp).g a = .ok g) (hb : toChannel (toRgb sp).b a = .ok b) :
    mixPixel c p n d a = .ok ⟨r, g, b, a⟩ := by
  unfold mixPixel
  simp only [h, bind, Except.bind, hr, hg, hb, pure, Except.pure]

theorem brush_unit {c : Color} (hc : c.Valid) : Unit (brushRgb c) := by
  have h : c.r ≤ 32768 ∧ c.g ≤ 32768 ∧ c.b ≤ 32768 := hc
  have k : ∀ {m : Nat}, m ≤ 32768 → (0 : ℚ) ≤ (m : ℚ) / 32768 ∧ (m : ℚ) / 32768 ≤ 1 := by
    intro m hm
    have := unit_div hm
    push_cast at this; exact this
  exact ⟨k h.1, k h.2.1, k h.2.2⟩

/-- The mixture as computed. -/
theorem mixPixel_near {c : Color} {p : Px} {n d a : Nat} (hc : c.Valid) (hp : p.Valid) (hn : n ≤ d) (hd : 0 < d) (ha : a ≤ 32768) :
    ∃ q, mixPixel c p n d a = .ok q ∧ q.a = a ∧ (q.r ≤ a ∧ q.g ≤ a ∧ q.b ≤ a) ∧
      |(q.r : ℝ) - (ideal c p ((n : ℝ) / d)).r * a| ≤ 341 / 10 ∧ |(q.g : ℝ) - (ideal c p ((n : ℝ) / d)).g * a| ≤ 341 / 10 ∧
      |(q.b : ℝ) - (ideal c p ((n : ℝ) / d)).b * a| ≤ 341 / 10 := by
  have uc := brush_unit hc
  have upx : Unit (pixelRgb p) := ⟨unit_div hp.1, unit_div hp.2.1, unit_div hp.2.2.1⟩
  have W := weights_ok hn hd
  obtain ⟨sp, hsp, near⟩ := mixSpectra_near uc upx W primaries tables_good
  have rng : ∀ s ∈ primaries, 0 ≤ exactMix s (brushRgb c) (pixelRgb p) ((n : ℚ) / d) ∧
      exactMix s (brushRgb c) (pixelRgb p) ((n : ℚ) / d) ≤ top s :=
    fun s hs => exactMix_range (tables_good s hs) uc upx W.f0 W.f1
  obtain ⟨c1, c2, c3⟩ := toRgb_near rng near
  have ide := ideal_eq c p ((n : ℚ) / d)
  rw [show ((n : ℝ) / d) = (((n : ℚ) / d : ℚ) : ℝ) by push_cast; rfl, ide]
  obtain ⟨r1, r2, r3⟩ := toRgb_range sp
  obtain ⟨r, er, lr, nr⟩ := toChannel_close ha r1.1 r1.2 c1
  obtain ⟨gg, eg, lg, ng⟩ := toChannel_close ha r2.1 r2.2 c2
  obtain ⟨b, eb, lb, nb⟩ := toChannel_close ha r3.1 r3.2 c3
  exact ⟨⟨r, gg, b, a⟩, mixPixel_of hsp er eg eb, rfl, ⟨lr, lg, lb⟩, nr, ng, nb⟩

/-- Two pixels with the same alpha whose channels differ by at most 34. -/
structure Close (q q' : Px) : Prop where
  a : q.a = q'.a
  r : |(q.r : ℤ) - q'.r| ≤ 34
  g : |(q.g : ℤ) - q'.g| ≤ 34
  b : |(q.b : ℤ) - q'.b| ≤ 34

theorem close_channel {q : Nat} {x : ℝ} (h : |(q : ℝ) - x| ≤ 341 / 10) (h0 : 0 ≤ x) : |(q : ℤ) - (toUInt (x + 1 / 2) : ℤ)| ≤ 34 := by
  unfold toUInt
  have f0 : 0 ≤ ⌊x + 1 / 2⌋ := Int.floor_nonneg.2 (by linarith)
  have g1 := Int.floor_le (x + 1 / 2)
  have g2 := Int.lt_floor_add_one (x + 1 / 2)
  rw [Int.toNat_of_nonneg f0]
  generalize ⌊x + 1 / 2⌋ = k at *
  rw [abs_le] at h
  have a : ((q : ℤ) - k : ℝ) < 35 := by push_cast; linarith [h.2]
  have b : (-35 : ℝ) < ((q : ℤ) - k : ℝ) := by push_cast; linarith [h.1]
  have a' : (q : ℤ) - k < 35 := by exact_mod_cast a
  have b' : -35 < (q : ℤ) - k := by exact_mod_cast b
  rw [abs_le]; constructor <;> omega

theorem ideal_nonneg (c : Color) (p : Px) (f : ℝ) : 0 ≤ (ideal c p f).r ∧ 0 ≤ (ideal c p f).g ∧ 0 ≤ (ideal c p f).b := by
  obtain ⟨h1, h2, h3⟩ := spectralToRgb_unit (wgm power (brushSpectrum c) (pixelSpectrum p) f (1 - f))
  exact ⟨h1.1, h2.1, h3.1⟩

theorem mixPixel_close {c : Color} {p : Px} {n d a : Nat} (hc : c.Valid) (hp : p.Valid) (hn : n ≤ d) (hd : 0 < d) (ha : a ≤ 32768) :
    ∃ q, mixPixel c p n d a = .ok q ∧ q.Valid ∧ Close q
      { r := toUInt ((ideal c p ((n : ℝ) / d)).r * (a : ℝ) + 1 / 2), g := toUInt ((ideal c p ((n : ℝ) / d)).g * (a : ℝ) + 1 / 2)
        b := toUInt ((ideal c p ((n : ℝ) / d)).b * (a : ℝ) + 1 / 2), a := a } := by
  obtain ⟨q, e, qa, ⟨l1, l2, l3⟩, n1, n2, n3⟩ := mixPixel_near hc hp hn hd ha
  obtain ⟨i1, i2, i3⟩ := ideal_nonneg c p ((n : ℝ) / d)
  have a0 : (0 : ℝ) ≤ a := Nat.cast_nonneg a
  exact ⟨q, e, ⟨by rw [qa]; exact l1, by rw [qa]; exact l2, by rw [qa]; exact l3, by rw [qa]; exact ha⟩,
    qa, close_channel n1 (mul_nonneg i1 a0), close_channel n2 (mul_nonneg i2 a0), close_channel n3 (mul_nonneg i3 a0)⟩

/-- A dab of pigment on a pixel, as the machine computes it: it is defined, the pixel stays premultiplied, and the result is within
34 of 32768 of the result with real numbers. -/
theorem pigment_accurate {c : Color} {o m : Nat} {p : Px} (hm : m ≤ 32768) (ho : o ≤ 32768) (hc : c.Valid) (hp : p.Valid) :
    ∃ q q', FloatPaint.normalPaint c o m p = .ok q ∧ Spectral.normalPaint power c o m p = .ok q' ∧ q.Valid ∧ Close q q' := by
  have hO := minOpacity_le ho
  have hv := (normal_valid hm hO hc hp)
  unfold FloatPaint.normalPaint Spectral.normalPaint
  simp only
  by_cases h0 : p.a = 0
  · simp only [h0, if_true]
    exact ⟨_, _, rfl, rfl, hv, rfl, by simp, by simp, by simp⟩
  simp only [h0, if_false]
  have hA := topAlpha_le hm hO
  have hB := bottomAlpha_eq hA
  have hna : (normal c (minOpacity o) m p).a = u16 (overAlpha (topAlpha m (minOpacity o)) (bottomAlpha (topAlpha m (minOpacity o))) p.a) := by
    unfold normal; rfl
  have ha := hv.2.2.2
  rw [hna] at ha
  generalize hAe : topAlpha m (minOpacity o) = A at hA hB ha ⊢
  obtain ⟨b1, b2, b3, b4⟩ := hp.bounds
  have hmul := Nat.mul_le_mul_left (32768 - A) b4
  have e : u32 (A + u32 (bottomAlpha A * p.a) / 32768) = A + (32768 - A) * p.a / 32768 := by
    rw [hB]
    unfold u32
    rw [Nat.mod_eq_of_lt (a := (32768 - A) * p.a) (by omega), Nat.mod_eq_of_lt (a := A + _) (by omega)]
  have hden : A + (32768 - A) * p.a / 32768 ≠ 0 := by
    by_cases hA0 : A = 0
    · subst hA0; simp; omega
    · omega
  rw [e]
  simp only [hden, if_false]
  obtain ⟨q, eq, v, cl⟩ := mixPixel_close (n := A) hc hp (Nat.le_add_right A ((32768 - A) * p.a / 32768)) (Nat.pos_of_ne_zero hden) ha
  exact ⟨q, _, eq, rfl, v, cl⟩

/-- The same with alpha locked, where the division of zero by zero on almost transparent pixels happens on the machine exactly
where it happens in the formula. -/
theorem locked_pigment_accurate {c : Color} {o m : Nat} {p : Px} (hm : m ≤ 32768) (ho : o ≤ 32768) (hc : c.Valid) (hp : p.Valid) :
    if p.a = 1 ∧ 0 < m * max o 150 / 32768 ∧ m * max o 150 / 32768 < 32768 then
      FloatPaint.lockAlphaPaint c o m p = .error .floatConv
    else ∃ q q', FloatPaint.lockAlphaPaint c o m p = .ok q ∧ Spectral.lockAlphaPaint power c o m p = .ok q' ∧ q.Valid ∧
      q.a = p.a ∧ Close q q' := by
  have out := lockAlphaPaint_outcome power hm ho hc hp
  have hO := minOpacity_le ho
  have hv := lockAlpha_valid hm hO hc hp
  have hA := topAlpha_le hm hO
  have hB := bottomAlpha_eq hA
  unfold FloatPaint.lockAlphaPaint
  unfold Spectral.lockAlphaPaint at out ⊢
  simp only at out ⊢
  by_cases h0 : p.a = 0
  · simp only [h0, if_true, show ¬ ((0 : Nat) = 1) by decide, false_and, if_false]
    exact ⟨_, _, rfl, rfl, hv, h0, rfl, by simp, by simp, by simp⟩
  simp only [h0, if_false] at out ⊢
  generalize topAlpha m (minOpacity o) = A at hA hB out ⊢
  obtain ⟨b1, b2, b3, b4⟩ := hp.bounds
  by_cases hd : u32 (u32 (A * p.a) / 32768 + u32 (bottomAlpha A * p.a) / 32768) = 0
  · simp only [hd, if_true] at out ⊢
    split_ifs at out ⊢ with hbad
    obtain ⟨q, h, _⟩ := out
    exact absurd h (by simp)
  · simp only [hd, if_false] at out ⊢
    split_ifs at out ⊢ with hbad
    have hmul := Nat.mul_le_mul_left (32768 - A) b4
    have hmul' := Nat.mul_le_mul_left A b4
    have le : u32 (A * p.a) / 32768 ≤ u32 (u32 (A * p.a) / 32768 + u32 (bottomAlpha A * p.a) / 32768) := by
      rw [hB]
      unfold u32
      rw [Nat.mod_eq_of_lt (a := (32768 - A) * p.a) (by omega), Nat.mod_eq_of_lt (a := A * p.a) (by omega),
        Nat.mod_eq_of_lt (a := _ + _) (by omega)]
      omega
    obtain ⟨q, eq, v, cl⟩ := mixPixel_close hc hp le (Nat.pos_of_ne_zero hd) b4
    exact ⟨q, _, eq, rfl, v, cl.a, cl⟩

/-! ## A colour over itself -/

theorem exactMix_self {s : Int × Int × Int} (hs : Good s) {a : Rgb ℚ} (ha : Unit a) (f : ℚ) :
    exactMix s a a f = ((exactBand s a : ℚ) : ℝ) := by
  have h : (0 : ℝ) < ((exactBand s a : ℚ) : ℝ) := by
    have := (exactBand_range hs ha).1
    exact_mod_cast lt_of_lt_of_le (by norm_num) this
  unfold exactMix
  rw [← Real.rpow_add h]
  simp

/-- Converting a colour to a spectrum and back is not quite the identity. -/
theorem there_and_back {a : Rgb ℚ} (ha : Unit a) :
    |exactDot 0 (tMatrix.map (·.1)) (primaries.map fun s => ((exactBand s a : ℚ) : ℝ)) - up a.r| ≤ 192 / 10 ^ 6 ∧
    |exactDot 0 (tMatrix.map (·.2.1)) (primaries.map fun s => ((exactBand s a : ℚ) : ℝ)) - up a.g| ≤ 192 / 10 ^ 6 ∧
    |exactDot 0 (tMatrix.map (·.2.2)) (primaries.map fun s => ((exactBand s a : ℚ) : ℝ)) - up a.b| ≤ 192 / 10 ^ 6 := by
  obtain ⟨⟨r0, r1⟩, ⟨g0, g1⟩, b0, b1⟩ := ha
  have R0 : (0 : ℝ) ≤ a.r := by exact_mod_cast r0
  have R1 : (a.r : ℝ) ≤ 1 := by exact_mod_cast r1
  have G0 : (0 : ℝ) ≤ a.g := by exact_mod_cast g0
  have G1 : (a.g : ℝ) ≤ 1 := by exact_mod_cast g1
  have B0 : (0 : ℝ) ≤ a.b := by exact_mod_cast b0
  have B1 : (a.b : ℝ) ≤ 1 := by exact_mod_cast b1
  simp only [exactDot, tMatrix, primaries, List.map, exactBand, up]
  push_cast
  generalize (a.r : ℝ) = r at *
  generalize (a.g : ℝ) = g at *
  generalize (a.b : ℝ) = b at *
  refine ⟨?_, ?_, ?_⟩ <;> rw [abs_le] <;> constructor <;> linarith

/-- An opaque pixel of the colour of the brush. -/
def opaquePixel (c : Color) : Px := { r := c.r, g := c.g, b := c.b, a := 32768 }

theorem back_channel {n : Nat} (hn : n ≤ 32768) {x : ℝ} (h : |x - ((up ((n : ℚ) / 32768) : ℚ) : ℝ)| ≤ 192 / 10 ^ 6) :
    |Mask.clampK ((x - 1 / 1000) / (1 - 1 / 1000)) 0 1 * (32768 : ℕ) - n| ≤ 63 / 10 := by
  have n0 : (0 : ℝ) ≤ n := Nat.cast_nonneg n
  have n1 : (n : ℝ) ≤ 32768 := by exact_mod_cast hn
  unfold up at h
  push_cast at h
  have k : |(x - 1 / 1000) / (1 - 1 / 1000) - (n : ℝ) / 32768| ≤ 1922 / 10 ^ 7 := by
    have e : (x - 1 / 1000) / (1 - 1 / 1000) - (n : ℝ) / 32768 = (x - ((n : ℝ) / 32768 * (1 - 1 / 1000) + 1 / 1000)) * (1000 / 999) := by
      ring
    rw [e, abs_mul, abs_of_pos (show (0 : ℝ) < 1000 / 999 by norm_num)]
    linarith
  have c := clamp_near k
  have cn : Mask.clampK ((n : ℝ) / 32768) 0 1 = (n : ℝ) / 32768 := by
    unfold Mask.clampK
    rw [if_neg (by rw [not_lt, div_le_one (by norm_num)]; exact n1), if_neg (by rw [not_lt]; positivity)]
  rw [cn] at c
  generalize Mask.clampK ((x - 1 / 1000) / (1 - 1 / 1000)) 0 1 = y at *
  rw [abs_le] at c ⊢
  push_cast
  constructor <;> linarith [c.1, c.2]

theorem ideal_self {c : Color} (hc : c.Valid) (f : ℚ) :
    |(ideal c (opaquePixel c) f).r * (32768 : ℕ) - c.r| ≤ 63 / 10 ∧ |(ideal c (opaquePixel c) f).g * (32768 : ℕ) - c.g| ≤ 63 / 10 ∧
    |(ideal c (opaquePixel c) f).b * (32768 : ℕ) - c.b| ≤ 63 / 10 := by
  have h : c.r ≤ 32768 ∧ c.g ≤ 32768 ∧ c.b ≤ 32768 := hc
  have u := brush_unit hc
  have e : pixelRgb (opaquePixel c) = brushRgb c := by
    unfold pixelRgb brushRgb opaquePixel
    push_cast; rfl
  have k := ideal_eq c (opaquePixel c) f
  rw [e, List.map_congr_left fun s hs => exactMix_self (tables_good s hs) u f] at k
  obtain ⟨t1, t2, t3⟩ := there_and_back u
  simp only at k
  rw [k]
  exact ⟨back_channel h.1 t1, back_channel h.2.1 t2, back_channel h.2.2 t3⟩

theorem self_channel {q n : Nat} {x : ℝ} (h1 : |(q : ℝ) - x| ≤ 341 / 10) (h2 : |x - n| ≤ 63 / 10) : |(q : ℤ) - n| ≤ 40 := by
  rw [abs_le] at h1 h2
  have a : ((q : ℤ) : ℝ) - (n : ℤ) < 41 := by push_cast; linarith [h1.2, h2.2]
  have b : (-41 : ℝ) < ((q : ℤ) : ℝ) - (n : ℤ) := by push_cast; linarith [h1.1, h2.1]
  have a' : (q : ℤ) - n < 41 := by exact_mod_cast a
  have b' : -41 < (q : ℤ) - n := by exact_mod_cast b
  rw [abs_le]; constructor <;> omega

/-- One dab of a colour over an opaque pixel of that colour: alpha stays, each channel moves by at most 40 of 32768. -/
theorem pigment_over_itself {c : Color} {o m : Nat} (hm : m ≤ 32768) (ho : o ≤ 32768) (hc : c.Valid) :
    ∃ q, FloatPaint.normalPaint c o m (opaquePixel c) = .ok q ∧ q.a = 32768 ∧
      |(q.r : ℤ) - c.r| ≤ 40 ∧ |(q.g : ℤ) - c.g| ≤ 40 ∧ |(q.b : ℤ) - c.b| ≤ 40 := by
  have hO := minOpacity_le ho
  have hp : (opaquePixel c).Valid := ⟨hc.1, hc.2.1, hc.2.2, le_refl _⟩
  have hA := topAlpha_le hm hO
  have hB := bottomAlpha_eq hA
  unfold FloatPaint.normalPaint
  simp only
  rw [if_neg (show (opaquePixel c).a ≠ 0 by simp [opaquePixel])]
  generalize topAlpha m (minOpacity o) = A at *
  have pa : (opaquePixel c).a = 32768 := rfl
  have d : u32 (A + u32 (bottomAlpha A * (opaquePixel c).a) / 32768) = 32768 := by
    rw [pa, hB]; unfold u32; omega
  have al : u16 (overAlpha A (bottomAlpha A) (opaquePixel c).a) = 32768 := by
    rw [pa, hB]; unfold u16 overAlpha u32; omega
  rw [d, al, if_neg (by norm_num)]
  obtain ⟨q, e, qa, -, n1, n2, n3⟩ := mixPixel_near (a := 32768) hc hp hA (by norm_num) (le_refl _)
  have k := ideal_self hc ((A : ℚ) / (32768 : ℕ))
  push_cast at k n1 n2 n3
  obtain ⟨k1, k2, k3⟩ := k
  exact ⟨q, e, qa, self_channel n1 k1, self_channel n2 k2, self_channel n3 k3⟩

/-! ## The errors add up -/

/-- The same dab on the same pixel, again and again. -/
def dabs (c : Color) (o m : Nat) : Nat → Px → Except Fault Px
  | 0, p => .ok p
  | n + 1, p => (normalPaint c o m p).bind (dabs c o m n)

def white : Color := { r := 32768, g := 32768, b := 32768 }

/-- Ten faint dabs of white over opaque white turn it reddish: green and blue lose more than a single dab may, and red stays.
Each dab rounds downwards, so the white darkens with every dab. -/
theorem white_turns_red :
    dabs white 150 32768 1 (opaquePixel white) = .ok { r := 32768, g := 32763, b := 32762, a := 32768 } ∧
    dabs white 150 32768 10 (opaquePixel white) = .ok { r := 32768, g := 32718, b := 32708, a := 32768 } := by
  constructor <;> decide +kernel

/-- So painting a colour over itself does not keep it, however faint the dab is. -/
theorem pigment_over_itself_unstable : ¬ ∀ (c : Color) (o m n : Nat), c.Valid → o ≤ 32768 → m ≤ 32768 →
    dabs c o m n (opaquePixel c) = .ok (opaquePixel c) := by
  intro h
  have := h white 150 32768 10 (by decide) (by decide) (by decide)
  rw [white_turns_red.2] at this
  exact absurd (Except.ok.inj this) (by decide)

/-- The hypotheses hold for a blue brush on a half transparent yellow pixel; the mixture is green. -/
example : ({ r := 1000, g := 4000, b := 30000 } : Color).Valid ∧ ({ r := 15000, g := 14000, b := 500, a := 16384 } : Px).Valid ∧
    FloatPaint.normalPaint { r := 1000, g := 4000, b := 30000 } 10000 32768 { r := 15000, g := 14000, b := 500, a := 16384 } =
      .ok { r := 3598, g := 8677, b := 4708, a := 21384 } :=
  ⟨by decide, by decide, by decide +kernel⟩

/-- The same with alpha locked. -/
example : FloatPaint.lockAlphaPaint { r := 1000, g := 4000, b := 30000 } 10000 32768 { r := 15000, g := 14000, b := 500, a := 16384 } =
    .ok { r := 5158, g := 8660, b := 2245, a := 16384 } := by decide +kernel

end Verif.FloatPaint
