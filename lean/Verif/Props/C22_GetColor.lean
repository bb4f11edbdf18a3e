import Verif.Lemmas.GetColor

/-!
# C22 and C23: what sampling a colour returns

`c` stands for the canvas on which every dab was applied at once (C06); `s` is the real surface, with
its queue, reached by any session of dabs, samplings and finished blocks. The mask is the one of a dab
with hardness and softness one half at the sampled position: `opacityAt (shape …) X Y`, a function of the
canvas position (C11). `order` is the order in which parallel workers get to add up their tiles and `coin`
the outcome of the random choices, both arbitrary.
-/

namespace Verif.Sample
open Verif.Blend Verif.Mask Verif.Spectral Verif.Dab

variable {K : Type} [Field K] [LinearOrder K] [IsStrictOrderedRing K] [FloorRing K]

/-! ## Specification -/

/-- Sum of `f` over the pixels of `S`, each multiplied with the weight `W`. -/
def weighted (W : Int × Int → Nat) (S : List (Int × Int)) (f : Int × Int → Nat) : K :=
  (S.map fun P => (W P : K) * (f P : K)).sum

/-- The weighted average of the pixels of `S`: alpha is the weighted mean of the alphas, the colour is the
weighted mean of the premultiplied colours divided by that of the alphas. If everything is transparent,
the code's own convention (bright green, alpha 0). -/
def average (W : Int × Int → Nat) (c : Canvas) (S : List (Int × Int)) : Result K :=
  if 0 < (weighted W S fun P => (px c P).a : K) then
    { r := weighted W S (fun P => (px c P).r) / weighted W S (fun P => (px c P).a)
      g := weighted W S (fun P => (px c P).g) / weighted W S (fun P => (px c P).a)
      b := weighted W S (fun P => (px c P).b) / weighted W S (fun P => (px c P).a)
      a := weighted W S (fun P => (px c P).a) / weighted W S (fun _ => 32768) }
  else { r := 0, g := 1, b := 0, a := 0 }

/-- Weight of a pixel when sampling at (x, y). -/
def weight (env : Env K) (x y radius : K) (P : Int × Int) : Nat :=
  opacityAt (shape x y radius env.rad1) P.1 P.2

/-- A sample of the pixels under the mask: at least one, none twice, none from outside. -/
structure SampleOf (W : Int × Int → Nat) (S : List (Int × Int)) : Prop where
  nodup : S.Nodup
  under : ∀ P ∈ S, W P ≠ 0
  some : S ≠ []

/-- The whole of the pixels under the mask. -/
def AllOf (W : Int × Int → Nat) (S : List (Int × Int)) : Prop := S.Nodup ∧ ∀ P, P ∈ S ↔ W P ≠ 0

/-- Where sampling is asked for: not absurdly far out. -/
structure InReach (x y : K) : Prop where
  x : |x| ≤ 68719476736 - 2
  y : |y| ≤ 68719476736 - 2

/-- Not absurdly far out, and not with a radius of 9362.28 or more (there the code divides by zero, see
`sampling_divides_by_zero`). -/
structure Reasonable (x y radius : K) : Prop extends InReach x y where
  radius : radius * 7 < 65536

/-- The value used for `sqrtf(1/M_PI)`, 0.564…, lies between these bounds. -/
structure EnvOk (env : Env K) : Prop where
  valid : env.Valid
  rad1 : env.rad1 ≤ 3 / 5

/-! ## Proofs -/

omit [LinearOrder K] [IsStrictOrderedRing K] [FloorRing K] in
theorem weighted_eq (W : Int × Int → Nat) (S : List (Int × Int)) (f : Int × Int → Nat) :
    (weighted W S f : K) = total S fun P => (W P : K) * (f P : K) := rfl

theorem px_spec {c : Canvas} (hc : CanvasValid c) (P : Int × Int) :
    pixel c P.1 P.2 = .ok (px c P) ∧ (px c P).Valid := by
  obtain ⟨p, hp, hv⟩ := hc P.1 P.2
  unfold px
  rw [hp]
  exact ⟨rfl, hv⟩

theorem present {c : Canvas} (hc : CanvasValid c) (ts : List TileIndex) : Present c ts := by
  intro t _
  obtain ⟨p, hp, _⟩ := hc (64 * t.x) (64 * t.y)
  have e : tileOfPixel (64 * t.x) (64 * t.y) = t := by
    unfold tileOfPixel
    obtain ⟨a, b⟩ := t
    simp
  unfold pixel at hp
  rw [e] at hp
  cases h : c t with
  | ok tile => exact ⟨tile, rfl⟩
  | error f => rw [h] at hp; cases hp

theorem clampK_of {v : K} (h0 : 0 ≤ v) (h1 : v ≤ 1) : clampK v 0 1 = v := by
  unfold clampK
  split_ifs with a b
  · exact absurd h1 (not_le.mpr a)
  · exact absurd h0 (not_le.mpr b)
  · rfl

theorem shape_radius_lt {x y radius rad1 : K} (h : radius * 7 < 65536) :
    (shape x y radius rad1).radius * 7 < 65536 := by
  unfold shape
  simp only
  split_ifs
  · norm_num
  · exact h

/-- What `get_color` does up to its last lines. -/
theorem getColor_steps {env : Env K} {x y radius : K} (hr : InReach x y)
    (hbig : (shape x y radius env.rad1).radius ≤ 10000) {n : Nat}
    (hn : interval (shape x y radius env.rad1).radius = .ok n)
    {b : Build} {s : Surf (Op K) (Except Fault Tile)} {st : Spec.OpQueue.St (Op K)} {c : Canvas}
    (hst : Surf.Stands b (kind env) s st c) (paint : K) (order : List TileIndex → List TileIndex)
    (coin : TileIndex → Nat → Bool) :
    ∃ s' st', Surf.Stands b (kind env) s' st' c ∧
      getColor env s x y radius paint order coin =
        (accumulateAll env.pow (shape x y radius env.rad1) paint n coin
          ((order (tilesFor x y (shape x y radius env.rad1).radius)).zip
            ((order (tilesFor x y (shape x y radius env.rad1).radius)).map c)) ⟨0, 0, 0, 0, 0⟩ >>= fun acc =>
          finish paint acc >>= fun res => .ok (res, s')) := by
  have hR := shape_radius x y radius env.rad1
  have hconv := convertible_of (x := x) (y := y) (radius := (shape x y radius env.rad1).radius)
    (by linarith) (by linarith) hr.x hr.y
  obtain ⟨s', st', hs, hst', _⟩ := Surf.stands_sample (order (tilesFor x y (shape x y radius env.rad1).radius))
    s st c hst
  refine ⟨s', st', hst', ?_⟩
  unfold getColor
  simp only [hconv, Bool.true_eq_false, if_false, hn, hs, bind, Except.bind]
  rfl

theorem getColor_unfold {env : Env K} {x y radius : K} (hr : Reasonable x y radius)
    {b : Build} {s : Surf (Op K) (Except Fault Tile)} {st : Spec.OpQueue.St (Op K)} {c : Canvas}
    (hst : Surf.Stands b (kind env) s st c) (paint : K) (order : List TileIndex → List TileIndex)
    (coin : TileIndex → Nat → Bool) :
    ∃ n s' st', n ≠ 0 ∧ ((shape x y radius env.rad1).radius ≤ 2 → n = 1) ∧ Surf.Stands b (kind env) s' st' c ∧
      getColor env s x y radius paint order coin =
        (accumulateAll env.pow (shape x y radius env.rad1) paint n coin
          ((order (tilesFor x y (shape x y radius env.rad1).radius)).zip
            ((order (tilesFor x y (shape x y radius env.rad1).radius)).map c)) ⟨0, 0, 0, 0, 0⟩ >>= fun acc =>
          finish paint acc >>= fun res => .ok (res, s')) := by
  have hR := shape_radius x y radius env.rad1
  have h7 : (shape x y radius env.rad1).radius * 7 < 65536 := shape_radius_lt hr.radius
  obtain ⟨n, hn, hn0, hn1⟩ := interval_pos (by linarith) h7
  obtain ⟨s', st', h1, h2⟩ := getColor_steps hr.toInReach (by linarith) hn hst paint order coin
  exact ⟨n, s', st', hn0, hn1, h1, h2⟩

/-- **C22, sampling with averaging (`paint` not negative).** After any session, sampling returns without
fault, does not disturb the surface, and the result is computed from a nonempty sample of the pixels under
the mask (all of them if the radius is at most 2): alpha is the weighted average of the alphas of these
pixels, and without pigment the whole result is their weighted average. -/
theorem getColor_average {env : Env K} (he : EnvOk env) {x y radius : K} (hr : Reasonable x y radius)
    {b : Build} {s : Surf (Op K) (Except Fault Tile)} {st : Spec.OpQueue.St (Op K)} {c : Canvas}
    (hst : Surf.Stands b (kind env) s st c) (hc : CanvasValid c) {paint : K} (hp : 0 ≤ paint)
    (order : List TileIndex → List TileIndex) (ho : ∀ l, (order l).Perm l) (coin : TileIndex → Nat → Bool) :
    ∃ S res s' st', SampleOf (weight env x y radius) S ∧ (radius ≤ 2 → AllOf (weight env x y radius) S) ∧
      getColor env s x y radius paint order coin = .ok (res, s') ∧ Surf.Stands b (kind env) s' st' c ∧
      res.a = (average (weight env x y radius) c S).a ∧
      (res.a = 0 → res = average (weight env x y radius) c S) ∧
      (paint = 0 → res = average (weight env x y radius) c S) := by
  obtain ⟨n, s', st', hn0, hn1, hst', hg⟩ := getColor_unfold hr hst paint order coin
  set sh := shape x y radius env.rad1 with hsh
  have hv : sh.Valid := shape_valid x y radius he.valid.rad1
  have hperm := ho (tilesFor x y sh.radius)
  obtain ⟨hnd, hmem⟩ := allVis hv (show (order (tilesFor x y sh.radius)).Perm (tilesFor sh.x sh.y sh.radius) from hperm)
  obtain ⟨S, acc, hacc, hsub, hall, hne, hw, ha, havg⟩ := accumulateAll_sampled hv env.pow hp hn0 coin c
    (order (tilesFor x y sh.radius)) (present hc _) ⟨0, 0, 0, 0, 0⟩
  have hcentre : (⌊x⌋, ⌊y⌋) ∈ (order (tilesFor x y sh.radius)).flatMap (vis sh) :=
    (hmem _).mpr (centre_visible x y radius he.valid.rad1 he.rad1)
  have hS : S ≠ [] := hne (List.ne_nil_of_mem hcentre)
  have hunder : ∀ P ∈ S, weight env x y radius P ≠ 0 := fun P hP => (hmem P).mp (hsub.subset hP)
  have hSample : SampleOf (weight env x y radius) S := ⟨hnd.sublist hsub, hunder, hS⟩
  -- the sums
  obtain ⟨P0, hP0⟩ := List.exists_mem_of_ne_nil S hS
  have hWpos : 0 < total S (fun P => (opacityAt sh P.1 P.2 : K)) :=
    total_pos S _ (fun P _ => Nat.cast_nonneg _) hP0 (Nat.cast_pos.mpr (Nat.pos_of_ne_zero (hunder P0 hP0)))
  simp only [zero_add, mul_zero] at hw ha havg
  have hAnn : 0 ≤ total S (wa sh c) := total_nonneg S _ fun P _ => mul_nonneg (Nat.cast_nonneg _) (Nat.cast_nonneg _)
  have hAle : total S (wa sh c) ≤ total S (fun P => (opacityAt sh P.1 P.2 : K) * 32768) := by
    apply total_le
    intro P _
    unfold wa
    have := (px_spec hc P).2.2.2.2
    exact mul_le_mul_of_nonneg_left (by exact_mod_cast this) (Nat.cast_nonneg _)
  have hAle' : total S (wa sh c) ≤ 32768 * total S (fun P => (opacityAt sh P.1 P.2 : K)) := by
    rw [← total_mul]
    refine hAle.trans (le_of_eq (total_congr _ _ _ fun P _ => by ring))
  have hAw : (weighted (weight env x y radius) S (fun P => (px c P).a) : K) = total S (wa sh c) := rfl
  have hWw : (weighted (weight env x y radius) S (fun _ => 32768) : K) =
      32768 * total S (fun P => (opacityAt sh P.1 P.2 : K)) := by
    rw [weighted_eq, ← total_mul]
    exact total_congr _ _ _ fun P _ => by push_cast; unfold weight; ring
  have hwpos : 0 < acc.w := by rw [hw]; positivity
  have hsa : acc.a / acc.w = total S (wa sh c) / (32768 * total S (fun P => (opacityAt sh P.1 P.2 : K))) := by
    rw [hw, ha]
    field_simp
    ring
  have hsa0 : 0 ≤ acc.a / acc.w := by rw [hsa]; positivity
  have hsa1 : acc.a / acc.w ≤ 1 := by
    rw [hsa, div_le_one (by positivity)]
    exact hAle'
  refine ⟨S, ?_⟩
  by_cases hz : 0 < total S (wa sh c)
  · have hsap : 0 < acc.a / acc.w := by rw [hsa]; positivity
    refine ⟨{ r := clampK acc.r 0 1, g := clampK acc.g 0 1, b := clampK acc.b 0 1, a := clampK (acc.a / acc.w) 0 1 },
      s', st', hSample, ?_, ?_, hst', ?_, ?_, ?_⟩
    · intro h2
      have : sh.radius ≤ 2 := by
        rw [hsh]; unfold shape; simp only; split_ifs
        · norm_num
        · exact h2
      rw [hall (hn1 this)]
      exact ⟨hnd, hmem⟩
    · rw [hg, hacc]
      simp only [bind, Except.bind]
      unfold finish
      simp only [not_true_eq_false, hwpos, if_false, hsap, if_true, not_lt.mpr hp, div_one]
    · unfold average
      rw [hAw, if_pos hz, clampK_of hsa0 hsa1]
      simp only [hWw, hsa]
    · intro h0
      exfalso
      simp only [clampK_of hsa0 hsa1] at h0
      rw [h0] at hsap
      exact lt_irrefl _ hsap
    · intro h0
      obtain ⟨m1, m2, m3⟩ := havg h0 (le_refl _) (fun P _ => (px_spec hc P).2)
      have hapos : acc.a ≠ 0 := by rw [ha]; positivity
      have chan : ∀ (v : K) (f : Int × Int → Nat), (∀ P, f P ≤ (px c P).a) →
          v * acc.a = total S (fun P => (opacityAt sh P.1 P.2 : K) * (f P : K)) / 1073741824 →
          clampK v 0 1 = total S (fun P => (opacityAt sh P.1 P.2 : K) * (f P : K)) / total S (wa sh c) := by
        intro v f hf hm
        have e : v = total S (fun P => (opacityAt sh P.1 P.2 : K) * (f P : K)) / total S (wa sh c) := by
          rw [ha] at hm
          field_simp at hm ⊢
          linarith
        have n0 : 0 ≤ total S (fun P => (opacityAt sh P.1 P.2 : K) * (f P : K)) :=
          total_nonneg S _ fun P _ => mul_nonneg (Nat.cast_nonneg _) (Nat.cast_nonneg _)
        have n1 : total S (fun P => (opacityAt sh P.1 P.2 : K) * (f P : K)) ≤ total S (wa sh c) := by
          apply total_le
          intro P _
          exact mul_le_mul_of_nonneg_left (by exact_mod_cast hf P) (Nat.cast_nonneg _)
        rw [← e, clampK_of]
        · rw [e]; positivity
        · rw [e, div_le_one hz]; exact n1
      unfold average
      rw [hAw, if_pos hz]
      simp only [hWw]
      rw [chan _ (fun P => (px c P).r) (fun P => (px_spec hc P).2.1) m1,
        chan _ (fun P => (px c P).g) (fun P => (px_spec hc P).2.2.1) m2,
        chan _ (fun P => (px c P).b) (fun P => (px_spec hc P).2.2.2.1) m3, clampK_of hsa0 hsa1, hsa]
      rfl
  · have hz0 : total S (wa sh c) = 0 := le_antisymm (not_lt.mp hz) hAnn
    have hsaz : acc.a / acc.w = 0 := by rw [hsa, hz0, zero_div]
    have hcl : clampK (acc.a / acc.w) 0 1 = 0 := by rw [clampK_of hsa0 hsa1, hsaz]
    have heq : (⟨0, 1, 0, clampK (acc.a / acc.w) 0 1⟩ : Result K) = average (weight env x y radius) c S := by
      unfold average
      rw [hAw, if_neg hz, hcl]
    refine ⟨⟨0, 1, 0, clampK (acc.a / acc.w) 0 1⟩,
      s', st', hSample, ?_, ?_, hst', by rw [heq], fun _ => heq, fun _ => heq⟩
    · intro h2
      have : sh.radius ≤ 2 := by
        rw [hsh]; unfold shape; simp only; split_ifs
        · norm_num
        · exact h2
      rw [hall (hn1 this)]
      exact ⟨hnd, hmem⟩
    · rw [hg, hacc]
      simp only [bind, Except.bind]
      unfold finish
      simp only [not_true_eq_false, hwpos, if_false, hsaz, lt_irrefl]

/-- The sums of the older algorithm: each product of weight and channel is rounded down to a multiple
of 1/32768. -/
def legacyAverage (W : Int × Int → Nat) (c : Canvas) (S : List (Int × Int)) : Result K :=
  if 0 < (S.map fun P => ((W P * (px c P).a / 32768 : Nat) : K)).sum then
    { r := (S.map fun P => ((W P * (px c P).r / 32768 : Nat) : K)).sum / (S.map fun P => ((W P * (px c P).a / 32768 : Nat) : K)).sum
      g := (S.map fun P => ((W P * (px c P).g / 32768 : Nat) : K)).sum / (S.map fun P => ((W P * (px c P).a / 32768 : Nat) : K)).sum
      b := (S.map fun P => ((W P * (px c P).b / 32768 : Nat) : K)).sum / (S.map fun P => ((W P * (px c P).a / 32768 : Nat) : K)).sum
      a := (S.map fun P => ((W P * (px c P).a / 32768 : Nat) : K)).sum / (S.map fun P => (W P : K)).sum }
  else { r := 0, g := 1, b := 0, a := 0 }

/-- **C22, the older algorithm (`paint` negative).** The result is the weighted average over all pixels
under the mask, each product rounded down: no 32 bit sum wraps around. -/
theorem getColor_legacy {env : Env K} (he : EnvOk env) {x y radius : K} (hr : Reasonable x y radius)
    {b : Build} {s : Surf (Op K) (Except Fault Tile)} {st : Spec.OpQueue.St (Op K)} {c : Canvas}
    (hst : Surf.Stands b (kind env) s st c) (hc : CanvasValid c) {paint : K} (hp : paint < 0)
    (order : List TileIndex → List TileIndex) (ho : ∀ l, (order l).Perm l) (coin : TileIndex → Nat → Bool) :
    ∃ S s' st', AllOf (weight env x y radius) S ∧ S ≠ [] ∧ Surf.Stands b (kind env) s' st' c ∧
      getColor env s x y radius paint order coin = .ok (legacyAverage (weight env x y radius) c S, s') := by
  obtain ⟨n, s', st', hn0, hn1, hst', hg⟩ := getColor_unfold hr hst paint order coin
  set sh := shape x y radius env.rad1 with hsh
  have hv : sh.Valid := shape_valid x y radius he.valid.rad1
  have hperm := ho (tilesFor x y sh.radius)
  obtain ⟨hnd, hmem⟩ := allVis hv (show (order (tilesFor x y sh.radius)).Perm (tilesFor sh.x sh.y sh.radius) from hperm)
  have hacc := accumulateAll_legacy hv env.pow hp n coin c
    (order (tilesFor x y sh.radius)) (present hc _) (fun P _ => by
      obtain ⟨h1, h2, h3, h4⟩ := (px_spec hc P).2
      have h5 : (px c P).a ≤ 32768 := h4
      unfold Px.Word
      omega) ⟨0, 0, 0, 0, 0⟩
  have hcentre : (⌊x⌋, ⌊y⌋) ∈ (order (tilesFor x y sh.radius)).flatMap (vis sh) :=
    (hmem _).mpr (centre_visible x y radius he.valid.rad1 he.rad1)
  refine ⟨(order (tilesFor x y sh.radius)).flatMap (vis sh), s', st', ⟨hnd, hmem⟩, List.ne_nil_of_mem hcentre, hst', ?_⟩
  rw [hg, hacc]
  generalize (order (tilesFor x y sh.radius)).flatMap (vis sh) = S at hcentre hmem hnd
  simp only [bind, Except.bind, zero_add]
  have hWpos : 0 < total S (fun P => (opacityAt sh P.1 P.2 : K)) :=
    total_pos S _ (fun P _ => Nat.cast_nonneg _) hcentre
      (Nat.cast_pos.mpr (Nat.pos_of_ne_zero ((hmem _).mp hcentre)))
  have hle : total S (fun P => ((opacityAt sh P.1 P.2 * (px c P).a / 32768 : Nat) : K)) ≤
      total S (fun P => (opacityAt sh P.1 P.2 : K)) := by
    apply total_le
    intro P _
    have h4 := (px_spec hc P).2.2.2.2
    have : opacityAt sh P.1 P.2 * (px c P).a / 32768 ≤ opacityAt sh P.1 P.2 := by
      apply Nat.div_le_of_le_mul
      rw [Nat.mul_comm 32768]
      exact Nat.mul_le_mul_left _ h4
    exact_mod_cast this
  have hch : ∀ f : Int × Int → Nat, (∀ P, f P ≤ (px c P).a) →
      total S (fun P => ((opacityAt sh P.1 P.2 * f P / 32768 : Nat) : K)) ≤
      total S (fun P => ((opacityAt sh P.1 P.2 * (px c P).a / 32768 : Nat) : K)) := by
    intro f hf
    apply total_le
    intro P _
    have : opacityAt sh P.1 P.2 * f P / 32768 ≤ opacityAt sh P.1 P.2 * (px c P).a / 32768 :=
      Nat.div_le_div_right (Nat.mul_le_mul_left _ (hf P))
    exact_mod_cast this
  have hnn : ∀ f : Int × Int → Nat,
      0 ≤ total S (fun P => ((opacityAt sh P.1 P.2 * f P / 32768 : Nat) : K)) := fun f =>
    total_nonneg S _ fun P _ => Nat.cast_nonneg _
  have hr' := hch (fun P => (px c P).r) (fun P => (px_spec hc P).2.1)
  have hg' := hch (fun P => (px c P).g) (fun P => (px_spec hc P).2.2.1)
  have hb' := hch (fun P => (px c P).b) (fun P => (px_spec hc P).2.2.2.1)
  have nr := hnn (fun P => (px c P).r)
  have ng := hnn (fun P => (px c P).g)
  have nb := hnn (fun P => (px c P).b)
  have na := hnn (fun P => (px c P).a)
  have eq1 : ∀ f : Int × Int → Nat, (S.map fun P => ((weight env x y radius P * f P / 32768 : Nat) : K)).sum =
    total S (fun P => ((opacityAt sh P.1 P.2 * f P / 32768 : Nat) : K)) := fun f => rfl
  have eq2 : (S.map fun P => (weight env x y radius P : K)).sum = total S (fun P => (opacityAt sh P.1 P.2 : K)) := rfl
  unfold finish legacyAverage
  rw [eq1 (fun P => (px c P).a), eq1 (fun P => (px c P).r), eq1 (fun P => (px c P).g), eq1 (fun P => (px c P).b), eq2]
  generalize total S (fun P => (opacityAt sh P.1 P.2 : K)) = W at *
  generalize total S (fun P => ((opacityAt sh P.1 P.2 * (px c P).a / 32768 : Nat) : K)) = A at *
  generalize total S (fun P => ((opacityAt sh P.1 P.2 * (px c P).r / 32768 : Nat) : K)) = R at *
  generalize total S (fun P => ((opacityAt sh P.1 P.2 * (px c P).g / 32768 : Nat) : K)) = G at *
  generalize total S (fun P => ((opacityAt sh P.1 P.2 * (px c P).b / 32768 : Nat) : K)) = B at *
  simp only [hWpos, not_true_eq_false, if_false, hp, if_true]
  by_cases hA : 0 < A
  · have hq : 0 < A / W := by positivity
    have e : ∀ V : K, V / W / (A / W) = V / A := by intro V; field_simp
    have cl : ∀ V : K, 0 ≤ V → V ≤ A → clampK (V / A) 0 1 = V / A := fun V h0 h1 =>
      clampK_of (by positivity) ((div_le_one hA).mpr h1)
    rw [if_pos hq, if_pos hA]
    simp only [e, cl R nr hr', cl G ng hg', cl B nb hb',
      clampK_of (show 0 ≤ A / W by positivity) ((div_le_one hWpos).mpr hle)]
  · have hA0 : A = 0 := le_antisymm (not_lt.mp hA) na
    rw [if_neg hA, hA0, zero_div, if_neg (lt_irrefl _), clampK_of (le_refl _) zero_le_one]

/-- **C22, range.** Whatever is returned lies between 0 and 1, whatever the canvas, the radius and
`paint`. -/
theorem getColor_range {env : Env K} {s s' : Surf (Op K) (Except Fault Tile)} {x y radius paint : K}
    {order : List TileIndex → List TileIndex} {coin : TileIndex → Nat → Bool} {res : Result K}
    (h : getColor env s x y radius paint order coin = .ok (res, s')) :
    (0 ≤ res.r ∧ res.r ≤ 1) ∧ (0 ≤ res.g ∧ res.g ≤ 1) ∧ (0 ≤ res.b ∧ res.b ≤ 1) ∧ (0 ≤ res.a ∧ res.a ≤ 1) := by
  unfold getColor at h
  dsimp only at h
  split_ifs at h
  obtain ⟨n, _, h⟩ := except_bind_ok h
  obtain ⟨vs, _, h⟩ := except_bind_ok h
  obtain ⟨acc, _, h⟩ := except_bind_ok h
  obtain ⟨r, hf, h⟩ := except_bind_ok h
  cases h
  unfold finish at hf
  dsimp only at hf
  split_ifs at hf
  all_goals cases hf
  all_goals first
    | exact ⟨clampK_unit _, clampK_unit _, clampK_unit _, clampK_unit _⟩
    | exact ⟨⟨le_refl _, zero_le_one⟩, ⟨zero_le_one, le_refl _⟩, ⟨le_refl _, zero_le_one⟩, clampK_unit _⟩

/-! ### A uniform canvas returns its colour -/

theorem px_of_pixel {c : Canvas} {P : Int × Int} {p : Px} (h : pixel c P.1 P.2 = .ok p) : px c P = p := by
  unfold px; rw [h]

theorem weighted_const (W : Int × Int → Nat) (S : List (Int × Int)) (v : Nat) :
    (weighted W S (fun _ => v) : K) = v * weighted W S (fun _ => 1) := by
  rw [weighted_eq, weighted_eq, ← total_mul]
  exact total_congr _ _ _ fun P _ => by push_cast; ring

/-- If all pixels under the mask have the same colour and are not fully transparent, sampling without
pigment returns that colour exactly, whichever pixels are sampled. -/
theorem average_uniform (W : Int × Int → Nat) (c : Canvas) (S : List (Int × Int)) (hS : SampleOf W S)
    (p : Px) (hp : ∀ P, W P ≠ 0 → pixel c P.1 P.2 = .ok p) (ha : 0 < p.a) :
    (average W c S : Result K) =
      ⟨(p.r : K) / p.a, (p.g : K) / p.a, (p.b : K) / p.a, (p.a : K) / 32768⟩ := by
  have e : ∀ f : Px → Nat, (weighted W S (fun P => f (px c P)) : K) = f p * weighted W S (fun _ => 1) := by
    intro f
    rw [← weighted_const, weighted_eq, weighted_eq]
    exact total_congr _ _ _ fun P hP => by rw [px_of_pixel (hp P (hS.under P hP))]
  obtain ⟨P0, hP0⟩ := List.exists_mem_of_ne_nil S hS.some
  have hpos : 0 < (weighted W S (fun _ => 1) : K) := by
    rw [weighted_eq]
    refine total_pos S _ (fun P _ => mul_nonneg (Nat.cast_nonneg _) (Nat.cast_nonneg _)) hP0 ?_
    have := Nat.pos_of_ne_zero (hS.under P0 hP0)
    have : (0 : K) < W P0 := by exact_mod_cast this
    positivity
  have hpa : (0 : K) < p.a := by exact_mod_cast ha
  unfold average
  rw [e (·.a), if_pos (by positivity), e (·.r), e (·.g), e (·.b), weighted_const W S 32768]
  congr 1
  · field_simp
  · field_simp
  · field_simp
  · push_cast; field_simp

/-- The older algorithm on a uniform opaque canvas: alpha exactly 1, each channel at most the
canvas's and less than (number of pixels under the mask)/(sum of the weights) below it. -/
theorem legacyAverage_uniform (W : Int × Int → Nat) (c : Canvas) (S : List (Int × Int)) (hS : AllOf W S) (hne : S ≠ [])
    (p : Px) (hp : ∀ P, W P ≠ 0 → pixel c P.1 P.2 = .ok p) (ha : p.a = 32768) :
    let res : Result K := legacyAverage W c S
    let err : K := (S.length : K) / (S.map fun P => (W P : K)).sum
    res.a = 1 ∧ (res.r ≤ (p.r : K) / 32768 ∧ (p.r : K) / 32768 - err < res.r) ∧
      (res.g ≤ (p.g : K) / 32768 ∧ (p.g : K) / 32768 - err < res.g) ∧
      (res.b ≤ (p.b : K) / 32768 ∧ (p.b : K) / 32768 - err < res.b) := by
  have hsum : ∀ f : Px → Nat, (S.map fun P => ((W P * f (px c P) / 32768 : Nat) : K)).sum =
      total S fun P => ((W P * f p / 32768 : Nat) : K) := by
    intro f
    refine total_congr _ _ _ fun P hP => ?_
    rw [px_of_pixel (hp P ((hS.2 P).mp hP))]
  have hA : (S.map fun P => ((W P * (px c P).a / 32768 : Nat) : K)).sum = (S.map fun P => (W P : K)).sum := by
    rw [hsum (·.a)]
    refine total_congr _ _ _ fun P _ => ?_
    simp only [ha, Nat.mul_div_cancel _ (show 0 < 32768 by norm_num)]
  obtain ⟨P0, hP0⟩ := List.exists_mem_of_ne_nil S hne
  have hpos : 0 < (S.map fun P => (W P : K)).sum :=
    total_pos S (fun P => (W P : K)) (fun P _ => Nat.cast_nonneg _) hP0
      (by exact_mod_cast Nat.pos_of_ne_zero ((hS.2 P0).mp hP0))
  have bound : ∀ v : Nat, total S (fun P => ((W P * v / 32768 : Nat) : K)) ≤
        (v : K) / 32768 * (S.map fun P => (W P : K)).sum ∧
      (v : K) / 32768 * (S.map fun P => (W P : K)).sum - S.length <
        total S (fun P => ((W P * v / 32768 : Nat) : K)) := by
    intro v
    have each : ∀ m : Nat, ((m * v / 32768 : Nat) : K) ≤ (v : K) / 32768 * m ∧
        (v : K) / 32768 * m < ((m * v / 32768 : Nat) : K) + 1 := by
      intro m
      have h1 : 32768 * (m * v / 32768) ≤ m * v := Nat.mul_div_le _ _
      have h2 : m * v < 32768 * (m * v / 32768 + 1) := Nat.lt_mul_div_succ _ (by norm_num)
      have h1' : (32768 : K) * ((m * v / 32768 : Nat) : K) ≤ m * v := by exact_mod_cast h1
      have h2' : (m : K) * v < 32768 * (((m * v / 32768 : Nat) : K) + 1) := by exact_mod_cast h2
      constructor <;> linarith
    clear hP0 hpos hA hsum hS
    have aux : ∀ S : List (Int × Int), total S (fun P => ((W P * v / 32768 : Nat) : K)) ≤
          (v : K) / 32768 * total S (fun P => (W P : K)) ∧
        (S ≠ [] → (v : K) / 32768 * total S (fun P => (W P : K)) <
          total S (fun P => ((W P * v / 32768 : Nat) : K)) + S.length) ∧
        (v : K) / 32768 * total S (fun P => (W P : K)) ≤
          total S (fun P => ((W P * v / 32768 : Nat) : K)) + S.length := by
      intro S
      induction S with
      | nil => simp [total]
      | cons P S ih =>
        obtain ⟨i1, _, i3⟩ := ih
        obtain ⟨e1, e2⟩ := each (W P)
        simp only [total_cons, List.length_cons]
        push_cast
        refine ⟨by linarith, fun _ => by linarith, by linarith⟩
    have := aux S
    exact ⟨this.1, by have := this.2.1 hne; unfold total at this ⊢; linarith⟩
  simp only
  unfold legacyAverage
  rw [hA, if_pos hpos, hsum (·.r), hsum (·.g), hsum (·.b)]
  have fin : ∀ v : Nat, total S (fun P => ((W P * v / 32768 : Nat) : K)) / (S.map fun P => (W P : K)).sum ≤ (v : K) / 32768 ∧
      (v : K) / 32768 - (S.length : K) / (S.map fun P => (W P : K)).sum <
        total S (fun P => ((W P * v / 32768 : Nat) : K)) / (S.map fun P => (W P : K)).sum := by
    intro v
    obtain ⟨b1, b2⟩ := bound v
    constructor
    · rw [div_le_iff₀ hpos]; exact b1
    · rw [lt_div_iff₀ hpos, sub_mul, div_mul_cancel₀ _ hpos.ne']; exact b2
  exact ⟨div_self hpos.ne', fin p.r, fin p.g, fin p.b⟩

/-! ### The result does not depend on the scheduling -/

theorem allOf_perm {W : Int × Int → Nat} {S T : List (Int × Int)} (hS : AllOf W S) (hT : AllOf W T) : S.Perm T :=
  (List.perm_ext_iff_of_nodup hS.1 hT.1).mpr fun P => by rw [hS.2, hT.2]

theorem average_perm (W : Int × Int → Nat) (c : Canvas) {S T : List (Int × Int)} (h : S.Perm T) :
    (average W c S : Result K) = average W c T := by
  have e : ∀ f : Int × Int → Nat, (weighted W S f : K) = weighted W T f := fun f => (h.map _).sum_eq
  unfold average
  simp only [e]

theorem legacyAverage_perm (W : Int × Int → Nat) (c : Canvas) {S T : List (Int × Int)} (h : S.Perm T) :
    (legacyAverage W c S : Result K) = legacyAverage W c T := by
  have e : ∀ f : Int × Int → K, (S.map f).sum = (T.map f).sum := fun f => (h.map _).sum_eq
  unfold legacyAverage
  simp only [e]

/-- The older algorithm, and the averaging one without pigment for radii up to 2, return the same
colour whatever the order in which parallel workers deliver their tiles and whatever the random numbers. -/
theorem getColor_deterministic {env : Env K} (he : EnvOk env) {x y radius : K} (hr : Reasonable x y radius)
    {b : Build} {s : Surf (Op K) (Except Fault Tile)} {st : Spec.OpQueue.St (Op K)} {c : Canvas}
    (hst : Surf.Stands b (kind env) s st c) (hc : CanvasValid c) {paint : K} (hp : paint < 0 ∨ (paint = 0 ∧ radius ≤ 2))
    (order order' : List TileIndex → List TileIndex) (ho : ∀ l, (order l).Perm l) (ho' : ∀ l, (order' l).Perm l)
    (coin coin' : TileIndex → Nat → Bool) :
    ∃ res s1 s2, getColor env s x y radius paint order coin = .ok (res, s1) ∧
      getColor env s x y radius paint order' coin' = .ok (res, s2) := by
  rcases hp with hp | ⟨hp, h2⟩
  · obtain ⟨S, s1, _, hS, _, _, h1⟩ := getColor_legacy he hr hst hc hp order ho coin
    obtain ⟨T, s2, _, hT, _, _, h2⟩ := getColor_legacy he hr hst hc hp order' ho' coin'
    rw [legacyAverage_perm _ _ (allOf_perm hT hS)] at h2
    exact ⟨_, s1, s2, h1, h2⟩
  · obtain ⟨S, r1, s1, _, _, hS, h1, _, _, _, e1⟩ := getColor_average he hr hst hc hp.ge order ho coin
    obtain ⟨T, r2, s2, _, _, hT, h2', _, _, _, e2⟩ := getColor_average he hr hst hc hp.ge order' ho' coin'
    rw [e1 hp] at h1
    rw [e2 hp, average_perm _ _ (allOf_perm (hT h2) (hS h2))] at h2'
    exact ⟨_, s1, s2, h1, h2'⟩

/-! ### Whole sessions -/

/-- C22 for sessions: sampling after any sequence of dabs, samplings and finished blocks, on a surface
that started as canvas `c0`, finds the canvas on which every dab had been applied at once. -/
theorem session_getColor {env : Env K} (he : EnvOk env) {x y radius : K} (hr : Reasonable x y radius)
    {b : Build} {c0 : Canvas} {es : List (Surf.Event (Op K))} (hes : ∀ e ∈ es, Spec.Surf.OrderOk e)
    {os : List (List (Except Fault Tile))} {s : Surf (Op K) (Except Fault Tile)}
    (h : Surf.session b (kind env) c0 es = .ok (os, s))
    (hc : CanvasValid (Spec.Surf.final (kind env) c0 es)) {paint : K} (hp : 0 ≤ paint)
    (order : List TileIndex → List TileIndex) (ho : ∀ l, (order l).Perm l) (coin : TileIndex → Nat → Bool) :
    ∃ S res s', SampleOf (weight env x y radius) S ∧ (radius ≤ 2 → AllOf (weight env x y radius) S) ∧
      getColor env s x y radius paint order coin = .ok (res, s') ∧
      res.a = (average (weight env x y radius) (Spec.Surf.final (kind env) c0 es) S).a ∧
      (paint = 0 → res = average (weight env x y radius) (Spec.Surf.final (kind env) c0 es) S) := by
  obtain ⟨_, st, hst⟩ := Surf.session_stands (fun d => tilesOf_nodup d) hes h
  obtain ⟨S, res, s', _, h1, h2, h3, _, h4, _, h5⟩ := getColor_average he hr hst hc hp order ho coin
  exact ⟨S, res, s', h1, h2, h3, h4, h5⟩

/-! ## C23 Dividing by zero -/

theorem accumulateAll_zero {s : Shape K} (hv : s.Valid) (pow : K → K → K) {paint : K} (hp : 0 ≤ paint)
    (coin : TileIndex → Nat → Bool) (c : Canvas) (ts : List TileIndex) (hc : Present c ts) (acc : Acc K)
    (h : ts.flatMap (vis s) ≠ []) :
    accumulateAll pow s paint 0 coin (ts.zip (ts.map c)) acc = .error .divByZero := by
  induction ts generalizing acc with
  | nil => exact absurd rfl h
  | cons t ts ih =>
    obtain ⟨tile, ht⟩ := hc t (by simp)
    rw [List.map_cons, List.zip_cons_cons]
    unfold accumulateAll
    simp only [ht, bind, Except.bind, tilePixels_ok hv]
    by_cases hvn : vis s t = []
    · obtain ⟨acc', e⟩ : ∃ acc', accumulateTile pow paint 0 (coin t) [] acc = .ok acc' := by
        unfold accumulateTile
        rw [if_neg (not_lt.mpr hp)]
        unfold sampleLoop
        exact ⟨_, rfl⟩
      rw [hvn, List.map_nil, e]
      refine ih (fun u hu => hc u (by simp [hu])) _ ?_
      rw [List.flatMap_cons, hvn, List.nil_append] at h
      exact h
    · have hne : (vis s t).map (fun P => (opacityAt s P.1 P.2, readPx tile (offset P.1 P.2))) ≠ [] := by
        intro h'
        exact hvn (List.map_eq_nil_iff.mp h')
      generalize (vis s t).map (fun P => (opacityAt s P.1 P.2, readPx tile (offset P.1 P.2))) = l at hne
      have e : accumulateTile pow paint 0 (coin t) l acc = .error .divByZero := by
        unfold accumulateTile
        rw [if_neg (not_lt.mpr hp)]
        dsimp only
        rw [sampleLoop_zero _ _ _ hne]
        rfl
      rw [e]

theorem divides_of_interval {env : Env K} (he : EnvOk env) {x y radius : K} (hxy : InReach x y)
    (h1 : 1 ≤ radius) (hbig : radius ≤ 10000) (hint : interval radius = .ok 0)
    {b : Build} {s : Surf (Op K) (Except Fault Tile)} {st : Spec.OpQueue.St (Op K)} {c : Canvas}
    (hst : Surf.Stands b (kind env) s st c) (hc : CanvasValid c) {paint : K} (hp : 0 ≤ paint)
    (order : List TileIndex → List TileIndex) (ho : ∀ l, (order l).Perm l) (coin : TileIndex → Nat → Bool) :
    getColor env s x y radius paint order coin = .error .divByZero := by
  have hsh : (shape x y radius env.rad1).radius = radius := by
    unfold shape; simp only; rw [if_neg (not_lt.mpr h1)]
  have hv : (shape x y radius env.rad1).Valid := shape_valid _ _ _ he.valid.rad1
  obtain ⟨s', st', _, h⟩ := getColor_steps hxy (by rw [hsh]; exact hbig) (by rw [hsh]; exact hint) hst paint order coin
  obtain ⟨hnd, hmem⟩ := allVis hv (show (order (tilesFor x y (shape x y radius env.rad1).radius)).Perm
    (tilesFor (shape x y radius env.rad1).x (shape x y radius env.rad1).y
      (shape x y radius env.rad1).radius) from ho _)
  have hcentre := (hmem (⌊x⌋, ⌊y⌋)).mpr (centre_visible x y radius he.valid.rad1 he.rad1)
  rw [h, accumulateAll_zero hv env.pow hp coin c _ (present hc _) _ (List.ne_nil_of_mem hcentre)]
  exact rfl

/-- **C23, negated.** Sampling with radius 9362 + 293/1024 (representable as a C `float`) divides by
zero: seven times the radius is 65536.003, which becomes 0 in the 16 bit argument of the sampling loop. For
every surface reached by a session, every position in reach and every `paint ≥ 0`. -/
theorem sampling_divides_by_zero {env : Env K} (he : EnvOk env) {x y : K} (hxy : InReach x y)
    {b : Build} {s : Surf (Op K) (Except Fault Tile)} {st : Spec.OpQueue.St (Op K)} {c : Canvas}
    (hst : Surf.Stands b (kind env) s st c) (hc : CanvasValid c) {paint : K} (hp : 0 ≤ paint)
    (order : List TileIndex → List TileIndex) (ho : ∀ l, (order l).Perm l) (coin : TileIndex → Nat → Bool) :
    getColor env s x y (9362 + 293 / 1024) paint order coin = .error .divByZero := by
  obtain ⟨R, hR⟩ : ∃ R : K, R = 9362 + 293 / 1024 := ⟨_, rfl⟩
  have hint : interval R = .ok 0 := by
    have hf : ⌊R * 7⌋ = 65536 := by
      rw [Int.floor_eq_iff, hR]; push_cast; constructor <;> norm_num
    have e : toInt (R * 7) = .ok 65536 := by
      unfold toInt
      simp only [if_pos (show (0 : K) ≤ R * 7 by rw [hR]; norm_num), hf]
      rfl
    unfold interval
    rw [if_neg (by rw [hR]; norm_num), e]; rfl
  rw [← hR]
  exact divides_of_interval he hxy (by rw [hR]; norm_num) (by rw [hR]; norm_num) hint hst hc hp order ho coin

/-- **C23, partial.** With radius below 9362.28 (`radius * 7 < 65536`) sampling never divides by zero, and
faults in no other way. What is missing is false, see `sampling_divides_by_zero`. -/
theorem sampling_defined_partial {env : Env K} (he : EnvOk env) {x y radius : K} (hr : Reasonable x y radius)
    {b : Build} {s : Surf (Op K) (Except Fault Tile)} {st : Spec.OpQueue.St (Op K)} {c : Canvas}
    (hst : Surf.Stands b (kind env) s st c) (hc : CanvasValid c) (paint : K)
    (order : List TileIndex → List TileIndex) (ho : ∀ l, (order l).Perm l) (coin : TileIndex → Nat → Bool) :
    ∃ res s', getColor env s x y radius paint order coin = .ok (res, s') := by
  rcases lt_or_ge paint 0 with hp | hp
  · obtain ⟨S, s', _, _, _, _, h⟩ := getColor_legacy he hr hst hc hp order ho coin
    exact ⟨_, s', h⟩
  · obtain ⟨S, res, s', _, _, _, h, _⟩ := getColor_average he hr hst hc hp order ho coin
    exact ⟨res, s', h⟩

/-! ## Concrete cases -/

theorem demoEnv_ok : EnvOk demoEnv := ⟨demoEnv_valid, by norm_num [demoEnv]⟩

/-- Red left of the tile border, half-transparent blue right of it. -/
def twoTone : Canvas := fun t =>
  if t.x < 1 then .ok fun i => if i % 4 = 0 ∨ i % 4 = 3 then 32768 else 0
  else .ok fun i => if i % 4 = 2 ∨ i % 4 = 3 then 16384 else 0

/-- Non-vacuity: this canvas and position meet the hypotheses of the theorems above. -/
example : CanvasValid twoTone ∧ Reasonable (64 : ℚ) 10 3 := by
  refine ⟨?_, ⟨⟨by norm_num [abs_of_pos], by norm_num [abs_of_pos]⟩, by norm_num⟩⟩
  intro X Y
  have h4 : offset X Y % 4 = 0 := by unfold offset; omega
  unfold pixel twoTone
  generalize offset X Y = i at h4
  split_ifs
  · refine ⟨_, rfl, ?_⟩
    refine ⟨?_, ?_, ?_, ?_⟩ <;> simp only [readPx, Spec.one] <;> split_ifs <;> omega
  · refine ⟨_, rfl, ?_⟩
    refine ⟨?_, ?_, ?_, ?_⟩ <;> simp only [readPx, Spec.one] <;> split_ifs <;> omega

def reply (r : Except Fault (Result ℚ × Surf (Op ℚ) (Except Fault Tile))) : Option (ℚ × ℚ × ℚ × ℚ) :=
  match r with
  | .ok (res, _) => some (res.r, res.g, res.b, res.a)
  | .error _ => none


/-- Sampling on the border, averaging and older algorithm, with tiles in both orders. -/
example : (match Surf.session .normal (kind demoEnv) twoTone [] with
    | .ok (_, s) =>
      decide (reply (getColor demoEnv s 64 10 3 (-1) id fun _ _ => false) =
        some (19417 / 29125, 0, 9708 / 29125, 29125 / 38834)) &&
      decide (reply (getColor demoEnv s 64 10 (3 / 2) 0 id fun _ _ => false) = some (2 / 3, 0, 1 / 3, 3 / 4)) &&
      decide (reply (getColor demoEnv s 64 10 (3 / 2) 0 List.reverse fun _ _ => true) = some (2 / 3, 0, 1 / 3, 3 / 4))
    | .error _ => false) = true := by decide +kernel

end Verif.Sample
