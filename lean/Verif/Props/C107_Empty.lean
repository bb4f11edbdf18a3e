import Verif.Props.C98_Finger
import Verif.Props.C17_BlendModes

/-!
# C107: a brush without paint of its own leaves an empty canvas empty
-/

namespace Verif.Painting
open Verif.Full Verif.Dab Verif.Engine Verif.Blend Verif.Map Verif.Mask Verif.Color

/-! ## Specification -/

/-- Nothing is painted anywhere. -/
def Blank (c : Canvas) : Prop := ∀ X Y, pixel c X Y = .ok ⟨0, 0, 0, 0⟩

section
variable {K R σ : Type} [Field K] [LinearOrder K] [IsStrictOrderedRing K] [FloorRing K]

/-- Whatever the inputs, the brush smudges with full strength, erases, keeps the alpha, colorizes or posterizes, all of it wholly. -/
def WithoutPaint (s : Load.Brush K) : Prop :=
  ∀ i, 1 ≤ calculate (s sSmudge) i ∨ 1 ≤ calculate (s sEraser) i ∨ 1 ≤ calculate (s sLockAlpha) i ∨ 1 ≤ calculate (s sColorize) i ∨
    1 ≤ calculate (s sPosterize) i

/-- Nothing has been taken up: the alphas of the memory of the brush are zero, in the states and in all buckets (of nine numbers each,
the alphas being the fourth and the eighth). -/
structure NothingTaken (b : Brush K R) : Prop where
  states : b.st.smudge.a = 0 ∧ b.st.smudge.prevA = 0
  buckets : ∀ n v, b.buckets.mem[n]? = some v → n % 9 = 3 ∨ n % 9 = 7 → v = 0

/-! ## Proof -/

/-! ### Dabs on an empty canvas -/

theorem lerp_zero (o : Nat) (c : Nat) : lerpChan 0 o c 0 = 0 := by
  unfold lerpChan u16 u32
  simp

theorem lerp_blank (a o : Nat) : lerpChan a o 0 0 = 0 := by
  unfold lerpChan u16 u32
  simp

theorem over_zero (o : Nat) : overAlpha 0 o 0 = 0 := by
  unfold overAlpha u32
  simp

theorem lockAlpha_blank (c : Blend.Color) (o m : Nat) : Blend.lockAlpha c o m ⟨0, 0, 0, 0⟩ = ⟨0, 0, 0, 0⟩ := by
  unfold Blend.lockAlpha
  have h : u32 (topAlpha m o * 0) / 32768 = 0 := by unfold u32; simp
  simp only [h, lerp_zero]

theorem eraser_blank (c : Blend.Color) (o m : Nat) : Blend.normalAndEraser c 0 o m ⟨0, 0, 0, 0⟩ = ⟨0, 0, 0, 0⟩ := by
  unfold Blend.normalAndEraser
  have h : u32 (topAlpha m o * 0) / 32768 = 0 := by unfold u32; simp
  simp only [h, lerp_zero, over_zero]
  rfl

theorem eraserPaint_blank (pow : K → K → K) (c : Blend.Color) (o m : Nat) :
    Spectral.normalAndEraserPaint pow c 0 o m ⟨0, 0, 0, 0⟩ = .ok ⟨0, 0, 0, 0⟩ := by
  unfold Spectral.normalAndEraserPaint
  have h : u32 (topAlpha m o * 0) / 32768 = 0 := by unfold u32; simp
  have h2 : ∀ col o : Nat, u32 (u32 (0 * col) + u32 (o * 0)) / 32768 = 0 := by intro col o; unfold u32; simp
  simp only [h, over_zero, h2, ite_self, ne_eq, not_true_eq_false, and_false, if_false]
  rfl

theorem lockAlphaPaint_blank (pow : K → K → K) (c : Blend.Color) (o m : Nat) :
    Spectral.lockAlphaPaint pow c o m ⟨0, 0, 0, 0⟩ = .ok ⟨0, 0, 0, 0⟩ := by
  unfold Spectral.lockAlphaPaint
  simp only [if_true]
  rw [lockAlpha_blank]

theorem posterize_blank (n o m : Nat) : Blend.posterize n o m ⟨0, 0, 0, 0⟩ = ⟨0, 0, 0, 0⟩ := by
  unfold Blend.posterize
  have h : posterizeLevel n 0 = 0 := by unfold posterizeLevel; simp
  simp only [h, lerp_blank]

theorem colorize_blank {c : Blend.Color} (hc : c.Valid) {o m : Nat} (hm : m ≤ 32768) (ho : o ≤ 32768) :
    Blend.colorize c o m ⟨0, 0, 0, 0⟩ = .ok ⟨0, 0, 0, 0⟩ := by
  obtain ⟨⟨r, g, b, a⟩, h, hv, ha⟩ := colorize_defined_partial hm ho hc (p := ⟨0, 0, 0, 0⟩)
    ⟨le_refl _, le_refl _, le_refl _, Nat.zero_le _⟩ (.inl rfl)
  obtain ⟨h1, h2, h3, -⟩ := hv
  dsimp only at h1 h2 h3 ha
  subst ha
  rw [h, Nat.le_zero.mp h1, Nat.le_zero.mp h2, Nat.le_zero.mp h3]

/-- A dab that erases, or is not drawn in the normal mode. -/
def DabWithoutPaint (a : Args K) : Prop := a.colorA ≤ 0 ∨ 1 ≤ a.lockAlpha ∨ 1 ≤ a.colorize ∨ 1 ≤ a.posterize

theorem modes_blank {env : Dab.Env K} {op : Op K} (hv : op.Valid) (h : op.colorA = 0 ∨ op.normal = 0) {m : Nat} (hm : m ≤ 32768) :
    ∀ body ∈ modes env op, body m ⟨0, 0, 0, 0⟩ = .ok ⟨0, 0, 0, 0⟩ := by
  intro body hb
  have s1 : strength (op.colorize * op.opaque') ≤ 32768 := strength_le (mul_unit hv.col ⟨hv.opa0.le, hv.opa1⟩).2
  unfold modes at hb
  simp only [List.mem_append] at hb
  have k0 : op.normal ≠ 0 → strength op.colorA = 0 := fun hn => by rw [h.resolve_right hn]; exact strength_zero
  rcases hb with (((hb | hb) | hb) | hb)
  · split_ifs at hb with q1 q2 q3 q4
    all_goals simp only [List.mem_append, List.mem_singleton, List.not_mem_nil, or_false, false_or] at hb
    · exact absurd q3 (by rw [h.resolve_right q2]; exact zero_ne_one)
    · exact absurd q3 (by rw [h.resolve_right q2]; exact zero_ne_one)
    · exact absurd (h.resolve_right q2) (by rename_i q4; exact q4.2)
    · rw [hb, k0 q2]; exact congrArg Except.ok (eraser_blank _ _ _)
    · rw [hb]; exact congrArg Except.ok (lockAlpha_blank _ _ _)
  · split_ifs at hb with q1 q2 q3 q4
    all_goals simp only [List.mem_append, List.mem_singleton, List.not_mem_nil, or_false, false_or] at hb
    · exact absurd q3 (by rw [h.resolve_right q2]; exact zero_ne_one)
    · exact absurd q3 (by rw [h.resolve_right q2]; exact zero_ne_one)
    · exact absurd (h.resolve_right q2) (by rename_i q4; exact q4.2)
    · rw [hb, k0 q2, eraserPaint_blank]
    · rw [hb, lockAlphaPaint_blank]
  · split_ifs at hb with q
    · rw [List.mem_singleton.mp hb]
      exact colorize_blank hv.color hm s1
    · cases hb
  · split_ifs at hb with q
    · rw [List.mem_singleton.mp hb]; exact congrArg Except.ok (posterize_blank _ _ _)
    · cases hb

theorem fold_blank {l : List (Nat → Px → Except Fault Px)} {m : Nat} (h : ∀ body ∈ l, body m ⟨0, 0, 0, 0⟩ = .ok ⟨0, 0, 0, 0⟩) :
    l.foldlM (fun p body => body m p) (⟨0, 0, 0, 0⟩ : Px) = .ok ⟨0, 0, 0, 0⟩ := by
  induction l with
  | nil => rfl
  | cons x l ih =>
    rw [List.foldlM_cons, h x List.mem_cons_self]
    exact ih fun y hy => h y (List.mem_cons_of_mem _ hy)

theorem dabAt_blank {env : Dab.Env K} (he : env.Valid) {c : Canvas} (hc : Blank c) {a : Args K} (ha : DabWithoutPaint a) :
    Blank (Spec.Now.dabAt env c a) := by
  unfold Spec.Now.dabAt
  cases hp : prepare a with
  | error f => exact hc
  | ok o =>
    cases o with
    | none => exact hc
    | some op =>
      dsimp only
      have hv := prepare_valid hp
      obtain ⟨-, -, -, e1, e2, e3, e4, e5⟩ := prepare_some hp
      have hone : ∀ v : K, 1 ≤ v → clampK v 0 1 = 1 := by
        intro v q
        unfold clampK
        split_ifs with q1 q2
        · rfl
        · linarith
        · linarith
      have hz : op.colorA = 0 ∨ op.normal = 0 := by
        rcases ha with q | q | q | q
        · left; rw [e1]; exact (clampK_eq_zero _).mpr q
        · right; rw [hv.normal, e2, hone _ q]; simp
        · right; rw [hv.normal, e3, hone _ q]; simp
        · right; rw [hv.normal, e4, hone _ q]; simp
      have hstep : ∀ X Y, pixelStep (modes env op) (opacity env op X Y) ⟨0, 0, 0, 0⟩ = .ok ⟨0, 0, 0, 0⟩ := fun X Y =>
        fold_blank (modes_blank hv hz (opacityAt_le (shapeOf_valid he hv) X Y))
      have hpix : ∀ X Y, ∃ t, c (tileOfPixel X Y) = .ok t ∧ readPx t (offset X Y) = ⟨0, 0, 0, 0⟩ := by
        intro X Y
        have hp := hc X Y
        unfold pixel at hp
        cases ht : c (tileOfPixel X Y) with
        | error e => rw [ht] at hp; cases hp
        | ok t => rw [ht] at hp; exact ⟨t, rfl, Except.ok.inj hp⟩
      intro X Y
      obtain ⟨t, ht, hs⟩ := hpix X Y
      obtain ⟨t', ht'⟩ := dab_defined he hv c (tileOfPixel X Y) t ht (by
        intro X' Y' hT _
        obtain ⟨t2, ht2, hv2⟩ := hpix X' Y'
        rw [hT, ht] at ht2
        cases ht2
        exact ⟨_, by rw [hv2]; exact hstep X' Y'⟩)
      rw [dab_pixelwise he hv c X Y t t' ht ht', hc X Y]
      split_ifs
      · rfl
      · exact hstep X Y

theorem draw_blank {env : Dab.Env K} (he : env.Valid) {v : Spec.Now.Picture} (hc : Blank v.canvas) {a : Args K}
    (ha : DabWithoutPaint a) (d : Symm.Data K) : Blank (Spec.Now.draw env d v a).2.canvas := by
  unfold Spec.Now.draw
  split_ifs
  · have key : ∀ (l : List (Args K)) (c : Canvas), (∀ a' ∈ l, DabWithoutPaint a') → Blank c →
        Blank (l.foldl (Spec.Now.dabAt env) c) := by
      intro l
      induction l with
      | nil => intro c _ h; exact h
      | cons a' l ih =>
        intro c hl h
        exact ih _ (fun x hx => hl x (List.mem_cons_of_mem _ hx)) (dabAt_blank he h (hl a' List.mem_cons_self))
    refine key _ _ (fun a' ha' => ?_) hc
    rcases List.mem_cons.mp ha' with q | q
    · rw [q]; exact ha
    · unfold Spec.Now.copies at q
      split at q
      · obtain ⟨x, -, e⟩ := List.mem_map.mp q
        rw [← e]
        exact ha
      · cases q
  · exact hc

/-! ### Sampling -/

theorem Blank.valid {c : Canvas} (h : Blank c) : CanvasValid c := fun X Y =>
  ⟨_, h X Y, le_refl _, le_refl _, le_refl _, Nat.zero_le _⟩

/-- A colour picked from an empty canvas is transparent. -/
theorem look_blank {env : Dab.Env K} (he : Sample.EnvOk env) {c : Canvas} (hc : Blank c) {x y radius paint : K}
    (hr : Sample.Reasonable x y radius) {order : List TileIndex → List TileIndex} (ho : ∀ l, (order l).Perm l)
    (coin : TileIndex → Nat → Bool) {r : Sample.Result K} (h : Spec.Now.look env c x y radius paint order coin = .ok r) : r.a = 0 := by
  have hval := hc.valid
  obtain ⟨q, hq, hrel, -⟩ := OpQueue.new_rel (β := Op K) .normal
  have hst : Surf.Stands .normal (kind env) (⟨q, c⟩ : Surf (Op K) (Except Fault Tile)) Spec.OpQueue.init c :=
    ⟨hrel, fun _ => rfl, fun t ht => absurd rfl ht⟩
  have hlook : ∀ res s', Sample.getColor env (⟨q, c⟩ : Surf (Op K) (Except Fault Tile)) x y radius paint order coin = .ok (res, s') →
      Spec.Now.look env c x y radius paint order coin = .ok res := by
    intro res s' hg
    unfold Sample.getColor at hg
    unfold Spec.Now.look
    dsimp only at hg ⊢
    by_cases hc : Sample.convertible x y (Sample.shape x y radius env.rad1).radius = false
    · rw [if_pos hc] at hg
      cases hg
    · rw [if_neg hc] at hg ⊢
      obtain ⟨n, h1, hg⟩ := except_bind_ok hg
      obtain ⟨⟨vs, s'⟩, h2, hg⟩ := except_bind_ok hg
      obtain ⟨acc, h3, hg⟩ := except_bind_ok hg
      obtain ⟨res, h4, hg⟩ := except_bind_ok hg
      obtain ⟨s1, st1, g1, g2, -⟩ := Surf.stands_sample (order (Sample.tilesFor x y (Sample.shape x y radius env.rad1).radius))
        _ _ c hst
      rw [g1] at h2
      cases h2
      simp only [h1, bind, Except.bind, h3]
      rw [h4]
      have := congrArg Prod.fst (Except.ok.inj hg)
      exact congrArg Except.ok this
  have hz : ∀ P, Sample.px c P = ⟨0, 0, 0, 0⟩ := fun P => Sample.px_of_pixel (hc P.1 P.2)
  by_cases hp : paint < 0
  · obtain ⟨S, s', st', -, -, -, hg⟩ := Sample.getColor_legacy he hr hst hval hp order ho coin
    have := h.symm.trans (hlook _ _ hg)
    rw [Except.ok.inj this]
    unfold Sample.legacyAverage
    split_ifs
    · simp [hz]
    · rfl
  · obtain ⟨S, res, s', st', -, -, hg, -, ha, -⟩ := Sample.getColor_average he hr hst hval (not_lt.mp hp) order ho coin
    have := h.symm.trans (hlook _ _ hg)
    rw [Except.ok.inj this, ha]
    unfold Sample.average
    rw [if_neg]
    unfold Sample.weighted
    simp [hz]

/-! ### The memory of the brush -/

/-- Asking for the colour gives a transparent one. -/
def GivesBlank (e : Engine.Env K R σ) (surf : σ) : Prop :=
  ∀ x y : Int, intMin ≤ x ∧ x ≤ intMax → intMin ≤ y ∧ y ≤ intMax → ∀ r p : K, r ≤ 1000 → (e.getColor surf x y r p).1.a = 0

theorem getColor_blank {env : Dab.Env K} (he : Sample.EnvOk env) {sch : Schedule} (ho : ∀ n l, (sch.order n l).Perm l)
    (e : Engine.Env K R σ) (d : Symm.Data K) {v : Spec.Now.Picture} (hc : Blank v.canvas) :
    GivesBlank (e.on (Spec.Now.draw env d) (Spec.Now.getColor env sch)) v := by
  intro x y hx hy r p hr
  have far : ∀ {z : Int}, intMin ≤ z ∧ z ≤ intMax → |(z : K)| ≤ 68719476736 - 2 := by
    intro z hz
    have : |z| ≤ 68719476736 - 2 := by unfold intMin intMax at hz; rw [abs_le]; omega
    rw [← Int.cast_abs]
    exact_mod_cast this
  show (Spec.Now.getColor env sch v x y r p).1.a = 0
  unfold Spec.Now.getColor
  split
  · rfl
  · rename_i res h
    exact look_blank he hc (x := (x : K)) (y := (y : K)) (radius := r) ⟨⟨far hx, far hy⟩, by linarith⟩ (ho v.samples) _ h

theorem updateSmudge_blank {e : Engine.Env K R σ} {surf : σ} (hg : GivesBlank e surf) {b : Brush K R} {v : Bucket K}
    (h : v.a = 0 ∧ v.prevA = 0) {px py : Int} (hx : intMin ≤ px ∧ px ≤ intMax) (hy : intMin ≤ py ∧ py ≤ intMax) (r : K) :
    (updateSmudge e b surf v px py r).2.1.a = 0 ∧ (updateSmudge e b surf v px py r).2.1.prevA = 0 := by
  have z1 : ∀ u : K, clampK (u * 0 + (1 - u) * 0) 0 1 = 0 := by
    intro u
    rw [mul_zero, mul_zero, add_zero]
    exact clampK_of_mem le_rfl zero_le_one
  have z2 : ¬ (0 : K) > 1 / 1000 * 10 := by norm_num
  unfold updateSmudge
  dsimp only
  have hr : clampK (r * e.exp (b.vals sSmudgeRadiusLog)) (1 / 5) 1000 ≤ 1000 := by
    unfold clampK
    split_ifs with q1 q2
    · exact le_refl _
    · norm_num
    · exact not_lt.mp q1
  have k := hg px py hx hy _ (if legacySmudge b then -1 else b.vals sPaintMode) hr
  generalize e.getColor surf px py (clampK (r * e.exp (b.vals sSmudgeRadiusLog)) (1 / 5) 1000)
    (if legacySmudge b then -1 else b.vals sPaintMode) = got at k ⊢
  generalize maxC (1 / 100) (b.vals sSmudgeLength) = u
  by_cases hQ : v.recentness * u < minC 1 (e.pow (1 / 2 * u) (b.vals sSmudgeLengthLog) + 1 / 10 ^ 16)
  · simp only [hQ, true_and, if_true]
    by_cases hlim : (b.vals sSmudgeTransparency > 0 ∧ got.1.a < b.vals sSmudgeTransparency) ∨
        (b.vals sSmudgeTransparency < 0 ∧ got.1.a > -b.vals sSmudgeTransparency)
    · simp only [hlim, if_true]; exact h
    · simp only [hlim, if_false]
      generalize (if v.recentness * u = 0 then (0 : K) else u) = w
      rw [k, h.1]
      by_cases hl : legacySmudge b = true
      · rw [if_pos hl]; exact ⟨z1 w, rfl⟩
      · rw [if_neg hl, if_neg z2]; exact ⟨by simp, rfl⟩
  · simp only [hQ, false_and, if_false]
    rw [h.1, h.2]
    by_cases hl : legacySmudge b = true
    · rw [if_pos hl]; exact ⟨z1 u, rfl⟩
    · rw [if_neg hl, if_neg z2]; exact ⟨by simp, rfl⟩

theorem wr_cells {l l' : List K} {k : Int} {v : K} (h : Rng.wr l k v = .ok l')
    (hl : ∀ n v, l[n]? = some v → n % 9 = 3 ∨ n % 9 = 7 → v = 0) (hv : k % 9 = 3 ∨ k % 9 = 7 → v = 0) :
    ∀ n v, l'[n]? = some v → n % 9 = 3 ∨ n % 9 = 7 → v = 0 := by
  unfold Rng.wr at h
  split_ifs at h with q1 q2
  rw [← Except.ok.inj h]
  intro n w hw hn
  by_cases e : k.toNat = n
  · rw [List.getElem?_set, if_pos e, if_pos q2] at hw
    rw [← Option.some.inj hw]
    exact hv (by omega)
  · rw [List.getElem?_set, if_neg e] at hw
    exact hl n w hw hn

theorem zeroFill_cells {n : Nat} : ∀ {s : Int} {l l' : List K}, zeroFill s n l = .ok l' →
    (∀ n v, l[n]? = some v → n % 9 = 3 ∨ n % 9 = 7 → v = 0) → ∀ n v, l'[n]? = some v → n % 9 = 3 ∨ n % 9 = 7 → v = 0 := by
  induction n with
  | zero =>
    intro s l l' h hl
    rw [← Except.ok.inj h]; exact hl
  | succ n ih =>
    intro s l l' h hl
    unfold zeroFill at h
    obtain ⟨l1, h1, h⟩ := bind_ok h
    exact ih h (wr_cells h1 hl fun _ => rfl)

theorem resetBuckets_blank {bk bk' : Buckets K} (h : resetBuckets bk = .ok bk')
    (hl : ∀ n v, bk.mem[n]? = some v → n % 9 = 3 ∨ n % 9 = 7 → v = 0) :
    ∀ n v, bk'.mem[n]? = some v → n % 9 = 3 ∨ n % 9 = 7 → v = 0 := by
  unfold resetBuckets at h
  split_ifs at h
  · rw [← Except.ok.inj h]; exact hl
  · obtain ⟨m, h1, h⟩ := bind_ok h
    rw [← Except.ok.inj h]
    exact zeroFill_cells h1 hl
  · rw [← Except.ok.inj h]; exact hl

theorem writeBucket_blank {l l' : List K} {o : Int} (ho : o % 9 = 0) {v : Bucket K} (hv : v.a = 0 ∧ v.prevA = 0)
    (h : writeBucket l o v = .ok l') (hl : ∀ n v, l[n]? = some v → n % 9 = 3 ∨ n % 9 = 7 → v = 0) :
    ∀ n v, l'[n]? = some v → n % 9 = 3 ∨ n % 9 = 7 → v = 0 := by
  unfold writeBucket at h
  obtain ⟨l1, h1, h⟩ := bind_ok h
  obtain ⟨l2, h2, h⟩ := bind_ok h
  obtain ⟨l3, h3, h⟩ := bind_ok h
  obtain ⟨l4, h4, h⟩ := bind_ok h
  obtain ⟨l5, h5, h⟩ := bind_ok h
  obtain ⟨l6, h6, h⟩ := bind_ok h
  obtain ⟨l7, h7, h⟩ := bind_ok h
  obtain ⟨l8, h8, h⟩ := bind_ok h
  exact wr_cells h (wr_cells h8 (wr_cells h7 (wr_cells h6 (wr_cells h5 (wr_cells h4 (wr_cells h3 (wr_cells h2 (wr_cells h1 hl
    (by omega)) (by omega)) (by omega)) (fun _ => hv.1)) (by omega)) (by omega)) (by omega)) (fun _ => hv.2)) (by omega)

theorem rd_cell {l : List K} {k : Int} {v : K} (h : Rng.rd l k = .ok v)
    (hl : ∀ n v, l[n]? = some v → n % 9 = 3 ∨ n % 9 = 7 → v = 0) (hk : k % 9 = 3 ∨ k % 9 = 7) : v = 0 := by
  unfold Rng.rd at h
  split_ifs at h
  split at h
  · rename_i w hw
    rw [← Except.ok.inj h]
    exact hl _ _ hw (by omega)
  · cases h

theorem readBucket_blank {l : List K} {o : Int} (ho : o % 9 = 0) {v : Bucket K} (h : readBucket l o = .ok v)
    (hl : ∀ n v, l[n]? = some v → n % 9 = 3 ∨ n % 9 = 7 → v = 0) : v.a = 0 ∧ v.prevA = 0 := by
  unfold readBucket at h
  obtain ⟨v1, h1, h⟩ := bind_ok h
  obtain ⟨v2, h2, h⟩ := bind_ok h
  obtain ⟨v3, h3, h⟩ := bind_ok h
  obtain ⟨v4, h4, h⟩ := bind_ok h
  obtain ⟨v5, h5, h⟩ := bind_ok h
  obtain ⟨v6, h6, h⟩ := bind_ok h
  obtain ⟨v7, h7, h⟩ := bind_ok h
  obtain ⟨v8, h8, h⟩ := bind_ok h
  obtain ⟨v9, h9, h⟩ := bind_ok h
  rw [← Except.ok.inj h]
  exact ⟨rd_cell h4 hl (by omega), rd_cell h8 hl (by omega)⟩

theorem fetch_blank {b : Brush K R} (hm : NothingTaken b) : NothingTaken (fetchSmudge b).2 ∧
    (∀ o, (fetchSmudge b).1 = some o → o % 9 = 0) ∧
    ∀ v, loadSmudge (fetchSmudge b).2 (fetchSmudge b).1 = .ok v → v.a = 0 ∧ v.prevA = 0 := by
  unfold fetchSmudge
  by_cases h : b.buckets.mem.isEmpty ∨ b.buckets.num = 0
  · rw [if_pos h]
    refine ⟨hm, ?_, ?_⟩
    · intro o q; cases q
    · intro v q; rw [← Except.ok.inj q]; exact hm.states
  · rw [if_neg h]
    have hmem : (fetchBucket b.buckets (roundHalf (b.vals sSmudgeBucket))).2.mem = b.buckets.mem := by
      unfold fetchBucket
      dsimp only
      split_ifs <;> rfl
    have ho : (fetchBucket b.buckets (roundHalf (b.vals sSmudgeBucket))).1 % 9 = 0 := by
      unfold fetchBucket
      dsimp only
      exact Int.mul_emod_left _ _
    refine ⟨⟨hm.states, ?_⟩, fun o q => ?_, fun v q => ?_⟩
    · dsimp only; rw [hmem]; exact hm.buckets
    · rw [← Option.some.inj q]; exact ho
    · have q' : readBucket (fetchBucket b.buckets (roundHalf (b.vals sSmudgeBucket))).2.mem
        (fetchBucket b.buckets (roundHalf (b.vals sSmudgeBucket))).1 = .ok v := q
      rw [hmem] at q'
      exact readBucket_blank ho q' hm.buckets

theorem smudgeStage_blank {e : Engine.Env K R σ} {surf : σ} (hg : GivesBlank e surf) {b : Brush K R} (hm : NothingTaken b)
    {x y r : K} {sm : Bool × Brush K R × σ} (h : smudgeStage e b surf x y r = .ok sm) : NothingTaken sm.2.1 := by
  unfold smudgeStage at h
  split_ifs at h with hq
  · dsimp only at h
    obtain ⟨v, h1, h⟩ := bind_ok h
    obtain ⟨px, hx, h⟩ := bind_ok h
    obtain ⟨py, hy, h⟩ := bind_ok h
    obtain ⟨b2, h2, h⟩ := bind_ok h
    rw [← Except.ok.inj h]
    obtain ⟨k1, k2, k3⟩ := fetch_blank hm
    have k4 := updateSmudge_blank (b := (fetchSmudge b).2) hg (k3 v h1) (toInt_range hx) (toInt_range hy) r
    generalize (updateSmudge e (fetchSmudge b).2 surf v px py r).2.1 = w at k4 h2
    cases ho : (fetchSmudge b).1 with
    | none =>
      rw [ho] at h2
      have e2 := Except.ok.inj h2
      refine ⟨?_, ?_⟩
      · show b2.st.smudge.a = 0 ∧ b2.st.smudge.prevA = 0
        rw [← e2]; exact k4
      · show ∀ n v, b2.buckets.mem[n]? = some v → _
        rw [← e2]; exact k1.buckets
    | some o =>
      rw [ho] at h2
      obtain ⟨m, h3, h2⟩ := bind_ok h2
      have e2 := Except.ok.inj h2
      refine ⟨?_, ?_⟩
      · show b2.st.smudge.a = 0 ∧ b2.st.smudge.prevA = 0
        rw [← e2]; exact k1.states
      · show ∀ n v, b2.buckets.mem[n]? = some v → _
        rw [← e2]; exact writeBucket_blank (k2 o ho) k4 h3 k1.buckets
  · rw [← Except.ok.inj h]; exact hm

theorem smudgeColor_blank {e : Engine.Env K R σ} {b : Brush K R} (hm : NothingTaken b) {c : Spectral.Rgb K}
    {col : K × Spectral.Rgb K × Brush K R} (h : smudgeColor e b c = .ok col) :
    NothingTaken col.2.2 ∧ 0 ≤ col.1 ∧ (1 ≤ b.vals sSmudge → col.1 = 0) := by
  unfold smudgeColor at h
  split_ifs at h with hq
  · dsimp only at h
    obtain ⟨v, h1, h⟩ := bind_ok h
    rw [← Except.ok.inj h]
    obtain ⟨k1, -, k3⟩ := fetch_blank hm
    have k := k3 v h1
    have e1 : (applySmudge e (fetchSmudge b).2 v c).1 =
        clampK ((1 - minC 1 ((fetchSmudge b).2.vals sSmudge)) + minC 1 ((fetchSmudge b).2.vals sSmudge) * v.a) 0 1 := by
      unfold applySmudge
      dsimp only
      split_ifs <;> rfl
    have ev : (fetchSmudge b).2.vals = b.vals := (fetchSmudge_frame b).vals
    refine ⟨⟨k1.states, k1.buckets⟩, ?_, fun q => ?_⟩
    · dsimp only
      rw [e1]
      exact (Spectral.clampK_unit _).1
    · dsimp only
      rw [e1, ev, k.1, mul_zero, add_zero, Color.minC_eq, min_eq_left q, sub_self]
      exact clampK_of_mem le_rfl zero_le_one
  · rw [← Except.ok.inj h]
    exact ⟨hm, zero_le_one, fun q => absurd (lt_of_lt_of_le zero_lt_one q) hq⟩

/-! ### Whole sessions -/

theorem NothingTaken.of {b b' : Brush K R} (h : NothingTaken b) (h1 : b'.buckets = b.buckets)
    (h2 : b'.st.smudge = b.st.smudge) : NothingTaken b' := ⟨by rw [h2]; exact h.states, by rw [h1]; exact h.buckets⟩

theorem blank_invariant {e : Engine.Env K R σ} {env : Dab.Env K} (he : Sample.EnvOk env) {sch : Schedule}
    (ho : ∀ n l, (sch.order n l).Perm l) (d : Symm.Data K) :
    Invariant (e.on (Spec.Now.draw env d) (Spec.Now.getColor env sch)) (fun _ => True) (fun _ _ => True)
      (fun b v => WithoutPaint b.settings ∧ NothingTaken b ∧ Blank v.canvas)
      (fun b v => (∃ i, b.vals = fun id => calculate (b.settings id) i) ∧ WithoutPaint b.settings ∧ NothingTaken b ∧
        Blank v.canvas) where
  skip b s ev _ h := by rw [skipStage_eq]; exact ⟨h.1, h.2.1.of rfl rfl, h.2.2⟩
  pull b s ev _ _ h := by rw [cursor_eq, skipStage_eq]; exact ⟨h.1, h.2.1.of rfl rfl, h.2.2⟩
  target _ _ _ _ _ _ := trivial
  start b s ev x y b' _ _ h _ hs := by
    obtain ⟨bk, hk, e1⟩ := startOver_eq hs
    rw [e1]
    exact ⟨h.1, ⟨⟨rfl, rfl⟩, resetBuckets_blank hk h.2.1.buckets⟩, h.2.2⟩
  count b s x y dt h := by rw [countDabs_st]; exact ⟨h.1, h.2.1.of rfl rfl, h.2.2⟩
  step b s ev x y d f t b' _ _ _ _ _ _ h hu := by
    rw [update_eq hu]
    exact ⟨⟨_, rfl⟩, h.1, h.2.1.of rfl (moved_smudge _ _ _ _), h.2.2⟩
  draw b s lin p h hd := by
    obtain ⟨⟨i, hv⟩, hs, hm, hc⟩ := h
    set e' := e.on (Spec.Now.draw env d) (Spec.Now.getColor env sch) with he'
    have hg : GivesBlank e' s := getColor_blank he ho e d hc
    obtain ⟨o, pos, sm, -, h2, h3, fr, hcase⟩ := drawDab_cases hd
    have hm1 : NothingTaken (dabRadius e' pos.2.2 o).2.2 := by
      have k1 : pos.2.2.buckets = b.buckets ∧ pos.2.2.st.smudge = b.st.smudge := by
        unfold dabPosition at h2
        dsimp only at h2
        split_ifs at h2 <;> first | (cases h2; done) | (rw [← Except.ok.inj h2]; exact ⟨rfl, rfl⟩)
      have k2 : ∀ c : Brush K R, (dabRadius e' c o).2.2.buckets = c.buckets ∧
          (dabRadius e' c o).2.2.st.smudge = c.st.smudge := by
        intro c
        unfold dabRadius
        dsimp only
        split_ifs <;> exact ⟨rfl, rfl⟩
      have k3 := k2 pos.2.2
      exact hm.of (k3.1.trans k1.1) (k3.2.trans k1.2)
    have t2 := smudgeStage_blank hg hm1 h3
    have es1 : sm.2.1.settings = b.settings := fr.settings
    have ev1 : sm.2.1.vals = b.vals := fr.vals
    have hcan : sm.2.2.canvas = s.canvas := by
      rcases smudgeStage_surf h3 with q | ⟨px, py, r', p', q⟩
      · rw [q]
      · rw [q]
        show (Spec.Now.getColor env sch s px py r' p').2.canvas = _
        unfold Spec.Now.getColor
        split <;> rfl
    rcases hcase with ⟨q, hpe⟩ | ⟨-, col, hcol, fr2, hpe⟩
    · rw [hpe]
      refine ⟨?_, t2.of rfl rfl, ?_⟩
      · show WithoutPaint sm.2.1.settings
        rw [es1]; exact hs
      · show Blank sm.2.2.canvas
        rw [hcan]; exact hc
    · obtain ⟨k1, k2, k3⟩ := smudgeColor_blank t2 hcol
      have es2 : col.2.2.settings = b.settings := fr2.settings
      have ev2 : col.2.2.vals = b.vals := fr2.vals
      rw [hpe]
      refine ⟨?_, k1.of rfl rfl, ?_⟩
      · show WithoutPaint col.2.2.settings
        rw [es2]; exact hs
      · refine draw_blank he.valid (by rw [hcan]; exact hc) ?_ d
        have hcase := hs i
        rw [ev1, hv] at k3
        rcases hcase with q | q | q | q | q
        · left
          show (if col.2.2.vals sEraser ≠ 0 then col.1 * (1 - col.2.2.vals sEraser) else col.1) ≤ 0
          rw [k3 q]
          simp
        · left
          show (if col.2.2.vals sEraser ≠ 0 then col.1 * (1 - col.2.2.vals sEraser) else col.1) ≤ 0
          rw [ev2, hv]
          dsimp only
          rw [if_pos (by linarith [q] : calculate (b.settings sEraser) i ≠ 0)]
          exact mul_nonpos_of_nonneg_of_nonpos k2 (by linarith)
        · right; left
          show 1 ≤ col.2.2.vals sLockAlpha
          rw [ev2, hv]; exact q
        · right; right; left
          show 1 ≤ col.2.2.vals sColorize
          rw [ev2, hv]; exact q
        · right; right; right
          show 1 ≤ col.2.2.vals sPosterize
          rw [ev2, hv]; exact q
  finish b s n total idle h := ⟨h.2.1, h.2.2.1.of rfl rfl, h.2.2.2⟩

/-! ## C107 -/

/-- **C107**. Whatever is done with a brush that has no paint of its own and has taken up none, an empty canvas stays empty. -/
theorem empty_stays_empty {e : Engine.Env K R σ} {b : Build} {env : Dab.Env K} (he : Sample.EnvOk env) {trig : Symm.Trig K}
    {sch : Schedule} (ho : ∀ n l, (sch.order n l).Perm l) {fuel : Nat} (bls : List (Block K)) {s s' : Studio K R}
    (hs : s.Fine b env trig) (hd : InForce s.surf.symm) (hq : Unswerving bls) (hb : WithoutPaint s.brush.settings)
    (hm : NothingTaken s.brush) (hc : Blank s.surf.surf.canvas) (h : paint e b env trig sch fuel s bls = .ok s') :
    Blank s'.surf.surf.canvas ∧ NothingTaken s'.brush := by
  have hn := paint_now bls hs.surf hd.agree hq h
  unfold Spec.Now.paint at hn
  have k := (session_keeps (blank_invariant he ho s.surf.symm) (fun _ => True) (fun _ _ _ _ => trivial)
    (fun _ _ _ _ => trivial) (fun _ _ => trivial) _ (fun _ _ => trivial) hs.brush ⟨hb, hm, hc⟩ hn).1.2
  exact ⟨k.2, k.1⟩

end

/-! ### Examples -/

namespace Demo

theorem finger_withoutPaint : WithoutPaint finger.settings ∧ NothingTaken finger := by
  refine ⟨fun i => .inl ?_, ⟨⟨rfl, rfl⟩, ?_⟩⟩
  · rcases (finger_smudges ⟨0, 0, 0⟩ ⟨0, 0, 0⟩).own with q | q
    · exact q i
    · show (1 : ℚ) ≤ 1; exact le_refl _
  · intro n v h
    rw [show finger.buckets.mem = [] from rfl] at h
    simp at h

/-- The hypotheses hold for it: whatever blocks of events follow, the canvas stays empty. -/
example {s s' : Studio ℚ Nat} (h0 : studio finger ⟨0, 0, 0, 0⟩ = .ok s) (bls : List (Block ℚ)) (hq : Unswerving bls) {fuel : Nat}
    (h : paint Engine.Demo.env .normal demoEnv demoTrig sch fuel s bls = .ok s') : Blank s'.surf.surf.canvas := by
  obtain ⟨s1, h1, hf, hb, hc⟩ := studio_fine (br := finger) ⟨⟨le_refl _, zero_lt_one⟩, le_refl _⟩ ⟨0, 0, 0, 0⟩
  rw [h0] at h1
  cases h1
  have ha : s.surf.symm.active = false := by
    unfold studio at h0
    have : (studio finger ⟨0, 0, 0, 0⟩).toOption.map (fun s => s.surf.symm.active) = some false := by decide +kernel
    unfold studio at this
    rw [h0] at this
    exact Option.some.inj this
  obtain ⟨g1, g2⟩ := finger_withoutPaint
  rw [← hb] at g1 g2
  exact (empty_stays_empty Sample.demoEnv_ok (fun _ l => List.Perm.refl l) bls hf (.inr ha) hq g1 g2
    (by rw [hc]; exact fun X Y => uniform_pixel _ X Y) h).1

/-- A stroke with it, ... -/
example : (observe finger ⟨0, 0, 0, 0⟩ events [(61, 10), (64, 10), (66, 10)]).map Prod.snd =
    some [some ⟨0, 0, 0, 0⟩, some ⟨0, 0, 0, 0⟩, some ⟨0, 0, 0, 0⟩] := by decide +kernel

/-- ... and one with half the strength, which paints. -/
example : (observe (Engine.Demo.set finger sSmudge (1 / 2)) ⟨0, 0, 0, 0⟩ events [(61, 10)]).map Prod.snd =
    some [some ⟨16120, 0, 0, 16120⟩] := by decide +kernel

end Demo

end Verif.Painting
