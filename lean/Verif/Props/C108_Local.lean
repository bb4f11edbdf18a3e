import Verif.Lemmas.EnginePair
import Verif.Props.C64_Scatter
import Verif.Props.C80_Everywhere
import Verif.Props.C82_Grouping
import Verif.Props.C22_GetColor

/-!
# C108: painting is a local matter

What a stroke paints near the pen depends only on the canvas near the pen; so strokes far enough from each other can be
painted in any order.
-/

namespace Verif.Painting
open Verif.Full Verif.Dab Verif.Engine Verif.Blend Verif.Map Verif.Mask

section
variable {K R σ : Type} [Field K] [LinearOrder K] [IsStrictOrderedRing K] [FloorRing K]

/-- The pictures have the same colours in `S`, as far as both are defined. -/
def AgreeOn (S : Int → Int → Prop) (c c' : Canvas) : Prop :=
  ∀ X Y, S X Y → ∀ p p', pixel c X Y = .ok p → pixel c' X Y = .ok p' → p' = p

/-- Threads and chance do the same every time a colour is picked. -/
def Unchanging (sch : Schedule) : Prop := ∀ n m, sch.order n = sch.order m ∧ sch.coin n = sch.coin m

/-- The brush looks at pixels of `S` only, while the pen is in the region `C`: the colours it picks come from within `μ` of
the centres of its dabs, scattering and offsets add `N`, `B` and `o`, rounding the rest. -/
structure LooksAt (e : Engine.Env K R σ) (s : Load.Brush K) (C : K → K → Prop) (N B o μ : K) (S : Int → Int → Prop) : Prop where
  scatter : Scatter e s N B
  offset : NoOffset s ∨ 3240 ≤ o
  offset0 : 0 ≤ o
  random : ∀ i, calculate (s sRadiusByRandom) i = 0
  radius : ∀ i, askedRadius e (calculate (s sRadiusLogarithmic) i) * e.exp (calculate (s sSmudgeRadiusLog) i) ≤ μ ∨ 1000 ≤ μ
  one : 1 ≤ μ
  inside : ∀ X Y, Near C (N + B + o + μ + 3) X Y → S X Y

/-! ### Drawing -/

theorem dabAt_agree {env : Dab.Env K} (he : env.Valid) {S : Int → Int → Prop} {c c' : Canvas} (h : AgreeOn S c c') (a : Args K) :
    AgreeOn S (Spec.Now.dabAt env c a) (Spec.Now.dabAt env c' a) := by
  unfold Spec.Now.dabAt
  cases hp : prepare a with
  | error f => exact h
  | ok o =>
    cases o with
    | none => exact h
    | some op =>
      dsimp only
      intro X Y hS p p' h1 h2
      obtain ⟨q, hq, e1⟩ := drawNow_pixel he (prepare_valid hp) h1
      obtain ⟨q', hq', e2⟩ := drawNow_pixel he (prepare_valid hp) h2
      rw [h X Y hS q q' hq hq', e1] at e2
      exact (Except.ok.inj e2).symm

theorem dabAt_valid {env : Dab.Env K} (he : env.Valid) {s : Load.Brush K} (hs : PlainModes s) {c : Canvas} (hc : CanvasValid c)
    {a : Args K} (ha : PassedOn s a) : CanvasValid (Spec.Now.dabAt env c a) := by
  unfold Spec.Now.dabAt
  cases hp : prepare a with
  | error f => exact hc
  | ok o =>
    cases o with
    | none => exact hc
    | some op =>
      exact dab_keeps_canvas_valid he (prepare_valid hp) (moved_plain hs ha (x := a.x) (y := a.y) (θ := a.angle) hp) c hc

theorem draw_agree {env : Dab.Env K} (he : env.Valid) {S : Int → Int → Prop} {v v' : Spec.Now.Picture}
    (h : AgreeOn S v.canvas v'.canvas) (a : Args K) (d : Symm.Data K) :
    (Spec.Now.draw env d v' a).1 = (Spec.Now.draw env d v a).1 ∧
      AgreeOn S (Spec.Now.draw env d v a).2.canvas (Spec.Now.draw env d v' a).2.canvas ∧
      (Spec.Now.draw env d v a).2.samples = v.samples ∧ (Spec.Now.draw env d v' a).2.samples = v'.samples := by
  unfold Spec.Now.draw
  split_ifs
  · refine ⟨rfl, ?_, rfl, rfl⟩
    have key : ∀ (l : List (Args K)) (c c' : Canvas), AgreeOn S c c' →
        AgreeOn S (l.foldl (Spec.Now.dabAt env) c) (l.foldl (Spec.Now.dabAt env) c') := by
      intro l
      induction l with
      | nil => intro c c' h; exact h
      | cons a l ih => intro c c' h; exact ih _ _ (dabAt_agree he h a)
    exact key _ _ _ h
  · exact ⟨rfl, h, rfl, rfl⟩

theorem draw_valid {env : Dab.Env K} (he : env.Valid) {s : Load.Brush K} (hs : PlainModes s) {v : Spec.Now.Picture}
    (hc : CanvasValid v.canvas) {a : Args K} (ha : PassedOn s a) (d : Symm.Data K) :
    CanvasValid (Spec.Now.draw env d v a).2.canvas := by
  unfold Spec.Now.draw
  split_ifs
  · have key : ∀ (l : List (Args K)) (c : Canvas), (∀ a' ∈ l, PassedOn s a') → CanvasValid c →
        CanvasValid (l.foldl (Spec.Now.dabAt env) c) := by
      intro l
      induction l with
      | nil => intro c _ h; exact h
      | cons a' l ih =>
        intro c hl h
        exact ih _ (fun x hx => hl x (List.mem_cons_of_mem _ hx)) (dabAt_valid he hs h (hl a' List.mem_cons_self))
    refine key _ _ (fun a' ha' => ?_) hc
    rcases List.mem_cons.mp ha' with q | q
    · rw [q]; exact ha
    · unfold Spec.Now.copies at q
      split at q
      · obtain ⟨x, -, e⟩ := List.mem_map.mp q
        rw [← e]
        exact ha
      · cases q
  · exact hc

/-! ### Looking -/

theorem accumulateAll_agree {s : Shape K} (hv : s.Valid) (pow : K → K → K) (paint : K) (n : Nat) (coin : TileIndex → Nat → Bool)
    {c c' : Canvas} (hc : CanvasValid c) (hc' : CanvasValid c') {S : Int → Int → Prop} (h : AgreeOn S c c')
    (hS : ∀ X Y, opacityAt s X Y ≠ 0 → S X Y) (ts : List TileIndex) : ∀ acc : Sample.Acc K,
    Sample.accumulateAll pow s paint n coin (ts.zip (ts.map c')) acc =
      Sample.accumulateAll pow s paint n coin (ts.zip (ts.map c)) acc := by
  have tile : ∀ {c : Canvas}, CanvasValid c → ∀ t, ∃ tile, c t = .ok tile := by
    intro c hc t
    obtain ⟨p, hp, -⟩ := hc (64 * t.x) (64 * t.y)
    obtain ⟨tl, h1, -⟩ := pixel_ok hp
    have e : tileOfPixel (64 * t.x) (64 * t.y) = t := by
      unfold tileOfPixel
      rw [Int.mul_ediv_cancel_left _ (by norm_num), Int.mul_ediv_cancel_left _ (by norm_num)]
    rw [e] at h1
    exact ⟨tl, h1⟩
  induction ts with
  | nil => intro acc; rfl
  | cons t ts ih =>
    intro acc
    obtain ⟨tl, h1⟩ := tile hc t
    obtain ⟨tl', h2⟩ := tile hc' t
    have e : Sample.tilePixels s t tl' = Sample.tilePixels s t tl := by
      rw [Sample.tilePixels_ok hv, Sample.tilePixels_ok hv]
      refine congrArg Except.ok (List.map_congr_left fun P hP => ?_)
      obtain ⟨m1, m2⟩ := (Sample.mem_vis hv t P).mp hP
      have k := h P.1 P.2 (hS _ _ m2) (readPx tl (offset P.1 P.2)) (readPx tl' (offset P.1 P.2))
        (by unfold pixel; rw [m1, h1]; rfl) (by unfold pixel; rw [m1, h2]; rfl)
      rw [k]
    rw [List.map_cons, List.map_cons, List.zip_cons_cons, List.zip_cons_cons]
    unfold Sample.accumulateAll
    rw [h1, h2]
    simp only [bind, Except.bind, e]
    cases Sample.tilePixels s t tl with
    | error f => rfl
    | ok l =>
      dsimp only
      cases Sample.accumulateTile pow paint n (coin t) l acc with
      | error f => rfl
      | ok acc => exact ih acc

theorem look_agree {env : Dab.Env K} (he : env.Valid) {c c' : Canvas} (hc : CanvasValid c) (hc' : CanvasValid c')
    {S : Int → Int → Prop} (h : AgreeOn S c c') {x y radius paint : K} {order : List TileIndex → List TileIndex}
    {coin : TileIndex → Nat → Bool} (hS : ∀ X Y, opacityAt (Sample.shape x y radius env.rad1) X Y ≠ 0 → S X Y) :
    Spec.Now.look env c' x y radius paint order coin = Spec.Now.look env c x y radius paint order coin := by
  unfold Spec.Now.look
  dsimp only
  simp only [accumulateAll_agree (Sample.shape_valid x y radius he.rad1) env.pow paint _ coin hc hc' h hS]

/-! ### The two sessions side by side -/

/-- Where and how large the brush samples. -/
theorem smudgeStage_looks {e : Engine.Env K R σ} {b : Brush K R} {surf : σ} {x y r : K} {sm : Bool × Brush K R × σ}
    (h : smudgeStage e b surf x y r = .ok sm) :
    sm.2.2 = surf ∨ ((b.vals sSmudgeLength < 1 ∧ (b.vals sSmudge ≠ 0 ∨ isConstant (b.settings sSmudge) = false)) ∧
      ∃ px py p, toInt (x + 1 / 2) = .ok px ∧ toInt (y + 1 / 2) = .ok py ∧
        sm.2.2 = (e.getColor surf px py (clampK (r * e.exp (b.vals sSmudgeRadiusLog)) (1 / 5) 1000) p).2) := by
  unfold smudgeStage at h
  by_cases hc : b.vals sSmudgeLength < 1 ∧ (b.vals sSmudge ≠ 0 ∨ isConstant (b.settings sSmudge) = false)
  · rw [if_pos hc] at h
    dsimp only at h
    obtain ⟨v, -, h⟩ := bind_ok h
    obtain ⟨px, hx, h⟩ := bind_ok h
    obtain ⟨py, hy, h⟩ := bind_ok h
    obtain ⟨b2, -, h⟩ := bind_ok h
    rw [← Except.ok.inj h]
    show (updateSmudge e (fetchSmudge b).2 surf v px py r).2.2.1 = surf ∨ _
    have ev : (fetchSmudge b).2.vals = b.vals := (fetchSmudge_frame b).vals
    have key : (updateSmudge e (fetchSmudge b).2 surf v px py r).2.2.1 = surf ∨
        ∃ p, (updateSmudge e (fetchSmudge b).2 surf v px py r).2.2.1 =
          (e.getColor surf px py (clampK (r * e.exp (b.vals sSmudgeRadiusLog)) (1 / 5) 1000) p).2 := by
      unfold updateSmudge
      dsimp only
      rw [ev]
      split_ifs
      all_goals first
        | exact .inl rfl
        | exact .inr ⟨_, rfl⟩
    rcases key with q | ⟨p, q2⟩
    · exact .inl q
    · exact .inr ⟨hc, px, py, p, hx, hy, q2⟩
  · rw [if_neg hc] at h
    rw [← Except.ok.inj h]; exact .inl rfl

/-- What is known of the two pictures: `V` says whether they are valid. -/
structure Together (sch : Schedule) (V : Prop) (S : Int → Int → Prop) (v v' : Spec.Now.Picture) : Prop where
  agree : AgreeOn S v.canvas v'.canvas
  samples : V → v'.samples = v.samples ∨ Unchanging sch
  valid : V → CanvasValid v.canvas ∧ CanvasValid v'.canvas

/-- The brush on the picture. -/
def onPicture (e : Engine.Env K R σ) (env : Dab.Env K) (d : Symm.Data K) (sch : Schedule) : Engine.Env K R Spec.Now.Picture :=
  e.on (Spec.Now.draw env d) (Spec.Now.getColor env sch)

/-- The brush on two pictures. -/
noncomputable def onBoth (e : Engine.Env K R σ) (env : Dab.Env K) (d : Symm.Data K) (sch : Schedule) :
    Engine.Env K R (Spec.Now.Picture × Option Spec.Now.Picture) :=
  beside (onPicture e env d sch) (Spec.Now.draw env d) (Spec.Now.getColor env sch)

/-- The second picture is still there, and is as the first one. -/
def StillTogether (sch : Schedule) (V : Prop) (S : Int → Int → Prop) (s : Spec.Now.Picture × Option Spec.Now.Picture) : Prop :=
  ∃ v', s.2 = some v' ∧ Together sch V S s.1 v'

theorem still_drawn {e : Engine.Env K R σ} {env : Dab.Env K} (he : env.Valid) {d : Symm.Data K} {sch : Schedule} {V : Prop}
    {S : Int → Int → Prop} {s : Spec.Now.Picture × Option Spec.Now.Picture} (h : StillTogether sch V S s) {set : Load.Brush K}
    (hV : V → PlainModes set) {a : Args K} (ha : PassedOn set a) : StillTogether sch V S ((onBoth e env d sch).draw s a).2 := by
  obtain ⟨v', h1, h2⟩ := h
  obtain ⟨k1, k2, k3, k4⟩ := draw_agree he h2.agree a d
  refine ⟨(Spec.Now.draw env d v' a).2, ?_, k2, ?_, fun hv => ?_⟩
  · show s.2.bind _ = _
    rw [h1]
    show (if (Spec.Now.draw env d v' a).1 = (Spec.Now.draw env d s.1 a).1 then _ else _) = _
    rw [if_pos k1]
  · show _ → (Spec.Now.draw env d v' a).2.samples = (Spec.Now.draw env d s.1 a).2.samples ∨ _
    rw [k3, k4]
    exact h2.samples
  · exact ⟨draw_valid he (hV hv) (h2.valid hv).1 ha d, draw_valid he (hV hv) (h2.valid hv).2 ha d⟩

theorem still_looked {e : Engine.Env K R σ} {env : Dab.Env K} {d : Symm.Data K} {sch : Schedule} {V : Prop}
    {S : Int → Int → Prop} {s : Spec.Now.Picture × Option Spec.Now.Picture} (h : StillTogether sch V S s) {x y : Int} {r p : K}
    (hl : ∀ c c' : Canvas, V → CanvasValid c → CanvasValid c' → AgreeOn S c c' → ∀ order coin,
      Spec.Now.look env c' (x : K) (y : K) r p order coin = Spec.Now.look env c (x : K) (y : K) r p order coin) (hV : V) :
    StillTogether sch V S ((onBoth e env d sch).getColor s x y r p).2 := by
  obtain ⟨v', h1, h2⟩ := h
  have hsch : sch.order v'.samples = sch.order s.1.samples ∧ sch.coin v'.samples = sch.coin s.1.samples := by
    rcases h2.samples hV with q | q
    · rw [q]; exact ⟨rfl, rfl⟩
    · exact q _ _
  have k := hl s.1.canvas v'.canvas hV (h2.valid hV).1 (h2.valid hV).2 h2.agree (sch.order s.1.samples) (sch.coin s.1.samples)
  have k1 : Spec.Now.getColor env sch v' x y r p = ((Spec.Now.getColor env sch s.1 x y r p).1,
      { v' with samples := v'.samples + ((Spec.Now.getColor env sch s.1 x y r p).2.samples - s.1.samples) }) ∧
      (Spec.Now.getColor env sch s.1 x y r p).2.canvas = s.1.canvas ∧
      s.1.samples ≤ (Spec.Now.getColor env sch s.1 x y r p).2.samples := by
    unfold Spec.Now.getColor
    rw [hsch.1, hsch.2, k]
    cases Spec.Now.look env s.1.canvas (x : K) (y : K) r p (sch.order s.1.samples) (sch.coin s.1.samples) with
    | error f => exact ⟨by simp, rfl, le_refl _⟩
    | ok q => exact ⟨by simp, rfl, Nat.le_succ _⟩
  obtain ⟨k1, k2, k3⟩ := k1
  refine ⟨(Spec.Now.getColor env sch v' x y r p).2, ?_, ?_, ?_, ?_⟩
  · show s.2.bind _ = _
    rw [h1]
    show (if (Spec.Now.getColor env sch v' x y r p).1 = (Spec.Now.getColor env sch s.1 x y r p).1 then _ else _) = _
    rw [if_pos (by rw [k1])]
  · show AgreeOn S (Spec.Now.getColor env sch s.1 x y r p).2.canvas _
    rw [k1, k2]
    exact h2.agree
  · intro _
    show _ = (Spec.Now.getColor env sch s.1 x y r p).2.samples ∨ _
    rw [k1]
    refine (h2.samples hV).imp_left fun q => ?_
    show v'.samples + _ = _
    omega
  · show _ → CanvasValid (Spec.Now.getColor env sch s.1 x y r p).2.canvas ∧ _
    rw [k1, k2]
    exact h2.valid

/-- A dab on both pictures. -/
theorem still_dabbed {e : Engine.Env K R σ} {env : Dab.Env K} (he : env.Valid) {d : Symm.Data K} {sch : Schedule} {V : Prop}
    {S : Int → Int → Prop} {s : Spec.Now.Picture × Option Spec.Now.Picture} (h : StillTogether sch V S s) {b : Brush K R}
    {lin : Bool} {p : Bool × Brush K R × (Spec.Now.Picture × Option Spec.Now.Picture)}
    (hd : drawDab (onBoth e env d sch) b s lin = .ok p) {i : Nat → K} (hv : b.vals = fun id => calculate (b.settings id) i)
    (hV : V → PlainModes b.settings)
    (hl : (b.vals sSmudgeLength < 1 ∧ (b.vals sSmudge ≠ 0 ∨ isConstant (b.settings sSmudge) = false)) → V ∧
      ∀ o pos px py, dabPosition (onBoth e env d sch) b = .ok pos → toInt (pos.1 + 1 / 2) = .ok px →
        toInt (pos.2.1 + 1 / 2) = .ok py → ∀ X Y, opacityAt (Sample.shape (px : K) (py : K) (clampK
          ((dabRadius (onBoth e env d sch) pos.2.2 o).1 * e.exp (b.vals sSmudgeRadiusLog)) (1 / 5) 1000) env.rad1) X Y ≠ 0 → S X Y) :
    StillTogether sch V S p.2.2 := by
  obtain ⟨o, pos, sm, -, h2, h3, fr, hcase⟩ := drawDab_cases hd
  have f0 := (dabPosition_frame h2).trans (dabRadius_frame (onBoth e env d sch) pos.2.2 o)
  have g1 : StillTogether sch V S sm.2.2 := by
    rcases smudgeStage_looks h3 with q | ⟨hc, px, py, p', hx, hy, q⟩
    · rw [q]; exact h
    · rw [f0.vals, f0.settings] at hc
      obtain ⟨hVV, hS⟩ := hl hc
      rw [q, f0.vals]
      refine still_looked h (fun c c' _ hc hc' ha order coin => ?_) hVV
      exact look_agree he hc hc' ha (hS o pos px py h2 hx hy)
  rcases hcase with ⟨-, hp⟩ | ⟨-, col, -, fr2, hp⟩
  · rw [hp]; exact g1
  · rw [hp]
    refine still_drawn he g1 hV ⟨i, ?_⟩
    have ev : ∀ id, col.2.2.vals id = calculate (b.settings id) i := fun id => by rw [fr2.vals, hv]
    refine ⟨ev _, ev _, ev _, ev _, ev _, ?_⟩
    show clampK (col.2.2.vals sSoftness) 0 1 = _
    rw [ev]

/-- The brush that never looks at the canvas. -/
theorem never_invariant (e : Engine.Env K R σ) {env : Dab.Env K} (he : env.Valid) (d : Symm.Data K) (sch : Schedule)
    (S : Int → Int → Prop) :
    Invariant (onBoth e env d sch) (fun _ => True) (fun _ _ => True)
      (fun b s => NeverSamples b.settings ∧ StillTogether sch False S s)
      (fun b s => (∃ i, b.vals = fun id => calculate (b.settings id) i) ∧ NeverSamples b.settings ∧ StillTogether sch False S s) :=
  Invariant.ofSettings
    (I := fun (s : Load.Brush K) l => NeverSamples s ∧ StillTogether sch False S l)
    (J := fun (b : Brush K R) l => (∃ i, b.vals = fun id => calculate (b.settings id) i) ∧ NeverSamples b.settings ∧
      StillTogether sch False S l)
    (fun b b' st surf h hu => by rw [update_eq hu]; exact ⟨⟨_, rfl⟩, h⟩) (fun b surf h => h.2) (by
      rintro b s lin p ⟨⟨i, hv⟩, hn, h⟩ hd
      refine ⟨hn, still_dabbed he h hd (i := i) hv (fun q => q.elim) fun q => absurd ?_ (hn i)⟩
      rw [show ({ b with st := { b.st with flip := b.st.flip * -1 } } : Brush K R).vals = b.vals from rfl, hv] at q
      exact q)

theorem toInt_close {v : K} {n : Int} (h : toInt (v + 1 / 2) = .ok n) : |(n : K) - v| ≤ 3 / 2 := by
  unfold toInt at h
  dsimp only at h
  have key : n = (if 0 ≤ v + 1 / 2 then ⌊v + 1 / 2⌋ else ⌈v + 1 / 2⌉) := by
    generalize (if 0 ≤ v + 1 / 2 then ⌊v + 1 / 2⌋ else ⌈v + 1 / 2⌉) = t at h
    split_ifs at h
    exact (Except.ok.inj h).symm
  rw [key]
  split_ifs
  · have a1 := Int.floor_le (v + 1 / 2)
    have a2 := Int.lt_floor_add_one (v + 1 / 2)
    rw [abs_le]; constructor <;> linarith
  · have a1 := Int.le_ceil (v + 1 / 2)
    have a2 := Int.ceil_lt_add_one (v + 1 / 2)
    rw [abs_le]; constructor <;> linarith

/-- The brush that looks at the canvas near the pen. -/
theorem looking_invariant {e : Engine.Env K R σ} (hd : Decays e) {env : Dab.Env K} (he : env.Valid) (d : Symm.Data K)
    (sch : Schedule) {C : K → K → Prop} (hC : Engine.Convex C) {N B o μ : K} {S : Int → Int → Prop} {set : Load.Brush K}
    (hm : PlainModes set) (hL : LooksAt e set C N B o μ S) :
    Invariant (onBoth e env d sch) (fun ev => C ev.x ev.y) (Widened C N)
      (fun b s => (Scatter (onBoth e env d sch) b.settings N B ∧ BrushIn (Widened C N) b) ∧ b.settings = set ∧
        StillTogether sch True S s)
      (fun b s => ((Scatter (onBoth e env d sch) b.settings N B ∧ BrushIn (Widened C N) b) ∧
        ∃ i, b.vals = fun id => calculate (b.settings id) i) ∧ Shaped (onBoth e env d sch) b ∧ b.settings = set ∧
        StillTogether sch True S s) :=
  have H := around_invariant hC (onBoth e env d sch) hd N B
  { skip := fun b s ev h1 h => ⟨H.skip b s ev h1 h.1, by rw [skipStage_eq]; exact h.2⟩
    pull := fun b s ev h1 h2 h => ⟨H.pull b s ev h1 h2 h.1, by rw [cursor_eq, skipStage_eq]; exact h.2⟩
    target := fun b s ev h1 h2 h => H.target b s ev h1 h2 h.1
    start := by
      intro b s ev x y b' h1 h2 h3 h4 h5
      refine ⟨H.start b s ev x y b' h1 h2 h3.1 (h4.imp_right fun ⟨b0, q1, q2⟩ => ⟨b0, q1.1, q2⟩) h5, ?_⟩
      obtain ⟨bk, -, e1⟩ := startOver_eq h5
      rw [e1]; exact h3.2
    count := fun b s x y dt h => ⟨H.count b s x y dt h.1, by rw [countDabs_st]; exact h.2⟩
    step := by
      intro b s ev x y d' f t b' h1 h2 h3 h4 h5 h6 h7 hu
      refine ⟨H.step b s ev x y d' f t b' h1 h2 h3 h4 h5 h6 h7.1 hu, update_shaped hu, ?_⟩
      rw [update_eq hu]; exact h7.2
    draw := by
      rintro b s lin p ⟨hp, ⟨i, hv, hr, -⟩, hset, h⟩ hdd
      refine ⟨H.draw b s lin p hp hdd, ?_⟩
      have fr := drawDab_frame hdd
      have est : p.2.1.settings = b.settings := fr.settings
      refine ⟨est.trans hset, still_dabbed he h hdd (i := i) hv (fun _ => show PlainModes b.settings by rw [hset]; exact hm)
        fun _ => ⟨trivial, ?_⟩⟩
      intro o' pos px py hpos hx hy X Y hop
      have ha := dabPosition_around (b := { b with st := { b.st with flip := b.st.flip * -1 } }) (C := Widened C N) (B := B)
        (N := N) hv hp.1.1 ⟨hp.1.2.at', hp.1.2.slow⟩ hpos
      obtain ⟨qx, qy, ⟨cx, cy, c1, c2, c3⟩, a1, a2, a3⟩ := ha
      have hrad : (dabRadius (onBoth e env d sch) pos.2.2 o').1 = askedRadius e (calculate (set sRadiusLogarithmic) i) := by
        have f0 := dabPosition_frame hpos
        have e1 : pos.2.2.vals sRadiusByRandom = 0 := by
          rw [f0.vals]
          show b.vals sRadiusByRandom = 0
          rw [hv, hset]
          exact hL.random i
        unfold dabRadius
        dsimp only
        rw [if_neg (not_not.mpr e1)]
        show pos.2.2.st.actualRadius = _
        rw [f0, ← hset]
        exact hr
      rw [hrad] at hop
      have ev : ({ b with st := { b.st with flip := b.st.flip * -1 } } : Brush K R).vals sSmudgeRadiusLog =
          calculate (set sSmudgeRadiusLog) i := by
        show b.vals sSmudgeRadiusLog = _
        rw [hv, hset]
      rw [ev] at hop
      have hμ : (Sample.shape (px : K) (py : K) (clampK (askedRadius e (calculate (set sRadiusLogarithmic) i) *
          e.exp (calculate (set sSmudgeRadiusLog) i)) (1 / 5) 1000) env.rad1).radius ≤ μ := by
        show (if _ < (1 : K) then (1 : K) else _) ≤ μ
        have h1 := hL.one
        split_ifs
        · exact h1
        · rcases hL.radius i with q | q
          · rw [clampK_eq _ _ _ (by norm_num)]
            exact max_le (by linarith) ((min_le_right _ _).trans q)
          · exact (clampK_ge (by norm_num)).2.trans q
      obtain ⟨x1, x2, y1, y2⟩ := Mask.opacityAt_support (Sample.shape_valid _ _ _ he.rad1) hop
      generalize (Sample.shape (px : K) (py : K) (clampK (askedRadius e (calculate (set sRadiusLogarithmic) i) *
          e.exp (calculate (set sSmudgeRadiusLog) i)) (1 / 5) 1000) env.rad1).radius = ρ at hμ x1 x2 y1 y2
      have lo : ∀ (v : K) (n : Int), ⌊v⌋ ≤ n → v - 1 < n := by
        intro v n hn
        have a := Int.lt_floor_add_one v
        have b : ((⌊v⌋ : Int) : K) ≤ n := by exact_mod_cast hn
        linarith
      have hi' : ∀ (v : K) (n : Int), n ≤ ⌊v⌋ → (n : K) ≤ v := by
        intro v n hn
        exact (by exact_mod_cast hn : (n : K) ≤ ⌊v⌋).trans (Int.floor_le v)
      have b1 : (px : K) - (ρ + 1) - 1 < X := lo _ _ x1
      have b2 : (X : K) ≤ (px : K) + (ρ + 1) := hi' _ _ x2
      have b3 : (py : K) - (ρ + 1) - 1 < Y := lo _ _ y1
      have b4 : (Y : K) ≤ (py : K) + (ρ + 1) := hi' _ _ y2
      have t1 := abs_le.mp (toInt_close hx)
      have t2 := abs_le.mp (toInt_close hy)
      have off : |pos.1 - qx| ≤ o + B ∧ |pos.2.1 - qy| ≤ o + B := by
        have B0 := hL.scatter.room.2
        rcases hL.offset with q | q
        · obtain ⟨z1, z2⟩ := a3 (by rw [show ({ b with st := { b.st with flip := b.st.flip * -1 } } : Brush K R).settings = set from hset]; exact q)
          exact ⟨by linarith [hL.offset0], by linarith [hL.offset0]⟩
        · exact ⟨by linarith, by linarith⟩
      have u1 := abs_le.mp off.1
      have u2 := abs_le.mp off.2
      have w1 := abs_le.mp c2
      have w2 := abs_le.mp c3
      apply hL.inside
      refine ⟨cx, cy, c1, abs_le.mpr ⟨?_, ?_⟩, abs_le.mpr ⟨?_, ?_⟩⟩ <;>
        linarith [t1.1, t1.2, t2.1, t2.2, u1.1, u1.2, u2.1, u2.2, w1.1, w1.2, w2.1, w2.2]
    finish := fun b s n total idle h => ⟨H.finish b s n total idle h.1, h.2.2⟩ }

/-! ### The properties -/

/-- The brush does not depend on pixels outside of `S`: it never picks colours up, or only from `S`, the pen being in a convex
region. In the second case the values of the pixels have to be valid, and picking up must happen in the same way on both
canvases (threads and chance): either as many colours have been picked on both so far, or it happens in the same way always. -/
def DependsOn (S : Int → Int → Prop) (e : Engine.Env K R σ) (sch : Schedule) (ms : List (Motion K)) (s s' : Studio K R) : Prop :=
  NeverSamples s.brush.settings ∨
    PlainModes s.brush.settings ∧ CanvasValid s.surf.surf.canvas ∧ CanvasValid s'.surf.surf.canvas ∧
      (s'.samples = s.samples ∨ Unchanging sch) ∧ ∃ (C : K → K → Prop) (N B o μ : K), Engine.Convex C ∧
      (∀ m ∈ ms, ∀ x y, Place m x y → C x y) ∧ C s.brush.st.x s.brush.st.y ∧ C s.brush.st.actualX s.brush.st.actualY ∧
      LooksAt e s.brush.settings C N B o μ S

/-- **C108** Two canvases that have the same colours at the pixels of `S`, the same brush, and the same motion events, grouped in
any way, with the same symmetry in force. If the brush does not depend on pixels outside of `S`, the canvases have the same
colours in `S` afterwards, whatever is elsewhere, and the brush is the same afterwards. -/
theorem painting_is_local {e : Engine.Env K R σ} (hd : Decays e) {b : Build} {env : Dab.Env K} (he : env.Valid) {trig : Symm.Trig K}
    {sch : Schedule} {fuel : Nat} {S : Int → Int → Prop} {bls bls' : List (Block K)} {s s' t t' : Studio K R} (hs : s.Fine b env trig)
    (hs' : s'.Fine b env trig) (hq : Unswerving bls) (hq' : Unswerving bls')
    (hm : bls.flatMap Block.motions = bls'.flatMap Block.motions) (hbr : s'.brush = s.brush)
    (hsy : Agree s.surf.symm s'.surf.symm) (hS : DependsOn S e sch (bls.flatMap Block.motions) s s')
    (ha : AgreeOn S s.surf.surf.canvas s'.surf.surf.canvas)
    (h : paint e b env trig sch fuel s bls = .ok t) (h' : paint e b env trig sch fuel s' bls' = .ok t') :
    t'.brush = t.brush ∧ AgreeOn S t.surf.surf.canvas t'.surf.surf.canvas := by
  have hself : Agree s.surf.symm s.surf.symm := hsy.imp (fun q => ⟨rfl, q.2⟩) (fun q => ⟨q.1, q.1⟩)
  have k := paint_now bls hs.surf hself hq h
  have k' := paint_now bls' hs'.surf hsy hq' h'
  rw [← hm, hbr] at k'
  generalize bls.flatMap Block.motions = ms at k k' hS
  obtain ⟨w, hw⟩ := strokes_started (e := onPicture e env s.surf.symm sch) (d := Spec.Now.draw env s.surf.symm)
    (g := Spec.Now.getColor env sch) ms (some ⟨s'.surf.surf.canvas, s'.samples⟩) k
  have main : ∃ V, StillTogether sch V S ((⟨t.surf.surf.canvas, t.samples⟩ : Spec.Now.Picture), w) := by
    rcases hS with hn | ⟨hpm, hc, hc', hsam, C, N, B, o, μ, hC, hms, hb0, hb1, hL⟩
    · refine ⟨False, ((session_keeps (never_invariant e he s.surf.symm sch S) (fun _ => True) (fun _ _ _ _ => trivial)
        (fun _ _ _ _ => trivial) (fun _ _ => trivial) ms (fun _ _ => trivial) hs.brush ?_ hw).1).2⟩
      exact ⟨hn, _, rfl, ha, fun q => q.elim, fun q => q.elim⟩
    · have H := (looking_invariant hd he s.surf.symm sch hC hpm hL).events
        (E' := fun ev => C ev.x ev.y ∧ |ev.x| < 10 ^ 8 ∧ |ev.y| < 10 ^ 8) (fun _ h => h.1)
      refine ⟨True, ((session_keeps H (fun m => ∀ x y, Place m x y → C x y)
        (fun m ev hm hev => ⟨hm _ _ (sanitise_place hev), sanitise_bound hev⟩)
        (fun ev i he hi => by
          have q := workaround_place he.2.1 he.2.2 hi
          rw [q.1, q.2]; exact he)
        (fun ev he => he) ms hms hs.brush ?_ hw).1).2.2⟩
      have hsc := hL.scatter
      exact ⟨⟨⟨hsc.room, hsc.noise, hsc.speed, hsc.random⟩, ⟨widened_self hsc.room.1 hb0, widened_self hsc.room.1 hb1⟩⟩, rfl, _, rfl,
        ha, fun _ => hsam, fun _ => ⟨hc, hc'⟩⟩
  obtain ⟨V, v', hv, hT⟩ := main
  obtain ⟨v0, e0, hb⟩ := strokes_beside ms hw (t' := v') hv
  rw [← Option.some.inj e0] at hb
  have e1 : (t'.brush, (⟨t'.surf.surf.canvas, t'.samples⟩ : Spec.Now.Picture)) = (t.brush, v') := by
    have : (Except.ok (t'.brush, (⟨t'.surf.surf.canvas, t'.samples⟩ : Spec.Now.Picture)) : Except Fault _) = .ok (t.brush, v') :=
      k'.symm.trans hb
    exact Except.ok.inj this
  have e2 := congrArg Prod.fst e1
  have e3 := congrArg (fun r => r.2.canvas) e1
  refine ⟨e2, ?_⟩
  dsimp only at e3
  rw [e3]
  exact hT.agree

theorem paint_agree {e : Engine.Env K R σ} {b : Build} {env : Dab.Env K} {trig : Symm.Trig K} {sch : Schedule} {fuel : Nat}
    {d : Symm.Data K} : ∀ (bls : List (Block K)) {s s' : Studio K R}, Sound b env trig s.surf s.surf.surf.canvas →
      Agree d s.surf.symm → Unswerving bls → paint e b env trig sch fuel s bls = .ok s' → Agree d s'.surf.symm
  | [], s, s', _, hd, _, h => by
    cases h
    exact hd
  | bl :: bls, s, s', hs, hd, hq, h => by
    unfold paint at h
    obtain ⟨⟨rs, s1⟩, h1, h2⟩ := except_bind_ok h
    obtain ⟨q1, q2⟩ := hq bl List.mem_cons_self
    obtain ⟨-, k2, k3⟩ := block_now hs hd q2 q1 h1
    exact paint_agree bls k3 k2 (fun bl' hb => hq bl' (List.mem_cons_of_mem _ hb)) h2

/-- A brush and what is painted with it stay in an area: the pen is in the convex region, no dab reaches farther than `d` from the
pen, and colours are not picked up at all, or not farther than `d + 1/2` away. -/
structure StaysIn (e : Engine.Env K R σ) (br : Brush K R) (bls : List (Block K)) (C : K → K → Prop) (d : K) : Prop where
  underway : Underway br
  convex : Engine.Convex C
  blocks : ∀ bl ∈ bls, bl.Ok ∧ bl.symmetry = none ∧ ∀ m ∈ bl.motions, ∀ x y, Place m x y → C x y
  spread : ∃ N B, Spread e br.settings N B d
  begins : C br.st.x br.st.y ∧ C br.st.actualX br.st.actualY
  looks : NeverSamples br.settings ∨ ∃ N B o μ, LooksAt e br.settings C N B o μ (Near C (d + 1 / 2))

/-- Colours are not picked up, or they are picked up in the same way always (threads and chance), and the canvas is valid and
stays so. -/
def Picks (sch : Schedule) (a b : Load.Brush K) (c : Canvas) : Prop :=
  (NeverSamples a ∧ NeverSamples b) ∨ (PlainModes a ∧ PlainModes b ∧ CanvasValid c ∧ Unchanging sch)

/-- One half of the next theorem: what is painted with the second brush first makes no difference to the first one. -/
theorem apart_half {e : Engine.Env K R σ} (hd : Decays e) {b : Build} {env : Dab.Env K} (he : env.Valid) {trig : Symm.Trig K}
    {sch : Schedule} {fuel : Nat} {A B : K → K → Prop} {dA dB : K} {blsA blsB : List (Block K)} {s t u v : Studio K R}
    {brA brB : Brush K R} (hs : s.Fine b env trig) (hsy : s.surf.symm.active = false) (hA : StaysIn e brA blsA A dA)
    (hB : StaysIn e brB blsB B dB) (hap : ∀ X Y, Near A (dA + 1 / 2) X Y → ¬ Near B (dB + 1 / 2) X Y)
    (hp : Picks sch brA.settings brB.settings s.surf.surf.canvas)
    (ht : paint e b env trig sch fuel { s with brush := brA } blsA = .ok t)
    (hu : paint e b env trig sch fuel { s with brush := brB } blsB = .ok u)
    (hv : paint e b env trig sch fuel { u with brush := brA } blsA = .ok v) :
    v.brush = t.brush ∧ AgreeOn (Near A (dA + 1 / 2)) t.surf.surf.canvas v.surf.surf.canvas ∧
      u.Fine b env trig ∧ u.surf.symm.active = false := by
  have uns : ∀ {br : Brush K R} {bls : List (Block K)} {C : K → K → Prop} {d : K}, StaysIn e br bls C d → Unswerving bls :=
    fun h bl hbl => ⟨(h.blocks bl hbl).2.1, (h.blocks bl hbl).1.order⟩
  have fB : ({ s with brush := brB } : Studio K R).Fine b env trig := ⟨hB.underway, hs.surf⟩
  have hu1 : u.Fine b env trig := paint_fine blsB (fun bl hbl => (hB.blocks bl hbl).1) fB hu
  have hsu := paint_agree (d := s.surf.symm) blsB fB.surf (.inr ⟨hsy, hsy⟩) (uns hB) hu
  have hua : u.surf.symm.active = false := by
    rcases hsu with ⟨q, -⟩ | ⟨-, q⟩
    · rw [← q]; exact hsy
    · exact q
  obtain ⟨N, B', hsp⟩ := hB.spread
  have keep : AgreeOn (Near A (dA + 1 / 2)) s.surf.surf.canvas u.surf.surf.canvas := by
    intro X Y hX p p' h1 h2
    have := scattered_paint_stays_near_the_pen hd he hB.convex blsB fB hB.blocks hsy hsp hB.begins.1 hB.begins.2 hu X Y
      (hap X Y hX) h2
    rw [show ({ s with brush := brB } : Studio K R).surf = s.surf from rfl, h1] at this
    exact (Except.ok.inj this).symm
  have hdep : DependsOn (Near A (dA + 1 / 2)) e sch (blsA.flatMap Block.motions) { s with brush := brA } { u with brush := brA } := by
    rcases hA.looks with q | ⟨N, B'', o, μ, hL⟩
    · exact .inl q
    · rcases hp with ⟨q, -⟩ | ⟨q1, q2, q3, q4⟩
      · exact .inl q
      · have hval : CanvasValid u.surf.surf.canvas :=
          painting_keeps_picture_valid he blsB fB (fun bl hbl => (hB.blocks bl hbl).1) q2 q3 hu
        refine .inr ⟨q1, q3, hval, .inr q4, A, N, B'', o, μ, hA.convex, ?_, hA.begins.1, hA.begins.2,
          hL⟩
        intro m hm
        obtain ⟨bl, h1, h2⟩ := List.mem_flatMap.mp hm
        exact (hA.blocks bl h1).2.2 m h2
  obtain ⟨k1, k2⟩ := painting_is_local (s := { s with brush := brA }) (s' := { u with brush := brA }) hd he ⟨hA.underway, hs.surf⟩
    ⟨hA.underway, hu1.surf⟩ (uns hA) (uns hA) rfl rfl (.inr ⟨hsy, hua⟩) hdep keep ht hv
  exact ⟨k1, k2, hu1, hua⟩

/-- **C108** Two brushes paint on the same canvas, each in an area of its own. It does not matter which one comes first: every pixel
has the same colour in the end, and so have the brushes the same state. -/
theorem apart_in_any_order {e : Engine.Env K R σ} (hd : Decays e) {b : Build} {env : Dab.Env K} (he : env.Valid)
    {trig : Symm.Trig K} {sch : Schedule} {fuel : Nat} {A B : K → K → Prop} {dA dB : K} {blsA blsB : List (Block K)}
    {s t t' u u' : Studio K R} {brA brB : Brush K R} (hs : s.Fine b env trig) (hsy : s.surf.symm.active = false)
    (hA : StaysIn e brA blsA A dA) (hB : StaysIn e brB blsB B dB)
    (hap : ∀ X Y, Near A (dA + 1 / 2) X Y → ¬ Near B (dB + 1 / 2) X Y)
    (hp : Picks sch brA.settings brB.settings s.surf.surf.canvas)
    (ht : paint e b env trig sch fuel { s with brush := brA } blsA = .ok t)
    (ht' : paint e b env trig sch fuel { t with brush := brB } blsB = .ok t')
    (hu : paint e b env trig sch fuel { s with brush := brB } blsB = .ok u)
    (hu' : paint e b env trig sch fuel { u with brush := brA } blsA = .ok u') :
    u'.brush = t.brush ∧ t'.brush = u.brush ∧
      ∀ X Y p q, pixel t'.surf.surf.canvas X Y = .ok p → pixel u'.surf.surf.canvas X Y = .ok q → q = p := by
  obtain ⟨k1, k2, k3, k4⟩ := apart_half hd he hs hsy hA hB hap hp ht hu hu'
  have hp' : Picks sch brB.settings brA.settings s.surf.surf.canvas :=
    hp.imp (fun q => ⟨q.2, q.1⟩) (fun q => ⟨q.2.1, q.1, q.2.2⟩)
  obtain ⟨l1, l2, l3, l4⟩ := apart_half hd he hs hsy hB hA (fun X Y h1 h2 => hap X Y h2 h1) hp' hu ht ht'
  refine ⟨k1, l1, fun X Y p q h1 h2 => ?_⟩
  obtain ⟨N, B1, hspA⟩ := hA.spread
  obtain ⟨N', B2, hspB⟩ := hB.spread
  have farA := fun h => scattered_paint_stays_near_the_pen hd he hA.convex blsA (s := { u with brush := brA })
    ⟨hA.underway, k3.surf⟩ hA.blocks k4 hspA hA.begins.1 hA.begins.2 hu' X Y h (q := q) h2
  have farB := fun h => scattered_paint_stays_near_the_pen hd he hB.convex blsB (s := { t with brush := brB })
    ⟨hB.underway, l3.surf⟩ hB.blocks l4 hspB hB.begins.1 hB.begins.2 ht' X Y h (q := p) h1
  by_cases hX : Near A (dA + 1 / 2) X Y
  · exact k2 X Y hX p q (farB (hap X Y hX)) h2
  · by_cases hY : Near B (dB + 1 / 2) X Y
    · exact (l2 X Y hY q p (farA hX) h1).symm
    · have a1 := scattered_paint_stays_near_the_pen hd he hA.convex blsA (s := { s with brush := brA })
        ⟨hA.underway, hs.surf⟩ hA.blocks hsy hspA hA.begins.1 hA.begins.2 ht X Y hX (farB hY)
      have a2 := scattered_paint_stays_near_the_pen hd he hB.convex blsB (s := { s with brush := brB })
        ⟨hB.underway, hs.surf⟩ hB.blocks hsy hspB hB.begins.1 hB.begins.2 hu X Y hY (farA hX)
      rw [show ({ s with brush := brA } : Studio K R).surf = s.surf from rfl] at a1
      rw [show ({ s with brush := brB } : Studio K R).surf = s.surf from rfl, a1] at a2
      exact (Except.ok.inj a2).symm

end

/-! ### Two strokes that meet the hypotheses -/

namespace Demo

theorem sch_unchanging : Unchanging sch := fun _ _ => ⟨rfl, rfl⟩

theorem smudging_value (id : Nat) (i : Nat → ℚ) : calculate (smudging.settings id) i = (smudging.settings id).base := by
  show calculate (if id = sSmudgeLengthLog then Engine.Demo.constant 0 else if id = sSmudge then
      Engine.Demo.constant (1 / 2) else red.settings id) i =
    (if id = sSmudgeLengthLog then Engine.Demo.constant 0 else if id = sSmudge then
      Engine.Demo.constant (1 / 2) else red.settings id).base
  split_ifs
  · rfl
  · rfl
  · exact red_value id i

/-- The place of the second stroke. -/
def below (x y : ℚ) : Prop := 0 ≤ x ∧ x ≤ 66 ∧ 90 ≤ y ∧ y ≤ 100

theorem below_convex : Engine.Convex below := by
  rintro x y x' y' t ⟨h1, h2, h3, h4⟩ ⟨k1, k2, k3, k4⟩ t0 t1
  refine ⟨?_, ?_, ?_, ?_⟩ <;> nlinarith

/-- The red brush, having been used there. -/
def redBelow : Brush ℚ Nat := { red with st := { red.st with x := 0, y := 90, actualX := 0, actualY := 90 } }

def eventsBelow : List (Motion ℚ) :=
  [Engine.Demo.motion 60 100 (1 / 2) (1 / 10), Engine.Demo.motion 61 100 (1 / 2) (1 / 10),
    Engine.Demo.motion 66 100 (1 / 2) (1 / 10)]

theorem eventsBelow_place : ∀ m ∈ eventsBelow, ∀ x y, Place m x y → below x y := by
  intro m hm x y h
  have no : ∀ v : ℚ, |v| ≤ 100 → ¬ (Flt.fin v).Absurd := by
    intro v hv (h : (10 : ℚ) ^ 10 < |v|)
    norm_num at h
    linarith
  unfold below
  simp only [eventsBelow, List.mem_cons, List.not_mem_nil, or_false] at hm
  rcases hm with rfl | rfl | rfl <;> rcases h with ⟨a, b, -⟩ | ⟨a | a, -⟩ <;>
    first
    | (exact (no _ (by norm_num) a).elim)
    | (simp only [Engine.Demo.motion, Flt.fin.injEq] at a b; subst a; subst b; norm_num)

theorem smudging_staysIn : StaysIn Engine.Demo.env smudging [strokeBlock events] box 6 := by
  have sc : Scatter Engine.Demo.env smudging.settings 0 0 := by
    refine NoScatter.scatter ⟨by decide +kernel, ?_, ?_⟩ <;> intro i <;> rw [smudging_value] <;> decide +kernel
  have no : NoOffset smudging.settings := by
    refine ⟨?_, ?_, ?_, ?_, ?_, ?_, ?_, ?_⟩ <;> intro i <;> rw [smudging_value] <;> decide +kernel
  obtain ⟨-, -, -, -, -, r6⟩ := red_local
  refine ⟨⟨⟨le_refl _, zero_lt_one⟩, le_refl _⟩, box_convex, ?_, ⟨0, 0, sc, ⟨3, 1, 0, 0, by norm_num, le_refl _, le_refl _, by norm_num,
    ?_, .inr ⟨?_, ?_⟩, .inr no, .inr ?_⟩, ?_, by norm_num⟩, ⟨by unfold box; decide +kernel, by unfold box; decide +kernel⟩,
    .inr ⟨0, 0, 0, 3, sc, .inl no, le_refl _, ?_, ?_, by norm_num, ?_⟩⟩
  · rintro bl (hm : bl ∈ [_])
    rw [List.mem_singleton.mp hm]
    exact ⟨strokeBlock_ok _, rfl, r6⟩
  any_goals
    intro i
    rw [smudging_value]
    decide +kernel
  · intro i
    left
    rw [smudging_value, smudging_value]
    decide +kernel
  · intro X Y h
    obtain ⟨px, py, h1, h2, h3⟩ := h
    exact ⟨px, py, h1, h2.trans (by norm_num), h3.trans (by norm_num)⟩

theorem redBelow_staysIn : StaysIn Engine.Demo.env redBelow [strokeBlock eventsBelow] below 6 := by
  have sc : Scatter Engine.Demo.env red.settings 0 0 := NoScatter.scatter red_local.1
  refine ⟨⟨⟨le_refl _, zero_lt_one⟩, le_refl _⟩, below_convex, ?_, ⟨0, 0, sc, ⟨3, 1, 0, 0, by norm_num, le_refl _, le_refl _, by norm_num,
    ?_, .inr ⟨?_, ?_⟩, .inr red_local.2.1, .inr ?_⟩, ?_, by norm_num⟩, ⟨by unfold below; decide +kernel, by unfold below; decide +kernel⟩,
    .inl red_moves.2.1⟩
  · rintro bl (hm : bl ∈ [_])
    rw [List.mem_singleton.mp hm]
    exact ⟨strokeBlock_ok _, rfl, eventsBelow_place⟩
  all_goals
    intro i
    rw [show redBelow.settings = red.settings from rfl, red_value]
    decide +kernel

theorem smudging_modes : PlainModes smudging.settings ∧ PlainModes redBelow.settings := by
  refine ⟨⟨?_, ?_, .inl ?_⟩, ⟨?_, ?_, .inl ?_⟩⟩
  any_goals
    intro i
    rw [smudging_value]
    decide +kernel
  all_goals
    intro i
    rw [show redBelow.settings = red.settings from rfl, red_value]
    decide +kernel

/-- The areas have no pixel in common. -/
theorem strokes_apart (X Y : Int) : Near box (6 + 1 / 2) X Y → ¬ Near below (6 + 1 / 2) X Y := by
  rintro ⟨px, py, ⟨-, -, -, h⟩, -, h2⟩ ⟨qx, qy, ⟨-, -, k, -⟩, -, k2⟩
  have := (abs_le.mp h2).2
  have := (abs_le.mp k2).1
  linarith

/-- The theorem for a smudging brush and a red one on a green canvas. -/
example {s t t' u u' : Studio ℚ Nat} (h0 : studio smudging ⟨0, 20000, 0, 20000⟩ = .ok s)
    (ht : paint Engine.Demo.env .normal demoEnv demoTrig sch 100 { s with brush := smudging } [strokeBlock events] = .ok t)
    (ht' : paint Engine.Demo.env .normal demoEnv demoTrig sch 100 { t with brush := redBelow } [strokeBlock eventsBelow] = .ok t')
    (hu : paint Engine.Demo.env .normal demoEnv demoTrig sch 100 { s with brush := redBelow } [strokeBlock eventsBelow] = .ok u)
    (hu' : paint Engine.Demo.env .normal demoEnv demoTrig sch 100 { u with brush := smudging } [strokeBlock events] = .ok u')
    (X Y : Int) (p q : Px) (hp : pixel t'.surf.surf.canvas X Y = .ok p) (hq : pixel u'.surf.surf.canvas X Y = .ok q) : q = p := by
  obtain ⟨s1, h1, hf, hb, hc⟩ := studio_fine (br := smudging) ⟨⟨le_refl _, zero_lt_one⟩, le_refl _⟩ ⟨0, 20000, 0, 20000⟩
  rw [h0] at h1
  cases h1
  have ha : s.surf.symm.active = false := by
    have : (studio smudging ⟨0, 20000, 0, 20000⟩).toOption.map (fun s => s.surf.symm.active) = some false := by decide +kernel
    rw [h0] at this
    exact Option.some.inj this
  have hv : CanvasValid s.surf.surf.canvas := by
    intro X Y
    rw [hc]
    exact ⟨_, uniform_pixel _ X Y, by decide⟩
  exact (apart_in_any_order demo_decays demoEnv_valid hf ha smudging_staysIn redBelow_staysIn strokes_apart
    (.inr ⟨smudging_modes.1, smudging_modes.2, hv, sch_unchanging⟩) ht ht' hu hu').2.2 X Y p q hp hq

/-- Some pixels after painting with two brushes, one after the other, on a green canvas. -/
def both (a b : Brush ℚ Nat) (as bs : List (Motion ℚ)) (ps : List (Int × Int)) : Option (List (Option Px)) :=
  match studio a ⟨0, 20000, 0, 20000⟩ with
  | .error _ => none
  | .ok s =>
    match paint Engine.Demo.env .normal demoEnv demoTrig sch 100 s [strokeBlock as] with
    | .error _ => none
    | .ok t =>
      match paint Engine.Demo.env .normal demoEnv demoTrig sch 100 { t with brush := b } [strokeBlock bs] with
      | .error _ => none
      | .ok u => some (ps.map fun q => (pixel u.surf.surf.canvas q.1 q.2).toOption)

/-- The strokes far from each other ... -/
example : both smudging redBelow events eventsBelow [(63, 10), (63, 100), (63, 50)] =
    some [some ⟨18275, 8841, 0, 27118⟩, some ⟨32760, 4, 0, 32764⟩, some ⟨0, 20000, 0, 20000⟩] := by decide +kernel

/-- ... the other way round ... -/
example : both redBelow smudging eventsBelow events [(63, 10), (63, 100), (63, 50)] =
    some [some ⟨18275, 8841, 0, 27118⟩, some ⟨32760, 4, 0, 32764⟩, some ⟨0, 20000, 0, 20000⟩] := by decide +kernel

/-- ... and at the same place, where the order does matter. -/
example : both red smudging events events [(63, 10)] = some [some ⟨31623, 694, 0, 32320⟩] ∧
    both smudging red events events [(63, 10)] = some [some ⟨32764, 1, 0, 32766⟩] := by
  constructor <;> decide +kernel

end Demo

end Verif.Painting
