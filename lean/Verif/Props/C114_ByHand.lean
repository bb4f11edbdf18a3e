import Verif.Props.C113_Glass
import Verif.Props.C108_Local

/-!
# C114: mirror symmetry paints what one would paint by hand

With mirroring switched on one gets the picture that one would get by painting the stroke without it, and then the mirrored stroke
with the mirrored brush.
-/

namespace Verif.Painting
open Verif.Full Verif.Dab Verif.Engine Verif.Blend Verif.Symm Verif.Map Verif.Mask

section
variable {K R σ : Type} [Field K] [LinearOrder K] [IsStrictOrderedRing K] [FloorRing K]

/-! ### What a list of dabs does to one pixel -/

/-- What a dab does to a pixel. -/
def pixelDab (env : Dab.Env K) (X Y : Int) (p : Px) (a : Args K) : Except Fault Px :=
  match prepare a with
  | .ok (some op) => if opacity env op X Y = 0 then .ok p else pixelStep (modes env op) (opacity env op X Y) p
  | _ => .ok p

theorem dabAt_pixel {env : Dab.Env K} (he : env.Valid) {a : Args K} {c : Canvas} {X Y : Int} {q : Px}
    (h : pixel (Spec.Now.dabAt env c a) X Y = .ok q) : ∃ p, pixel c X Y = .ok p ∧ pixelDab env X Y p a = .ok q := by
  unfold Spec.Now.dabAt at h
  unfold pixelDab
  cases hp : prepare a with
  | error f => rw [hp] at h; exact ⟨q, h, rfl⟩
  | ok o =>
    rw [hp] at h
    cases o with
    | none => exact ⟨q, h, rfl⟩
    | some op => exact drawNow_pixel he (prepare_valid hp) h

theorem foldl_pixel {env : Dab.Env K} (he : env.Valid) {X Y : Int} : ∀ (l : List (Args K)) {c : Canvas} {q : Px},
    pixel (l.foldl (Spec.Now.dabAt env) c) X Y = .ok q →
    ∃ p, pixel c X Y = .ok p ∧ l.foldlM (pixelDab env X Y) p = .ok q
  | [], c, q, h => ⟨q, h, rfl⟩
  | a :: l, c, q, h => by
    rw [List.foldl_cons] at h
    obtain ⟨p1, h1, h2⟩ := foldl_pixel he l h
    obtain ⟨p, h3, h4⟩ := dabAt_pixel he h1
    refine ⟨p, h3, ?_⟩
    rw [List.foldlM_cons]
    simp only [h4, bind, Except.bind]
    exact h2

/-- The dab does not touch the pixel. -/
def Misses (env : Dab.Env K) (X Y : Int) (a : Args K) : Prop := ∀ p, pixelDab env X Y p a = .ok p

theorem foldlM_misses {env : Dab.Env K} {X Y : Int} : ∀ (l : List (Args K)), (∀ a ∈ l, Misses env X Y a) → ∀ p,
    l.foldlM (pixelDab env X Y) p = .ok p
  | [], _, p => rfl
  | a :: l, h, p => by
    rw [List.foldlM_cons, h a List.mem_cons_self p]
    exact foldlM_misses l (fun b hb => h b (List.mem_cons_of_mem _ hb)) p

/-- Each dab followed by another one. -/
def pairs (f : Args K → Args K) (l : List (Args K)) : List (Args K) := l.flatMap fun a => [a, f a]

theorem foldlM_first {env : Dab.Env K} {X Y : Int} (f : Args K → Args K) : ∀ (l : List (Args K)), (∀ a ∈ l, Misses env X Y (f a)) → ∀ p,
    (pairs f l).foldlM (pixelDab env X Y) p = l.foldlM (pixelDab env X Y) p
  | [], _, p => rfl
  | a :: l, h, p => by
    unfold pairs
    rw [List.flatMap_cons, List.cons_append, List.cons_append, List.nil_append, List.foldlM_cons, List.foldlM_cons]
    cases pixelDab env X Y p a with
    | error f => rfl
    | ok q =>
      simp only [bind, Except.bind]
      rw [List.foldlM_cons, h a List.mem_cons_self q]
      exact foldlM_first f l (fun b hb => h b (List.mem_cons_of_mem _ hb)) q

theorem foldlM_second {env : Dab.Env K} {X Y : Int} (f : Args K → Args K) : ∀ (l : List (Args K)), (∀ a ∈ l, Misses env X Y a) → ∀ p,
    (pairs f l).foldlM (pixelDab env X Y) p = (l.map f).foldlM (pixelDab env X Y) p
  | [], _, p => rfl
  | a :: l, h, p => by
    unfold pairs
    rw [List.flatMap_cons, List.cons_append, List.cons_append, List.nil_append, List.foldlM_cons, List.map_cons, List.foldlM_cons,
      h a List.mem_cons_self p]
    simp only [bind, Except.bind]
    rw [List.foldlM_cons]
    cases pixelDab env X Y p (f a) with
    | error f => rfl
    | ok q =>
      simp only [bind, Except.bind]
      exact foldlM_second f l (fun b hb => h b (List.mem_cons_of_mem _ hb)) q

/-- All on one side of the line x = n/2. -/
def OneSide (n : Int) (l : List (Args K)) : Prop :=
  (∀ a ∈ l, 2 * (a.x + a.radius) < n) ∨ ∀ a ∈ l, (n : K) < 2 * (a.x - a.radius)

theorem misses_beyond {env : Dab.Env K} (he : env.Valid) {a : Args K} {X Y : Int} (h : a.x + a.radius < X ∨ (X : K) + 1 < a.x - a.radius) :
    Misses env X Y a := by
  intro p
  unfold pixelDab
  cases hp : prepare a with
  | error f => rfl
  | ok o =>
    cases o with
    | none => rfl
    | some op =>
      obtain ⟨e1, -, e3, -⟩ := prepare_args hp
      have hz : opacity env op X Y = 0 := by
        apply opacityAt_beyond (shapeOf_valid he (prepare_valid hp))
        rw [show (shapeOf env op).x = a.x from e1, show (shapeOf env op).radius = a.radius from e3]
        exact h.elim .inl fun h => .inr (.inl h)
      show (if opacity env op X Y = 0 then Except.ok p else _) = _
      rw [if_pos hz]

/-- Away from the line no pixel is reached both by the dabs and by their mirror images. -/
theorem one_side_misses {env : Dab.Env K} (he : env.Valid) {n : Int} {l : List (Args K)} (h : OneSide n l) {X : Int}
    (hX : n - 1 - X ≠ X) (Y : Int) :
    (∀ a ∈ l, Misses env X Y a) ∨ ∀ a ∈ l, Misses env X Y (mirrorDab (.upright n) a) := by
  have hz : 2 * X + 2 ≤ n ∨ n ≤ 2 * X := by omega
  have c1 : 2 * X + 2 ≤ n → (2 * X + 2 : K) ≤ n := fun q => by exact_mod_cast q
  have c2 : n ≤ 2 * X → (n : K) ≤ 2 * X := fun q => by exact_mod_cast q
  rcases h with h | h <;> rcases hz with hz | hz
  · right
    intro a ha
    refine misses_beyond he (.inr ?_)
    show (X : K) + 1 < n - a.x - a.radius
    linarith [h a ha, c1 hz]
  · left
    intro a ha
    refine misses_beyond he (.inl ?_)
    linarith [h a ha, c2 hz]
  · left
    intro a ha
    refine misses_beyond he (.inr ?_)
    linarith [h a ha, c1 hz]
  · right
    intro a ha
    refine misses_beyond he (.inl ?_)
    show n - a.x + a.radius < (X : K)
    linarith [h a ha, c2 hz]

/-- Painting each dab with its mirror image, or first the dabs and then the mirror images. -/
theorem pairs_by_hand {env : Dab.Env K} (he : env.Valid) {n : Int} {l : List (Args K)} (h : OneSide n l) {c c' : Canvas}
    (hc : AgreeOn (fun _ _ => True) c c') :
    AgreeOn (fun X _ => n - 1 - X ≠ X) ((pairs (mirrorDab (.upright n)) l).foldl (Spec.Now.dabAt env) c)
      ((l.map (mirrorDab (.upright n))).foldl (Spec.Now.dabAt env) (l.foldl (Spec.Now.dabAt env) c')) := by
  intro X Y hX p p' hp hp'
  obtain ⟨q, hq, f⟩ := foldl_pixel he _ hp
  obtain ⟨q2, hq2, f2⟩ := foldl_pixel he _ hp'
  obtain ⟨q1, hq1, f1⟩ := foldl_pixel he _ hq2
  have e0 := hc X Y trivial q q1 hq hq1
  subst e0
  rcases one_side_misses he h hX Y with k | k
  · rw [foldlM_second _ _ k] at f
    rw [foldlM_misses _ k] at f1
    cases f1
    rw [f] at f2
    exact (Except.ok.inj f2).symm
  · rw [foldlM_first _ _ k] at f
    rw [foldlM_misses (l.map (mirrorDab (.upright n))) (fun a ha => by
      obtain ⟨b, hb, rfl⟩ := List.mem_map.mp ha
      exact k b hb)] at f2
    cases f2
    rw [f] at f1
    exact (Except.ok.inj f1).symm

/-! ### Sessions -/

theorem draw_pair {env : Dab.Env K} {trig : Trig K} (ht : trig.Laws) {n : Int} {d : Data K} (hi : Inv trig d)
    (hm : MirrorsAt (.upright n) d) (v : Spec.Now.Picture) (a : Args K) :
    (Spec.Now.draw env d v a).2.canvas = [a, mirrorDab (.upright n) a].foldl (Spec.Now.dabAt env) v.canvas := by
  unfold Spec.Now.draw
  rw [copies_mirror ht hi hm]
  by_cases hv : visible a = true
  · rw [if_pos hv]
  · rw [if_neg hv]
    unfold visible at hv
    show _ = Spec.Now.dabAt env (Spec.Now.dabAt env v.canvas a) (mirrorDab (.upright n) a)
    unfold Spec.Now.dabAt
    rw [prepare_mirror]
    cases hp : prepare a with
    | error f => rfl
    | ok o =>
      cases o with
      | none => rfl
      | some op => exact absurd (by rw [hp]) hv

theorem draw_single {env : Dab.Env K} {d : Data K} (ha : d.active = false) (v : Spec.Now.Picture) (a : Args K) :
    (Spec.Now.draw env d v a).2.canvas = Spec.Now.dabAt env v.canvas a := by
  unfold Spec.Now.draw
  rw [copies_nil ha]
  by_cases hvis : visible a = true
  · rw [if_pos hvis]; rfl
  · rw [if_neg hvis]
    unfold visible at hvis
    unfold Spec.Now.dabAt
    cases hp : prepare a with
    | error f => rfl
    | ok o =>
      cases o with
      | none => rfl
      | some op => exact absurd (by rw [hp]) hvis

/-- A picture on which one paints with one symmetry setting or with another. -/
def onEither (e : Engine.Env K R σ) (env : Dab.Env K) (d d' : Data K) (sch : Schedule) : Engine.Env K R (Bool × Spec.Now.Picture) :=
  e.on (fun s a => ((Spec.Now.draw env (if s.1 then d else d') s.2 a).1, s.1, (Spec.Now.draw env (if s.1 then d else d') s.2 a).2))
    (fun s x y r p => ((Spec.Now.getColor env sch s.2 x y r p).1, s.1, (Spec.Now.getColor env sch s.2 x y r p).2))

/-- A session with one of them. -/
theorem on_either {e : Engine.Env K R σ} {env : Dab.Env K} {d d' : Data K} {sch : Schedule} {fuel : Nat} {b : Brush K R}
    {v : Spec.Now.Picture} {ms : List (Motion K)} {r : Brush K R × Spec.Now.Picture} (f : Bool)
    (h : strokes (e.on (Spec.Now.draw env (if f then d else d')) (Spec.Now.getColor env sch)) fuel b v ms = .ok r) :
    ∃ l, strokes (recordDabs (onEither e env d d' sch)) fuel b ((f, v), []) ms = .ok (r.1, ((f, r.2), l)) := by
  have H : Engine.Follows (e.on (Spec.Now.draw env (if f then d else d')) (Spec.Now.getColor env sch)) (onEither e env d d' sch).draw
      (onEither e env d d' sch).getColor (fun v s => s = (f, v)) (fun _ => True) := by
    constructor
    · rintro v s a rfl -
      exact ⟨rfl, rfl⟩
    · rintro v s x y r p rfl -
      exact ⟨rfl, rfl⟩
    · intro _ _ _; trivial
    · intro _ _ _ _ _ _; trivial
  obtain ⟨t, k, rfl⟩ := strokes_follow H ms (t := (f, v)) rfl h trivial
  exact strokes_recorded _ fuel _ _ _ [] k

/-- Without curves for the grid map there is no grid map. -/
theorem mirrorable_gridless {s : Load.Brush K} (h : Mirrorable s) : NoGridmap s := by
  intro id i j hij
  refine calculate_curves fun k hk => hij k ?_ ?_
  · rintro rfl
    exact hk (h.inputs id _ (by simp [swingInputs]))
  · rintro rfl
    exact hk (h.inputs id _ (by simp [swingInputs]))

/-- **C114**. On the one hand a session with mirroring at the line x = n/2; on the other hand, on a canvas with the same picture and
without symmetry, a session with the same events and then one with the mirrored events and the mirrored brush. The brush has
dabs of a radius of at least 3 and at most `ρ + A / 2`, and the pen stays on one side of the line, so far away that they do not reach it.
The pictures have the same colours, but for pixels through which the line goes. -/
theorem symmetry_paints_as_by_hand_partial {e : Engine.Env K R σ} (hdec : Decays e) (L : GlassLaws e) {b : Build} {env : Dab.Env K}
    (he : env.Valid) (htu : TurnLaws env) {trig : Trig K} (ht : trig.Laws) {sch : Schedule} {fuel : Nat} {n : Int}
    {s t u v w : Studio K R} (hf : s.Fine b env trig) (hfu : u.Fine b env trig)
    (hd : InForce s.surf.symm) (hm : MirrorsAt (.upright n) s.surf.symm) (hu : u.surf.symm.active = false)
    (hbr : u.brush = s.brush) (hc : AgreeOn (fun _ _ => True) s.surf.surf.canvas u.surf.surf.canvas)
    {bls bls1 bls2 : List (Block K)} (hq : Unswerving bls) (hq1 : Unswerving bls1) (hq2 : Unswerving bls2) (hok1 : ∀ bl ∈ bls1, bl.Ok)
    (hm1 : bls1.flatMap Block.motions = bls.flatMap Block.motions)
    (hm2 : bls2.flatMap Block.motions = (bls.flatMap Block.motions).map (Motion.glass (n : K)))
    (hnear : ∀ m ∈ bls.flatMap Block.motions, m.Near ∧ (m.glass (n : K)).Near)
    (hb : Mirrorable s.brush.settings) (hb0 : s.brush.skip ≤ 1 / 1000)
    {C : K → K → Prop} (hC : Engine.Convex C) {ρ A : K} (hA : 0 ≤ A)
    (hside : (∀ a : Args K, C a.x a.y → a.radius ≤ ρ + A / 2 → 2 * (a.x + a.radius) < n) ∨
      ∀ a : Args K, C a.x a.y → a.radius ≤ ρ + A / 2 → (n : K) < 2 * (a.x - a.radius))
    (hms : ∀ m ∈ bls.flatMap Block.motions, ∀ x y, Place m x y → C x y)
    (hn : NoScatter s.brush.settings) (hoff : NoOffset s.brush.settings) (hz : Sized e s.brush.settings ρ A)
    (hbig : ∀ i, 3 ≤ askedRadius e (calculate (s.brush.settings sRadiusLogarithmic) i))
    (hs0 : C s.brush.st.x s.brush.st.y) (hs1 : C s.brush.st.actualX s.brush.st.actualY)
    (h : paint e b env trig sch fuel s bls = .ok t)
    (h1 : paint e b env trig sch fuel u bls1 = .ok v)
    (h2 : paint e b env trig sch fuel { v with brush := glassBrush (n : K) s.brush } bls2 = .ok w) :
    AgreeOn (fun X _ => n - 1 - X ≠ X) t.surf.surf.canvas w.surf.surf.canvas := by
  have k := paint_now bls hf.surf hd.agree hq h
  have k1 := paint_now bls1 hfu.surf (InForce.agree (.inr hu)) hq1 h1
  have hv := (paint_fine bls1 hok1 hfu h1)
  have hva : v.surf.symm.active = false := by
    rcases paint_agree (d := u.surf.symm) bls1 hfu.surf (InForce.agree (.inr hu)) hq1 h1 with q | q
    · rw [← q.1]; exact hu
    · exact q.2
  have k2 := paint_now bls2 (s := { v with brush := glassBrush (n : K) s.brush }) hv.surf (InForce.agree (.inr hva)) hq2 h2
  unfold Spec.Now.paint at k k1 k2
  have hag : Agree v.surf.symm u.surf.symm := .inr ⟨hva, hu⟩
  dsimp only at k2
  rw [hag.draw, hm2] at k2
  rw [hm1, hbr] at k1
  obtain ⟨l, r⟩ := on_either (d := s.surf.symm) (d' := u.surf.symm) true k
  obtain ⟨l1, r1⟩ := on_either (d := s.surf.symm) (d' := u.surf.symm) false k1
  obtain ⟨l2, r2⟩ := on_either (d := s.surf.symm) (d' := u.surf.symm) false k2
  set E := onEither e env s.surf.symm u.surf.symm sch with hE
  set M := bls.flatMap Block.motions with hM
  have sym : ∀ (l : List (Args K)) (a : Args K) (x : Spec.Now.Picture) (c : Canvas),
      x.canvas = (pairs (mirrorDab (.upright n)) l).foldl (Spec.Now.dabAt env) c →
      (Spec.Now.draw env s.surf.symm x a).2.canvas = (pairs (mirrorDab (.upright n)) (l ++ [a])).foldl (Spec.Now.dabAt env) c := by
    intro l a x c hx
    rw [draw_pair ht hf.surf.symm hm, hx, ← List.foldl_append]
    congr 1
    unfold pairs
    rw [List.flatMap_append]
    rfl
  have pl : ∀ (l : List (Args K)) (a : Args K) (x : Spec.Now.Picture) (c : Canvas),
      x.canvas = l.foldl (Spec.Now.dabAt env) c →
      (Spec.Now.draw env u.surf.symm x a).2.canvas = (l ++ [a]).foldl (Spec.Now.dabAt env) c := by
    intro l a x c hx
    rw [draw_single hu, hx, List.foldl_append]
    rfl
  have ans : ∀ (d : Data K) (x : Spec.Now.Picture) (a : Args K), (Spec.Now.draw env d x a).1 = visible a := by
    intro d x a
    unfold Spec.Now.draw
    by_cases q : visible a = true
    · rw [if_pos q, q]
    · rw [if_neg q]
      exact (Bool.not_eq_true _ ▸ q).symm
  -- the same dabs without symmetry
  have hP1 : Draws (recordDabs E) ((0 : Int) : K) ((0 : Int) : K) (fun x x' => x.1.1 = true ∧ x'.1.1 = false ∧ x'.2 = x.2 ∧
      x.1.2.canvas = (pairs (mirrorDab (.upright n)) x.2).foldl (Spec.Now.dabAt env) s.surf.surf.canvas ∧
      x'.1.2.canvas = x'.2.foldl (Spec.Now.dabAt env) u.surf.surf.canvas) := by
    rintro ⟨⟨x1, x2⟩, x3⟩ ⟨⟨y1, y2⟩, y3⟩ a ⟨q1, q2, q3, q4, q5⟩
    dsimp only at q1 q2 q3 q4 q5
    subst q1 q2 q3
    have e0 : slideDab ((0 : Int) : K) ((0 : Int) : K) a = a := by
      unfold slideDab
      simp
    rw [e0]
    refine ⟨?_, rfl, rfl, rfl, sym _ _ _ _ q4, pl _ _ _ _ q5⟩
    show (Spec.Now.draw env _ _ a).1 = (Spec.Now.draw env _ _ a).1
    rw [ans, ans]
  have hsl : ∀ m ∈ M, m.slide ((0 : Int) : K) ((0 : Int) : K) = m := by
    intro m _
    obtain ⟨mx, my, mp, mt, mt', md, mz, mr, mb, ml⟩ := m
    unfold Motion.slide Flt.slide
    cases mx <;> cases my <;> simp
  have hal : Aligned ((0 : Int) : K) ((0 : Int) : K) s.brush s.brush := by
    refine .inl ⟨⟨mirrorable_gridless hb, hb.samples⟩, s.brush.st.gridmapX, s.brush.st.gridmapY, s.brush.skipX, s.brush.skipY, ?_, ?_⟩
    · unfold slideBrush slideState
      simp
    · intro _
      simp
  have z1 := strokes_slide hP1 fuel M (surf := ((true, ⟨s.surf.surf.canvas, s.samples⟩), []))
    (surf' := ((false, ⟨u.surf.surf.canvas, u.samples⟩), [])) hal ⟨rfl, rfl, rfl, rfl, rfl⟩ fun m q => by
      rw [hsl m q]; exact ⟨(hnear m q).1, (hnear m q).1⟩
  rw [show M.map (Motion.slide ((0 : Int) : K) ((0 : Int) : K)) = M from (List.map_congr_left hsl).trans (List.map_id' M), r, r1] at z1
  -- the mirrored dabs
  have hP2 : DrawsGlass (recordDabs E) (n : K) (fun x x' => x'.1.1 = false ∧ x'.2 = x.2.map (glassDab (n : K)) ∧
      x'.1.2.canvas = x'.2.foldl (Spec.Now.dabAt env) v.surf.surf.canvas) := by
    rintro ⟨⟨x1, x2⟩, x3⟩ ⟨⟨y1, y2⟩, y3⟩ a ⟨q2, q3, q5⟩
    dsimp only at q2 q3 q5
    subst q2
    refine ⟨rfl, ?_, pl _ _ _ _ q5⟩
    show y3 ++ [glassDab (n : K) a] = (x3 ++ [a]).map (glassDab (n : K))
    rw [q3, List.map_append]
    rfl
  have G : GlassLaws (recordDabs E) := ⟨L.cos_neg, L.sin_neg, L.half, L.degrees⟩
  have z2 := strokes_glass (e := recordDabs E) G hP2 fuel M (b := s.brush) (b' := glassBrush (n : K) s.brush)
    (surf := ((true, ⟨s.surf.surf.canvas, s.samples⟩), [])) (surf' := ((false, ⟨v.surf.surf.canvas, v.samples⟩), []))
    ⟨⟨hb, hb0⟩, ⟨s.brush.st.gridmapX, s.brush.st.gridmapY, glassAngle s.brush.st.angle, s.brush.st.viewrotation, s.brush.idle,
      s.brush.total⟩, s.brush.vals, rfl, .inr (glassAngle_turns _)⟩ ⟨rfl, rfl, rfl⟩ hnear
  rw [r, r2] at z2
  cases z1 with
  | ok z1 =>
    cases z2 with
    | ok z2 =>
      obtain ⟨⟨-, -, i1, i2, i3⟩, -⟩ := z1
      obtain ⟨⟨-, i4, i5⟩, -⟩ := z2
      dsimp only at i1 i2 i3 i4 i5
      -- where the dabs are and how large
      obtain ⟨-, -, where'⟩ := dabs_where_the_pen_was (e := E) hdec hC _ hms hf.brush hn hz.snap hs0 hs1 _ r
      have rad : ∀ a ∈ l, 3 ≤ a.radius ∧ a.radius ≤ ρ + A / 2 := by
        intro a ha
        obtain ⟨i, hi⟩ := dabs_shaped E _ hf.brush _ r a ha
        refine ⟨?_, sized_radius (e := E) (s := s.brush.settings) (ρ := ρ) (A := A) ⟨hz.radius, hz.edge, hz.random, hz.snap⟩ hA hi⟩
        have Ed := hi.edge hz.random hz.snap
        have hR : 3 ≤ askedRadius E (calculate (s.brush.settings sRadiusLogarithmic) i) := hbig i
        generalize askedRadius E (calculate (s.brush.settings sRadiusLogarithmic) i) = Q at *
        generalize max 0 (min 1 (calculate (s.brush.settings sHardness) i)) = hd' at *
        generalize calculate (s.brush.settings sAntiAliasing) i = f at *
        rcases le_or_gt f (Q - hd' * Q) with q | q
        · rw [(Ed.wide q).1]; exact hR
        · have w := Ed.width q
          have m := Ed.middle q
          linarith
      have side : OneSide n l := by
        have place : ∀ a ∈ l, C a.x a.y := by
          intro a ha
          obtain ⟨px, py, hCp, -, -, dn⟩ := where' a ha
          obtain ⟨y1, y2⟩ := dn hoff
          exact y1 ▸ y2 ▸ hCp
        rcases hside with q | q
        · exact .inl fun a ha => q a (place a ha) (rad a ha).2
        · exact .inr fun a ha => q a (place a ha) (rad a ha).2
      have gl : ∀ (l : List (Args K)), (∀ a ∈ l, 3 ≤ a.radius) → ∀ c, (l.map (glassDab (n : K))).foldl (Spec.Now.dabAt env) c =
          (l.map (mirrorDab (.upright n))).foldl (Spec.Now.dabAt env) c := by
        intro l
        induction l with
        | nil => intro _ c; rfl
        | cons a l ih =>
          intro hr c
          rw [List.map_cons, List.map_cons, List.foldl_cons, List.foldl_cons, dabAt_glass he htu n (hr a List.mem_cons_self)]
          exact ih (fun a ha => hr a (List.mem_cons_of_mem _ ha)) _
      rw [i2, i5, i4, gl l (fun a ha => (rad a ha).1), i3, i1]
      exact pairs_by_hand he side hc

end

/-! ### Example -/

section Demo
open Verif.Painting.Demo

theorem big_mirrorable : Mirrorable (plainBrush bigValues).settings := by
  have c : ∀ id i, calculate ((plainBrush bigValues).settings id) i = bigValues id := fun id i => plainBrush_value _ id i
  refine ⟨fun _ _ _ => rfl, ?_, ?_, ?_, ?_, ?_, ?_⟩
  · rintro i ⟨-, k | k⟩
    · apply k
      rw [plainBrush_value]; norm_num [bigValues]
    · cases k
  · intro i
    rw [c, c, c]; norm_num [bigValues]
  · intro i
    rw [c, c, c]; norm_num [bigValues]
  · intro i
    rw [c]; norm_num [bigValues]
  · intro i
    rw [c]; norm_num [bigValues]
  · norm_num [plainBrush, bigValues]

/-- Whatever is painted with a skewed brush on the right half of the desk, mirrored at x = -10 by the library or by hand. -/
example (b : Build) (garbage : Int → Transform ℝ) {s0 : FSurf ℝ} {fuel : Nat}
    (hs : init b realTrig (fun _ => true) garbage 0 (Demo.uniform ⟨0, 0, 0, 0⟩) = .ok s0)
    (strokes : List (List {p : ℝ × ℝ // rightDesk p.1 p.2})) {t t' v w : Studio ℝ Unit}
    (h1 : paint canvasEnv b realDabEnv realTrig Demo.sch fuel ⟨plainBrush bigValues, s0, 0⟩ [mirrorBlock] = .ok t)
    (h2 : paint canvasEnv b realDabEnv realTrig Demo.sch fuel t (strokes.map penBlock) = .ok t')
    (h3 : paint canvasEnv b realDabEnv realTrig Demo.sch fuel ⟨plainBrush bigValues, s0, 0⟩ (strokes.map penBlock) = .ok v)
    (h4 : paint canvasEnv b realDabEnv realTrig Demo.sch fuel { v with brush := glassBrush (-20) (plainBrush bigValues) }
      ((strokes.map penBlock).map (glassBlock (-20))) = .ok w) :
    AgreeOn (fun _ _ => True) t'.surf.surf.canvas w.surf.surf.canvas := by
  have hu : Underway (plainBrush bigValues) := ⟨⟨le_refl _, zero_lt_one⟩, le_refl _⟩
  have hf0 := Studio.fine_init (env := realDabEnv) hs hu 0
  have hf := hf0.1
  have hok : mirrorBlock.Ok := ⟨fun l => List.Perm.refl _, fun _ _ _ _ _ _ h => by cases h; decide⟩
  have h1' := h1
  unfold paint at h1'
  obtain ⟨⟨rs, t1⟩, g3, g4⟩ := except_bind_ok h1'
  have e4 : t1 = t := Except.ok.inj g4
  subst e4
  have hsd : s0.symm.num ≠ 0 ∧ s0.symm.active = false := by
    unfold init at hs
    obtain ⟨d, hd, hs⟩ := except_bind_ok hs
    obtain ⟨su, -, hs⟩ := except_bind_ok hs
    have e1 : s0.symm = d := (congrArg FSurf.symm (Except.ok.inj hs)).symm
    rw [e1]
    constructor
    · rw [new_table hd]
      decide
    · cases hd
      rfl
  obtain ⟨k1, k2⟩ := mirroring_in_force (l := .upright (-20)) hf hsd.1 hok (fun _ => rfl) ⟨by norm_num, rfl⟩ g3
  obtain ⟨s1, s2, es, -, -, -, -, h5, -⟩ := block_eq hf g3
  have h5' : (Except.ok (plainBrush bigValues, (⟨.ok s1, 0⟩, [])) : Except Fault (Brush ℝ Unit × (World ℝ × List (Args ℝ)))) =
    .ok (t1.brush, ⟨.ok s2, t1.samples⟩, dabs es) := h5
  have hbr : t1.brush = plainBrush bigValues := (congrArg Prod.fst (Except.ok.inj h5')).symm
  have hcv : ∀ X Y p, pixel t1.surf.surf.canvas X Y = .ok p → p = ⟨0, 0, 0, 0⟩ := by
    refine (block_canvas hf hok g3 (Q := fun c => ∀ X Y p, pixel c X Y = .ok p → p = ⟨0, 0, 0, 0⟩) ?_ ?_).2.1
    · intro w r hr a ha
      have hr' : (Except.ok (plainBrush bigValues, (w, [])) : Except Fault (Brush ℝ Unit × (World ℝ × List (Args ℝ)))) = .ok r := hr
      rw [← Except.ok.inj hr'] at ha
      cases ha
    · intro X Y p q
      rw [hf0.2, Demo.uniform_pixel] at q
      rw [← Except.ok.inj q]
  have hft := paint_fine [mirrorBlock] (fun bl hb => by rw [List.mem_singleton.mp hb]; exact hok) hf h1
  have c : ∀ id i, calculate (t1.brush.settings id) i = bigValues id := fun id i => by
    rw [hbr]; exact plainBrush_value _ id i
  have hfl : ∀ l : List (List {p : ℝ × ℝ // rightDesk p.1 p.2}), (l.map penBlock).flatMap Block.motions = penMotions l.flatten := by
    intro l
    induction l with
    | nil => rfl
    | cons p l ih =>
      rw [List.map_cons, List.flatMap_cons, ih, List.flatten_cons]
      unfold penMotions
      rw [List.map_append]
      rfl
  have hgl : ∀ l : List (Block ℝ), (l.map (glassBlock (-20))).flatMap Block.motions = (l.flatMap Block.motions).map (Motion.glass (-20)) := by
    intro l
    induction l with
    | nil => rfl
    | cons p l ih =>
      rw [List.map_cons, List.flatMap_cons, ih, List.flatMap_cons, List.map_append]
      rfl
  have hun : Unswerving (strokes.map penBlock) := by
    intro bl hb
    obtain ⟨ps, -, rfl⟩ := List.mem_map.mp hb
    exact ⟨rfl, fun l => List.Perm.refl _⟩
  have e20 : ((-20 : Int) : ℝ) = -20 := by norm_num
  have key := symmetry_paints_as_by_hand_partial (n := -20) (s := t1) (u := ⟨plainBrush bigValues, s0, 0⟩) (v := v) (w := w) (bls := strokes.map penBlock)
    (bls1 := strokes.map penBlock) (bls2 := (strokes.map penBlock).map (glassBlock (-20)))
    (realEnv_decays _ _ _ _) (realEnv_glass _ _ _ _) realDabEnv_ok.valid realDabEnv_turn
    realTrig_laws hft hf k1 k2 hsd.2 hbr.symm ?_ hun hun ?_ ?_ rfl ?_ ?_ ?_ ?_ rightDesk_convex
    (ρ := 9) (A := 0) (le_refl _) (.inr ?_) ?_ ?_ ?_ ?_ ?_ ?_ ?_ h2 h3 (by rw [hbr, e20]; exact h4)
  · intro X Y _ p p' hp hp'
    exact key X Y (by omega) p p' hp hp'
  · intro X Y _ p p' hp hp'
    rw [hcv X Y p hp]
    rw [show (⟨plainBrush bigValues, s0, 0⟩ : Studio ℝ Unit).surf.surf.canvas = s0.surf.canvas from rfl, hf0.2, Demo.uniform_pixel] at hp'
    exact (Except.ok.inj hp').symm
  · intro bl hb
    obtain ⟨bl', hb', rfl⟩ := List.mem_map.mp hb
    obtain ⟨ps, -, rfl⟩ := List.mem_map.mp hb'
    exact ⟨rfl, fun l => List.Perm.refl _⟩
  · intro bl hb
    obtain ⟨ps, -, rfl⟩ := List.mem_map.mp hb
    exact (penBlock_orderly ps).ok
  · rw [e20]; exact hgl _
  · rw [hfl, e20]
    exact penMotions_near _ (by norm_num [abs_of_neg]) _
  · rw [hbr]; exact big_mirrorable
  · rw [hbr]; norm_num [plainBrush]
  · intro a ha hr
    have := ha.1
    push_cast
    linarith
  · intro m hm
    obtain ⟨bl, hb, hm⟩ := List.mem_flatMap.mp hm
    obtain ⟨ps, -, rfl⟩ := List.mem_map.mp hb
    exact (penBlock_orderly ps).place m hm
  · refine ⟨by rw [hbr]; norm_num [plainBrush, bigValues], ?_, ?_⟩ <;> (intro i; rw [c]; norm_num [bigValues]; done)
  · refine ⟨?_, ?_, ?_, ?_, ?_, ?_, ?_, ?_⟩ <;> (intro i; rw [c]; norm_num [bigValues]; done)
  · refine ⟨?_, ?_, ?_, ?_⟩
    · intro i
      rw [c]
      show max (1 / 5) (min 1000 (Real.exp (bigValues sRadiusLogarithmic))) ≤ 9
      have : bigValues sRadiusLogarithmic = 2 := by norm_num [bigValues]
      rw [this]
      exact max_le (by norm_num) ((min_le_right _ _).trans big_radius.2)
    all_goals (intro i; rw [c]; norm_num [bigValues]; done)
  · intro i
    rw [c]
    show 3 ≤ max (1 / 5) (min 1000 (Real.exp (bigValues sRadiusLogarithmic)))
    have : bigValues sRadiusLogarithmic = 2 := by norm_num [bigValues]
    rw [this]
    exact le_max_of_le_right (le_min (by norm_num) big_radius.1)
  · rw [hbr]; norm_num [plainBrush, State.cleared, rightDesk]
  · rw [hbr]; norm_num [plainBrush, State.cleared, rightDesk]

end Demo
end Verif.Painting
